import Verif.Spec.Bytes
import Verif.Proof.Seed
import Verif.Proof.Serdes

/-! # The game on bytes, played with the game of `Spec/Code.lean` -/

namespace Pixel

open Spec Props

set_option linter.unusedSectionVars false

variable {G1 G2 GT : Type} [AddCommGroup G1] [AddCommGroup G2] [CommGroup GT]

/-! ### tables -/

theorem lookup_append_some {pts : Curve G1} {i : Bytes × Bytes} {p : G1} (h : pts.lookup i = some p)
    (l : Curve G1) : (pts ++ l).lookup i = some p := by
  induction pts with
  | nil => cases h
  | cons e pts ih =>
    obtain ⟨k, v⟩ := e
    rw [List.cons_append, List.lookup_cons] at *
    cases hk : i == k with
    | true => rw [hk] at h; simpa using h
    | false => rw [hk] at h; exact ih h

theorem lookup_append_new {pts : Curve G1} {i : Bytes × Bytes} (h : pts.lookup i = none) (p : G1) :
    (pts ++ [(i, p)]).lookup i = some p := by
  induction pts with
  | nil => simp
  | cons e pts ih =>
    obtain ⟨k, v⟩ := e
    rw [List.cons_append, List.lookup_cons] at *
    cases hk : i == k with
    | true => rw [hk] at h; cases h
    | false => rw [hk] at h; exact ih h

theorem lookup_findIdx (pts : Curve G1) (i : Bytes × Bytes) :
    pts.lookup i = (pts[pts.findIdx fun e => e.1 == i]?).map (·.2) := by
  induction pts with
  | nil => rfl
  | cons e pts ih =>
    obtain ⟨k, v⟩ := e
    rw [List.lookup_cons, List.findIdx_cons]
    by_cases hk : k = i
    · subst hk; simp
    · have h1 : (i == k) = false := by simpa using Ne.symm hk
      have h2 : (k == i) = false := by simpa using hk
      simp only [h1, h2, cond_false]
      rw [ih, List.getElem?_cons_succ]

/-- the table and the points handed out -/
def TableFor (E : Ext G1 G2 GT) (W : World G1 G2) (pts : Curve G1) : Prop :=
  ∃ rest : Curve G1, pts = (popInput E W.pk, W.q) :: rest ∧
    W.answers = rest.map fun e => Answer.point e.2

theorem TableFor.add {E : Ext G1 G2 GT} {W : World G1 G2} {pts : Curve G1} (h : TableFor E W pts)
    (i : Bytes × Bytes) (p : G1) :
    TableFor E { W with answers := W.answers ++ [.point p] } (pts ++ [(i, p)]) := by
  obtain ⟨rest, h1, h2⟩ := h
  refine ⟨rest ++ [(i, p)], ?_, ?_⟩
  · rw [h1]; rfl
  · simp [h2]

/-! ### the claim -/

theorem parsed_eq {α : Type} {p : SM Bytes α} {b : Bytes} {a : α} (h : parsed p b = some a) :
    ∃ rest, p.run b = (.ok a, rest) := by
  unfold parsed at h
  rcases hp : p.run b with ⟨r, rest⟩
  rw [hp] at h
  rcases r with a' | e | e
  · cases h; exact ⟨rest, rfl⟩
  · cases h
  · cases h

theorem mapM_some_mem {α β : Type} {f : α → Option β} {l : List α} {l' : List β}
    (h : l.mapM f = some l') : ∀ b ∈ l', ∃ a ∈ l, f a = some b := by
  induction l generalizing l' with
  | nil =>
    rw [List.mapM_nil] at h
    cases h
    simp
  | cons a l ih =>
    rw [List.mapM_cons] at h
    obtain ⟨b, h1, h⟩ := Option.bind_eq_some_iff.1 h
    obtain ⟨bs, h2, h⟩ := Option.bind_eq_some_iff.1 h
    cases h
    intro c hc
    rcases List.mem_cons.1 hc with rfl | hc
    · exact ⟨a, by simp, h1⟩
    · obtain ⟨a', h3, h4⟩ := ih h2 c hc
      exact ⟨a', List.mem_cons_of_mem _ h3, h4⟩

theorem mapM_some_length {α β : Type} {f : α → Option β} {l : List α} {l' : List β}
    (h : l.mapM f = some l') : l'.length = l.length := by
  induction l generalizing l' with
  | nil =>
    rw [List.mapM_nil] at h
    cases h
    rfl
  | cons a l ih =>
    rw [List.mapM_cons] at h
    obtain ⟨b, h1, h⟩ := Option.bind_eq_some_iff.1 h
    obtain ⟨bs, h2, h⟩ := Option.bind_eq_some_iff.1 h
    cases h
    simp [ih h2]

theorem keys_mem {E : Ext G1 G2 GT} (C : CodecLaws E) {F : ByteClaim}
    {ks : List (PublicKey G2 × ProofOfPossession G1)} (h : F.keys E = some ks) :
    ∀ k ∈ ks, PkValid E k.1 ∧ popInput E k.1 ∈ F.inputs E := by
  intro k hk
  obtain ⟨s, hs, h1⟩ := mapM_some_mem h k hk
  obtain ⟨pk, h2, h3⟩ := Option.bind_eq_some_iff.1 h1
  obtain ⟨pop, h4, h5⟩ := Option.bind_eq_some_iff.1 h3
  cases h5
  obtain ⟨rest, h6⟩ := parsed_eq h2
  refine ⟨(PublicKey.deserialize_ok C h6).2, ?_⟩
  unfold ByteClaim.inputs
  rw [List.mem_filterMap]
  exact ⟨s, hs, by rw [h2]; rfl⟩

theorem popInput_inj {E : Ext G1 G2 GT} (C : CodecLaws E) {k k' : PublicKey G2}
    (h : E.inSub2 k.pk = true) (h' : E.inSub2 k'.pk = true) (he : popInput E k = popInput E k') :
    k.pk = k'.pk := by
  have h1 := List.append_cancel_left (Prod.mk.inj he).1
  have h2 := C.dec2_enc true k.pk [] h
  rw [h1, C.dec2_enc true k'.pk [] h'] at h2
  exact (Res.ok.inj (Prod.mk.inj h2).1).symm

theorem partner_admitted [DecidableEq GT] {E : Ext G1 G2 GT} (C : CodecLaws E) {W : World G1 G2}
    {pts : Curve G1} (T : TableFor E W pts) (hW : E.inSub2 W.pk.pk = true)
    {k : PublicKey G2 × ProofOfPossession G1} (hk : E.inSub2 k.1.pk = true)
    (hcs : k.1.ciphersuite = W.pp.ciphersuite) (hl : ∃ p, pts.lookup (popInput E k.1) = some p)
    (sha : Bytes → Bytes)
    (hv : PublicKey.validate { E with sha512 := sha, hashToG1 := pts.hash } k.1 k.2 = true) :
    (partner E pts k).Admitted { E with sha512 := sha } W := by
  obtain ⟨rest, rfl, h2⟩ := T
  obtain ⟨p, hl⟩ := hl
  have hf := hl
  rw [lookup_findIdx] at hf
  unfold Partner.Admitted partner
  rw [List.findIdx_cons] at *
  cases h0 : (popInput E W.pk == popInput E k.1) with
  | true =>
    simp only [cond_true]
    exact popInput_inj C hk hW (by simpa using h0 : popInput E W.pk = popInput E k.1).symm
  | false =>
    rw [h0] at hf
    simp only [cond_false, List.getElem?_cons_succ] at hf ⊢
    refine ⟨hk, p, ?_, ?_⟩
    · rw [h2, List.getElem?_map]
      obtain ⟨e, h3, h4⟩ := Option.map_eq_some_iff.1 hf
      rw [h3, Option.map_some, h4]
    · unfold PublicKey.validate at hv ⊢
      simp only [hcs] at hv ⊢
      by_cases h3 : validCiphersuite.contains W.pp.ciphersuite = true
      · by_cases h4 : W.pp.ciphersuite = k.2.ciphersuite
        · rw [h3, if_neg (by simp), if_neg (by simpa using h4)] at hv
          rw [h3, if_neg (by simp), if_neg (by simp)]
          have h5 : Curve.hash ((popInput E W.pk, W.q) :: rest)
              (DOM_SEP_POP ++ E.encG2 true k.1.pk) [W.pp.ciphersuite] = p := by
            unfold Curve.hash
            rw [text_pop, ← hcs]
            change (List.lookup (popInput E k.1) _).getD 0 = p
            rw [hl]
            rfl
          unfold blsCoreVerify at hv ⊢
          simp only [h5] at hv
          exact hv
        · rw [h3, if_neg (by simp), if_pos (by simpa using h4)] at hv
          cases hv
      · rw [if_pos (by simpa using h3)] at hv
        cases hv

/-- the verifier only accepts keys and signatures of its ciphersuite, and at least one key -/
theorem aggregated_true [DecidableEq GT] {E : Ext G1 G2 GT} {pf : Profile} {sig : Signature G1 G2}
    {pks : List (PublicKey G2)} {pp : PubParam G1 G2} {msg : Bytes}
    (h : Signature.verifyBytesAggregated E pf sig pks pp msg = .ok true) :
    (∀ k ∈ pks, k.ciphersuite = pp.ciphersuite) ∧ sig.ciphersuite = pp.ciphersuite ∧ pks ≠ [] := by
  unfold Signature.verifyBytesAggregated at h
  simp only [] at h
  split at h
  · cases h
  · rename_i h1
    split at h
    · cases h
    · rename_i h2
      refine ⟨fun k hk => ?_, by simpa using h2, ?_⟩
      · by_contra hne
        exact h1 (List.any_eq_true.2 ⟨k, hk, by simpa using Ne.symm hne⟩)
      · rintro rfl
        cases h

theorem claim_lower [DecidableEq GT] {E : Ext G1 G2 GT} (C : CodecLaws E) (pf : Profile)
    {W : World G1 G2} {pts : Curve G1} (T : TableFor E W pts) (hW : E.inSub2 W.pk.pk = true)
    (sha : Bytes → Bytes) {F : ByteClaim} (hin : ∀ i ∈ F.inputs E, ∃ p, pts.lookup i = some p)
    {S : CodeSigner G1 G2}
    (h : F.Wins { E with sha512 := sha, hashToG1 := pts.hash } pf W.pp W.pk S) :
    (F.lower E W.pk pts).msg = F.msg ∧
      (F.lower E W.pk pts).Accepted { E with sha512 := sha } pf W ∧ (F.lower E W.pk pts).Counts S := by
  classical
  obtain ⟨sig, ks, ⟨h1, h2, h3, h4⟩, h5, h6, h7⟩ := h
  have h1 : parsed (Signature.deserialize E true) F.sig = some sig := h1
  have h2 : F.keys E = some ks := h2
  have hl : F.lower E W.pk pts =
      { time := sig.time, msg := F.msg, sigma1 := sig.sigma1, sigma2 := sig.sigma2
        cosigners := (ks.eraseP fun k => decide (k.1 = W.pk)).map (partner E pts) } := by
    unfold ByteClaim.lower
    rw [h1, h2]
    simp only []
    rw [if_pos h5]
  obtain ⟨hc1, hc2, hc3⟩ := aggregated_true h4
  have hsub := keys_mem C h2
  rw [hl]
  refine ⟨rfl, ⟨?_, ?_⟩, h6, h7⟩
  · intro c hc
    obtain ⟨k, hk, rfl⟩ := List.mem_map.1 hc
    have hk := List.mem_of_mem_eraseP hk
    exact partner_admitted C T hW (hsub k hk).1.sub (hc1 _ (List.mem_map_of_mem hk))
      (hin _ (hsub k hk).2) sha (h3 k hk)
  · obtain ⟨k0, hk0, hk1⟩ := List.mem_map.1 h5
    obtain ⟨a, l1, l2, _, ha, hks, her⟩ := List.exists_of_eraseP (p := fun k => decide (k.1 = W.pk)) hk0
      (by simpa using hk1)
    have ha : a.1 = W.pk := by simpa using ha
    rw [Signature.verifyBytesAggregated_eq _ _ _ _ _ _ hc3 hc1] at h4
    have hWcs : W.pk.ciphersuite = W.pp.ciphersuite := hc1 _ h5
    rw [Signature.verifyBytesAggregated_eq _ _ _ _ _ _ (by simp) (by
      intro pk hpk
      rcases List.mem_cons.1 hpk with rfl | hpk
      · exact hWcs
      · obtain ⟨c, _, rfl⟩ := List.mem_map.1 hpk
        rfl)]
    have hsum : ((W.pk :: ((ks.eraseP fun k => decide (k.1 = W.pk)).map (partner E pts)).map
        fun c => ({ ciphersuite := W.pp.ciphersuite, pk := c.key } : PublicKey G2)).map (·.pk)).sum =
        ((ks.map (·.1)).map (·.pk)).sum := by
      rw [her, hks]
      simp only [List.map_cons, List.map_map, List.map_append, List.sum_cons, List.sum_append, ha]
      simp only [Function.comp_def, partner]
      abel
    rw [hsum]
    have hsig : (⟨W.pp.ciphersuite, sig.time, sig.sigma1, sig.sigma2⟩ : Signature G1 G2) = sig := by
      rw [← hc2]
    simp only []
    rw [hsig]
    exact h4

/-! ### the game -/

theorem points_chance [DecidableEq GT] {E : Ext G1 G2 GT} {pf : Profile} {g : G1}
    {S : CodeSigner G1 G2} {tab : Table} (is done : List (Bytes × Bytes)) {pts : Curve G1}
    {W : World G1 G2} (T : TableFor E W pts) (hd : ∀ i ∈ done, ∃ p, pts.lookup i = some p)
    {f : Curve G1 → ℚ} {P : Curve G1 → CodePlayer G1 G2}
    (h : ∀ pts' ans, TableFor E { W with answers := ans } pts' →
      (∀ i ∈ done ++ is, ∃ p, pts'.lookup i = some p) →
      f pts' ≤ (P pts').chance E pf g S tab { W with answers := ans }) :
    curveOracles g is pts f ≤ (CodePlayer.points is pts P).chance E pf g S tab W := by
  induction is generalizing done pts W with
  | nil =>
    exact h pts W.answers T (by simpa using hd)
  | cons i is ih =>
    unfold curveOracles CodePlayer.points curveOracle
    rcases hl : pts.lookup i with _ | p
    · simp only [CodePlayer.chance]
      refine avg_mono fun r => ?_
      refine ih (done ++ [i]) (T.add i _) ?_ ?_
      · intro j hj
        rcases List.mem_append.1 hj with hj | hj
        · obtain ⟨p, hp⟩ := hd j hj
          exact ⟨p, lookup_append_some hp _⟩
        · rw [List.mem_singleton.1 hj]
          exact ⟨_, lookup_append_new hl _⟩
      · intro pts' ans T' h'
        exact h pts' ans T' (by simpa using h')
    · simp only []
      refine ih (done ++ [i]) T ?_ ?_
      · intro j hj
        rcases List.mem_append.1 hj with hj | hj
        · exact hd j hj
        · rw [List.mem_singleton.1 hj]
          exact ⟨_, hl⟩
      · intro pts' ans T' h'
        exact h pts' ans T' (by simpa using h')

theorem lower_chance [DecidableEq GT] {E : Ext G1 G2 GT} (C : CodecLaws E) (pf : Profile) (g : G1)
    (P : BytePlayer G1 G2) (S : CodeSigner G1 G2) (tab : Table) {pts : Curve G1} {W : World G1 G2}
    (T : TableFor E W pts) (hW : E.inSub2 W.pk.pk = true) :
    P.chance E pf g W.pp W.pk S tab pts ≤ (P.lower E W.pk pts).chance E pf g S tab W := by
  induction P generalizing S tab pts W with
  | toss n hn next ih =>
    simp only [BytePlayer.chance, BytePlayer.lower, CodePlayer.chance]
    exact avg_mono fun c => ih c S tab T hW
  | hash msg next ih =>
    simp only [BytePlayer.chance, BytePlayer.lower, CodePlayer.chance]
    exact oracle_mono fun D tab' => ih _ S tab' T hW
  | curve i next ih =>
    simp only [BytePlayer.chance, BytePlayer.lower]
    unfold curveOracle
    rcases hl : pts.lookup i with _ | p
    · simp only [CodePlayer.chance]
      exact avg_mono fun r => ih _ S tab (T.add i _) hW
    · exact ih _ S tab T hW
  | sign msg next ih =>
    simp only [BytePlayer.chance, BytePlayer.lower, CodePlayer.chance]
    refine oracle_mono fun D tab' => ?_
    rcases signHashed E.sha512 pf W.pp S.sk msg D.field with s | e | e
    · exact ih s _ tab' T hW
    · exact le_rfl
    · exact le_rfl
  | update tar seed next ih =>
    simp only [BytePlayer.chance, BytePlayer.lower, CodePlayer.chance]
    rcases SecretKey.update E.sha512 pf W.pp tar seed S.sk with ⟨⟨⟩ | e | e, sk⟩
    · exact ih _ tab T hW
    · exact ih _ tab T hW
    · exact le_rfl
  | breakIn next ih =>
    simp only [BytePlayer.chance, BytePlayer.lower, CodePlayer.chance]
    exact ih _ _ tab T hW
  | forge F =>
    simp only [BytePlayer.chance, BytePlayer.lower]
    refine points_chance _ [] T (by simp) fun pts' ans T' h' => ?_
    by_cases hwin : ∃ D : Digest, F.Wins { E with sha512 := fun _ => D.bytes, hashToG1 := pts'.hash }
        pf W.pp W.pk S
    · obtain ⟨D, hD⟩ := hwin
      have hm := (claim_lower C pf T' hW _ (by simpa using h') hD).1
      simp only [CodePlayer.chance]
      rw [hm]
      refine oracle_mono fun D tab' => ?_
      split
      · rename_i hw
        rw [if_pos (claim_lower C pf T' hW _ (by simpa using h') hw).2]
      · split <;> norm_num
    · rw [oracle_zero fun D tab' => if_neg fun hw => hwin ⟨D, hw⟩]
      exact CodePlayer.chance_nonneg pf _ _ _ _

/-! ### what is counted -/

theorem inputs_length (E : Ext G1 G2 GT) (F : ByteClaim) : (F.inputs E).length ≤ F.signers.length :=
  List.length_filterMap_le _ _

theorem lower_cosigners (E : Ext G1 G2 GT) (pk : PublicKey G2) (pts : Curve G1) {F : ByteClaim}
    (h : F.signers.length < rOrder) : (F.lower E pk pts).cosigners.length + 1 < rOrder := by
  classical
  have h2 : (Claim.none : Claim G1 G2).cosigners.length + 1 < rOrder := by
    show 0 + 1 < rOrder
    decide +kernel
  unfold ByteClaim.lower
  split
  · rename_i sig ks h3 h4
    split
    · rename_i h5
      obtain ⟨k0, hk0, hk1⟩ := List.mem_map.1 h5
      have h6 := mapM_some_length h4
      have h7 : (ks.eraseP fun k => decide (k.1 = pk)).length = ks.length - 1 :=
        List.length_eraseP_of_mem hk0 (by simpa using hk1)
      have h8 := List.length_pos_of_mem hk0
      have : ((ks.eraseP fun k => decide (k.1 = pk)).map (partner E pts)).length + 1 < rOrder := by
        rw [List.length_map, h7]
        omega
      convert this
    · exact h2
  · exact h2

theorem points_legal (is : List (Bytes × Bytes)) (pts : Curve G1) {P : Curve G1 → CodePlayer G1 G2}
    (h : ∀ pts, (P pts).Legal) : (CodePlayer.points is pts P).Legal := by
  induction is generalizing pts with
  | nil => exact h pts
  | cons i is ih =>
    unfold CodePlayer.points
    rcases pts.lookup i with _ | p
    · exact fun p => ih _
    · exact ih _

theorem points_points (is : List (Bytes × Bytes)) (pts : Curve G1) {P : Curve G1 → CodePlayer G1 G2}
    (h : ∀ pts k, (P pts).Points k) {k : Nat} (hk : is.length ≤ k) :
    (CodePlayer.points is pts P).Points k := by
  induction is generalizing pts k with
  | nil => exact h pts k
  | cons i is ih =>
    rw [List.length_cons] at hk
    unfold CodePlayer.points
    rcases pts.lookup i with _ | p
    · exact ⟨by omega, fun p => ih _ (by omega)⟩
    · exact ih _ (by omega)

theorem points_hashes (is : List (Bytes × Bytes)) (pts : Curve G1) {P : Curve G1 → CodePlayer G1 G2}
    {k : Nat} (h : ∀ pts, (P pts).Hashes k) : (CodePlayer.points is pts P).Hashes k := by
  induction is generalizing pts with
  | nil => exact h pts
  | cons i is ih =>
    unfold CodePlayer.points
    rcases pts.lookup i with _ | p
    · exact fun p => ih _
    · exact ih _

theorem points_updates (is : List (Bytes × Bytes)) (pts : Curve G1) {P : Curve G1 → CodePlayer G1 G2}
    {k : Nat} (h : ∀ pts, (P pts).Updates k) : (CodePlayer.points is pts P).Updates k := by
  induction is generalizing pts with
  | nil => exact h pts
  | cons i is ih =>
    unfold CodePlayer.points
    rcases pts.lookup i with _ | p
    · exact fun p => ih _
    · exact ih _

theorem points_scalars (is : List (Bytes × Bytes)) (pts : Curve G1) {P : Curve G1 → CodePlayer G1 G2}
    {d k : Nat} (h : ∀ pts, (P pts).Scalars d k) : (CodePlayer.points is pts P).Scalars d k := by
  induction is generalizing pts with
  | nil => exact h pts
  | cons i is ih =>
    unfold CodePlayer.points
    rcases pts.lookup i with _ | p
    · exact fun p => ih _
    · exact ih _

theorem lower_legal (E : Ext G1 G2 GT) (pk : PublicKey G2) (P : BytePlayer G1 G2) (pts : Curve G1)
    (h : P.Legal) : (P.lower E pk pts).Legal := by
  induction P generalizing pts with
  | toss n hn next ih => exact fun c => ih c _ (h c)
  | hash msg next ih => exact fun c => ih c _ (h c)
  | curve i next ih =>
    unfold BytePlayer.lower
    rcases pts.lookup i with _ | p
    · exact fun p => ih p _ (h p)
    · exact ih p _ (h p)
  | sign msg next ih => exact fun c => ih c _ (h c)
  | update tar seed next ih => exact ih _ h
  | breakIn next ih => exact fun c => ih c _ (h c)
  | forge F => exact points_legal _ _ fun pts' => lower_cosigners E pk pts' h

theorem points_mono {P : CodePlayer G1 G2} {k k' : Nat} (h : P.Points k) (hk : k ≤ k') :
    P.Points k' := by
  induction P generalizing k k' with
  | toss n hn next ih => exact fun c => ih c (h c) hk
  | hash msg next ih => exact fun c => ih c (h c) hk
  | point next ih => exact ⟨Nat.lt_of_lt_of_le h.1 hk, fun c => ih c (h.2 c) (by omega)⟩
  | sign msg next ih => exact fun c => ih c (h c) hk
  | update tar seed next ih => exact ih h hk
  | breakIn next ih => exact fun c => ih c (h c) hk
  | forge F => trivial

theorem lower_points (E : Ext G1 G2 GT) (pk : PublicKey G2) (P : BytePlayer G1 G2) (pts : Curve G1)
    {k : Nat} (h : P.Points k) : (P.lower E pk pts).Points k := by
  induction P generalizing pts k with
  | toss n hn next ih => exact fun c => ih c _ (h c)
  | hash msg next ih => exact fun c => ih c _ (h c)
  | curve i next ih =>
    unfold BytePlayer.lower
    rcases pts.lookup i with _ | p
    · exact ⟨h.1, fun p => ih p _ (h.2 p)⟩
    · exact points_mono (ih p _ (h.2 p)) (by omega)
  | sign msg next ih => exact fun c => ih c _ (h c)
  | update tar seed next ih => exact ih _ h
  | breakIn next ih => exact fun c => ih c _ (h c)
  | forge F =>
    exact points_points (P := fun pts' => .forge (F.lower E pk pts')) _ _ (fun _ _ => trivial)
      ((inputs_length E F).trans h)

theorem lower_hashes (E : Ext G1 G2 GT) (pk : PublicKey G2) (P : BytePlayer G1 G2) (pts : Curve G1)
    {k : Nat} (h : P.Hashes k) : (P.lower E pk pts).Hashes k := by
  induction P generalizing pts k with
  | toss n hn next ih => exact fun c => ih c _ (h c)
  | hash msg next ih => exact ⟨h.1, fun c => ih c _ (h.2 c)⟩
  | curve i next ih =>
    unfold BytePlayer.lower
    rcases pts.lookup i with _ | p
    · exact fun p => ih p _ (h p)
    · exact ih p _ (h p)
  | sign msg next ih => exact ⟨h.1, fun c => ih c _ (h.2 c)⟩
  | update tar seed next ih => exact ih _ h
  | breakIn next ih => exact fun c => ih c _ (h c)
  | forge F => exact points_hashes _ _ fun _ => h

theorem lower_updates (E : Ext G1 G2 GT) (pk : PublicKey G2) (P : BytePlayer G1 G2) (pts : Curve G1)
    {k : Nat} (h : P.Updates k) : (P.lower E pk pts).Updates k := by
  induction P generalizing pts k with
  | toss n hn next ih => exact fun c => ih c _ (h c)
  | hash msg next ih => exact fun c => ih c _ (h c)
  | curve i next ih =>
    unfold BytePlayer.lower
    rcases pts.lookup i with _ | p
    · exact fun p => ih p _ (h p)
    · exact ih p _ (h p)
  | sign msg next ih => exact fun c => ih c _ (h c)
  | update tar seed next ih => exact ⟨h.1, ih _ h.2⟩
  | breakIn next ih => exact fun c => ih c _ (h c)
  | forge F => exact points_updates _ _ fun _ => trivial

theorem lower_scalars (E : Ext G1 G2 GT) (pk : PublicKey G2) (P : BytePlayer G1 G2) (pts : Curve G1)
    {d k : Nat} (h : P.Scalars d k) : (P.lower E pk pts).Scalars d k := by
  induction P generalizing pts k with
  | toss n hn next ih => exact fun c => ih c _ (h c)
  | hash msg next ih => exact fun c => ih c _ (h c)
  | curve i next ih =>
    unfold BytePlayer.lower
    rcases pts.lookup i with _ | p
    · exact fun p => ih p _ (h p)
    · exact ih p _ (h p)
  | sign msg next ih => exact ⟨h.1, fun c => ih c _ (h.2 c)⟩
  | update tar seed next ih => exact ⟨h.1, ih _ h.2⟩
  | breakIn next ih => exact fun c => ih c _ (h c)
  | forge F => exact points_scalars _ _ fun _ => trivial

/-! ### from the seed on -/

theorem keygen_game {E : Ext G1 G2 GT} (H : HashLaws E) {pp : PubParam G1 G2} (S : ParamShape pp)
    (hg : pp.g2 = E.gen2) {seed : Bytes} (h : 32 ≤ seed.length) (hc : Supported pp.ciphersuite) (q : G1) :
    ∃ x p sk, SecretKey.init E.sha512 pp (mulFr x pp.h) p = .ok sk ∧
      keygen { E with hashToG1 := fun _ _ => q } seed pp =
        .ok (⟨pp.ciphersuite, x.val • E.gen2⟩, sk, ⟨pp.ciphersuite, x.val • q⟩) := by
  obtain ⟨sk, h1, h2⟩ := keygen_init (E := { E with hashToG1 := fun _ _ => q }) ⟨H.sha_len⟩ S h hc
  refine ⟨_, _, sk, h1, ?_⟩
  rw [h2, hg]

theorem byteForgeChance_le [DecidableEq GT] {E : Ext G1 G2 GT} (H : HashLaws E) (L : GroupLaws E)
    (C : CodecLaws E) (pf : Profile) {g : G1} (hsub : E.inSub1 g = true) {d : Nat} (hd : 1 ≤ d)
    (hd' : d ≤ 63) (cs : UInt8) (n : Nat)
    (A : PubParam G1 G2 → PublicKey G2 → ProofOfPossession G1 → BytePlayer G1 G2) :
    byteForgeChance E pf g d cs n A ≤ seedForgeChance E pf g d cs n (byteLower E A) := by
  unfold byteForgeChance seedForgeChance
  refine avg_mono fun a => avg_mono fun s => ?_
  rcases hk : keygen { E with hashToG1 := fun _ _ => (a .q).val • g } s.bytes (gameParam E g cs a) with
    ⟨pk, sk, pop⟩ | e | e
  · have hc := keygen_supported hk
    have hl : 32 ≤ s.bytes.length := by
      by_contra hl
      rw [keygen_short (by omega)] at hk
      cases hk
    have WF : ParamWF E (gameParam E g cs a) := viewOf_wf (E := E) (cs := cs) L hsub hd hd' (toVar a)
    obtain ⟨x, p, sk', _, h2⟩ := keygen_game H WF.toParamShape WF.g2_gen hl hc ((a .q).val • g)
    rw [hk] at h2
    obtain ⟨h3, h4⟩ := Prod.mk.inj (Res.ok.inj h2)
    obtain ⟨_, h5⟩ := Prod.mk.inj h4
    have hpop : pop = { ciphersuite := (gameParam E g cs a).ciphersuite, pop := pop.pop } := by rw [h5]
    have hpk : E.inSub2 pk.pk = true := by
      rw [h3]
      exact L.sub2_nsmul L.gen2_sub _
    have key := lower_chance C pf g
      (A (gameParam E g cs a) pk { ciphersuite := (gameParam E g cs a).ciphersuite, pop := pop.pop })
      ⟨sk, [], []⟩ []
      (W := ⟨gameParam E g cs a, pk, (a .q).val • g, pop.pop, []⟩)
      (pts := [(popInput E pk, (a .q).val • g)]) ⟨[], rfl, rfl⟩ hpk
    simp only [] at key
    rw [← hpop] at key
    unfold byteLower
    simp only []
    rw [← hpop]
    exact key
  · exact le_rfl
  · exact le_rfl

end Pixel
