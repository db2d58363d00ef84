import Verif.Proof.SingleBounds

/-! # Forging with one random function: the signer with uniform scalars -/

namespace Pixel

open Spec Props

set_option linter.unusedSectionVars false

variable {G1 G2 GT : Type} [AddCommGroup G1] [AddCommGroup G2] [CommGroup GT]
  {E : Ext G1 G2 GT} {g : G1} {pp : PubParam G1 G2}

/-! ## The ideal generator, in programs that evaluate the hash function -/

/-- a value of a random function, by a toss -/
def Spec.Probe.table (tab : Table) (info : Bytes) (f : Digest → Table → Probe) : Probe :=
  match tab.lookup info with
  | some D => f D tab
  | none => .toss (256 ^ 64) digests_pos fun D => f D (tab ++ [(info, D)])

/-- the program with the ideal generator -/
def Spec.PrngProber.idealQ : PrngProber → Table → Probe
  | .toss m hm n, tab => .toss m hm fun c => (n c).idealQ tab
  | .hash m n, tab => .hash m fun b => (n b).idealQ tab
  | .sample info n, tab => .table tab info fun D tab' => (n D.field).idealQ tab'
  | .draw info n, tab => .table tab info fun D _ => (n D.field).idealQ []
  | .mix _ _ n, _ => n.idealQ []
  | .look n, _ => .toss (256 ^ 64) digests_pos fun K => n (Digest.bytes K)
  | .stop v, _ => .stop v

theorem probe_table_eval {sha : Bytes → Bytes} {tab : Table} {info : Bytes}
    {f : Digest → Table → Probe} :
    (Probe.table tab info f).eval sha = oracle tab info fun D tab' => (f D tab').eval sha := by
  unfold Probe.table oracle
  rcases tab.lookup info with _ | D <;> rfl

theorem probe_table_lazy {all tab : Table} {info : Bytes} {f : Digest → Table → Probe} :
    (Probe.table tab info f).lazy all = oracle tab info fun D tab' => (f D tab').lazy all := by
  unfold Probe.table oracle
  rcases tab.lookup info with _ | D <;> rfl

theorem probe_table_short {B : Nat} {tab : Table} {info : Bytes} {f : Digest → Table → Probe}
    (h : ∀ D tab', (f D tab').Short B) : (Probe.table tab info f).Short B := by
  unfold Probe.table
  rcases tab.lookup info with _ | D
  · exact fun D => h _ _
  · exact h _ _

theorem idealQ_eval {sha : Bytes → Bytes} (P : PrngProber) (tab : Table) :
    (P.idealQ tab).eval sha = (P.using sha).ideal tab := by
  induction P generalizing tab with
  | toss m hm n ih => exact avg_congr fun c => ih c tab
  | hash m n ih => exact ih _ tab
  | sample info n ih =>
    simp only [PrngProber.idealQ, PrngProber.using, PrngPlayer.ideal]
    rw [probe_table_eval]
    simp only [ih]
  | draw info n ih =>
    simp only [PrngProber.idealQ, PrngProber.using, PrngPlayer.ideal]
    rw [probe_table_eval]
    simp only [ih]
  | mix seed info n ih => exact ih []
  | look n => rfl
  | stop v => rfl

theorem idealQ_short {B q u : Nat} (P : PrngProber) (h : P.Within B q u) (tab : Table) :
    (P.idealQ tab).Short B := by
  induction P generalizing tab q u with
  | toss m hm n ih => exact fun c => ih c (h c) tab
  | hash m n ih => exact ⟨h.1, fun b hb => ih b (h.2.2 b hb) tab⟩
  | sample info n ih => exact probe_table_short fun D tab' => ih _ (h.2.2 _) _
  | draw info n ih => exact probe_table_short fun D tab' => ih _ (h.2.2 _) _
  | mix seed info n ih => exact ih h.2.2.2 []
  | look n => exact fun K => (h _ (digest_length K)).1
  | stop v => trivial

theorem avg_ideal {B q u : Nat} (P : PrngProber) (h : P.Within B q u) :
    (avg fun ω : HashFun B => (P.using ω.sha).ideal []) = (P.idealQ []).lazy [] := by
  rw [← avg_eval _ (idealQ_short P h [])]
  exact avg_congr fun ω => (idealQ_eval P []).symm

/-! ## One table or two -/

theorem msgOf_tag (cs : UInt8) (msg : Bytes) : msgOf cs (msgTag cs ++ msg) = some msg := by
  unfold msgOf
  rw [if_pos (List.prefix_append _ _), List.drop_left]

theorem msgOf_eq {cs : UInt8} {m msg : Bytes} (h : msgOf cs m = some msg) : m = msgTag cs ++ msg := by
  unfold msgOf at h
  split_ifs at h with hp
  obtain ⟨z, rfl⟩ := hp
  rw [List.drop_left] at h
  rw [Option.some.inj h]

/-- the table of the hash function is that of the messages and that of the other strings -/
def Split (cs : UInt8) (all tab rest : Table) : Prop :=
  ∀ m, all.lookup m = match msgOf cs m with
    | some msg => tab.lookup msg
    | none => rest.lookup m

theorem split_nil (cs : UInt8) : Split cs [] [] [] := fun m => by
  rcases msgOf cs m with _ | msg <;> rfl

theorem Split.msg {cs : UInt8} {all tab rest : Table} (h : Split cs all tab rest) (msg : Bytes) :
    all.lookup (msgTag cs ++ msg) = tab.lookup msg := by
  rw [h, msgOf_tag]

theorem Split.snoc_msg {cs : UInt8} {all tab rest : Table} (h : Split cs all tab rest) (msg : Bytes)
    (D : Digest) : Split cs (all ++ [(msgTag cs ++ msg, D)]) (tab ++ [(msg, D)]) rest := by
  intro m
  rw [lookup_snoc, h m]
  rcases hm : msgOf cs m with _ | msg'
  · simp only []
    rw [if_neg, Option.or_none]
    rintro rfl
    rw [msgOf_tag] at hm
    cases hm
  · simp only []
    rw [lookup_snoc]
    congr 1
    rw [msgOf_eq hm]
    by_cases hc : msg' = msg
    · rw [if_pos hc, if_pos (by rw [hc])]
    · rw [if_neg hc, if_neg fun e => hc (List.append_cancel_left e)]

theorem Split.snoc_rest {cs : UInt8} {all tab rest : Table} (h : Split cs all tab rest) {m : Bytes}
    (hm : msgOf cs m = none) (D : Digest) :
    Split cs (all ++ [(m, D)]) tab (rest ++ [(m, D)]) := by
  intro m'
  rw [lookup_snoc, h m']
  rcases hm' : msgOf cs m' with _ | msg'
  · simp only []
    rw [lookup_snoc]
  · simp only []
    rw [if_neg, Option.or_none]
    rintro rfl
    rw [hm] at hm'
    cases hm'

/-- the hash of a message -/
theorem msg_step {cs : UInt8} {all tab rest : Table} (hs : Split cs all tab rest) (msg : Bytes)
    {f f' : Digest → Table → ℚ}
    (h : ∀ D all' tab', Split cs all' tab' rest →
      (∀ m D0, tab.lookup m = some D0 → tab'.lookup m = some D0) → tab'.lookup msg = some D →
      f D all' ≤ f' D tab') : oracle all (msgTag cs ++ msg) f ≤ oracle tab msg f' := by
  unfold oracle
  rw [hs.msg]
  rcases hl : tab.lookup msg with _ | D
  · refine avg_mono fun D => h D _ _ (hs.snoc_msg msg D) (fun m D0 hm => ?_) ?_
    · rw [lookup_snoc, hm]; rfl
    · rw [lookup_snoc, hl, if_pos rfl]; rfl
  · exact h D all tab hs (fun m D0 hm => hm) hl

/-- an evaluation of the hash function by the adversary -/
theorem eval_step [DecidableEq GT] {pf : Profile} {x : Fr} {S : Signer} {W : World G1 G2} {cs : UInt8}
    {all tab rest : Table} (hs : Split cs all tab rest) (m : Bytes) {f : Digest → Table → ℚ}
    {k : Bytes → Table → ApiPlayer G1 G2} {c : ℚ}
    (h : ∀ D all' tab' rest', Split cs all' tab' rest' →
      (∀ m D0, tab.lookup m = some D0 → tab'.lookup m = some D0) →
      f D all' ≤ (k D.bytes rest').chance E pf g x S tab' W + c) :
    oracle all m f ≤ (ApiPlayer.evaluate cs rest m k).chance E pf g x S tab W + c := by
  unfold ApiPlayer.evaluate
  rcases hm : msgOf cs m with _ | msg
  · simp only []
    unfold oracle
    rw [hs m, hm]
    simp only []
    rcases rest.lookup m with _ | D
    · simp only [ApiPlayer.chance]
      rw [← avg_add_const]
      exact avg_mono fun D => h D _ _ _ (hs.snoc_rest hm D) fun _ _ hl => hl
    · exact h D _ _ _ hs fun _ _ hl => hl
  · simp only [ApiPlayer.chance]
    rw [msgOf_eq hm, ← oracle_add_const]
    exact msg_step hs msg fun D all' tab' h1 h2 _ => h D all' tab' rest h1 h2

/-! ## After `t0` -/

theorem claim_lift [DecidableEq GT] (pf : Profile) (x : Fr) {t0 : Nat} (F : Claim G1 G2) (S : Signer)
    {sg : List (Nat × Bytes)} (hS : Fewer t0 S sg) {W : World G1 G2} {all tab rest : Table}
    (hs : Split W.pp.ciphersuite all tab rest) :
    (claimProbe E pf t0 W sg F).lazy all ≤
      (if F.time = t0 then ApiPlayer.forge F else .forge .none).chance E pf g x S tab W := by
  unfold claimProbe
  by_cases hF : F.time = t0
  · rw [if_pos hF, if_pos hF]
    simp only [ApiPlayer.chance, Probe.lazy]
    refine msg_step hs F.msg fun D _ _ _ _ _ => ?_
    unfold verdict
    split_ifs with h1 h2
    · exact le_rfl
    · refine absurd ⟨h1.1, ?_, ?_⟩ h2
      · intro t ht
        rw [hF]
        exact hS.broken t ht
      · intro hm
        have h3 := h1.2
        rw [hF] at hm h3
        exact h3 (hS.signed _ hm)
    · exact zero_le_one
    · exact le_rfl
  · rw [if_neg hF, if_neg hF]
    exact ApiPlayer.chance_nonneg pf x _ _ _ _

theorem check_lift [DecidableEq GT] (pf : Profile) (x : Fr) {t0 : Nat} (T : HashTail G1 G2) (S : Signer)
    {sg : List (Nat × Bytes)} (hS : Fewer t0 S sg) (cs : UInt8) (W : World G1 G2)
    (hW : W.pp.ciphersuite = cs) (all tab rest : Table) (hs : Split cs all tab rest) :
    (T.check E pf g t0 sg W).lazy all ≤ (T.lift cs t0 rest).chance E pf g x S tab W := by
  induction T generalizing W all tab rest with
  | toss m hm n ih => exact avg_mono fun c => ih c W hW all tab rest hs
  | eval m n ih =>
    have := eval_step (E := E) (g := g) (pf := pf) (x := x) (S := S) (W := W) hs m (c := 0)
      (f := fun D all' => ((n D.bytes).check E pf g t0 sg W).lazy all')
      (k := fun b rest' => (n b).lift cs t0 rest') fun D all' tab' rest' h1 _ => by
        rw [add_zero]
        exact ih D.bytes W hW all' tab' rest' h1
    rw [add_zero] at this
    exact this
  | point n ih =>
    simp only [HashTail.check, HashTail.lift, ApiPlayer.chance, Probe.lazy]
    rw [← avg_equiv dieEquiv]
    refine avg_mono fun c => ?_
    have := ih ((c.val : Fr).val • g)
      { W with answers := W.answers ++ [.point ((c.val : Fr).val • g)] } hW all tab rest hs
    exact this
  | forge F =>
    subst hW
    exact claim_lift pf x F S hS hs

/-! ## Up to `t0` -/

theorem drawsQ_lazy {all : Table} {n : Nat} {k : List Fr → PrngProber} {f : List Fr → ℚ} {c : ℚ}
    (h0 : ∀ l, 0 ≤ f l) (h1 : ∀ l, f l ≤ 1)
    (h : ∀ l, l.length = n → ((k l).idealQ []).lazy all ≤ f l + c) :
    ((drawsQ n k).idealQ []).lazy all ≤ avgs n f + n * (1 / 2 ^ 257) + c := by
  induction n generalizing k f with
  | zero =>
    refine (h [] rfl).trans (le_of_eq ?_)
    simp [avgs]
  | succ n ih =>
    rw [drawsQ, PrngProber.idealQ, probe_table_lazy, oracle_new]
    have h2 : ∀ D : Digest, ((drawsQ n fun l => k (D.field :: l)).idealQ []).lazy all ≤
        avgs n (fun l => f (D.field :: l)) + (n * (1 / 2 ^ 257) + c) := by
      intro D
      rw [← add_assoc]
      exact ih (fun l => h0 _) (fun l => h1 _) fun l hl => h _ (by simp [hl])
    refine (avg_mono h2).trans ?_
    rw [avg_add_const]
    have h3 := avg_digest_le (f := fun r => avgs n fun l => f (r :: l))
      (fun r => avgs_nonneg fun l => h0 _)
      (fun r => (avgs_mono fun l _ => h1 _).trans (avgs_const n 1).le)
    simp only [avgs]
    rw [Nat.cast_add, Nat.cast_one]
    generalize (1 : ℚ) / 2 ^ 257 = δ at *
    linarith

theorem playQ_lazy_le [DecidableEq GT] {B : Nat} (pf : Profile) (x : Fr) {t0 : Nat}
    (P : HashPlayer G1 G2) {q s u : Nat} (hP : P.Within B q s u) (k : Nat) (hk : s + u * pp.depth ≤ k)
    (t : Nat) (htt : t ≤ t0) (rho : List Fr) (sg : List (Nat × Bytes)) (sh : List Fr)
    (sg' : List (Nat × Bytes)) (hsg : ∀ m, (t0, m) ∈ sg' → (t0, m) ∈ sg)
    (memo : List (Bytes × Signature G1 G2)) (ptab all tab rest : Table)
    (hs : Split pp.ciphersuite all tab rest) (hM : Kept pp x t (rho.headD 0) memo ptab tab)
    (W : World G1 G2) (hW : W.pp = pp) :
    ((P.playQ E pf g t0 x ⟨t, rho, sg⟩ W).idealQ ptab).lazy all ≤
      (P.lift pf pp t0 t memo rest).chance E pf g x ⟨t, rho, sh, sg', []⟩ tab W +
        k * (1 / 2 ^ 257) := by
  have hδ : (0 : ℚ) ≤ 1 / 2 ^ 257 := by positivity
  have hkδ : ∀ k : Nat, (0 : ℚ) ≤ k * (1 / 2 ^ 257) := fun k => mul_nonneg (Nat.cast_nonneg k) hδ
  induction P generalizing q s u k t rho sg sh sg' memo ptab all tab rest W with
  | toss m hm n ih =>
    have : Nonempty (Fin m) := ⟨⟨0, hm⟩⟩
    refine (avg_mono fun c => ih c (hP c) k hk t htt rho sg sh sg' hsg memo ptab all tab rest hs hM W
      hW).trans (le_of_eq ?_)
    exact avg_add_const _ _
  | eval m n ih =>
    refine eval_step hs m fun D all' tab' rest' h1 h2 => ?_
    exact ih D.bytes (hP.2.2 _) k (by omega) t htt rho sg sh sg' hsg memo ptab all' tab' rest' h1
      (hM.table h2) W hW
  | point n ih =>
    simp only [HashPlayer.playQ, HashPlayer.lift, ApiPlayer.chance, PrngProber.idealQ, Probe.lazy]
    rw [← avg_equiv dieEquiv, ← avg_add_const]
    refine avg_mono fun c => ?_
    have := ih ((c.val : Fr).val • g) (hP _) k hk t htt rho sg sh sg' hsg memo ptab all tab rest hs hM
      { W with answers := W.answers ++ [.point ((c.val : Fr).val • g)] } hW
    exact this
  | sign msg n ih =>
    obtain ⟨_, hs0, hP⟩ := hP
    have hk0 : 0 < k := by omega
    simp only [HashPlayer.playQ, PrngProber.idealQ, Probe.lazy, HashPlayer.lift]
    rw [hW]
    rcases hm : memo.lookup msg with _ | y
    · simp only [ApiPlayer.chance]
      rw [← oracle_add_const]
      refine msg_step hs msg fun D all' tab' h0 h1 h2 => ?_
      rw [probe_table_lazy]
      have e : ∀ f : Digest → Table → ℚ, oracle ptab (signInfo msg t) f =
          avg fun D' : Digest => f D' (ptab ++ [(signInfo msg t, D')]) := by
        intro f
        rw [oracle, hM.new msg hm]
      rw [e, hW]
      rw [digest_value]
      have h3 : ∀ D' : Digest, (((n (signatureOf pp x t D.field (rho.headD 0 + D'.field))).playQ E pf g
          t0 x ⟨t, rho, sg ++ [(t, msg)]⟩ W).idealQ (ptab ++ [(signInfo msg t, D')])).lazy all' ≤
          ((n (signatureOf pp x t D.field (rho.headD 0 + D'.field))).lift pf pp t0 t
            (memo ++ [(msg, signatureOf pp x t D.field (rho.headD 0 + D'.field))]) rest).chance E pf g x
            ⟨t, rho, sh ++ [D'.field], sg' ++ [(t, msg)], []⟩ tab' W +
              ((k - 1 : Nat) : ℚ) * (1 / 2 ^ 257) := by
        intro D'
        refine ih _ (hP _) (k - 1) (by omega) t htt rho _ _ _ ?_ _ _ all' tab' rest h0 ?_ W hW
        · intro m hmm
          rcases List.mem_append.1 hmm with h | h
          · exact List.mem_append_left _ (hsg m h)
          · exact List.mem_append_right _ h
        · exact (hM.table h1).snoc hm h2 D'
      refine (avg_mono h3).trans ?_
      rw [avg_add_const]
      have h4 := avg_digest_le (f := fun r => ((n (signatureOf pp x t D.field (rho.headD 0 + r))).lift
          pf pp t0 t
          (memo ++ [(msg, signatureOf pp x t D.field (rho.headD 0 + r))]) rest).chance E pf g x
          ⟨t, rho, sh ++ [r], sg' ++ [(t, msg)], []⟩ tab' W)
        (fun r => ApiPlayer.chance_nonneg pf x _ _ _ _) (fun r => ApiPlayer.chance_le_one pf x _ _ _ _)
      rw [← scalars_nat hk0]
      refine (add_le_add_left h4 _).trans (le_of_eq ?_)
      rw [add_assoc, add_comm ((1 : ℚ) / 2 ^ 257)]
      rfl
    · obtain ⟨D, D', a, b, c⟩ := hM.old msg y hm
      rw [oracle, hs.msg, a]
      simp only []
      rw [probe_table_lazy, oracle, b]
      simp only []
      rw [digest_value, ← c]
      refine (ih y (hP y) (k - 1) (by omega) t htt rho (sg ++ [(t, msg)]) sh sg' (fun m h =>
        List.mem_append_left _ (hsg m h)) memo ptab all tab rest hs hM W hW).trans ?_
      refine add_le_add_right ?_ _
      rw [← scalars_nat hk0]
      exact le_add_of_nonneg_right hδ
  | update tar seed n ih =>
    obtain ⟨_, hu0, hP⟩ := hP
    obtain ⟨v, rfl⟩ : ∃ v, u = v + 1 := ⟨u - 1, by omega⟩
    rw [Nat.add_sub_cancel] at hP
    rw [Nat.add_mul, Nat.one_mul] at hk
    simp only [HashPlayer.playQ, HashPlayer.lift]
    rw [hW]
    by_cases h1 : t < tar ∧ tar ≤ 2 ^ pp.depth - 1
    · rw [if_pos h1, if_pos h1]
      simp only [PrngProber.idealQ, ApiPlayer.chance]
      rw [hW, if_pos h1]
      have hd := drawsNeeded_le pp.depth t tar
      refine (drawsQ_lazy (f := fun rs => (if tar ≤ t0 then n.lift pf pp t0 tar [] rest
        else ApiPlayer.breakIn fun keys _ => ApiPlayer.toss (256 ^ 64) digests_pos fun K =>
          (n.tail pf pp tar keys (Digest.bytes K)).lift pp.ciphersuite t0 rest).chance E pf g x
            (Signer.updated pp.depth tar rs ⟨t, rho, sh, sg', []⟩) tab W)
        (c := ((k - pp.depth : Nat) : ℚ) * (1 / 2 ^ 257))
        (fun l => ApiPlayer.chance_nonneg pf x _ _ _ _)
        (fun l => ApiPlayer.chance_le_one pf x _ _ _ _) fun rs hrs => ?_).trans ?_
      · by_cases h2 : tar ≤ t0
        · rw [if_pos h2, if_pos h2]
          exact ih hP (k - pp.depth) (by omega) tar h2 (stepExponents pp.depth t tar rho rs) sg [] sg'
            hsg [] [] all tab rest hs kept_nil W hW
        · rw [if_neg h2, if_neg h2]
          refine le_add_of_le_of_nonneg ?_ (hkδ _)
          simp only [PrngProber.idealQ, ApiPlayer.chance, Probe.lazy]
          refine avg_mono fun K => ?_
          rw [hW]
          refine check_lift pf x _ _ ⟨hsg, ?_⟩ pp.ciphersuite W (by rw [hW]) all tab rest hs
          intro b hb
          simp only [Signer.caught, Signer.updated, List.nil_append, List.mem_singleton] at hb
          omega
      · rw [add_assoc, ← add_mul]
        refine add_le_add_right (mul_le_mul_of_nonneg_right ?_ hδ) _
        have : drawsNeeded pp.depth t tar + (k - pp.depth) ≤ k := by omega
        exact_mod_cast this
    · rw [if_neg h1, if_neg h1]
      exact ih hP k (by omega) t htt rho sg sh sg' hsg memo ptab all tab rest hs hM W hW
  | breakIn n ih =>
    simp only [HashPlayer.playQ, PrngProber.idealQ, HashPlayer.lift, Probe.lazy]
    exact add_nonneg (ApiPlayer.chance_nonneg pf x _ _ _ _) (hkδ k)
  | forge F =>
    simp only [HashPlayer.lift]
    refine le_add_of_le_of_nonneg ?_ (hkδ k)
    subst hW
    refine le_trans (le_of_eq ?_) (claim_lift (E := E) (g := g) pf x F ⟨t, rho, sh, sg', []⟩ (t0 := t0)
      ⟨hsg, by simp⟩ hs)
    unfold claimProbe
    simp only [HashPlayer.playQ]
    split_ifs <;> rfl

/-! ## The adversary of the game with uniform scalars -/

theorem evaluate_only {cs : UInt8} {t0 : Nat} {rest : Table} {m : Bytes}
    {k : Bytes → Table → ApiPlayer G1 G2} (h : ∀ b rest', (k b rest').only t0 = k b rest') :
    (ApiPlayer.evaluate cs rest m k).only t0 = ApiPlayer.evaluate cs rest m k := by
  unfold ApiPlayer.evaluate
  rcases msgOf cs m with _ | msg
  · simp only []
    rcases rest.lookup m with _ | D
    · simp only [ApiPlayer.only, h]
    · exact h _ _
  · simp only [ApiPlayer.only, h]

theorem evaluate_legal {cs : UInt8} {rest : Table} {m : Bytes}
    {k : Bytes → Table → ApiPlayer G1 G2} (h : ∀ b rest', (k b rest').Legal) :
    (ApiPlayer.evaluate cs rest m k).Legal := by
  unfold ApiPlayer.evaluate
  rcases msgOf cs m with _ | msg
  · simp only []
    rcases rest.lookup m with _ | D
    · exact fun D => h _ _
    · exact h _ _
  · exact fun b => h _ _

theorem evaluate_points {cs : UInt8} {rest : Table} {m : Bytes} {j : Nat}
    {k : Bytes → Table → ApiPlayer G1 G2} (h : ∀ b rest', (k b rest').Points j) :
    (ApiPlayer.evaluate cs rest m k).Points j := by
  unfold ApiPlayer.evaluate
  rcases msgOf cs m with _ | msg
  · simp only []
    rcases rest.lookup m with _ | D
    · exact fun D => h _ _
    · exact h _ _
  · exact fun b => h _ _

theorem api_hashes_mono {P : ApiPlayer G1 G2} {k k' : Nat} (h : P.Hashes k) (hk : k ≤ k') :
    P.Hashes k' := by
  induction P generalizing k k' with
  | toss m hm n ih => exact fun c => ih c (h c) hk
  | hash msg n ih => exact ⟨by have := h.1; omega, fun b => ih b (h.2 b) (by omega)⟩
  | point n ih => exact fun p => ih p (h p) hk
  | sign msg n ih => exact ⟨by have := h.1; omega, fun b => ih b (h.2 b) (by omega)⟩
  | update tar n ih => exact ih h hk
  | breakIn n ih => exact fun l s => ih l s (h l s) hk
  | forge F => exact Nat.lt_of_lt_of_le h hk

theorem evaluate_hashes {cs : UInt8} {rest : Table} {m : Bytes} {j j' : Nat} (hj : j + 1 ≤ j')
    {k : Bytes → Table → ApiPlayer G1 G2} (h : ∀ b rest', (k b rest').Hashes j) :
    (ApiPlayer.evaluate cs rest m k).Hashes j' := by
  unfold ApiPlayer.evaluate
  rcases msgOf cs m with _ | msg
  · simp only []
    rcases rest.lookup m with _ | D
    · exact fun D => api_hashes_mono (h _ _) (by omega)
    · exact api_hashes_mono (h _ _) (by omega)
  · exact ⟨by omega, fun b => api_hashes_mono (h _ _) (by omega)⟩

theorem forge_only {t0 : Nat} (F : Claim G1 G2) :
    (if F.time = t0 then ApiPlayer.forge F else .forge .none).only t0 =
      if F.time = t0 then ApiPlayer.forge F else .forge .none := by
  by_cases h : F.time = t0
  · rw [if_pos h, ApiPlayer.only, if_pos h]
  · rw [if_neg h]; exact ite_self _

theorem tailLift_only {cs : UInt8} {t0 : Nat} (T : HashTail G1 G2) (rest : Table) :
    (T.lift cs t0 rest).only t0 = T.lift cs t0 rest := by
  induction T generalizing rest with
  | toss m hm n ih => simp only [HashTail.lift, ApiPlayer.only, ih]
  | eval m n ih => exact evaluate_only fun b rest' => ih b rest'
  | point n ih => simp only [HashTail.lift, ApiPlayer.only, ih]
  | forge F => exact forge_only F

theorem hashLift_only {pf : Profile} {t0 : Nat} (P : HashPlayer G1 G2) (t : Nat)
    (memo : List (Bytes × Signature G1 G2)) (rest : Table) :
    (P.lift pf pp t0 t memo rest).only t0 = P.lift pf pp t0 t memo rest := by
  induction P generalizing t memo rest with
  | toss m hm n ih => simp only [HashPlayer.lift, ApiPlayer.only, ih]
  | eval m n ih => exact evaluate_only fun b rest' => ih b t memo rest'
  | point n ih => simp only [HashPlayer.lift, ApiPlayer.only, ih]
  | sign msg n ih =>
    simp only [HashPlayer.lift]
    rcases memo.lookup msg with _ | s
    · simp only [ApiPlayer.only, ih]
    · exact ih _ _ _ _
  | update tar seed n ih =>
    simp only [HashPlayer.lift]
    split_ifs
    · simp only [ApiPlayer.only, ih]
    · simp only [ApiPlayer.only, tailLift_only]
    · exact ih _ _ _
  | breakIn n ih => exact ite_self _
  | forge F => exact forge_only F

theorem forge_legal {t0 : Nat} {F : Claim G1 G2} (h : F.cosigners.length + 1 < rOrder) :
    (if F.time = t0 then ApiPlayer.forge F else .forge .none).Legal := by
  split_ifs
  · exact h
  · exact one_lt_order

theorem tailLift_legal {cs : UInt8} {t0 : Nat} (T : HashTail G1 G2) (h : T.Legal) (rest : Table) :
    (T.lift cs t0 rest).Legal := by
  induction T generalizing rest with
  | toss m hm n ih => exact fun c => ih c (h c) rest
  | eval m n ih => exact evaluate_legal fun b rest' => ih b (h b) rest'
  | point n ih => exact fun p => ih p (h p) rest
  | forge F => exact forge_legal h

theorem hashLift_legal {pf : Profile} {t0 : Nat} (P : HashPlayer G1 G2) (h : P.Legal) (t : Nat)
    (memo : List (Bytes × Signature G1 G2)) (rest : Table) : (P.lift pf pp t0 t memo rest).Legal := by
  induction P generalizing t memo rest with
  | toss m hm n ih => exact fun c => ih c (h c) t memo rest
  | eval m n ih => exact evaluate_legal fun b rest' => ih b (h b) t memo rest'
  | point n ih => exact fun p => ih p (h p) t memo rest
  | sign msg n ih =>
    simp only [HashPlayer.lift]
    rcases memo.lookup msg with _ | s
    · exact fun s => ih s (h s) _ _ _
    · exact ih _ (h _) _ _ _
  | update tar seed n ih =>
    simp only [HashPlayer.lift]
    split_ifs
    · exact ih h _ _ _
    · exact fun l s c => tailLift_legal _ (tail_legal n h _ _ _) _
    · exact ih h _ _ _
  | breakIn n ih => exact one_lt_order
  | forge F => exact forge_legal h

theorem tailLift_points {cs : UInt8} {t0 : Nat} (T : HashTail G1 G2) {k : Nat} (h : T.Points k)
    (rest : Table) : (T.lift cs t0 rest).Points k := by
  induction T generalizing rest k with
  | toss m hm n ih => exact fun c => ih c (h c) rest
  | eval m n ih => exact evaluate_points fun b rest' => ih b (h b) rest'
  | point n ih => exact ⟨h.1, fun p => ih p (h.2 p) rest⟩
  | forge F =>
    simp only [HashTail.lift]
    split_ifs <;> trivial

theorem hashLift_points {pf : Profile} {t0 : Nat} (P : HashPlayer G1 G2) {k : Nat} (h : P.Points k)
    (t : Nat) (memo : List (Bytes × Signature G1 G2)) (rest : Table) :
    (P.lift pf pp t0 t memo rest).Points k := by
  induction P generalizing t memo rest k with
  | toss m hm n ih => exact fun c => ih c (h c) t memo rest
  | eval m n ih => exact evaluate_points fun b rest' => ih b (h b) t memo rest'
  | point n ih => exact ⟨h.1, fun p => ih p (h.2 p) t memo rest⟩
  | sign msg n ih =>
    simp only [HashPlayer.lift]
    rcases memo.lookup msg with _ | s
    · exact fun s => ih s (h s) _ _ _
    · exact ih _ (h _) _ _ _
  | update tar seed n ih =>
    simp only [HashPlayer.lift]
    split_ifs
    · exact ih h _ _ _
    · exact fun l s c => tailLift_points _ (tail_points n h _ _ _) _
    · exact ih h _ _ _
  | breakIn n ih => trivial
  | forge F =>
    simp only [HashPlayer.lift]
    split_ifs <;> trivial

theorem tailLift_hashes {cs : UInt8} {t0 : Nat} (T : HashTail G1 G2) {k : Nat} (h : T.Evals k)
    (rest : Table) : (T.lift cs t0 rest).Hashes (k + 1) := by
  induction T generalizing rest k with
  | toss m hm n ih => exact fun c => ih c (h c) rest
  | eval m n ih =>
    have h1 := h.1
    exact evaluate_hashes (j := k) le_rfl fun b rest' => by
      have := ih b (h.2 b) rest'
      rwa [Nat.sub_add_cancel h1] at this
  | point n ih => exact fun p => ih p (h p) rest
  | forge F =>
    simp only [HashTail.lift]
    split_ifs
    · exact Nat.succ_pos k
    · exact Nat.succ_pos k

theorem hashLift_hashes {B : Nat} {pf : Profile} {t0 : Nat} (P : HashPlayer G1 G2) {q s u : Nat}
    (h : P.Within B q s u) {e : Nat} (he : q + 3 * s + u * (4 * pp.depth + 6) + 1 ≤ e)
    (t : Nat) (memo : List (Bytes × Signature G1 G2)) (rest : Table) :
    (P.lift pf pp t0 t memo rest).Hashes e := by
  induction P generalizing t memo rest q s u e with
  | toss m hm n ih => exact fun c => ih c (h c) he t memo rest
  | eval m n ih =>
    obtain ⟨_, h1, h2⟩ := h
    exact evaluate_hashes (j := e - 1) (by omega) fun b rest' => ih b (h2 b) (by omega) t memo rest'
  | point n ih => exact fun p => ih p (h p) he t memo rest
  | sign msg n ih =>
    obtain ⟨_, h1, h2⟩ := h
    simp only [HashPlayer.lift]
    rcases memo.lookup msg with _ | y
    · exact ⟨by omega, fun y => ih y (h2 y) (by omega) _ _ _⟩
    · exact ih _ (h2 _) (by omega) _ _ _
  | update tar seed n ih =>
    obtain ⟨_, h1, h2⟩ := h
    obtain ⟨v, rfl⟩ : ∃ v, u = v + 1 := ⟨u - 1, by omega⟩
    rw [Nat.add_sub_cancel] at h2
    rw [Nat.add_mul, Nat.one_mul] at he
    simp only [HashPlayer.lift]
    split_ifs
    · exact ih h2 (by omega) _ _ _
    · exact fun l y c => api_hashes_mono (tailLift_hashes _ (tail_evals n h2 _ _ _ le_rfl) _) (by omega)
    · exact ih h2 (by omega) _ _ _
  | breakIn n ih => exact (show 0 < e by omega)
  | forge F =>
    simp only [HashPlayer.lift]
    split_ifs
    · exact (show 0 < e by omega)
    · exact (show 0 < e by omega)

theorem hashBet_only {pf : Profile} {d t0 : Nat} (A : World G1 G2 → HashPlayer G1 G2)
    (W : World G1 G2) : (hashLift pf d t0 A W).only t0 = hashLift pf d t0 A W := by
  unfold hashLift
  split_ifs
  · exact hashLift_only _ _ _ _
  · exact ite_self _

theorem hashBet_legal {pf : Profile} {d t0 : Nat} {A : World G1 G2 → HashPlayer G1 G2}
    (W : World G1 G2) (h : (A W).Legal) : (hashLift pf d t0 A W).Legal := by
  unfold hashLift
  split_ifs
  · exact hashLift_legal _ h _ _ _
  · exact one_lt_order

theorem hashBet_points {pf : Profile} {d t0 : Nat} {A : World G1 G2 → HashPlayer G1 G2}
    (W : World G1 G2) {k : Nat} (h : (A W).Points k) : (hashLift pf d t0 A W).Points k := by
  unfold hashLift
  split_ifs
  · exact hashLift_points _ h _ _ _
  · trivial

theorem hashBet_hashes {B : Nat} {pf : Profile} {d t0 : Nat} {A : World G1 G2 → HashPlayer G1 G2}
    (W : World G1 G2) {q s u : Nat} (h : (A W).Within B q s u) :
    (hashLift pf d t0 A W).Hashes (hashUses d q s u) := by
  unfold hashLift
  split_ifs with hd
  · subst hd
    exact hashLift_hashes _ h le_rfl _ _ _
  · exact Nat.succ_pos _

/-! ## The reduction -/

theorem lazy_le_api [DecidableEq GT] {B : Nat} {d : Nat} {cs : UInt8}
    (pf : Profile) (A : World G1 G2 → HashPlayer G1 G2) {q s u : Nat}
    (hA : ∀ W, (A W).Within B q s u) {t0 : Nat} (h0 : 1 ≤ t0) :
    ((hashGame E pf g d cs A t0).idealQ []).lazy [] ≤
      apiForgeChance E pf g d cs (hashLift pf d t0 A) + ((s + u * d : ℕ) + 2) * (1 / 2 ^ 257) := by
  obtain ⟨k, hk⟩ : ∃ k, k = s + u * d := ⟨_, rfl⟩
  rw [← hk]
  simp only [hashGame, PrngProber.idealQ, Probe.lazy, probe_table_lazy, oracle_new]
  rw [avg_equiv (Fintype.equivFin (Secret d 0 → Fr)).symm fun a => avg fun D : Digest =>
    avg fun D' : Digest => (((A (worldOf E g cs (Function.update a .x D.field) [])).playQ E pf g t0
      D.field ⟨1, [D'.field], []⟩ (worldOf E g cs (Function.update a .x D.field) [])).idealQ []).lazy []]
  unfold apiForgeChance
  rw [← avg_update Secret.x fun a => avg fun r : Fr => (hashLift pf d t0 A
    (worldOf E g cs a [])).chance E pf g (a .x) (.new r) [] (worldOf E g cs a []), ← avg_add_const]
  refine avg_mono fun a => ?_
  have hstep : ∀ x r : Fr, (((A (worldOf E g cs (Function.update a .x x) [])).playQ E pf g t0
      x ⟨1, [r], []⟩ (worldOf E g cs (Function.update a .x x) [])).idealQ []).lazy [] ≤
      (hashLift pf d t0 A (worldOf E g cs (Function.update a .x x) [])).chance E pf g x
        (.new r) [] (worldOf E g cs (Function.update a .x x) []) + k * (1 / 2 ^ 257) := by
    intro x r
    have hdep : (worldOf E g cs (Function.update a .x x) []).pp.depth = d := rfl
    generalize worldOf E g cs (Function.update a .x x) [] = W at *
    unfold hashLift
    rw [if_pos hdep]
    exact playQ_lazy_le pf x (A W) (hA W) k (by rw [hdep, hk]) 1 h0 [r] [] [] []
      (fun _ h => h) [] [] [] [] [] (split_nil _) kept_nil W rfl
  have h1 : ∀ x : Fr, (avg fun D' : Digest => (((A (worldOf E g cs (Function.update a .x x) [])).playQ
      E pf g t0 x ⟨1, [D'.field], []⟩ (worldOf E g cs (Function.update a .x x) [])).idealQ []).lazy []) ≤
      (avg fun r : Fr => (hashLift pf d t0 A (worldOf E g cs (Function.update a .x x) [])).chance
        E pf g x (.new r) [] (worldOf E g cs (Function.update a .x x) [])) + (k + 1) * (1 / 2 ^ 257) := by
    intro x
    refine (avg_mono fun D' : Digest => hstep x D'.field).trans ?_
    rw [avg_add_const]
    have := avg_digest_le (f := fun r => (hashLift pf d t0 A
      (worldOf E g cs (Function.update a .x x) [])).chance E pf g x (.new r) []
        (worldOf E g cs (Function.update a .x x) []))
      (fun r => ApiPlayer.chance_nonneg pf x _ _ _ _) (fun r => ApiPlayer.chance_le_one pf x _ _ _ _)
    generalize (1 : ℚ) / 2 ^ 257 = δ at *
    linarith
  have h2 := avg_digest_of_le h1 (fun x => avg_nonneg fun r => ApiPlayer.chance_nonneg pf x _ _ _ _)
    (fun x => avg_le_one fun r => ApiPlayer.chance_le_one pf x _ _ _ _)
  simp only [Function.update_self]
  generalize (1 : ℚ) / 2 ^ 257 = δ at *
  linarith

/-- a bet on `t0` -/
theorem bet_le_ro [DecidableEq GT] (L : GroupLaws E) {d : Nat} {cs : UInt8}
    (hsub : E.inSub1 g = true) (hd : 0 < d) (hd' : d ≤ 63) (pf : Profile)
    (A : World G1 G2 → ApiPlayer G1 G2) {t0 : Nat} (h0 : ValidTime d t0)
    (hA : ∀ W, (A W).only t0 = A W) :
    apiForgeChance E pf g d cs A ≤ roForgeChance E pf g d cs (apiBet pf d t0 A) := by
  unfold apiForgeChance roForgeChance
  refine avg_mono fun a => ?_
  have WF : ParamWF E (worldOf E g cs a []).pp := viewOf_wf (E := E) (cs := cs) L hsub hd hd' (toVar a)
  have hpk : (worldOf E g cs a []).pk.ciphersuite = (worldOf E g cs a []).pp.ciphersuite := rfl
  have hnil : (worldOf E g cs a []).answers = [] := rfl
  have hdep : (worldOf E g cs a []).pp.depth = d := rfl
  generalize worldOf E g cs a [] = W at *
  have := only_le_bet (g := g) L pf (a .x) WF hnil hpk (t0 := t0) (by rw [hdep]; exact h0) (A W)
  rw [hdep] at this
  refine Eq.trans_le (avg_congr fun r => ?_) this
  rw [hA]

/-- what is lost by the generator and the seed -/
def hashLoss (d n q s u : Nat) : ℚ :=
  macLoss (hashUses d q s u) (prngUses d s u) +
    ((hashUses d q s u + 6 * prngUses d s u : ℕ) : ℚ) * seedLoss n +
    ((s + u * d : ℕ) + 2) * (1 / 2 ^ 257)

/-- the reduction, for one random function -/
theorem randomForgeChance_le [DecidableEq GT] (L : GroupLaws E) {d : Nat} {cs : UInt8}
    (hsup : Supported cs) (hsub : E.inSub1 g = true) (hd : 0 < d) (hd' : d ≤ 63) (pf : Profile)
    {n B : Nat} (hn : 32 ≤ n) (hB : 300 ≤ B) (hnB : 128 + n ≤ B)
    (A : World G1 G2 → HashPlayer G1 G2) (hA : ∀ W, (A W).Legal) {m : Nat}
    (hm : ∀ W, (A W).Points m) {q s u : Nat} (hw : ∀ W, (A W).Within B q s u) :
    randomForgeChance E pf g d cs n B A ≤
      ∑ t ∈ Finset.Icc 1 (2 ^ d - 1), (∑ i ∈ Finset.range (hashUses d q s u),
        (solveChance E g d (roReduction E cs d (path d t) i (apiBet pf d t (hashLift pf d t A))) +
          ((m + 1) / rOrder + (hashUses d q s u : ℕ) / 2 ^ 254)) + hashLoss d n q s u) := by
  unfold randomForgeChance
  refine (avg_mono fun ω : HashFun B => hash_le_games (HashFun.sha_length ω) L hsup hsub hd hd' pf hn
    A).trans ?_
  rw [avg_sum]
  refine Finset.sum_le_sum fun t ht => ?_
  have hv : ValidTime d t := Finset.mem_Icc.1 ht
  have hG := hashGame_within (E := E) (g := g) hB pf d cs A hw t
  have hsalt : (text "Pixel master key" ++ [cs]).length = 17 := by
    rw [List.length_append]
    have : (text "Pixel master key").length = 16 := by decide +kernel
    rw [this]
    rfl
  have h1 := seeded_random (n := n) (by omega) hnB (salt := text "Pixel master key" ++ [cs])
    (fun e => by rw [e] at hsalt; simp at hsalt) (by omega) (hashGame E pf g d cs A t)
    (game_bounded pf d cs A t) (hashGame_careful pf d cs A t) hG
  rw [avg_ideal _ hG] at h1
  have h2 := lazy_le_api (E := E) (g := g) (d := d) (cs := cs) pf A hw hv.1
  have h3 := bet_le_ro (cs := cs) L hsub hd hd' pf (hashLift pf d t A) hv fun W => hashBet_only _ W
  have h4 := roForgeChance_le (cs := cs) L hsub hd hd' pf (apiBet pf d t (hashLift pf d t A))
    (fun W => bet_legal pf _ (hashBet_legal W (hA W)) .start ⟨le_refl 1, hv.1.trans hv.2⟩)
    (fun W => bet_points pf _ m (hashBet_points W (hm W)) .start)
    (Q := hashUses d q s u)
    (fun W => bet_hashes pf _ _ (hashBet_hashes W (hw W)) .start) {t} (path d)
    (fun t' ht' => by
      rw [Finset.mem_singleton.1 ht']
      exact nodeAt_iff.2 ⟨hv, rfl⟩)
    (fun W => bet_aims pf _ .start)
  rw [Finset.sum_product, Finset.sum_singleton] at h4
  unfold hashLoss
  generalize (1 : ℚ) / 2 ^ 257 = δ at *
  generalize ((hashUses d q s u : ℕ) : ℚ) / 2 ^ 254 = z at *
  linarith

end Pixel
