import Verif.Spec.Script
import Verif.Proof.Crowd
import Verif.Props.Param

/-! # The game with the parameters of the script -/

namespace Pixel

open Spec Props

set_option linter.unusedSectionVars false

variable {G1 G2 GT : Type} [AddCommGroup G1] [AddCommGroup G2] [CommGroup GT] {N : Nat}

/-! ### fresh inputs -/

theorem avg_comp {ι κ α : Type} [Fintype ι] [Fintype κ] [DecidableEq ι] [DecidableEq κ] [Fintype α]
    [Nonempty α] {e : κ → ι} (he : Function.Injective e) (F : (κ → α) → ℚ) :
    (avg fun a : ι → α => F fun k => a (e k)) = avg F := by
  classical
  let e1 := (Equiv.piEquivPiSubtypeProd (fun i => i ∈ Set.range e) fun _ : ι => α).symm
  let e2 : (κ → α) ≃ ({i // i ∈ Set.range e} → α) :=
    Equiv.arrowCongr (Equiv.ofInjective e he) (Equiv.refl α)
  rw [← avg_equiv ((Equiv.prodCongr e2 (Equiv.refl ({i // ¬ i ∈ Set.range e} → α))).trans e1)]
  have : ∀ p : (κ → α) × ({i // ¬ i ∈ Set.range e} → α),
      (F fun k => ((Equiv.prodCongr e2 (Equiv.refl ({i // ¬ i ∈ Set.range e} → α))).trans e1) p (e k)) =
        F p.1 := by
    intro p
    congr 1
    funext k
    simp only [Equiv.trans_apply, Equiv.prodCongr_apply, e1, Equiv.piEquivPiSubtypeProd_symm_apply]
    rw [dif_pos (Set.mem_range_self k)]
    show e2 p.1 _ = _
    simp only [e2, Equiv.arrowCongr_apply, Function.comp_apply, Equiv.refl_apply]
    exact congrArg p.1 (Equiv.ofInjective_symm_apply he k)
  rw [avg_congr this, avg_prod fun (a : κ → α) (_ : {i // ¬ i ∈ Set.range e} → α) => F a]
  exact avg_congr fun a => avg_const _

theorem lookup_ofFn {m : Nat} {j : Fin m → Bytes × Bytes} (hj : Function.Injective j) (p : Fin m → G1)
    (k : Fin m) : (List.ofFn fun k => (j k, p k)).lookup (j k) = some (p k) := by
  induction m with
  | zero => exact k.elim0
  | succ m ih =>
    rw [List.ofFn_succ, List.lookup_cons]
    rcases Fin.eq_zero_or_eq_succ k with rfl | ⟨k', rfl⟩
    · simp
    · have : (j k'.succ == j 0) = false := by
        rw [beq_eq_false_iff_ne]
        exact fun h => Fin.succ_ne_zero k' (hj h)
      rw [this]
      exact ih (hj.comp (Fin.succ_injective m)) _ k'

theorem lookup_ofFn_none {m : Nat} {j : Fin m → Bytes × Bytes} (p : Fin m → G1) {i : Bytes × Bytes}
    (h : ∀ k, j k ≠ i) : (List.ofFn fun k => (j k, p k)).lookup i = none := by
  induction m with
  | zero => rfl
  | succ m ih =>
    rw [List.ofFn_succ, List.lookup_cons]
    have : (i == j 0) = false := by
      rw [beq_eq_false_iff_ne]
      exact fun e => h 0 e.symm
    rw [this]
    exact ih _ fun k => h _

/-- new inputs get independent uniform points -/
theorem curveOracles_fresh {g : G1} {m : Nat} {j : Fin m → Bytes × Bytes} (hj : Function.Injective j)
    {pts : Curve G1} (hp : ∀ k, pts.lookup (j k) = none) (f : Curve G1 → ℚ) :
    curveOracles g (List.ofFn j) pts f =
      avg fun a : Fin m → Fr => f (pts ++ List.ofFn fun k => (j k, (a k).val • g)) := by
  induction m generalizing pts with
  | zero =>
    simp only [List.ofFn_zero, curveOracles, List.append_nil]
    exact (avg_const (α := Fin 0 → Fr) _).symm
  | succ m ih =>
    rw [List.ofFn_succ]
    simp only [curveOracles]
    unfold curveOracle
    rw [hp 0]
    have h1 : ∀ r : Fr, curveOracles g (List.ofFn fun k : Fin m => j k.succ)
        (pts ++ [(j 0, r.val • g)]) f = avg fun a : Fin m → Fr =>
          f (pts ++ [(j 0, r.val • g)] ++ List.ofFn fun k => (j k.succ, (a k).val • g)) := by
      intro r
      refine ih (hj.comp (Fin.succ_injective m)) fun k => ?_
      exact (lookup_add_ne (fun h => Fin.succ_ne_zero k (hj h)) _).trans (hp _)
    simp only [h1]
    rw [← avg_prod, ← avg_equiv (Fin.consEquiv fun _ : Fin (m + 1) => Fr)]
    refine avg_congr fun p => ?_
    rw [List.ofFn_succ, List.append_assoc]
    rfl

/-! ### known points -/

theorem lookup_known {known pts : Curve G1} {i : Bytes × Bytes} (h : known.lookup i = none) :
    (known ++ pts).lookup i = pts.lookup i := by
  rw [List.lookup_append, h, Option.none_or]

theorem curveOracle_known {g : G1} {known pts : Curve G1} {i : Bytes × Bytes}
    (h : known.lookup i = none) (f : G1 → Curve G1 → ℚ) :
    curveOracle g (known ++ pts) i f = curveOracle g pts i fun p pts' => f p (known ++ pts') := by
  unfold curveOracle
  rw [lookup_known h]
  rcases pts.lookup i with _ | p
  · exact avg_congr fun r => by rw [List.append_assoc]
  · rfl

theorem curveOracles_known {g : G1} {known : Curve G1} (is : List (Bytes × Bytes)) {pts : Curve G1}
    (h : ∀ i ∈ is, known.lookup i = none) (f : Curve G1 → ℚ) :
    curveOracles g is (known ++ pts) f = curveOracles g is pts fun pts' => f (known ++ pts') := by
  induction is generalizing pts with
  | nil => rfl
  | cons i is ih =>
    simp only [curveOracles]
    rw [curveOracle_known (h i (by simp))]
    exact curveOracle_congr fun p q => ih fun i hi => h i (by simp [hi])

theorem hash_known {known pts : Curve G1} {i : Bytes × Bytes} (h : known.lookup i = none) :
    (known ++ pts).hash i.1 i.2 = pts.hash i.1 i.2 := by
  unfold Curve.hash
  rw [lookup_known h]

theorem validate_hash [DecidableEq GT] {E : Ext G1 G2 GT} {sha : Bytes → Bytes}
    {f f' : Bytes → Bytes → G1} {pk : PublicKey G2}
    (h : f (popInput E pk).1 (popInput E pk).2 = f' (popInput E pk).1 (popInput E pk).2)
    (pop : ProofOfPossession G1) :
    PublicKey.validate { E with sha512 := sha, hashToG1 := f } pk pop =
      PublicKey.validate { E with sha512 := sha, hashToG1 := f' } pk pop := by
  unfold popInput at h
  rw [← text_pop] at h
  unfold PublicKey.validate blsCoreVerify
  simp only [h]

theorem wins_hash [DecidableEq GT] {E : Ext G1 G2 GT} {sha : Bytes → Bytes} {f f' : Bytes → Bytes → G1}
    (h : ∀ pk, f (popInput E pk).1 (popInput E pk).2 = f' (popInput E pk).1 (popInput E pk).2)
    {pf : Profile} {pp : PubParam G1 G2} {pk : PublicKey G2} {S : CodeSigner G1 G2} {F : ByteClaim} :
    F.Wins { E with sha512 := sha, hashToG1 := f } pf pp pk S ↔
      F.Wins { E with sha512 := sha, hashToG1 := f' } pf pp pk S := by
  have hv := fun k : PublicKey G2 × ProofOfPossession G1 => validate_hash (sha := sha) (h k.1) k.2
  constructor
  · rintro ⟨sig, ks, ⟨h1, h2, h3, h4⟩, h5⟩
    exact ⟨sig, ks, ⟨h1, h2, fun k hk => (hv k).symm.trans (h3 k hk), h4⟩, h5⟩
  · rintro ⟨sig, ks, ⟨h1, h2, h3, h4⟩, h5⟩
    exact ⟨sig, ks, ⟨h1, h2, fun k hk => (hv k).trans (h3 k hk), h4⟩, h5⟩

theorem knowing_chance [DecidableEq GT] {E : Ext G1 G2 GT} {pf : Profile} {g : G1}
    {pp : PubParam G1 G2} {pk : Fin N → PublicKey G2} {known : Curve G1}
    (hk : ∀ pk, known.lookup (popInput E pk) = none) (P : CrowdPlayer G1 G2 N)
    (S : Fin N → CodeSigner G1 G2) (tab : Table) (pts : Curve G1) :
    P.chance E pf g pp pk S tab (known ++ pts) = (P.knowing known).chance E pf g pp pk S tab pts := by
  induction P generalizing S tab pts with
  | toss n hn next ih => exact avg_congr fun c => ih c S tab pts
  | hash msg next ih => exact oracle_congr fun D tab' => ih _ S tab' pts
  | curve q next ih =>
    simp only [CrowdPlayer.knowing]
    rcases hq : known.lookup q with _ | p
    · simp only [CrowdPlayer.chance]
      rw [curveOracle_known hq]
      exact curveOracle_congr fun p pts' => ih p S tab pts'
    · simp only [CrowdPlayer.chance]
      unfold curveOracle
      rw [lookup_append_some hq]
      exact ih p S tab pts
  | sign j msg next ih =>
    simp only [CrowdPlayer.knowing, CrowdPlayer.chance]
    refine oracle_congr fun D tab' => ?_
    rcases signHashed E.sha512 pf pp (S j).sk msg D.field with s | e | e
    · exact ih s _ tab' pts
    · rfl
    · rfl
  | update j tar seed next ih =>
    simp only [CrowdPlayer.knowing, CrowdPlayer.chance]
    rcases SecretKey.update E.sha512 pf pp tar seed (S j).sk with ⟨⟨⟩ | e | e, sk⟩
    · exact ih _ tab pts
    · exact ih _ tab pts
    · rfl
  | breakIn j next ih => exact ih _ _ tab pts
  | forge F =>
    simp only [CrowdPlayer.knowing, CrowdPlayer.chance]
    rw [curveOracles_known]
    · refine congrArg _ (funext fun q => oracle_congr fun D tab' => ?_)
      have hw : ∀ i, F.Wins { E with sha512 := fun _ => D.bytes, hashToG1 := (known ++ q).hash } pf pp
          (pk i) (S i) ↔ F.Wins { E with sha512 := fun _ => D.bytes, hashToG1 := q.hash } pf pp
          (pk i) (S i) := fun i => wins_hash fun k => hash_known (hk k)
      have hw := exists_congr hw
      by_cases h : ∃ i, F.Wins { E with sha512 := fun _ => D.bytes, hashToG1 := q.hash } pf pp
          (pk i) (S i)
      · rw [if_pos (hw.2 h), if_pos h]
      · rw [if_neg (mt hw.1 h), if_neg h]
    · intro i hi
      obtain ⟨s, _, hs⟩ := List.mem_filterMap.1 hi
      obtain ⟨k, _, rfl⟩ := Option.map_eq_some_iff.1 hs
      exact hk k

/-! ### the parameters -/

/-- the inputs by number -/
def paramInput (sha : Bytes → Bytes) (seed : Bytes) (cs : UInt8) (d : Nat) (k : Fin (d + 2)) :
    Bytes × Bytes :=
  (paramString sha seed (Fin.cases (text "H2G_h") (fun i => text "H2G_h" ++ [UInt8.ofNat i.val]) k),
    [cs])

theorem paramInputs_ofFn (sha : Bytes → Bytes) (seed : Bytes) (cs : UInt8) (d : Nat) :
    paramInputs sha seed cs d = List.ofFn (paramInput sha seed cs d) := by
  unfold paramInputs paramStrings paramInfos
  rw [List.ofFn_succ, List.map_cons, List.map_cons]
  congr 1
  refine List.ext_getElem (by simp) fun i h1 h2 => ?_
  simp only [List.getElem_map, List.getElem_range, List.getElem_ofFn]
  rfl

theorem paramInput_injective {sha : Bytes → Bytes} {seed : Bytes} {d : Nat} (cs : UInt8)
    (hn : (paramStrings sha seed d).Nodup) : Function.Injective (paramInput sha seed cs d) := by
  rw [← List.nodup_ofFn, ← paramInputs_ofFn]
  exact hn.map fun a b h => (Prod.mk.inj h).1

/-- the components of the exponents in order -/
def paramSecret (d : Nat) : Fin (d + 2) → Secret d 0 := Fin.cases .h fun i => .gen i

theorem paramSecret_injective (d : Nat) : Function.Injective (paramSecret d) := by
  intro i j h
  rcases Fin.eq_zero_or_eq_succ i with rfl | ⟨i, rfl⟩ <;>
    rcases Fin.eq_zero_or_eq_succ j with rfl | ⟨j, rfl⟩
  · rfl
  · cases h
  · cases h
  · exact congrArg Fin.succ (Secret.gen.inj h)

theorem paramTable_game (E : Ext G1 G2 GT) (g : G1) (cs : UInt8) {d : Nat} (sha : Bytes → Bytes)
    (seed : Bytes) (a : Secret d 0 → Fr) :
    paramTable sha seed (gameParam E g cs a) =
      List.ofFn fun k => (paramInput sha seed cs d k, (a (paramSecret d k)).val • g) := by
  have e : (gameParam E g cs a).h :: (gameParam E g cs a).hlist =
      List.ofFn fun k => (a (paramSecret d k)).val • g := by
    rw [List.ofFn_succ]
    rfl
  unfold paramTable
  rw [e]
  show (paramInputs sha seed cs d).zip _ = _
  rw [paramInputs_ofFn]
  refine List.ext_getElem (by simp) fun i h1 h2 => ?_
  simp only [List.getElem_zip, List.getElem_ofFn]

theorem paramTable_pop {E : Ext G1 G2 GT} (H : HashLaws E) (C : CodecLaws E) (g : G1) (cs : UInt8)
    {d : Nat} (seed : Bytes) (a : Secret d 0 → Fr) (pk : PublicKey G2) :
    (paramTable E.sha512 seed (gameParam E g cs a)).lookup (popInput E pk) = none := by
  rw [paramTable_game]
  refine lookup_ofFn_none _ fun k h => ?_
  have h1 := congrArg (fun i : Bytes × Bytes => i.1.length) h
  have h2 : (text "Pixel public key POP").length = 20 := by decide +kernel
  simp only [paramInput, paramString, popInput, List.length_take, List.length_append, h2,
    C.enc2_len, hmac_length H.sha_len, if_true] at h1
  omega

theorem paramGen_table {E : Ext G1 G2 GT} (g : G1) (cs : UInt8) {d : Nat} (hd : d < 256) {seed : Bytes}
    (hn : (paramStrings E.sha512 seed d).Nodup) (a : Secret d 0 → Fr) :
    Py.paramGen { E with hashToG1 := (paramTable E.sha512 seed (gameParam E g cs a)).hash } seed cs d =
      .ok (gameParam E g cs a) := by
  obtain ⟨pp, h1, h2⟩ := (C65_generation
    { E with hashToG1 := (paramTable E.sha512 seed (gameParam E g cs a)).hash } seed cs d).1 hd
  rw [h1]
  congr 1
  have h3 := h2.elements
  have e : paramElements
      { E with hashToG1 := (paramTable E.sha512 seed (gameParam E g cs a)).hash } seed cs d =
      (gameParam E g cs a).h :: (gameParam E g cs a).hlist := by
    have e1 : (gameParam E g cs a).h :: (gameParam E g cs a).hlist =
        List.ofFn fun k => (a (paramSecret d k)).val • g := by
      rw [List.ofFn_succ]
      rfl
    have e2 : paramElements
        { E with hashToG1 := (paramTable E.sha512 seed (gameParam E g cs a)).hash } seed cs d =
        (paramInputs E.sha512 seed cs d).map fun i =>
          (paramTable E.sha512 seed (gameParam E g cs a)).hash i.1 i.2 := by
      unfold paramElements paramInputs paramStrings
      rw [List.map_map, List.map_map]
      rfl
    rw [e1, e2, paramInputs_ofFn, List.map_ofFn]
    congr 1
    funext k
    simp only [Function.comp_apply]
    unfold Curve.hash
    rw [paramTable_game]
    exact (congrArg (Option.getD · 0) (lookup_ofFn (paramInput_injective cs hn) _ k)).trans rfl
  rw [e] at h3
  obtain ⟨h4, h5⟩ := List.cons.inj h3
  obtain ⟨p1, p2, p3, p4, p5⟩ := pp
  have h6 := h2.depth
  have h7 := h2.suite
  have h8 := h2.gen
  simp only at h4 h5 h6 h7 h8
  subst h4 h5 h6 h7 h8
  rfl

/-- the game with the parameters of the script is the game with random parameters -/
theorem script_eq [DecidableEq GT] {E : Ext G1 G2 GT} (H : HashLaws E) (L : GroupLaws E)
    (C : CodecLaws E) (pf : Profile) {g : G1} (hsub : E.inSub1 g = true) {seed : Bytes} {d : Nat}
    (hd : 1 ≤ d) (hd' : d ≤ 63) (hn : (paramStrings E.sha512 seed d).Nodup) {cs : UInt8}
    (hsup : Supported cs) {n : Nat} (hl : 32 ≤ n)
    (A : PubParam G1 G2 → (Fin N → PublicKey G2) → (Fin N → ProofOfPossession G1) →
      CrowdPlayer G1 G2 N) :
    scriptForgeChance E pf g seed d cs n N A =
      crowdForgeChance E pf g d cs n N (scriptLower E.sha512 seed A) := by
  unfold scriptForgeChance
  rw [paramInputs_ofFn, curveOracles_fresh (paramInput_injective cs hn) fun k => rfl]
  refine (avg_comp (paramSecret_injective d) _).symm.trans ?_
  unfold crowdForgeChance
  refine avg_congr fun a => ?_
  rw [List.nil_append, ← paramTable_game E, paramGen_table g cs (by omega) hn a]
  simp only
  have hk := paramTable_pop H C g cs seed a
  have WF : ParamWF E (gameParam E g cs a) := viewOf_wf (E := E) (cs := cs) L hsub hd hd' (toVar a)
  have hcs : (gameParam E g cs a).ciphersuite = cs := rfl
  unfold scriptLower
  generalize paramTable E.sha512 seed (gameParam E g cs a) = known at hk ⊢
  generalize gameParam E g cs a = pp at WF hcs hk ⊢
  subst hcs
  refine avg_congr fun s => ?_
  by_cases hb : ∀ i, ∃ b, keygen E (Seed.bytes (s i)) pp = .ok b
  · have h0 := fun f => curveOracles_known (g := g) (known := known) (pts := [])
      (List.ofFn fun i => popInput E (born E pp (Seed.bytes (s i))).1) (by
        intro i hi
        obtain ⟨j, rfl⟩ := List.mem_ofFn.1 hi
        exact hk _) f
    rw [List.append_nil] at h0
    rw [if_pos hb, if_pos hb, h0]
    · refine congrArg _ (funext fun q => ?_)
      have hbs : ∀ i, born { E with hashToG1 := (known ++ q).hash } pp (Seed.bytes (s i)) =
          born { E with hashToG1 := q.hash } pp (Seed.bytes (s i)) := by
        intro i
        obtain ⟨x, sk, hx⟩ := keygen_any H WF.toParamShape WF.g2_gen (seed := Seed.bytes (s i))
          (by unfold Seed.bytes; rw [natToBE_length]; exact hl) hsup
        rw [born_eq (hx _), born_eq (hx _), hash_known (hk _)]
      simp only [hbs]
      exact knowing_chance hk _ _ _ _
  · rw [if_neg hb, if_neg hb]

/-! ### what the adversary does -/

theorem knowing_legal (known : Curve G1) (P : CrowdPlayer G1 G2 N) (h : P.Legal) :
    (P.knowing known).Legal := by
  induction P with
  | toss n hn next ih => exact fun c => ih c (h c)
  | hash msg next ih => exact fun b => ih b (h b)
  | curve q next ih =>
    simp only [CrowdPlayer.knowing]
    rcases known.lookup q with _ | p
    · exact fun p => ih p (h p)
    · exact ih p (h p)
  | sign j msg next ih => exact fun s => ih s (h s)
  | update j tar seed next ih => exact ih h
  | breakIn j next ih => exact fun sk => ih sk (h sk)
  | forge F => exact h

theorem points_le {P : CrowdPlayer G1 G2 N} {k k' : Nat} (h : P.Points k) (hk : k ≤ k') :
    P.Points k' := by
  induction P generalizing k k' with
  | toss n hn next ih => exact fun c => ih c (h c) hk
  | hash msg next ih => exact fun b => ih b (h b) hk
  | curve q next ih => exact ⟨Nat.lt_of_lt_of_le h.1 hk, fun p => ih p (h.2 p) (by omega)⟩
  | sign j msg next ih => exact fun s => ih s (h s) hk
  | update j tar seed next ih => exact ih h hk
  | breakIn j next ih => exact fun sk => ih sk (h sk) hk
  | forge F => exact Nat.le_trans h hk

theorem knowing_points (known : Curve G1) (P : CrowdPlayer G1 G2 N) {k : Nat} (h : P.Points k) :
    (P.knowing known).Points k := by
  induction P generalizing k with
  | toss n hn next ih => exact fun c => ih c (h c)
  | hash msg next ih => exact fun b => ih b (h b)
  | curve q next ih =>
    simp only [CrowdPlayer.knowing]
    rcases known.lookup q with _ | p
    · exact ⟨h.1, fun p => ih p (h.2 p)⟩
    · exact points_le (ih p (h.2 p)) (by omega)
  | sign j msg next ih => exact fun s => ih s (h s)
  | update j tar seed next ih => exact ih h
  | breakIn j next ih => exact fun sk => ih sk (h sk)
  | forge F => exact h

theorem knowing_hashes (known : Curve G1) (P : CrowdPlayer G1 G2 N) {k : Nat} (h : P.Hashes k) :
    (P.knowing known).Hashes k := by
  induction P generalizing k with
  | toss n hn next ih => exact fun c => ih c (h c)
  | hash msg next ih => exact ⟨h.1, fun b => ih b (h.2 b)⟩
  | curve q next ih =>
    simp only [CrowdPlayer.knowing]
    rcases known.lookup q with _ | p
    · exact fun p => ih p (h p)
    · exact ih p (h p)
  | sign j msg next ih => exact ⟨h.1, fun s => ih s (h.2 s)⟩
  | update j tar seed next ih => exact ih h
  | breakIn j next ih => exact fun sk => ih sk (h sk)
  | forge F => exact h

theorem knowing_updates (known : Curve G1) (i : Fin N) (P : CrowdPlayer G1 G2 N) {k : Nat}
    (h : P.Updates i k) : (P.knowing known).Updates i k := by
  induction P generalizing k with
  | toss n hn next ih => exact fun c => ih c (h c)
  | hash msg next ih => exact fun b => ih b (h b)
  | curve q next ih =>
    simp only [CrowdPlayer.knowing]
    rcases known.lookup q with _ | p
    · exact fun p => ih p (h p)
    · exact ih p (h p)
  | sign j msg next ih => exact fun s => ih s (h s)
  | update j tar seed next ih =>
    simp only [CrowdPlayer.knowing, CrowdPlayer.Updates] at h ⊢
    by_cases hj : j = i
    · rw [if_pos hj] at h ⊢
      exact ⟨h.1, ih h.2⟩
    · rw [if_neg hj] at h ⊢
      exact ih h
  | breakIn j next ih => exact fun sk => ih sk (h sk)
  | forge F => exact h

theorem knowing_scalars (known : Curve G1) (i : Fin N) (d : Nat) (P : CrowdPlayer G1 G2 N) {k : Nat}
    (h : P.Scalars i d k) : (P.knowing known).Scalars i d k := by
  induction P generalizing k with
  | toss n hn next ih => exact fun c => ih c (h c)
  | hash msg next ih => exact fun b => ih b (h b)
  | curve q next ih =>
    simp only [CrowdPlayer.knowing]
    rcases known.lookup q with _ | p
    · exact fun p => ih p (h p)
    · exact ih p (h p)
  | sign j msg next ih =>
    simp only [CrowdPlayer.knowing, CrowdPlayer.Scalars] at h ⊢
    by_cases hj : j = i
    · rw [if_pos hj] at h ⊢
      exact ⟨h.1, fun s => ih s (h.2 s)⟩
    · rw [if_neg hj] at h ⊢
      exact fun s => ih s (h s)
  | update j tar seed next ih =>
    simp only [CrowdPlayer.knowing, CrowdPlayer.Scalars] at h ⊢
    by_cases hj : j = i
    · rw [if_pos hj] at h ⊢
      exact ⟨h.1, ih h.2⟩
    · rw [if_neg hj] at h ⊢
      exact ih h
  | breakIn j next ih => exact fun sk => ih sk (h sk)
  | forge F => exact h

end Pixel
