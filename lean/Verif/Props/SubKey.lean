import Verif.Proof.SubKeyOps
import Verif.Toy

/-!
# Properties C07–C11: sub secret keys

Vocabulary: `Verif/Spec/Tree.lean`, `Verif/Spec/Key.lean`; assumptions: `Verif/Spec/Laws.lean`.
-/

namespace Pixel.Props

open Pixel Pixel.Spec

set_option linter.unusedSectionVars false

variable {G1 G2 GT : Type} [AddCommGroup G1] [AddCommGroup G2] [CommGroup GT]

/-! ## C07 -/

/-- C07: on the sub key of node `v`, `delegate` succeeds exactly for proper descendants, and never
panics. -/
theorem C07_delegate_iff_descendant (pf : Profile) {pp : PubParam G1 G2} (S : ParamShape pp)
    {alpha : G1} {v : List Nat} {rho : Nat} {s : SubSecretKey G1 G2}
    (h : SubKeyFor pp alpha v rho s) (tar : Nat) :
    ((SubSecretKey.delegate pf tar pp.depth s).1.isOk = true ↔
      ∃ u, NodeAt pp.depth tar u ∧ ProperAncestor v u) ∧
    (SubSecretKey.delegate pf tar pp.depth s).1.isPanic = false := by
  by_cases hex : ∃ u, NodeAt pp.depth tar u ∧ ProperAncestor v u
  · obtain ⟨u, hu, w, hne, rfl⟩ := hex
    have := h.delegate_eq S pf (nodeAt_isNode hu) hne
    rw [nodeAt_num_eq hu] at this
    rw [this]
    exact ⟨⟨fun _ => ⟨_, hu, w, hne, rfl⟩, fun _ => rfl⟩, rfl⟩
  · obtain ⟨e, he, _⟩ := SubSecretKey.delegate_bad (pf := pf) (tar := tar) (s := s) S.depth_le (by
      rintro ⟨v', w, hv', hw, hne⟩
      have : v' = v := by
        have h1 := (nodeAt_iff.1 hv').2
        have h2 := (nodeAt_iff.1 h.node).2
        rw [h1, h2]
      subst this
      exact hex ⟨_, hw, w, hne, rfl⟩)
    rw [he]
    exact ⟨⟨fun h => (by cases h), fun h => absurd h hex⟩, rfl⟩

/-- C07: the result is the sub key of the target node, with the same master secret and the same
randomness. -/
theorem C07_delegate_result (pf : Profile) {pp : PubParam G1 G2} (S : ParamShape pp)
    {alpha : G1} {v : List Nat} {rho : Nat} {s s' : SubSecretKey G1 G2}
    (h : SubKeyFor pp alpha v rho s) {tar : Nat}
    (hs : SubSecretKey.delegate pf tar pp.depth s = (.ok (), s')) :
    s'.time = tar ∧ ∃ u, ProperAncestor v u ∧ SubKeyFor pp alpha u rho s' := by
  obtain ⟨v', w, hv', hw, hne, _, rfl⟩ := (SubSecretKey.delegate_ok_iff S.depth_le).1 hs
  have : v' = v := by
    have h1 := (nodeAt_iff.1 hv').2
    have h2 := (nodeAt_iff.1 h.node).2
    rw [h1, h2]
  subst this
  have := h.delegated S (nodeAt_isNode hw)
  rw [nodeAt_num_eq hw] at this
  exact ⟨rfl, _, ⟨w, hne, rfl⟩, this⟩

/-- C07: for any sub key at all (malformed ones included), an error leaves it unchanged, and the
error is the no-prefix error exactly when both time stamps are valid. -/
theorem C07_delegate_error_atomic (pf : Profile) {d tar : Nat} (hd : d ≤ 63)
    {s s' : SubSecretKey G1 G2} {e : Err}
    (h : SubSecretKey.delegate pf tar d s = (.err e, s')) :
    s' = s ∧ (¬ ∃ v u, NodeAt d s.time v ∧ NodeAt d tar u ∧ ProperAncestor v u) ∧
      (e = .timeNonePrefix ↔ ValidTime d s.time ∧ ValidTime d tar) := by
  obtain ⟨h1, h2, h3⟩ := SubSecretKey.delegate_err hd h
  refine ⟨h1, ?_, h3⟩
  rintro ⟨v, u, hv, hu, w, hne, rfl⟩
  exact h2 ⟨v, w, hv, hu, hne⟩

/-! ## C08 -/

/-- C08: delegating in two steps is delegating in one step; for any sub key, honest or not. -/
theorem C08_delegate_trans (pf : Profile) {d t1 t2 : Nat} (hd : d ≤ 63)
    {s s1 s2 : SubSecretKey G1 G2}
    (h1 : SubSecretKey.delegate pf t1 d s = (.ok (), s1))
    (h2 : SubSecretKey.delegate pf t2 d s1 = (.ok (), s2)) :
    SubSecretKey.delegate pf t2 d s = (.ok (), s2) := by
  obtain ⟨v, w, hv, hw, hne, hl, rfl⟩ := (SubSecretKey.delegate_ok_iff hd).1 h1
  obtain ⟨v', w', hv', hw', hne', hl', rfl⟩ := (SubSecretKey.delegate_ok_iff hd).1 h2
  have hvv : v' = v ++ w := by
    have e1 := (nodeAt_iff.1 hv').2
    have e2 := (nodeAt_iff.1 hw).2
    rw [e1, e2]; rfl
  subst hvv
  simp only [SubSecretKey.delegated, List.length_drop] at hl'
  refine (SubSecretKey.delegate_ok_iff hd).2 ⟨v, w ++ w', hv, by rwa [← List.append_assoc], ?_, ?_,
    ?_⟩
  · simp [hne]
  · rw [List.length_append]; omega
  · simp only [SubSecretKey.delegated]
    rw [wsum_append _ _ _ hl, List.length_append, List.drop_drop, add_assoc]

/-! ## C09 -/

/-- C09: `init` is re-randomisation of the trivial key. -/
theorem C09_init_is_randomization (pf : Profile) {pp : PubParam G1 G2} (S : ParamShape pp)
    (alpha : G1) (r : Fr) :
    ∃ s, SubSecretKey.init pp alpha r = .ok s ∧
      SubSecretKey.initFromRandomization pf pp alpha r = .ok s := by
  obtain ⟨s, h1, h2⟩ := SubSecretKey.init_for S alpha r
  refine ⟨s, h1, ?_⟩
  have h3 : SubKeyFor pp alpha [] 0
      { time := 1, g2r := 0, hpoly := alpha, hvector := List.replicate pp.depth 0 } := by
    refine ⟨?_, by simp, by simp, ?_⟩
    · have := nodeAt_num (d := pp.depth) (v := []) (isNode_nil.2 (by have := S.depth_pos; omega))
      rwa [num_nil] at this
    · simp [S.hlist_len]
  have h4 := h3.rerand r.val
  rw [Nat.zero_add] at h4
  have h5 := h3.randomization_eq S pf r
  simp only [SubSecretKey.initFromRandomization, SM.exec]
  rw [h5]
  simp only [Res.ok_bind]
  rw [h4.unique h2]

/-- C09: re-randomising with `r` and then with `s` is re-randomising with `r + s` (in the field),
for any sub key with a valid time stamp and not too many elements. -/
theorem C09_randomization_add {E : Ext G1 G2 GT} (L : GroupLaws E) (pf : Profile)
    {pp : PubParam G1 G2} (W : ParamWF E pp) {k : SubSecretKey G1 G2} {v : List Nat}
    (hv : NodeAt pp.depth k.time v) (hl : v.length + k.hvector.length ≤ pp.depth) (r s : Fr) :
    (SubSecretKey.randomization pf pp r >>= fun _ => SubSecretKey.randomization pf pp s) k =
      SubSecretKey.randomization pf pp (r + s) k := by
  have hn := nodeAt_isNode hv
  have ht := (nodeAt_num_eq hv).symm
  have hlen : v.length + 1 + k.hvector.length ≤ pp.hlist.length := by rw [W.hlist_len]; omega
  rw [SM.bind_run_ok (SubSecretKey.randomization_eq W.depth_le hn ht hlen r),
    SubSecretKey.randomization_eq (s := k.rerand pp v r.val) W.depth_le hn ht (by
      simp only [SubSecretKey.rerand, List.length_zipWith]; omega) s,
    SubSecretKey.randomization_eq W.depth_le hn ht hlen (r + s)]
  congr 1
  have e2 : ∀ a : G2, E.inSub2 a = true → (r + s).val • a = r.val • a + s.val • a :=
    fun a ha => mulFr_add (L.sub2_order a ha) r s
  have e1 : ∀ a : G1, E.inSub1 a = true → (r + s).val • a = r.val • a + s.val • a :=
    fun a ha => mulFr_add (L.sub1_order a ha) r s
  simp only [SubSecretKey.rerand, SubSecretKey.mk.injEq, true_and]
  refine ⟨?_, ?_, ?_⟩
  · rw [e2 _ (by rw [W.g2_gen]; exact L.gen2_sub), add_assoc]
  · rw [e1 _ (L.sub1_nodePoint W v), add_assoc]
  · have hsub : ∀ a ∈ pp.hlist.drop (v.length + 1), E.inSub1 a = true :=
      fun a ha => W.hlist_sub a (List.mem_of_mem_drop ha)
    generalize pp.hlist.drop (v.length + 1) = hs at hsub
    generalize k.hvector = as
    induction as generalizing hs with
    | nil => simp
    | cons a as ih =>
      cases hs with
      | nil => simp
      | cons b hs =>
        simp only [List.zipWith_cons_cons]
        rw [ih hs (fun c hc => hsub c (by simp [hc])), e1 b (hsub b (by simp)), add_assoc]

/-- C09: re-randomisation and delegation commute, for any sub key on which both are defined. -/
theorem C09_randomization_delegate_comm (pf : Profile) {pp : PubParam G1 G2} (S : ParamShape pp)
    {k : SubSecretKey G1 G2} {v w : List Nat} {tar : Nat}
    (hv : NodeAt pp.depth k.time v) (hw : NodeAt pp.depth tar (v ++ w)) (hne : w ≠ [])
    (hl : v.length + k.hvector.length ≤ pp.depth) (hl' : w.length ≤ k.hvector.length) (r : Fr) :
    (SubSecretKey.randomization pf pp r >>= fun _ => SubSecretKey.delegate pf tar pp.depth) k =
      (SubSecretKey.delegate pf tar pp.depth >>= fun _ => SubSecretKey.randomization pf pp r) k ∧
    ((SubSecretKey.randomization pf pp r >>= fun _ =>
      SubSecretKey.delegate pf tar pp.depth) k).1 = .ok () := by
  have hn := nodeAt_isNode hv
  have hnw := nodeAt_isNode hw
  have ht := (nodeAt_num_eq hv).symm
  have htar := nodeAt_num_eq hw
  subst htar
  have hlen : v.length + 1 + k.hvector.length ≤ pp.hlist.length := by rw [S.hlist_len]; omega
  rw [SM.bind_run_ok (SubSecretKey.randomization_eq S.depth_le hn ht hlen r),
    SubSecretKey.delegate_eq (s := k.rerand pp v r.val) S.depth_le hn hnw hne ht (by
      simp only [SubSecretKey.rerand, List.length_zipWith, List.length_drop]; omega),
    SM.bind_run_ok (SubSecretKey.delegate_eq S.depth_le hn hnw hne ht hl'),
    SubSecretKey.randomization_eq (s := k.delegated (num pp.depth (v ++ w)) w) S.depth_le hnw rfl
      (by
      simp only [SubSecretKey.delegated, List.length_drop, List.length_append]; omega)]
  refine ⟨?_, rfl⟩
  congr 1
  have hz : List.zipWith (fun a h => a + r.val • h) k.hvector (pp.hlist.drop (v.length + 1)) =
      List.zipWith (· + ·) k.hvector ((pp.hlist.drop (v.length + 1)).map (fun h => r.val • h)) := by
    rw [List.zipWith_map_right]
  simp only [SubSecretKey.rerand, SubSecretKey.delegated, SubSecretKey.mk.injEq, true_and]
  refine ⟨?_, ?_⟩
  · rw [hz, wsum_zipAdd _ _ _ hl' (by simp; omega), wsum_map_smul,
      nodePoint_append _ _ _ (by omega), smul_add]
    abel
  · rw [List.drop_zipWith, List.drop_drop, List.length_append]
    congr 2
    omega

/-! ## C10 -/

/-- everything derived with the API has the shape of an honest sub key -/
theorem derived_shape (pf : Profile) {pp : PubParam G1 G2} (S : ParamShape pp) {alpha : G1}
    {s : SubSecretKey G1 G2} (h : Derived pf pp alpha s) :
    ∃ v rho, SubKeyFor pp alpha v rho s := by
  induction h with
  | root h =>
    obtain ⟨s', h1, h2⟩ := SubSecretKey.init_for S alpha _
    rw [h1] at h
    cases h
    exact ⟨_, _, h2⟩
  | delegate _ h' ih =>
    obtain ⟨v, rho, hk⟩ := ih
    obtain ⟨_, u, _, hu⟩ := C07_delegate_result pf S hk h'
    exact ⟨u, rho, hu⟩
  | @randomize r s s' _ h' ih =>
    obtain ⟨v, rho, hk⟩ := ih
    have h2 := hk.randomization_eq S pf r
    rw [h'] at h2
    have := (Prod.mk.inj h2).2
    subst this
    exact ⟨v, _, hk.rerand r.val⟩

/-- C10: every sub key derived with the API validates under the public key of its master secret. -/
theorem C10_derived_validates [DecidableEq GT] {E : Ext G1 G2 GT} (L : GroupLaws E) (pf : Profile)
    {pp : PubParam G1 G2} (W : ParamWF E pp) (x : Fr) {pk : PublicKey G2}
    (hpk : pk.pk = x.val • pp.g2) {s : SubSecretKey G1 G2} (h : Derived pf pp (x.val • pp.h) s) :
    SubSecretKey.validate E pf s pk pp = .ok true := by
  obtain ⟨v, rho, hk⟩ := derived_shape pf W.toParamShape h
  exact SubSecretKey.validate_honest L W hk hpk

/-- C10, converse: what `validate` establishes about an arbitrary sub key with elements of the
subgroup: it has the right first component for the node of its time stamp.  (It says nothing about
`hvector`, see C48.) -/
theorem C10_validate_exact [DecidableEq GT] {E : Ext G1 G2 GT} (L : GroupLaws E) (pf : Profile)
    {pp : PubParam G1 G2} (W : ParamWF E pp) {s : SubSecretKey G1 G2} {pk : PublicKey G2}
    {x rho : Nat} (hpk : pk.pk = x • pp.g2) (hg : s.g2r = rho • pp.g2)
    (hp : E.inSub1 s.hpoly = true) :
    (SubSecretKey.validate E pf s pk pp = .ok true ∨
      SubSecretKey.validate E pf s pk pp = .ok false) ∧
    (SubSecretKey.validate E pf s pk pp = .ok true ↔
      ∃ v, NodeAt pp.depth s.time v ∧ s.hpoly = x • pp.h + rho • nodePoint pp v) := by
  rcases init_cases (pf := pf) (t := s.time) W.depth_le with ⟨hv1, h1⟩ | ⟨hv1, e, h1⟩
  · have hn : NodeAt pp.depth s.time (path pp.depth s.time) := nodeAt_iff.2 ⟨hv1, rfl⟩
    obtain ⟨b, h2, h3⟩ := SubSecretKey.validate_iff L W (pf := pf) hn hg hp hpk
    rw [h2]
    refine ⟨by cases b <;> simp, ?_⟩
    rw [Res.ok.injEq, h3]
    constructor
    · intro h; exact ⟨_, hn, h⟩
    · rintro ⟨v, hv, h⟩
      rwa [(nodeAt_iff.1 hv).2] at h
  · have : SubSecretKey.validate E pf s pk pp = .ok false := by
      simp only [SubSecretKey.validate]
      rw [h1]
    rw [this]
    refine ⟨Or.inr rfl, ⟨fun h => (by cases h), ?_⟩⟩
    rintro ⟨v, hv, _⟩
    exact absurd (nodeAt_iff.1 hv).1 hv1

/-! ## C11 -/

/-- C11: when `randomization` fails because of the time stamp, `g2r` has already been changed (and
nothing else). -/
theorem C11_failed_randomization_writes (pf : Profile) {pp : PubParam G1 G2} (hd : pp.depth ≤ 63)
    (r : Fr) {s : SubSecretKey G1 G2} (h : ¬ ValidTime pp.depth s.time) :
    ∃ e, SubSecretKey.randomization pf pp r s =
      (.err e, { s with g2r := s.g2r + r.val • pp.g2 }) :=
  SubSecretKey.randomization_bad hd r h

/-- C11: so it is not atomic on error: whenever `g2^r` is not the identity, the state after the
error differs from the state before. -/
theorem C11_not_atomic (pf : Profile) {pp : PubParam G1 G2} (hd : pp.depth ≤ 63)
    (r : Fr) {s : SubSecretKey G1 G2} (h : ¬ ValidTime pp.depth s.time)
    (hr : r.val • pp.g2 ≠ 0) :
    (SubSecretKey.randomization pf pp r s).1.isErr = true ∧
      (SubSecretKey.randomization pf pp r s).2 ≠ s := by
  obtain ⟨e, he⟩ := SubSecretKey.randomization_bad (pf := pf) hd r h
  rw [he]
  refine ⟨rfl, fun hc => hr ?_⟩
  have := congrArg SubSecretKey.g2r hc
  simpa [mulFr] using this

/-- C11: the time stamp and the number of elements never change, on any path, for any sub key and
any parameters. -/
theorem C11_randomization_frame (pf : Profile) (pp : PubParam G1 G2) (r : Fr)
    (s : SubSecretKey G1 G2) :
    (SubSecretKey.randomization pf pp r s).2.time = s.time ∧
      (SubSecretKey.randomization pf pp r s).2.hvector.length = s.hvector.length :=
  SubSecretKey.randomization_frame pf pp r s

/-! ## the hypotheses are met -/

section Examples

open Toy

/-- a root sub key, re-randomised, delegated to time 2 (node `[1]`) and then to time 4 (node
`[1,1,1]`) in a tree of depth 4: the hypotheses of C07–C10 are met -/
example : ∃ s s1 s2 : SubSecretKey G G,
    Derived .release (param 4 0) ((3 : Nat) • (param 4 0).h) s ∧
    SubKeyFor (param 4 0) ((3 : Nat) • (param 4 0).h) [] 6 s ∧
    SubSecretKey.delegate .release 2 4 s = (.ok (), s1) ∧
    SubSecretKey.delegate .release 4 4 s1 = (.ok (), s2) ∧
    s2.hvector.length = 1 ∧ Derived .release (param 4 0) ((3 : Nat) • (param 4 0).h) s2 := by
  have W := param_wf sha0 (d := 4) (by omega) (by omega) 0
  have S := W.toParamShape
  obtain ⟨s0, h0, k0⟩ := SubSecretKey.init_for S ((3 : Nat) • (param 4 0).h) 5
  have hv5 : (5 : Fr).val = 5 := by decide +kernel
  have hv1 : (1 : Fr).val = 1 := by decide +kernel
  rw [hv5] at k0
  have e1 := k0.randomization_eq S .release 1
  have k1 := k0.rerand 1
  rw [hv1] at e1
  have e2 := k1.delegate_eq S .release (w := [1]) ⟨by decide, by decide⟩ (by simp)
  have k2 := k1.delegated S (w := [1]) ⟨by decide, by decide⟩
  have e3 := k2.delegate_eq S .release (w := [1, 1]) ⟨by decide, by decide⟩ (by simp)
  have k3 := k2.delegated S (w := [1, 1]) ⟨by decide, by decide⟩
  have n2 : num (param 4 0).depth ([] ++ [1]) = 2 := by decide
  have n4 : num (param 4 0).depth (([] ++ [1]) ++ [1, 1]) = 4 := by decide
  rw [n2] at e2 e3 k2 k3
  rw [n4] at e3 k3
  exact ⟨_, _, _, .randomize (.root h0) e1, k1, e2, e3, by rw [k3.hvector_length S]; rfl,
    .delegate (.delegate (.randomize (.root h0) e1) e2) e3⟩

/-- and of C10: the laws, the parameters and a matching public key -/
example : GroupLaws (ext sha0) ∧ ParamWF (ext sha0) (param 4 0) ∧
    ∃ pk : PublicKey G, pk.pk = (3 : Fr).val • (param 4 0).g2 :=
  ⟨groupLaws _, param_wf _ (by omega) (by omega) _, ⟨0, _⟩, rfl⟩

/-- C07: a delegation error (siblings), C11: a time stamp that is not valid, and a scalar that
moves `g2` -/
example : ¬ (∃ v u, NodeAt 4 2 v ∧ NodeAt 4 9 u ∧ ProperAncestor v u) ∧
    ¬ ValidTime (param 4 0).depth 16 ∧ (1 : Fr).val • (param 4 0).g2 ≠ 0 := by
  refine ⟨?_, fun h => ?_, ?_⟩
  · rintro ⟨v, u, hv, hu, w, _, rfl⟩
    have h1 := (nodeAt_iff.1 hv).2
    have h2 := (nodeAt_iff.1 hu).2
    rw [h1] at h2
    have : path 4 9 = [2] := by decide
    have h3 : path 4 2 = [1] := by decide
    rw [this, h3] at h2
    simp at h2
  · have := h.2
    simp [param] at this
  · decide +kernel

end Examples

end Pixel.Props
