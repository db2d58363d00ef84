import Verif.Proof.Group

/-! # Sub secret keys: characterisations used by the properties -/

namespace Pixel

open Spec

set_option linter.unusedSectionVars false

variable {G1 G2 GT : Type} [AddCommGroup G1] [AddCommGroup G2] [CommGroup GT]

namespace SubSecretKey

/-- when and with what result a delegation succeeds -/
theorem delegate_ok_iff {pf : Profile} {d tar : Nat} (hd : d ≤ 63) {s s' : SubSecretKey G1 G2} :
    delegate pf tar d s = (.ok (), s') ↔
      ∃ v w, NodeAt d s.time v ∧ NodeAt d tar (v ++ w) ∧ w ≠ [] ∧ w.length ≤ s.hvector.length ∧
        s' = s.delegated tar w := by
  constructor
  · intro h
    by_cases hex : ∃ v w, NodeAt d s.time v ∧ NodeAt d tar (v ++ w) ∧ w ≠ []
    · obtain ⟨v, w, hv, hw, hne⟩ := hex
      have hv' := nodeAt_isNode hv
      have hw' := nodeAt_isNode hw
      have ht : s.time = num d v := (nodeAt_num_eq hv).symm
      have htar : num d (v ++ w) = tar := nodeAt_num_eq hw
      refine ⟨v, w, hv, hw, hne, ?_⟩
      by_cases hl : w.length ≤ s.hvector.length
      · refine ⟨hl, ?_⟩
        have := delegate_eq (pf := pf) hd hv' hw' hne ht hl
        rw [htar, h] at this
        exact (Prod.mk.inj this).2
      · have := delegate_short (pf := pf) hd hv' hw' hne ht (by omega)
        rw [htar, h] at this
        cases this
    · obtain ⟨e, he, _⟩ := delegate_bad (pf := pf) hd hex
      rw [h] at he
      cases (Prod.mk.inj he).1
  · rintro ⟨v, w, hv, hw, hne, hl, rfl⟩
    have htar : num d (v ++ w) = tar := nodeAt_num_eq hw
    have := delegate_eq (pf := pf) hd (nodeAt_isNode hv) (nodeAt_isNode hw) hne
      (nodeAt_num_eq hv).symm hl
    rwa [htar] at this

theorem delegate_err {pf : Profile} {d tar : Nat} (hd : d ≤ 63) {s s' : SubSecretKey G1 G2}
    {e : Err} (h : delegate pf tar d s = (.err e, s')) :
    s' = s ∧ (¬ ∃ v w, NodeAt d s.time v ∧ NodeAt d tar (v ++ w) ∧ w ≠ []) ∧
      (e = .timeNonePrefix ↔ ValidTime d s.time ∧ ValidTime d tar) := by
  have hex : ¬ ∃ v w, NodeAt d s.time v ∧ NodeAt d tar (v ++ w) ∧ w ≠ [] := by
    rintro ⟨v, w, hv, hw, hne⟩
    have ht : s.time = num d v := (nodeAt_num_eq hv).symm
    have htar : num d (v ++ w) = tar := nodeAt_num_eq hw
    by_cases hl : w.length ≤ s.hvector.length
    · have := delegate_eq (pf := pf) hd (nodeAt_isNode hv) (nodeAt_isNode hw) hne ht hl
      rw [htar, h] at this
      cases (Prod.mk.inj this).1
    · have := delegate_short (pf := pf) hd (nodeAt_isNode hv) (nodeAt_isNode hw) hne ht (by omega)
      rw [htar, h] at this
      cases this
  obtain ⟨e', he, hi⟩ := delegate_bad (pf := pf) hd hex
  rw [h] at he
  have h1 := (Prod.mk.inj he).1
  have h2 := (Prod.mk.inj he).2
  cases h1
  exact ⟨h2, hex, hi⟩

end SubSecretKey

namespace Spec.SubKeyFor

variable {pp : PubParam G1 G2} {alpha : G1} {v : List Nat} {rho : Nat} {s : SubSecretKey G1 G2}

theorem isNode (h : SubKeyFor pp alpha v rho s) : IsNode pp.depth v := nodeAt_isNode h.node

theorem time_eq (h : SubKeyFor pp alpha v rho s) : s.time = num pp.depth v :=
  (nodeAt_num_eq h.node).symm

theorem hvector_length (S : ParamShape pp) (h : SubKeyFor pp alpha v rho s) :
    s.hvector.length = pp.depth - v.length := by
  rw [h.hvector, List.length_map, List.length_drop, S.hlist_len]
  omega

/-- what an honest sub key looks like is determined by its node and its randomness -/
theorem unique (h : SubKeyFor pp alpha v rho s) {s' : SubSecretKey G1 G2}
    (h' : SubKeyFor pp alpha v rho s') : s = s' := by
  have ht : s.time = s'.time := by rw [h.time_eq, h'.time_eq]
  cases s
  cases s'
  have h1 := h.g2r
  have h2 := h.hpoly
  have h3 := h.hvector
  have h1' := h'.g2r
  have h2' := h'.hpoly
  have h3' := h'.hvector
  simp only at ht h1 h2 h3 h1' h2' h3'
  subst ht h1 h2 h3 h1' h2' h3'
  rfl

theorem delegated (S : ParamShape pp) (h : SubKeyFor pp alpha v rho s) {w : List Nat}
    (hw : IsNode pp.depth (v ++ w)) :
    SubKeyFor pp alpha (v ++ w) rho (s.delegated (num pp.depth (v ++ w)) w) where
  node := nodeAt_num hw
  g2r := h.g2r
  hpoly := by
    have := h.isNode.1
    simp only [SubSecretKey.delegated]
    rw [h.hpoly, h.hvector, wsum_map_smul, nodePoint_append _ _ _ (by rw [S.hlist_len]; omega),
      smul_add, add_assoc]
  hvector := by
    simp only [SubSecretKey.delegated]
    rw [h.hvector, ← List.map_drop, List.drop_drop, List.length_append]
    congr 2
    omega

theorem rerand (h : SubKeyFor pp alpha v rho s) (n : Nat) :
    SubKeyFor pp alpha v (rho + n) (s.rerand pp v n) where
  node := h.node
  g2r := by simp only [SubSecretKey.rerand]; rw [h.g2r, add_smul]
  hpoly := by simp only [SubSecretKey.rerand]; rw [h.hpoly, add_smul, add_assoc]
  hvector := by
    simp only [SubSecretKey.rerand]
    rw [h.hvector, List.zipWith_map_left, List.zipWith_self]
    congr 1
    funext a
    rw [add_smul]

theorem randomization_eq (S : ParamShape pp) (h : SubKeyFor pp alpha v rho s) (pf : Profile)
    (r : Fr) :
    SubSecretKey.randomization pf pp r s = (.ok (), s.rerand pp v r.val) := by
  refine SubSecretKey.randomization_eq S.depth_le h.isNode h.time_eq ?_ r
  have := h.isNode.1
  rw [h.hvector_length S, S.hlist_len]
  omega

theorem delegate_eq (S : ParamShape pp) (h : SubKeyFor pp alpha v rho s) (pf : Profile)
    {w : List Nat} (hw : IsNode pp.depth (v ++ w)) (hne : w ≠ []) :
    SubSecretKey.delegate pf (num pp.depth (v ++ w)) pp.depth s =
      (.ok (), s.delegated (num pp.depth (v ++ w)) w) := by
  refine SubSecretKey.delegate_eq S.depth_le h.isNode hw hne h.time_eq ?_
  have := hw.1
  rw [List.length_append] at this
  rw [h.hvector_length S]
  omega

end Spec.SubKeyFor

namespace SubSecretKey

theorem init_for {pp : PubParam G1 G2} (S : ParamShape pp) (alpha : G1) (r : Fr) :
    ∃ s, init pp alpha r = .ok s ∧ SubKeyFor pp alpha [] r.val s := by
  obtain ⟨h0, hs, hl⟩ : ∃ h0 hs, pp.hlist = h0 :: hs := by
    cases h : pp.hlist with
    | nil => have := S.hlist_len; rw [h] at this; simp at this
    | cons a l => exact ⟨a, l, rfl⟩
  have hlen : hs.length = pp.depth := by have := S.hlist_len; rw [hl] at this; simpa using this
  have hd := S.depth_pos
  refine ⟨_, by unfold init; rw [hl, idx_zero_cons, Res.ok_bind], ?_⟩
  refine ⟨?_, rfl, ?_, ?_⟩
  · have := nodeAt_num (d := pp.depth) (v := []) (isNode_nil.2 (by omega))
    rwa [num_nil] at this
  · simp only [nodePoint_eq, hl, List.headD_cons, List.tail_cons, wsum_nil, add_zero, mulFr]
    rw [add_comm]
  · simp only [List.take_succ_cons, List.drop_succ_cons, List.drop_zero, List.length_nil,
      Nat.zero_add, hl]
    rw [List.take_of_length_le (by omega)]
    rfl

/-- `validate` never fails or panics, and is the pairing-product check -/
theorem validate_iff [DecidableEq GT] {E : Ext G1 G2 GT} (L : GroupLaws E) {pp : PubParam G1 G2}
    (W : ParamWF E pp) {pf : Profile} {s : SubSecretKey G1 G2} {v : List Nat} {rho x : Nat}
    {pk : PublicKey G2} (hv : NodeAt pp.depth s.time v) (hg : s.g2r = rho • pp.g2)
    (hp : E.inSub1 s.hpoly = true) (hpk : pk.pk = x • pp.g2) :
    ∃ b, validate E pf s pk pp = .ok b ∧ (b = true ↔ s.hpoly = x • pp.h + rho • nodePoint pp v) := by
  obtain ⟨h0, hs, hl⟩ : ∃ h0 hs, pp.hlist = h0 :: hs := by
    cases h : pp.hlist with
    | nil => have := W.hlist_len; rw [h] at this; simp at this
    | cons a l => exact ⟨a, l, rfl⟩
  have hlen : hs.length = pp.depth := by have := W.hlist_len; rw [hl] at this; simpa using this
  have hv' := nodeAt_isNode hv
  have hloop := nodeLoop_mul_eq (pp := pp) (v := v) hl (by have := hv'.1; omega)
  obtain ⟨g, h1, h2⟩ := L.check_iff (p := s.hpoly) (F := nodePoint pp v) (h := pp.h) (rho := rho)
    (x := x) hp (L.sub1_nodePoint W v) W.h_sub
  refine ⟨decide (g = 1), ?_, by rw [decide_eq_true_iff, h2]⟩
  simp only [validate]
  have hi0 : idx pp.hlist 0 = .ok h0 := by rw [hl]; rfl
  rw [← nodeAt_num_eq hv, init_num W.depth_le hv']
  simp only [tvOf]
  rw [hi0, Res.ok_bind, hloop, Res.ok_bind, hg, hpk, W.g2_gen, h1]

theorem validate_honest [DecidableEq GT] {E : Ext G1 G2 GT} (L : GroupLaws E)
    {pp : PubParam G1 G2} (W : ParamWF E pp) {pf : Profile} {s : SubSecretKey G1 G2} {v : List Nat}
    {rho x : Nat} {pk : PublicKey G2} (h : SubKeyFor pp (x • pp.h) v rho s)
    (hpk : pk.pk = x • pp.g2) : validate E pf s pk pp = .ok true := by
  have hsub : E.inSub1 s.hpoly = true := by
    rw [h.hpoly]
    exact L.sub1_add _ _ (L.sub1_nsmul W.h_sub _) (L.sub1_nsmul (L.sub1_nodePoint W v) _)
  obtain ⟨b, h1, h2⟩ := validate_iff L W (pf := pf) h.node h.g2r hsub hpk
  rw [h1, h2.2 h.hpoly]

/-- a loop of calls that keep a property of the state keeps it, whatever the outcome -/
theorem forM_inv {σ β : Type} {P : σ → Prop} {f : β → SM σ Unit} (l : List β)
    (h : ∀ i s, P s → P (f i s).2) (s : σ) (hs : P s) : P (l.forM f s).2 := by
  induction l generalizing s with
  | nil => exact hs
  | cons a l ih =>
    show P ((f a >>= fun _ => l.forM f) s).2
    have ha := h a s hs
    rcases hfa : f a s with ⟨r, s'⟩
    rw [hfa] at ha
    cases r with
    | ok u => rw [SM.bind_run_ok hfa]; exact ih s' ha
    | err e => rw [SM.bind_run_err hfa]; exact ha
    | panic p => rw [SM.bind_run_panic hfa]; exact ha

/-- `randomization` never changes the time stamp or the number of elements, whatever happens -/
theorem randomization_frame (pf : Profile) (pp : PubParam G1 G2) (r : Fr)
    (s : SubSecretKey G1 G2) :
    (randomization pf pp r s).2.time = s.time ∧
      (randomization pf pp r s).2.hvector.length = s.hvector.length := by
  unfold randomization timeVec
  simp only [SM.get_bind, SM.set_bind]
  cases h1 : TimeVec.init pf s.time pp.depth with
  | err e => exact ⟨rfl, rfl⟩
  | panic p => exact ⟨rfl, rfl⟩
  | ok tv =>
    rw [SM.lift_ok_bind]
    cases h2 : idx pp.hlist 0 with
    | err e => exact ⟨rfl, rfl⟩
    | panic p => exact ⟨rfl, rfl⟩
    | ok h0 =>
      rw [SM.lift_ok_bind]
      generalize (List.foldlM (m := Res) _ h0 (List.range tv.vec.length)) = y
      cases y with
      | err e => exact ⟨rfl, rfl⟩
      | panic p => exact ⟨rfl, rfl⟩
      | ok t3 =>
        rw [SM.lift_ok_bind, SM.get_bind, SM.set_bind, SM.get_bind]
        refine forM_inv (P := fun s' : SubSecretKey G1 G2 =>
          s'.time = s.time ∧ s'.hvector.length = s.hvector.length)
          _ ?_ _ ⟨rfl, rfl⟩
        rintro i s' ⟨ht, hl⟩
        cases h3 : idx pp.hlist (tv.vec.length + i + 1) with
        | err e => exact ⟨ht, hl⟩
        | panic p => exact ⟨ht, hl⟩
        | ok a =>
          rw [SM.lift_ok_bind, SM.get_bind]
          cases h4 : idx s'.hvector i with
          | err e => exact ⟨ht, hl⟩
          | panic p => exact ⟨ht, hl⟩
          | ok b =>
            rw [SM.lift_ok_bind]
            exact ⟨ht, by simpa [SM.set] using hl⟩

theorem randomization_bad {pf : Profile} {pp : PubParam G1 G2} (hd : pp.depth ≤ 63) (r : Fr)
    {s : SubSecretKey G1 G2} (h : ¬ ValidTime pp.depth s.time) :
    ∃ e, randomization pf pp r s = (.err e, { s with g2r := s.g2r + mulFr r pp.g2 }) := by
  rcases init_cases (pf := pf) (t := s.time) hd with ⟨hv1, h1⟩ | ⟨hv1, e, h1⟩
  · exact absurd hv1 h
  · refine ⟨e, ?_⟩
    unfold randomization timeVec
    simp only [SM.get_bind, SM.set_bind]
    rw [h1]
    rfl

end SubSecretKey

end Pixel
