import Verif.Proof.SubKey
import Verif.Spec.Laws

/-! # Consequences of the assumed group laws -/

namespace Pixel

open Spec

set_option linter.unusedSectionVars false

variable {G1 G2 GT : Type} [AddCommGroup G1] [AddCommGroup G2] [CommGroup GT]

/-! ### scalars -/

theorem mod_smul {G : Type} [AddCommGroup G] {a : G} (h : rOrder • a = 0) (n : Nat) :
    (n % rOrder) • a = n • a := by
  conv_rhs => rw [← Nat.mod_add_div n rOrder]
  rw [add_smul, mul_smul, smul_comm, h, smul_zero, add_zero]

theorem mulFr_add {G : Type} [AddCommGroup G] {a : G} (h : rOrder • a = 0) (r s : Fr) :
    mulFr (r + s) a = mulFr r a + mulFr s a := by
  unfold mulFr
  rw [ZMod.val_add, mod_smul h, add_smul]

theorem mulFr_natCast {G : Type} [AddCommGroup G] {a : G} (h : rOrder • a = 0) (n : Nat) :
    mulFr (n : Fr) a = n • a := by
  unfold mulFr
  rw [ZMod.val_natCast, mod_smul h]

theorem mulFr_mul {G : Type} [AddCommGroup G] {a : G} (h : rOrder • a = 0) (r s : Fr) :
    mulFr (r * s) a = mulFr r (mulFr s a) := by
  unfold mulFr
  rw [ZMod.val_mul, mod_smul h, mul_smul]

/-! ### the subgroups and the pairing -/

namespace Spec.GroupLaws

variable {E : Ext G1 G2 GT}

theorem sub1_nsmul (L : GroupLaws E) {a : G1} (h : E.inSub1 a = true) (n : Nat) :
    E.inSub1 (n • a) = true := by
  induction n with
  | zero => rw [zero_smul]; exact L.sub1_zero
  | succ n ih => rw [succ_nsmul]; exact L.sub1_add _ _ ih h

theorem sub2_nsmul (L : GroupLaws E) {a : G2} (h : E.inSub2 a = true) (n : Nat) :
    E.inSub2 (n • a) = true := by
  induction n with
  | zero => rw [zero_smul]; exact L.sub2_zero
  | succ n ih => rw [succ_nsmul]; exact L.sub2_add _ _ ih h

theorem sub1_sub (L : GroupLaws E) {a b : G1} (ha : E.inSub1 a = true) (hb : E.inSub1 b = true) :
    E.inSub1 (a - b) = true := by
  rw [sub_eq_add_neg]; exact L.sub1_add _ _ ha (L.sub1_neg _ hb)

theorem sub1_wsum (L : GroupLaws E) (v : List Nat) (hs : List G1)
    (h : ∀ a ∈ hs, E.inSub1 a = true) : E.inSub1 (wsum v hs) = true := by
  induction v generalizing hs with
  | nil => rw [wsum_nil]; exact L.sub1_zero
  | cons t v ih =>
    cases hs with
    | nil => exact L.sub1_zero
    | cons a hs =>
      rw [wsum_cons]
      exact L.sub1_add _ _ (L.sub1_nsmul (h a (by simp)) t) (ih hs (fun b hb => h b (by simp [hb])))

theorem sub1_nodePoint (L : GroupLaws E) {pp : PubParam G1 G2} (W : ParamWF E pp) (v : List Nat) :
    E.inSub1 (nodePoint pp v) = true := by
  rw [nodePoint_eq]
  refine L.sub1_add _ _ ?_ (L.sub1_wsum _ _ fun a ha => W.hlist_sub a (List.mem_of_mem_tail ha))
  cases h : pp.hlist with
  | nil => exact L.sub1_zero
  | cons a l => exact W.hlist_sub a (by simp [h])

theorem pair_zero_left (L : GroupLaws E) {b : G1} (hb : E.inSub1 b = true) : pair E 0 b = 1 := by
  have := L.pair_add_left 0 0 b L.sub2_zero L.sub2_zero hb
  rw [add_zero] at this
  exact left_eq_mul.1 this

theorem pair_zero_right (L : GroupLaws E) {a : G2} (ha : E.inSub2 a = true) : pair E a 0 = 1 := by
  have := L.pair_add_right a 0 0 ha L.sub1_zero L.sub1_zero
  rw [add_zero] at this
  exact left_eq_mul.1 this

theorem pair_neg_left (L : GroupLaws E) {a : G2} {b : G1} (ha : E.inSub2 a = true)
    (hb : E.inSub1 b = true) : pair E (-a) b = (pair E a b)⁻¹ := by
  have := L.pair_add_left (-a) a b (L.sub2_neg _ ha) ha hb
  rw [neg_add_cancel, L.pair_zero_left hb] at this
  exact eq_inv_of_mul_eq_one_left this.symm

theorem pair_neg_right (L : GroupLaws E) {a : G2} {b : G1} (ha : E.inSub2 a = true)
    (hb : E.inSub1 b = true) : pair E a (-b) = (pair E a b)⁻¹ := by
  have := L.pair_add_right a (-b) b ha (L.sub1_neg _ hb) hb
  rw [neg_add_cancel, L.pair_zero_right ha] at this
  exact eq_inv_of_mul_eq_one_left this.symm

theorem pair_nsmul (L : GroupLaws E) {a : G2} {b : G1} (ha : E.inSub2 a = true)
    (hb : E.inSub1 b = true) (n : Nat) : pair E (n • a) b = pair E a (n • b) := by
  induction n with
  | zero => rw [zero_smul, zero_smul, L.pair_zero_left hb, L.pair_zero_right ha]
  | succ n ih =>
    rw [succ_nsmul, succ_nsmul, L.pair_add_left _ _ _ (L.sub2_nsmul ha n) ha hb,
      L.pair_add_right _ _ _ ha (L.sub1_nsmul hb n) hb, ih]

/-- the pairing-product check used by all the validation routines -/
theorem check_iff (L : GroupLaws E) {p F h : G1} {rho x : Nat}
    (hp : E.inSub1 p = true) (hF : E.inSub1 F = true) (hh : E.inSub1 h = true) :
    ∃ g, E.pairing [(-E.gen2, p), (rho • E.gen2, F), (x • E.gen2, h)] = some g ∧
      (g = 1 ↔ p = x • h + rho • F) := by
  have hg := L.gen2_sub
  refine ⟨_, L.pairing_prod _ ?_, ?_⟩
  · intro q hq
    simp only [List.mem_cons, List.not_mem_nil, or_false] at hq
    rcases hq with rfl | rfl | rfl
    · exact ⟨L.sub2_neg _ hg, hp⟩
    · exact ⟨L.sub2_nsmul hg _, hF⟩
    · exact ⟨L.sub2_nsmul hg _, hh⟩
  · simp only [List.map_cons, List.map_nil, List.prod_cons, List.prod_nil, mul_one]
    rw [L.pair_neg_left hg hp, L.pair_nsmul hg hF, L.pair_nsmul hg hh, ← L.pair_neg_right hg hp,
      ← L.pair_add_right _ _ _ hg (L.sub1_nsmul hF _) (L.sub1_nsmul hh _),
      ← L.pair_add_right _ _ _ hg (L.sub1_neg _ hp)
        (L.sub1_add _ _ (L.sub1_nsmul hF _) (L.sub1_nsmul hh _))]
    constructor
    · intro h1
      have := L.pair_nondeg _ (L.sub1_add _ _ (L.sub1_neg _ hp)
        (L.sub1_add _ _ (L.sub1_nsmul hF _) (L.sub1_nsmul hh _))) h1
      rw [neg_add_eq_zero] at this
      rw [this, add_comm]
    · intro h1
      rw [h1]
      have : -(x • h + rho • F) + (rho • F + x • h) = 0 := by abel
      rw [this, L.pair_zero_right hg]

end Spec.GroupLaws

end Pixel
