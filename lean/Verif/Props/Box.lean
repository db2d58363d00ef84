import Verif.Proof.Box
import Verif.Props.Reduce

/-!
# Property C91: the problem of C75 is hard for algorithms that use the groups as black boxes

Vocabulary: `Verif/Spec/Reduce.lean` (the problem), `Verif/Spec/Box.lean` (the algorithms).
-/

namespace Pixel.Props

open Pixel Pixel.Spec

set_option linter.unusedSectionVars false

variable {G1 G2 GT : Type} [AddCommGroup G1] [AddCommGroup G2] [CommGroup GT]

/-! ## C91 -/

/-- C91: an algorithm that forms combinations of the elements of the instance, pairs them and makes
at most `m` comparisons finds the solution with chance at most `(m + 1)(2d + 1)/r`. -/
theorem C91_box_bound {E : Ext G1 G2 GT} (L : GroupLaws E) {g : G1} (hsub : E.inSub1 g = true)
    (hne : g ≠ 0) {d : Nat} (hd : 1 ≤ d) (hd' : d ≤ 63) (B : (Coin d → Fr) → Solver) {m : Nat}
    (hB : ∀ k, (B k).Tests m) :
    solveChance E g d (fun I k => (B k).run E I) ≤ ((m + 1) * (2 * d + 1)) / rOrder := by
  rw [Box.solveChance_at]
  refine ((avg_mono fun k => Box.at_bound L hsub hne hd hd' (B k) (hB k)).trans
    (avg_const _).le).trans (le_of_eq ?_)
  push_cast
  rfl

/-- pairs `b` with the power `i` of `γ` -/
def nameSolution (i : Nat) : Solver :=
  .out [({ pow := fun _ => 0, b := 1 }, { pow := fun j => if j = i then 1 else 0, b := 0 })]

/-- C91: with one more power of `γ` in the instance it is found always, without a comparison. -/
theorem C91_one_power_more {E : Ext G1 G2 GT} (L : GroupLaws E) {g : G1}
    (hsub : E.inSub1 g = true) (d : Nat) (γ b : Fr) :
    ((nameSolution (d + 1)).run E (instanceOf E g (d + 1) γ b)).chance (solutionOf E g d γ b) = 1 := by
  have h : (instanceOf E g (d + 1) γ b).mixT E [({ pow := fun _ => 0, b := 1 },
      { pow := fun j => if j = d + 1 then 1 else 0, b := 0 })] = solutionOf E g d γ b := by
    rw [Box.mixT_eq L hsub, Box.solution_eq L hsub]
    congr 2
    simp only [Box.mixET, Box.mixE, List.map_cons, List.map_nil, List.sum_cons, List.sum_nil,
      zero_smul, Finset.sum_const_zero, zero_add, one_smul, add_zero]
    congr 1
    rw [Finset.sum_eq_single (Fin.last (d + 1))]
    · simp
    · intro i _ hi
      rw [if_neg (fun h : i.val = d + 1 => hi (Fin.ext h)), zero_smul]
    · intro h
      exact absurd (Finset.mem_univ _) h
  simp only [nameSolution, Solver.run, Guess.chance, h, if_true]

/-- tries `γ = 0, …, m - 1` -/
def trySmall (d : Nat) : Nat → Solver
  | 0 => .out []
  | m + 1 => .isZero1 { pow := fun j => if j = 0 then -(m : Fr) else if j = 1 then 1 else 0, b := 0 }
      (.out [({ pow := fun _ => 0, b := 1 },
        { pow := fun j => if j = 0 then (m : Fr) ^ (d + 1) else 0, b := 0 })])
      (trySmall d m)

theorem trySmall_tests (d m : Nat) : (trySmall d m).Tests m := by
  induction m with
  | zero => trivial
  | succ m ih => exact ⟨Nat.succ_pos _, trivial, ih⟩

theorem trySmall_finds {E : Ext G1 G2 GT} (L : GroupLaws E) {g : G1} (hsub : E.inSub1 g = true)
    (hne : g ≠ 0) {d : Nat} (hd : 1 ≤ d) (b : Fr) {i m : Nat} (hi : i < m) :
    ((trySmall d m).run E (instanceOf E g d (i : Fr) b)).chance (solutionOf E g d (i : Fr) b) = 1 := by
  have hg := L.sub1_order _ hsub
  induction m with
  | zero => omega
  | succ m ih =>
    have h01 : (⟨0, by omega⟩ : Fin (d + 1)) ≠ ⟨1, by omega⟩ := by simp [Fin.ext_iff]
    have hz : (instanceOf E g d (i : Fr) b).mix1
        { pow := fun j => if j = 0 then -(m : Fr) else if j = 1 then 1 else 0, b := 0 } = 0 ↔
        (i : Fr) = m := by
      rw [Box.mix1_eq hg, expHom_eq_zero hg hne]
      simp only [Box.mixE, zero_smul, add_zero]
      rw [Finset.sum_eq_add (⟨0, by omega⟩ : Fin (d + 1)) ⟨1, by omega⟩ h01]
      · simp only [if_true, pow_zero, pow_one, smul_eq_mul, mul_one, one_ne_zero, if_false, one_mul]
        rw [neg_add_eq_zero, eq_comm]
      · intro c _ hc
        rw [if_neg (fun h => hc.1 (Fin.ext h)), if_neg (fun h => hc.2 (Fin.ext h)), zero_smul]
      · exact fun h => absurd (Finset.mem_univ _) h
      · exact fun h => absurd (Finset.mem_univ _) h
    rw [trySmall, Solver.run]
    by_cases h : (i : Fr) = m
    · rw [if_pos (hz.2 h)]
      have h2 : (instanceOf E g d (i : Fr) b).mixT E [({ pow := fun _ => 0, b := 1 },
          { pow := fun j => if j = 0 then (m : Fr) ^ (d + 1) else 0, b := 0 })] =
            solutionOf E g d (i : Fr) b := by
        rw [Box.mixT_eq L hsub, Box.solution_eq L hsub]
        congr 2
        simp only [Box.mixET, Box.mixE, List.map_cons, List.map_nil, List.sum_cons, List.sum_nil,
          zero_smul, Finset.sum_const_zero, zero_add, one_smul, add_zero]
        congr 1
        rw [Finset.sum_eq_single (⟨0, by omega⟩ : Fin (d + 1))]
        · simp [h]
        · intro i _ hi
          rw [if_neg (fun h => hi (Fin.ext h)), zero_smul]
        · intro h
          exact absurd (Finset.mem_univ _) h
      simp only [Solver.run, Guess.chance, h2, if_true]
    · rw [if_neg (fun hc => h (hz.1 hc))]
      refine ih ?_
      rcases Nat.lt_succ_iff_lt_or_eq.1 hi with h' | h'
      · exact h'
      · exact absurd (by rw [h']) h

/-- C91: comparisons do help: there is an algorithm with `m` of them that finds the solution with
chance at least `m/r`. -/
theorem C91_comparisons_help {E : Ext G1 G2 GT} (L : GroupLaws E) {g : G1}
    (hsub : E.inSub1 g = true) (hne : g ≠ 0) {d : Nat} (hd : 1 ≤ d) {m : Nat} (hm : m ≤ rOrder) :
    ∃ S : Solver, S.Tests m ∧ (m : ℚ) / rOrder ≤ solveChance E g d (fun I _ => S.run E I) := by
  classical
  refine ⟨trySmall d m, trySmall_tests d m, ?_⟩
  have hstep : ∀ γ : Fr, (if γ.val < m then (1 : ℚ) else 0) ≤ avg fun b : Fr =>
      avg fun _ : Coin d → Fr =>
        ((trySmall d m).run E (instanceOf E g d γ b)).chance (solutionOf E g d γ b) := by
    intro γ
    by_cases h : γ.val < m
    · rw [if_pos h]
      have e : ∀ b : Fr, (avg fun _ : Coin d → Fr =>
          ((trySmall d m).run E (instanceOf E g d γ b)).chance (solutionOf E g d γ b)) = 1 := by
        intro b
        have := trySmall_finds L hsub hne hd b h
        rw [ZMod.natCast_rightInverse γ] at this
        rw [avg_const, this]
      rw [avg_congr e, avg_const]
    · rw [if_neg h]
      exact avg_nonneg fun b => avg_nonneg fun _ => Guess.chance_nonneg _ _
  refine le_trans (le_of_eq ?_) (avg_mono hstep)
  unfold avg
  have hc : (Finset.univ.filter fun γ : Fr => γ.val < m).card = m := by
    have hinj : Set.InjOn (fun i : Nat => (i : Fr)) (Finset.range m : Set Nat) := by
      intro i hi j hj hij
      have hi' := Finset.mem_range.1 (Finset.mem_coe.1 hi)
      have hj' := Finset.mem_range.1 (Finset.mem_coe.1 hj)
      have := congrArg ZMod.val hij
      simpa only [ZMod.val_cast_of_lt (hi'.trans_le hm), ZMod.val_cast_of_lt (hj'.trans_le hm)]
        using this
    have hr := Finset.card_image_of_injOn hinj
    rw [Finset.card_range] at hr
    refine Eq.trans (congrArg Finset.card ?_) hr
    ext γ
    simp only [Finset.mem_filter, Finset.mem_univ, true_and, Finset.mem_image, Finset.mem_range]
    constructor
    · exact fun h => ⟨γ.val, h, ZMod.natCast_rightInverse γ⟩
    · rintro ⟨i, hi, rfl⟩
      rwa [ZMod.val_cast_of_lt (hi.trans_le hm)]
  rw [Finset.sum_boole, hc, ZMod.card]

/-! ### Concrete cases -/

section Examples
open Pixel.Toy

/-- C91: an algorithm that throws a die, compares a combination with zero and names a product -/
def toySolver (k : Coin 5 → Fr) : Solver :=
  .toss 6 (by omega) fun c =>
    .isZero1 { pow := fun j => if j = 1 then 1 else if j = 0 then -(c.val : Fr) else 0, b := 0 }
      (.out [({ pow := fun _ => k .q, b := 1 }, { pow := fun _ => 1, b := k .q })])
      (nameSolution 5)

/-- C91: the bound says something about it: one comparison -/
example : solveChance (ext sha0) ((1, 0) : G) 5 (fun I k => (toySolver k).run (ext sha0) I) ≤
    ((1 + 1) * (2 * 5 + 1)) / rOrder := by
  have := C91_box_bound (groupLaws sha0) (g := ((1, 0) : G)) (by decide) (by decide) (d := 5)
    (by omega) (by omega) toySolver (m := 1) (fun k c => ⟨by omega, trivial, trivial⟩)
  exact_mod_cast this

/-- C91: ten comparisons find the solution with chance at least `10/r` -/
example : ∃ S : Solver, S.Tests 10 ∧
    (10 : ℚ) / rOrder ≤ solveChance (ext sha0) ((1, 0) : G) 5 (fun I _ => S.run (ext sha0) I) := by
  have := C91_comparisons_help (groupLaws sha0) (g := ((1, 0) : G)) (by decide) (by decide) (d := 5)
    (by omega) (m := 10) (by decide +kernel)
  exact_mod_cast this

end Examples

end Pixel.Props
