import Verif.Spec.Box
import Verif.Proof.Oracle
import Mathlib.Algebra.Polynomial.Roots

/-!
# Lemmas for C91
-/

set_option linter.unusedSectionVars false

namespace Pixel

open Spec

variable {G1 G2 GT : Type} [AddCommGroup G1] [AddCommGroup G2] [CommGroup GT]

namespace Box

/-- a combination, in the exponents, over any algebra -/
def mixE {R : Type} [CommRing R] [Algebra Fr R] (d : Nat) (γ b : R) (c : Mix) : R :=
  (∑ i : Fin (d + 1), c.pow i • γ ^ i.val) + c.b • b

/-- a product of pairings, in the exponents -/
def mixET {R : Type} [CommRing R] [Algebra Fr R] (d : Nat) (γ b : R) (l : List (Mix × Mix)) : R :=
  (l.map fun p => mixE d γ b p.1 * mixE d γ b p.2).sum

/-- polynomials in `γ` and `b` -/
abbrev P2 := MvPolynomial (Fin 2) Fr

theorem eval_mixE (d : Nat) (a : Fin 2 → Fr) (c : Mix) :
    MvPolynomial.eval a (mixE d (.X 0 : P2) (.X 1) c) = mixE d (a 0) (a 1) c := by
  simp only [mixE, map_add, map_sum, MvPolynomial.smul_eval, map_pow, MvPolynomial.eval_X,
    smul_eq_mul]

theorem eval_mixET (d : Nat) (a : Fin 2 → Fr) (l : List (Mix × Mix)) :
    MvPolynomial.eval a (mixET d (.X 0 : P2) (.X 1) l) = mixET d (a 0) (a 1) l := by
  simp only [mixET]
  induction l with
  | nil => simp
  | cons p l ih => simp only [List.map_cons, List.sum_cons, map_add, map_mul, eval_mixE, ih]

theorem deg_mixE {d : Nat} (hd : 1 ≤ d) (c : Mix) :
    (mixE d (.X 0 : P2) (.X 1) c).totalDegree ≤ d := by
  refine (MvPolynomial.totalDegree_add _ _).trans (max_le ?_ ?_)
  · refine MvPolynomial.totalDegree_finsetSum_le fun i _ => ?_
    refine (MvPolynomial.totalDegree_smul_le _ _).trans ?_
    refine (MvPolynomial.totalDegree_pow _ _).trans ?_
    rw [MvPolynomial.totalDegree_X, mul_one]
    have := i.isLt
    omega
  · refine (MvPolynomial.totalDegree_smul_le _ _).trans ?_
    rw [MvPolynomial.totalDegree_X]
    exact hd

theorem deg_mixET {d : Nat} (hd : 1 ≤ d) (l : List (Mix × Mix)) :
    (mixET d (.X 0 : P2) (.X 1) l).totalDegree ≤ 2 * d := by
  unfold mixET
  induction l with
  | nil => simp
  | cons p l ih =>
    rw [List.map_cons, List.sum_cons]
    refine (MvPolynomial.totalDegree_add _ _).trans (max_le ?_ ih)
    refine (MvPolynomial.totalDegree_mul _ _).trans ?_
    have h1 := deg_mixE hd p.1
    have h2 := deg_mixE hd p.2
    omega

/-- what the algorithm names, minus the solution -/
noncomputable def outP (d : Nat) (l : List (Mix × Mix)) : P2 :=
  mixET d (.X 0 : P2) (.X 1) l - .X 1 * .X 0 ^ (d + 1)

theorem deg_outP {d : Nat} (hd : 1 ≤ d) (l : List (Mix × Mix)) :
    (outP d l).totalDegree ≤ 2 * d + 1 := by
  refine (MvPolynomial.totalDegree_sub _ _).trans (max_le ?_ ?_)
  · have := deg_mixET hd l
    omega
  · refine (MvPolynomial.totalDegree_mul _ _).trans ?_
    have := MvPolynomial.totalDegree_pow (.X 0 : P2) (d + 1)
    rw [MvPolynomial.totalDegree_X, mul_one] at this
    rw [MvPolynomial.totalDegree_X]
    omega

open Polynomial in
/-- the powers of `γ` in a combination, as a polynomial in one variable -/
noncomputable def powP (d : Nat) (c : Mix) : Fr[X] := ∑ i : Fin (d + 1), C (c.pow i) * X ^ i.val

theorem eval_powP (d : Nat) (c : Mix) (γ b : Fr) :
    mixE d γ b c = (powP d c).eval γ + c.b * b := by
  simp [mixE, powP, Polynomial.eval_finsetSum]

theorem coeff_powP (d : Nat) (c : Mix) : (powP d c).coeff (d + 1) = 0 := by
  unfold powP
  rw [Polynomial.finsetSum_coeff]
  refine Finset.sum_eq_zero fun i _ => ?_
  rw [Polynomial.coeff_C_mul, Polynomial.coeff_X_pow, if_neg (by have := i.isLt; omega), mul_zero]

theorem deg_powP (d : Nat) (c : Mix) : (powP d c).natDegree ≤ d := by
  unfold powP
  refine Polynomial.natDegree_sum_le_of_forall_le _ _ fun i _ => ?_
  refine (Polynomial.natDegree_C_mul_X_pow_le _ _).trans ?_
  have := i.isLt
  omega

/-- twice the part of a product of pairings that is odd in `b`, as a polynomial in `γ` -/
noncomputable def oddP (d : Nat) (l : List (Mix × Mix)) : Polynomial Fr :=
  (l.map fun p => .C p.2.b * powP d p.1 + .C p.1.b * powP d p.2).sum

theorem coeff_oddP (d : Nat) (l : List (Mix × Mix)) : (oddP d l).coeff (d + 1) = 0 := by
  unfold oddP
  induction l with
  | nil => simp
  | cons p l ih =>
    rw [List.map_cons, List.sum_cons, Polynomial.coeff_add, ih, Polynomial.coeff_add,
      Polynomial.coeff_C_mul, Polynomial.coeff_C_mul, coeff_powP, coeff_powP, mul_zero, mul_zero,
      add_zero, add_zero]

theorem deg_oddP (d : Nat) (l : List (Mix × Mix)) : (oddP d l).natDegree ≤ d := by
  unfold oddP
  induction l with
  | nil => simp
  | cons p l ih =>
    rw [List.map_cons, List.sum_cons]
    refine (Polynomial.natDegree_add_le _ _).trans (max_le ?_ ih)
    refine (Polynomial.natDegree_add_le _ _).trans (max_le ?_ ?_)
    · exact (Polynomial.natDegree_C_mul_le _ _).trans (deg_powP _ _)
    · exact (Polynomial.natDegree_C_mul_le _ _).trans (deg_powP _ _)

theorem odd_part (d : Nat) (l : List (Mix × Mix)) (γ : Fr) :
    mixET d γ 1 l - mixET d γ (-1) l = 2 * (oddP d l).eval γ := by
  simp only [mixET, oddP]
  induction l with
  | nil => simp
  | cons p l ih =>
    simp only [List.map_cons, List.sum_cons, Polynomial.eval_add, Polynomial.eval_mul,
      Polynomial.eval_C, eval_powP] at ih ⊢
    linear_combination ih

theorem two_ne : (2 : Fr) ≠ 0 := by decide +kernel

/-- the solution is not a product of pairings of combinations -/
theorem outP_ne {d : Nat} (hd : d ≤ 63) (l : List (Mix × Mix)) : outP d l ≠ 0 := by
  intro h
  have hall : ∀ γ b : Fr, mixET d γ b l = b * γ ^ (d + 1) := by
    intro γ b
    have := congrArg (MvPolynomial.eval ![γ, b]) h
    simp only [outP, map_sub, eval_mixET, map_mul, map_pow, MvPolynomial.eval_X, map_zero] at this
    exact sub_eq_zero.1 this
  have hodd : ∀ γ : Fr, (oddP d l).eval γ = γ ^ (d + 1) := by
    intro γ
    have := odd_part d l γ
    rw [hall, hall] at this
    have h2 : 2 * ((oddP d l).eval γ) = 2 * γ ^ (d + 1) := by rw [← this]; ring
    exact mul_left_cancel₀ two_ne h2
  have hz : oddP d l - Polynomial.X ^ (d + 1) = 0 := by
    refine Polynomial.eq_zero_of_natDegree_lt_card_of_eval_eq_zero _ (f := fun γ : Fr => γ)
      (fun _ _ h => h) (fun γ => ?_) ?_
    · rw [Polynomial.eval_sub, hodd, Polynomial.eval_pow, Polynomial.eval_X, sub_self]
    · refine lt_of_le_of_lt (Polynomial.natDegree_sub_le _ _) ?_
      rw [Polynomial.natDegree_X_pow, ZMod.card]
      have h1 := deg_oddP d l
      have h2 : 65 < rOrder := by decide +kernel
      omega
  have := congrArg (Polynomial.coeff · (d + 1)) hz
  simp only [Polynomial.coeff_sub, coeff_oddP, Polynomial.coeff_X_pow, if_true,
    Polynomial.coeff_zero] at this
  exact one_ne_zero (α := Fr) (by linear_combination -this)

/-! ## the groups -/

variable {E : Ext G1 G2 GT} {g : G1}

theorem mix1_eq (hg : rOrder • g = 0) (d : Nat) (γ b : Fr) (c : Mix) :
    (instanceOf E g d γ b).mix1 c = expHom g hg (mixE d γ b c) := by
  simp only [Instance.mix1, instanceOf, lin_ofFn, mixE, map_add, map_sum, smul_eq_mul, expHom_mul]
  rfl

theorem mix2_eq (hg2 : rOrder • E.gen2 = 0) (d : Nat) (γ b : Fr) (c : Mix) :
    (instanceOf E g d γ b).mix2 c = expHom E.gen2 hg2 (mixE d γ b c) := by
  simp only [Instance.mix2, instanceOf, lin_ofFn, mixE, map_add, map_sum, smul_eq_mul, expHom_mul]
  rfl

theorem mixT_eq (L : GroupLaws E) (hsub : E.inSub1 g = true) (d : Nat) (γ b : Fr)
    (l : List (Mix × Mix)) :
    (instanceOf E g d γ b).mixT E l =
      pair E E.gen2 (expHom g (L.sub1_order _ hsub) (mixET d γ b l)) := by
  have hg := L.sub1_order _ hsub
  have hg2 := L.sub2_order _ L.gen2_sub
  have hin : ∀ b : Fr, E.inSub1 (expHom g hg b) = true := fun b => L.sub1_nsmul hsub _
  unfold Instance.mixT
  induction l with
  | nil => simp only [mixET, List.map_nil, List.prod_nil, List.sum_nil, map_zero,
      L.pair_zero_right L.gen2_sub]
  | cons p l ih =>
    simp only [List.map_cons, List.prod_cons, ih, mixET, List.sum_cons, map_add]
    rw [L.pair_add_right _ _ _ L.gen2_sub (hin _) (hin _), mix2_eq hg2, mix1_eq hg,
      expHom_apply E.gen2, L.pair_nsmul L.gen2_sub (hin _), ← expHom_mul]

theorem pair_inj (L : GroupLaws E) (hsub : E.inSub1 g = true) (hne : g ≠ 0) {a b : Fr} :
    pair E E.gen2 (expHom g (L.sub1_order _ hsub) a) =
      pair E E.gen2 (expHom g (L.sub1_order _ hsub) b) ↔ a = b := by
  refine ⟨fun h => ?_, fun h => by rw [h]⟩
  have hg := L.sub1_order _ hsub
  have hin : ∀ b : Fr, E.inSub1 (expHom g hg b) = true := fun b => L.sub1_nsmul hsub _
  have h1 : pair E E.gen2 (expHom g hg (a - b)) = 1 := by
    rw [map_sub, sub_eq_add_neg, L.pair_add_right _ _ _ L.gen2_sub (hin _) (L.sub1_neg _ (hin _)),
      L.pair_neg_right L.gen2_sub (hin _), h, mul_inv_cancel]
  exact sub_eq_zero.1 ((expHom_eq_zero hg hne).1 (L.pair_nondeg _ (hin _) h1))

theorem solution_eq (L : GroupLaws E) (hsub : E.inSub1 g = true) (d : Nat) (γ b : Fr) :
    solutionOf E g d γ b =
      pair E E.gen2 (expHom g (L.sub1_order _ hsub) (b * γ ^ (d + 1))) := rfl

/-! ## counting -/

open Classical in
theorem avg_zeros {p : P2} (hp : p ≠ 0) {k : Nat} (hk : p.totalDegree ≤ k) :
    (avg fun a : Fin 2 → Fr => if MvPolynomial.eval a p = 0 then (1 : ℚ) else 0) ≤ k / rOrder := by
  have h := (zeros_card hp).trans (Nat.mul_le_mul_right _ hk)
  have hr : (0 : ℚ) < rOrder := by exact_mod_cast rOrder_prime.pos
  have hc : Fintype.card (Fin 2 → Fr) = rOrder ^ Fintype.card (Fin 2) := by
    rw [Fintype.card_fun, ZMod.card]
  unfold avg
  rw [Finset.sum_boole, hc]
  have hpos : (0 : ℚ) < ((rOrder ^ Fintype.card (Fin 2) : Nat) : ℚ) :=
    Nat.cast_pos.2 (Nat.pow_pos rOrder_prime.pos)
  rw [div_le_div_iff₀ hpos hr]
  have h' := (Nat.cast_le (α := ℚ)).2 h
  rwa [Nat.cast_mul, Nat.cast_mul] at h'

/-- the chance on the instance with exponents `a` -/
noncomputable def at_ (E : Ext G1 G2 GT) (g : G1) (d : Nat) (S : Solver) (a : Fin 2 → Fr) : ℚ :=
  (S.run E (instanceOf E g d (a 0) (a 1))).chance (solutionOf E g d (a 0) (a 1))

theorem chance_le_one (z : GT) (S : Guess GT) : S.chance z ≤ 1 := by
  induction S with
  | toss n hn f ih =>
    have : Nonempty (Fin n) := ⟨⟨0, hn⟩⟩
    exact avg_le_one ih
  | draw f ih => exact avg_le_one ih
  | out y =>
    simp only [Guess.chance]
    by_cases h : y = z
    · rw [if_pos h]
    · rw [if_neg h]
      exact zero_le_one

/-- one test: unless the polynomial is zero, the answer "yes" is rare -/
theorem avg_test {p : P2} {k m : Nat} (hk : p.totalDegree ≤ k) {F Y Z : (Fin 2 → Fr) → ℚ}
    (hyes : ∀ a, MvPolynomial.eval a p = 0 → F a = Y a)
    (hno : ∀ a, MvPolynomial.eval a p ≠ 0 → F a = Z a) (hF : ∀ a, F a ≤ 1) (hZ0 : ∀ a, 0 ≤ Z a)
    (hY : avg Y ≤ (m * k) / rOrder) (hZ : avg Z ≤ (m * k) / rOrder) :
    avg F ≤ ((m + 1 : Nat) * k) / rOrder := by
  classical
  have hr : (0 : ℚ) < rOrder := by exact_mod_cast rOrder_prime.pos
  have hsplit : ((m + 1 : Nat) * k : ℚ) / rOrder = k / rOrder + (m * k) / rOrder := by
    push_cast
    ring
  have hk0 : (0 : ℚ) ≤ k / rOrder := by positivity
  rw [hsplit]
  by_cases hp : p = 0
  · rw [avg_congr (f' := Y) fun a => hyes a (by rw [hp, map_zero])]
    linarith
  · have h1 := avg_zeros hp hk
    have h2 : avg F ≤ avg fun a => (if MvPolynomial.eval a p = 0 then (1 : ℚ) else 0) + Z a := by
      refine avg_mono fun a => ?_
      by_cases h : MvPolynomial.eval a p = 0
      · rw [if_pos h]
        have := hF a
        have := hZ0 a
        linarith
      · rw [if_neg h, hno a h, zero_add]
    rw [avg_add] at h2
    linarith

theorem at_bound (L : GroupLaws E) (hsub : E.inSub1 g = true) (hne : g ≠ 0) {d : Nat}
    (hd : 1 ≤ d) (hd' : d ≤ 63) (S : Solver) {m : Nat} (hm : S.Tests m) :
    avg (at_ E g d S) ≤ ((m + 1 : Nat) * (2 * d + 1 : Nat)) / rOrder := by
  have hg := L.sub1_order _ hsub
  have hg2 := L.sub2_order _ L.gen2_sub
  have hle : ∀ S a, at_ E g d S a ≤ 1 := fun S a => chance_le_one _ _
  have hge : ∀ S a, 0 ≤ at_ E g d S a := fun S a => Guess.chance_nonneg _ _
  induction S generalizing m with
  | toss n hn f ih =>
    have : Nonempty (Fin n) := ⟨⟨0, hn⟩⟩
    have e : avg (at_ E g d (.toss n hn f)) = avg fun c => avg (at_ E g d (f c)) := by
      rw [avg_comm]
      rfl
    rw [e]
    exact (avg_mono fun c => ih c (hm c)).trans (avg_const _).le
  | isZero1 c y n ihy ihn =>
    obtain ⟨m, rfl⟩ : ∃ m', m = m' + 1 := ⟨m - 1, by have := hm.1; omega⟩
    refine avg_test (p := mixE d (.X 0 : P2) (.X 1) c) ((deg_mixE hd c).trans (by omega))
      (fun a h => ?_) (fun a h => ?_) (hle _) (hge n) (ihy hm.2.1) (ihn hm.2.2)
    · rw [eval_mixE] at h
      unfold at_
      rw [Solver.run, if_pos (by rw [mix1_eq hg, h, map_zero])]
    · rw [eval_mixE] at h
      unfold at_
      rw [Solver.run, if_neg (by rwa [mix1_eq hg, expHom_eq_zero hg hne])]
  | isZero2 c y n ihy ihn =>
    obtain ⟨m, rfl⟩ : ∃ m', m = m' + 1 := ⟨m - 1, by have := hm.1; omega⟩
    refine avg_test (p := mixE d (.X 0 : P2) (.X 1) c) ((deg_mixE hd c).trans (by omega))
      (fun a h => ?_) (fun a h => ?_) (hle _) (hge n) (ihy hm.2.1) (ihn hm.2.2)
    · rw [eval_mixE] at h
      unfold at_
      rw [Solver.run, if_pos (by rw [mix2_eq hg2, h, map_zero])]
    · rw [eval_mixE] at h
      unfold at_
      rw [Solver.run, if_neg (by rwa [mix2_eq hg2, expHom_eq_zero hg2 (gen2_ne L hsub hne)])]
  | isOneT l y n ihy ihn =>
    obtain ⟨m, rfl⟩ : ∃ m', m = m' + 1 := ⟨m - 1, by have := hm.1; omega⟩
    have h1 : ∀ a : Fin 2 → Fr, (instanceOf E g d (a 0) (a 1)).mixT E l = 1 ↔
        mixET d (a 0) (a 1) l = 0 := by
      intro a
      rw [mixT_eq L hsub, ← pair_inj L hsub hne, map_zero, L.pair_zero_right L.gen2_sub]
    refine avg_test (p := mixET d (.X 0 : P2) (.X 1) l) ((deg_mixET hd l).trans (by omega))
      (fun a h => ?_) (fun a h => ?_) (hle _) (hge n) (ihy hm.2.1) (ihn hm.2.2)
    · rw [eval_mixET] at h
      unfold at_
      rw [Solver.run, if_pos ((h1 a).2 h)]
    · rw [eval_mixET] at h
      unfold at_
      rw [Solver.run, if_neg (fun hc => h ((h1 a).1 hc))]
  | out l =>
    classical
    have e : ∀ a, at_ E g d (.out l) a =
        if MvPolynomial.eval a (outP d l) = 0 then (1 : ℚ) else 0 := by
      intro a
      have : (instanceOf E g d (a 0) (a 1)).mixT E l = solutionOf E g d (a 0) (a 1) ↔
          MvPolynomial.eval a (outP d l) = 0 := by
        rw [mixT_eq L hsub, solution_eq L hsub, pair_inj L hsub hne]
        simp only [outP, map_sub, eval_mixET, map_mul, map_pow, MvPolynomial.eval_X, sub_eq_zero]
      unfold at_
      simp only [Solver.run, Guess.chance, this]
    rw [avg_congr e]
    refine (avg_zeros (outP_ne hd' l) (deg_outP hd l)).trans ?_
    have hr : (0 : ℚ) < rOrder := by exact_mod_cast rOrder_prime.pos
    refine div_le_div_of_nonneg_right ?_ hr.le
    have : ((2 * d + 1 : Nat) : ℚ) * 1 ≤ (2 * d + 1 : Nat) * (m + 1 : Nat) := by
      refine mul_le_mul_of_nonneg_left ?_ (Nat.cast_nonneg _)
      exact_mod_cast Nat.succ_le_succ (Nat.zero_le m)
    linarith

theorem solveChance_at (d : Nat) (S : (Coin d → Fr) → Solver) :
    solveChance E g d (fun I k => (S k).run E I) =
      avg fun k => avg (at_ E g d (S k)) := by
  unfold solveChance
  rw [← avg_prod (fun γ b => avg fun k : Coin d → Fr =>
    ((S k).run E (instanceOf E g d γ b)).chance (solutionOf E g d γ b)),
    ← avg_equiv (finTwoArrowEquiv Fr), avg_comm]
  rfl

end Box

end Pixel
