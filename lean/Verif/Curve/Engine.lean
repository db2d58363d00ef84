import Mathlib.AlgebraicGeometry.EllipticCurve.Affine.Point
import Mathlib.Tactic.FieldSimp
import Mathlib.Tactic.LinearCombination

/-!
# Multiples of points on `y² = x³ + b`, computed in Jacobian coordinates

Nothing here comes from `/repo`.  `run` computes multiples of a point with ring operations only; the
theorem `run_spec` says that they are the multiples in Mathlib's group of nonsingular points.  It is
used to check, in the kernel, that given points have given orders.
-/

namespace Pixel.Curve

open WeierstrassCurve

set_option linter.unusedSectionVars false

/-- the curve `y² = x³ + b` -/
def curve {F : Type} [CommRing F] (b : F) : Affine F := ⟨0, 0, 0, 0, b⟩

section group

variable {F : Type} [Field F] [DecidableEq F] {b : F}

/-- `P` is the affine point `(x, y)` -/
def IsPt (P : (curve b).Point) (x y : F) : Prop := ∃ h, P = .some x y h

theorem equation_iff {x y : F} : (curve b).Equation x y ↔ y ^ 2 = x ^ 3 + b := by
  rw [Affine.equation_iff]
  simp [curve]

theorem nonsingular_iff {x y : F} :
    (curve b).Nonsingular x y ↔ y ^ 2 = x ^ 3 + b ∧ (3 * x ^ 2 ≠ 0 ∨ y ≠ -y) := by
  rw [Affine.nonsingular_iff, equation_iff]
  simp [curve, eq_comm]

theorem negY_eq {x y : F} : (curve b).negY x y = -y := by simp [Affine.negY, curve]

theorem IsPt.neg {P : (curve b).Point} {x y : F} (h : IsPt P x y) : IsPt (-P) x (-y) := by
  obtain ⟨h, rfl⟩ := h
  refine ⟨?_, ?_⟩
  · rw [← negY_eq (b := b) (x := x), Affine.nonsingular_neg]
    exact h
  · rw [Affine.Point.neg_some]
    congr 1
    exact negY_eq

theorem IsPt.ne_zero {P : (curve b).Point} {x y : F} (h : IsPt P x y) : P ≠ 0 := by
  obtain ⟨h, rfl⟩ := h
  exact Affine.Point.some_ne_zero h

theorem IsPt.inj {P Q : (curve b).Point} {x y : F} (h : IsPt P x y) (h' : IsPt Q x y) : P = Q := by
  obtain ⟨h, rfl⟩ := h
  obtain ⟨h', rfl⟩ := h'
  rfl

theorem IsPt.coords {P : (curve b).Point} {x y x' y' : F} (h : IsPt P x y) (h' : IsPt P x' y') :
    x = x' ∧ y = y' := by
  obtain ⟨h, rfl⟩ := h
  obtain ⟨h', e⟩ := h'
  injection e with e1 e2
  exact ⟨e1, e2⟩

theorem IsPt.double {P : (curve b).Point} {x y : F} (h : IsPt P x y) (hy : 2 * y ≠ 0) :
    IsPt (P + P) ((3 * x ^ 2 / (2 * y)) ^ 2 - 2 * x)
      (3 * x ^ 2 / (2 * y) * (x - ((3 * x ^ 2 / (2 * y)) ^ 2 - 2 * x)) - y) := by
  obtain ⟨h, rfl⟩ := h
  have hne : y ≠ (curve b).negY x y := by
    rw [negY_eq]
    intro hh
    apply hy
    linear_combination hh
  have hs : (curve b).slope x x y y = 3 * x ^ 2 / (2 * y) := by
    rw [Affine.slope_of_Y_ne rfl hne, negY_eq]
    have : y - -y = 2 * y := by ring
    rw [this]
    simp [curve]
  rw [Affine.Point.add_self_of_Y_ne hne]
  have e1 : (curve b).addX x x ((curve b).slope x x y y) =
      (3 * x ^ 2 / (2 * y)) ^ 2 - 2 * x := by
    rw [hs]
    simp [Affine.addX, curve]
    ring
  have e2 : (curve b).addY x x y ((curve b).slope x x y y) =
      3 * x ^ 2 / (2 * y) * (x - ((3 * x ^ 2 / (2 * y)) ^ 2 - 2 * x)) - y := by
    rw [Affine.addY, Affine.negAddY, negY_eq, e1, hs]
    ring
  have hn := Affine.nonsingular_add (W := curve b) h h (fun hh => hne hh.2)
  rw [e1, e2] at hn
  exact ⟨hn, by congr 1⟩

theorem IsPt.add {P Q : (curve b).Point} {x y x' y' : F} (h : IsPt P x y) (h' : IsPt Q x' y')
    (hx : x' - x ≠ 0) :
    IsPt (P + Q) (((y' - y) / (x' - x)) ^ 2 - x - x')
      ((y' - y) / (x' - x) * (x - (((y' - y) / (x' - x)) ^ 2 - x - x')) - y) := by
  obtain ⟨h, rfl⟩ := h
  obtain ⟨h', rfl⟩ := h'
  have hne : x ≠ x' := fun hh => hx (by rw [hh]; ring)
  have hs : (curve b).slope x x' y y' = (y' - y) / (x' - x) := by
    rw [Affine.slope_of_X_ne hne, ← neg_sub y', ← neg_sub x', neg_div_neg_eq]
  rw [Affine.Point.add_of_X_ne hne]
  have e1 : (curve b).addX x x' ((curve b).slope x x' y y') =
      ((y' - y) / (x' - x)) ^ 2 - x - x' := by
    rw [hs]
    simp [Affine.addX, curve]
  have e2 : (curve b).addY x x' y ((curve b).slope x x' y y') =
      (y' - y) / (x' - x) * (x - (((y' - y) / (x' - x)) ^ 2 - x - x')) - y := by
    rw [Affine.addY, Affine.negAddY, negY_eq, e1, hs]
    ring
  have hn := Affine.nonsingular_add (W := curve b) h h' (fun hh => hne hh.1)
  rw [e1, e2] at hn
  exact ⟨hn, by congr 1⟩

/-- `(X : Y : Z)` are Jacobian coordinates of `P`, if `Z ≠ 0` -/
def IsJac (P : (curve b).Point) (X Y Z : F) : Prop := Z ≠ 0 → IsPt P (X / Z ^ 2) (Y / Z ^ 3)

theorem IsJac.double {P : (curve b).Point} {X Y Z : F} (h : IsJac P X Y Z) :
    IsJac (P + P) ((3 * X ^ 2) ^ 2 - 2 * (4 * X * Y ^ 2))
      (3 * X ^ 2 * (4 * X * Y ^ 2 - ((3 * X ^ 2) ^ 2 - 2 * (4 * X * Y ^ 2))) - 8 * Y ^ 4)
      (2 * Y * Z) := by
  intro hz
  have h2 : (2 : F) ≠ 0 := fun hh => hz (by rw [hh]; ring)
  have hY : Y ≠ 0 := fun hh => hz (by rw [hh]; ring)
  have hZ : Z ≠ 0 := fun hh => hz (by rw [hh]; ring)
  have := (h hZ).double (by
    refine mul_ne_zero h2 (div_ne_zero hY (pow_ne_zero _ hZ)))
  convert this using 1
  · field_simp
    ring
  · field_simp
    ring

theorem IsJac.add {P Q : (curve b).Point} {X Y Z x' y' : F} (h : IsJac P X Y Z)
    (h' : IsPt Q x' y') :
    IsJac (P + Q)
      ((y' * Z ^ 3 - Y) ^ 2 - (x' * Z ^ 2 - X) ^ 3 - 2 * (X * (x' * Z ^ 2 - X) ^ 2))
      ((y' * Z ^ 3 - Y) * (X * (x' * Z ^ 2 - X) ^ 2 -
        ((y' * Z ^ 3 - Y) ^ 2 - (x' * Z ^ 2 - X) ^ 3 - 2 * (X * (x' * Z ^ 2 - X) ^ 2))) -
        Y * (x' * Z ^ 2 - X) ^ 3)
      (Z * (x' * Z ^ 2 - X)) := by
  intro hz
  have hZ : Z ≠ 0 := fun hh => hz (by rw [hh]; ring)
  have hH : x' * Z ^ 2 - X ≠ 0 := fun hh => hz (by rw [hh]; ring)
  have hx : x' - X / Z ^ 2 ≠ 0 := by
    intro hh
    apply hH
    field_simp at hh
    linear_combination hh
  have := (h hZ).add h' hx
  have e : x' - X / Z ^ 2 = (x' * Z ^ 2 - X) / Z ^ 2 := by field_simp
  have e' : y' - Y / Z ^ 3 = (y' * Z ^ 3 - Y) / Z ^ 3 := by field_simp
  rw [e, e'] at this
  generalize hHd : x' * Z ^ 2 - X = H at *
  generalize hRd : y' * Z ^ 3 - Y = R at *
  have ex : x' = (H + X) / Z ^ 2 := by
    rw [← hHd]
    field_simp
    ring
  convert this using 1
  · rw [ex]
    field_simp
    ring
  · rw [ex]
    field_simp
    ring

end group

/-! ## the computation -/

/-- Arithmetic on representatives `K` of the elements of a ring.  `force` has its argument evaluated
before it is used. -/
structure Arith (K : Type) where
  add : K → K → K
  sub : K → K → K
  mul : K → K → K
  force : {β : Type} → K → (K → β) → β

/-- The representatives stand for elements of `F`. -/
structure Arith.Sound {K F : Type} [CommRing F] (A : Arith K) (φ : K → F) : Prop where
  add : ∀ a b, φ (A.add a b) = φ a + φ b
  sub : ∀ a b, φ (A.sub a b) = φ a - φ b
  mul : ∀ a b, φ (A.mul a b) = φ a * φ b
  force : ∀ {β : Type} (a : K) (k : K → β), A.force a k = k a

/-- doubling -/
def dblStep {K β : Type} (A : Arith K) (X Y Z : K) (k : K → K → K → β) : β :=
  A.force (A.mul X X) fun X2 =>
  A.force (A.mul Y Y) fun Y2 =>
  A.force (A.mul X Y2) fun s =>
  A.force (A.add s s) fun s2 =>
  A.force (A.add s2 s2) fun S =>
  A.force (A.add (A.add X2 X2) X2) fun M =>
  A.force (A.sub (A.mul M M) (A.add S S)) fun X3 =>
  A.force (A.mul Y2 Y2) fun Y4 =>
  A.force (A.add Y4 Y4) fun Y42 =>
  A.force (A.add Y42 Y42) fun Y44 =>
  A.force (A.sub (A.mul M (A.sub S X3)) (A.add Y44 Y44)) fun Y3 =>
  A.force (A.mul Y Z) fun W =>
  A.force (A.add W W) fun Z3 => k X3 Y3 Z3

/-- addition of the affine point `(x', y')` -/
def addStep {K β : Type} (A : Arith K) (x' y' X Y Z : K) (k : K → K → K → β) : β :=
  A.force (A.mul Z Z) fun ZZ =>
  A.force (A.sub (A.mul x' ZZ) X) fun H =>
  A.force (A.sub (A.mul (A.mul y' Z) ZZ) Y) fun R =>
  A.force (A.mul H H) fun HH =>
  A.force (A.mul H HH) fun HHH =>
  A.force (A.mul X HH) fun V =>
  A.force (A.sub (A.sub (A.mul R R) HHH) (A.add V V)) fun X3 =>
  A.force (A.sub (A.mul R (A.sub V X3)) (A.mul Y HHH)) fun Y3 =>
  A.force (A.mul Z H) fun Z3 => k X3 Y3 Z3

/-- The multiple of `(x', y')` by the number with leading digit one and the given binary digits
after it; `(X, Y, Z)` are Jacobian coordinates of what has been computed so far. -/
def run {K β : Type} (A : Arith K) (x' y' : K) : List Bool → K → K → K → (K → K → K → β) → β
  | [], X, Y, Z, k => k X Y Z
  | true :: ds, X, Y, Z, k =>
    dblStep A X Y Z fun X Y Z => addStep A x' y' X Y Z fun X Y Z => run A x' y' ds X Y Z k
  | false :: ds, X, Y, Z, k => dblStep A X Y Z fun X Y Z => run A x' y' ds X Y Z k

/-- the number with the given leading part and the given digits -/
def value : List Bool → Nat → Nat
  | [], n => n
  | true :: ds, n => value ds (2 * n + 1)
  | false :: ds, n => value ds (2 * n)

variable {K F : Type} [Field F] [DecidableEq F] {b : F} {A : Arith K} {φ : K → F}

theorem dblStep_eq {β : Type} (S : A.Sound φ) (X Y Z : K) (k : K → K → K → β) :
    ∃ X3 Y3 Z3, dblStep A X Y Z k = k X3 Y3 Z3 ∧
      φ X3 = (3 * φ X ^ 2) ^ 2 - 2 * (4 * φ X * φ Y ^ 2) ∧
      φ Y3 = 3 * φ X ^ 2 * (4 * φ X * φ Y ^ 2 - ((3 * φ X ^ 2) ^ 2 - 2 * (4 * φ X * φ Y ^ 2))) -
        8 * φ Y ^ 4 ∧
      φ Z3 = 2 * φ Y * φ Z := by
  unfold dblStep
  simp only [S.force]
  refine ⟨_, _, _, rfl, ?_, ?_, ?_⟩ <;> simp only [S.add, S.sub, S.mul] <;> ring

theorem addStep_eq {β : Type} (S : A.Sound φ) (x' y' X Y Z : K) (k : K → K → K → β) :
    ∃ X3 Y3 Z3, addStep A x' y' X Y Z k = k X3 Y3 Z3 ∧
      φ X3 = (φ y' * φ Z ^ 3 - φ Y) ^ 2 - (φ x' * φ Z ^ 2 - φ X) ^ 3 -
        2 * (φ X * (φ x' * φ Z ^ 2 - φ X) ^ 2) ∧
      φ Y3 = (φ y' * φ Z ^ 3 - φ Y) * (φ X * (φ x' * φ Z ^ 2 - φ X) ^ 2 -
        ((φ y' * φ Z ^ 3 - φ Y) ^ 2 - (φ x' * φ Z ^ 2 - φ X) ^ 3 -
          2 * (φ X * (φ x' * φ Z ^ 2 - φ X) ^ 2))) - φ Y * (φ x' * φ Z ^ 2 - φ X) ^ 3 ∧
      φ Z3 = φ Z * (φ x' * φ Z ^ 2 - φ X) := by
  unfold addStep
  simp only [S.force]
  refine ⟨_, _, _, rfl, ?_, ?_, ?_⟩ <;> simp only [S.add, S.sub, S.mul] <;> ring

/-- The computed coordinates are those of the multiple. -/
theorem run_spec (S : A.Sound φ) {P : (curve b).Point} {x' y' : K} (hP : IsPt P (φ x') (φ y'))
    {β : Type} (k : K → K → K → β) : ∀ (ds : List Bool) (n : Nat) (X Y Z : K),
    IsJac (n • P) (φ X) (φ Y) (φ Z) →
    ∃ X3 Y3 Z3, run A x' y' ds X Y Z k = k X3 Y3 Z3 ∧
      IsJac (value ds n • P) (φ X3) (φ Y3) (φ Z3) := by
  intro ds
  induction ds with
  | nil => exact fun n X Y Z h => ⟨X, Y, Z, rfl, h⟩
  | cons d ds ih =>
    intro n X Y Z h
    have h2 := h.double
    rw [← two_nsmul, ← mul_nsmul'] at h2
    cases d with
    | false =>
      rw [run, value]
      obtain ⟨X3, Y3, Z3, e, e1, e2, e3⟩ := dblStep_eq S X Y Z
        fun X Y Z => run A x' y' ds X Y Z k
      rw [← e2, ← e1, ← e3] at h2
      rw [e]
      exact ih _ _ _ _ h2
    | true =>
      rw [run, value]
      obtain ⟨X3, Y3, Z3, e, e1, e2, e3⟩ := dblStep_eq S X Y Z
        fun X Y Z => addStep A x' y' X Y Z fun X Y Z => run A x' y' ds X Y Z k
      rw [← e2, ← e1, ← e3] at h2
      rw [e]
      have h3 := h2.add hP
      rw [← succ_nsmul] at h3
      obtain ⟨X4, Y4, Z4, e', e1', e2', e3'⟩ := addStep_eq S x' y' X3 Y3 Z3
        fun X Y Z => run A x' y' ds X Y Z k
      rw [← e2', ← e1', ← e3'] at h3
      rw [e']
      exact ih _ _ _ _ h3

end Pixel.Curve
