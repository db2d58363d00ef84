import Verif.Curve.Engine
import Verif.Proof.Prime
import Mathlib.GroupTheory.OrderOfElement
import Mathlib.SetTheory.Cardinal.Finite
import Mathlib.NumberTheory.LegendreSymbol.Basic
import Mathlib.Algebra.QuadraticAlgebra.Basic

/-!
# The base fields of BLS12-381

The prime `q` and the fields with `q` and `q²` elements (crate `pairing-plus`: `Fq` and `Fq2`).
That `q` is a prime is proved with a point of order `r` on the curve itself: if `q` had a divisor
`p ≤ √q`, the same computation modulo `p` would give a point of order `r` on a curve with at most
`2p + 1 < r` points.
-/

namespace Pixel.Curve

open WeierstrassCurve

/-! ## counting points -/

section count

variable {F : Type} [Field F] {b : F}

/-- a `y` with `y² = x³ + b`, if there is one -/
noncomputable def someRoot (b x : F) : F := by
  classical exact if h : ∃ y, y ^ 2 = x ^ 3 + b then h.choose else 0

theorem someRoot_spec {x y : F} (h : y ^ 2 = x ^ 3 + b) : y = someRoot b x ∨ y = -someRoot b x := by
  have hex : ∃ y, y ^ 2 = x ^ 3 + b := ⟨y, h⟩
  unfold someRoot
  rw [dif_pos hex]
  exact sq_eq_sq_iff_eq_or_eq_neg.1 (h.trans hex.choose_spec.symm)

/-- a point is determined by `x` and one bit -/
noncomputable def code : (curve b).Point → Option (F × Bool)
  | .zero => none
  | .some x y _ => some (x, by classical exact decide (y = someRoot b x))

theorem code_injective : Function.Injective (code (b := b)) := by
  classical
  intro P Q h
  cases P with
  | zero =>
    cases Q with
    | zero => rfl
    | some x y hn => simp [code] at h
  | some x y hn =>
    cases Q with
    | zero => simp [code] at h
    | some x' y' hn' =>
      simp only [code, Option.some.injEq, Prod.mk.injEq] at h
      obtain ⟨rfl, h⟩ := h
      have h1 := someRoot_spec (nonsingular_iff.1 hn).1
      have h2 := someRoot_spec (nonsingular_iff.1 hn').1
      have hy : y = y' := by
        rw [decide_eq_decide] at h
        rcases h1 with h1 | h1
        · rw [h1, h.1 h1]
        · rcases h2 with h2 | h2
          · rw [h2, h.2 h2]
          · rw [h1, h2]
      subst hy
      rfl

instance [Finite F] : Finite (curve b).Point := Finite.of_injective _ code_injective

theorem card_points [Finite F] : Nat.card (curve b).Point ≤ 2 * Nat.card F + 1 := by
  have h := Nat.card_le_card_of_injective _ (code_injective (b := b))
  have := Fintype.ofFinite F
  rw [Nat.card_eq_fintype_card (α := Option (F × Bool)), Fintype.card_option, Fintype.card_prod,
    Fintype.card_bool, ← Nat.card_eq_fintype_card] at h
  omega

end count

/-! ## arithmetic modulo `n` -/

/-- `k n`, with `n` evaluated first -/
def forceNat {β : Type} (n : Nat) (k : Nat → β) : β := Nat.rec (k 0) (fun m _ => k (Nat.succ m)) n

theorem forceNat_eq {β : Type} (n : Nat) (k : Nat → β) : forceNat n k = k n := by cases n <;> rfl

/-- numbers modulo `n` -/
def modArith (n : Nat) : Arith Nat where
  add a b := Nat.mod (Nat.add a b) n
  sub a b := Nat.mod (Nat.add a (Nat.sub n (Nat.mod b n))) n
  mul a b := Nat.mod (Nat.mul a b) n
  force := forceNat

theorem modArith_sound {n : Nat} (hn : 0 < n) {F : Type} [CommRing F] (h : (n : F) = 0) :
    (modArith n).Sound (fun a => (a : F)) := by
  have hm : ∀ a : Nat, ((a % n : Nat) : F) = a := by
    intro a
    conv_rhs => rw [← Nat.div_add_mod a n]
    rw [Nat.cast_add, Nat.cast_mul, h]
    ring
  refine ⟨fun a b => ?_, fun a b => ?_, fun a b => ?_, fun a k => forceNat_eq a k⟩
  · show (((a + b) % n : Nat) : F) = _
    rw [hm, Nat.cast_add]
  · show (((a + (n - b % n)) % n : Nat) : F) = _
    rw [hm, Nat.cast_add, Nat.cast_sub (Nat.mod_lt _ hn).le, h, hm]
    ring
  · show (((a * b) % n : Nat) : F) = _
    rw [hm, Nat.cast_mul]

/-- binary digits of a number after the leading one, most significant first -/
def digitsOf (fuel n : Nat) (acc : List Bool) : List Bool :=
  match fuel with
  | 0 => acc
  | f + 1 => if n ≤ 1 then acc else digitsOf f (n / 2) ((n % 2 == 1) :: acc)

/-- The modulus of the base field (crate `pairing-plus`, `Fq`). -/
def qMod : Nat :=
  0x1a0111ea397fe69a4b1ba7b6434bacd764774b84f38512bf6730d2a0f6b0f6241eabfffeb153ffffb9feffffffffaaab

/-- coordinates of the generator of BLS12-381 `G1` (crate `pairing-plus`), the crate's
`PixelG2::one()` -/
def genX : Nat :=
  0x17f1d3a73197d7942695638c4fa9ac0fc3688c4f9774b905a14e3a3f171bac586c55e83ff97a1aeffb3af00adb22c6bb
/-- see `genX` -/
def genY : Nat :=
  0x08b3f481e3aaa0f1a09e30ed741d8ae4fcf5e095d5d00af600db18cb2c04b3edd03cc744a2888ae40caa232946c5e7e1

/-- the digits of `r - 1` after the leading one -/
def rDigits : List Bool := digitsOf 256 (rOrder - 1) []

theorem rDigits_value : value rDigits 1 = rOrder - 1 := by decide +kernel

/-- the point with Jacobian coordinates `(X, Y, Z)` is the negative of `(x, y)`, and `Z` is prime to
`n` -/
def isNeg (n x y X Y Z : Nat) : Bool :=
  Nat.gcd Z n == 1 && X % n == x * Z ^ 2 % n && (Y + y * Z ^ 3) % n == 0

theorem gen_run : run (modArith qMod) genX genY rDigits genX genY 1 (isNeg qMod genX genY) = true := by
  decide +kernel

theorem gen_on : genY ^ 2 % qMod = (genX ^ 3 + 4) % qMod ∧ Nat.gcd (2 * genY) qMod = 1 := by
  decide +kernel

section nat

variable {n : Nat} {F : Type} [Field F]

theorem cast_mod (h : (n : F) = 0) (a : Nat) : ((a % n : Nat) : F) = a := by
  conv_rhs => rw [← Nat.div_add_mod a n]
  rw [Nat.cast_add, Nat.cast_mul, h]
  ring

theorem cast_eq_of_mod (h : (n : F) = 0) {a b : Nat} (hab : a % n = b % n) : (a : F) = b := by
  rw [← cast_mod h a, ← cast_mod h b, hab]

theorem cast_ne_zero (h : (n : F) = 0) {a : Nat} (ha : Nat.gcd a n = 1) : (a : F) ≠ 0 := by
  intro h0
  have := Nat.gcd_eq_gcd_ab a n
  rw [ha] at this
  have h2 : ((1 : ℕ) : ℤ) = a * Nat.gcdA a n + n * Nat.gcdB a n := this
  have h3 := congrArg (fun z : ℤ => (z : F)) h2
  push_cast at h3
  rw [h0, h] at h3
  simp at h3

variable [DecidableEq F] {b : F}

/-- the certificate: `r` kills the point -/
theorem order_of_run (hn : 0 < n) (h : (n : F) = 0) {x y m : Nat} {ds : List Bool}
    (hm : value ds 1 = m) {P : (curve b).Point} (hP : IsPt P (x : F) (y : F))
    (hr : run (modArith n) x y ds x y 1 (isNeg n x y) = true) : (m + 1) • P = 0 := by
  have S := modArith_sound hn h
  obtain ⟨X, Y, Z, e, hj⟩ := run_spec S hP (isNeg n x y) ds 1 x y 1 (by
    intro _
    rw [one_nsmul]
    simpa using hP)
  rw [e] at hr
  simp only [isNeg, Bool.and_eq_true, beq_iff_eq] at hr
  obtain ⟨⟨h1, h2⟩, h3⟩ := hr
  have hZ := cast_ne_zero h h1
  have hX := cast_eq_of_mod h h2
  have hY := cast_eq_of_mod h (b := 0) (a := Y + y * Z ^ 3) (by rw [h3, Nat.zero_mod])
  push_cast at hX hY
  have hpt := hj hZ
  have e1 : (X : F) / (Z : F) ^ 2 = x := by
    rw [hX]
    field_simp
  have e2 : (Y : F) / (Z : F) ^ 3 = -y := by
    have : (Y : F) = -(y * (Z : F) ^ 3) := by linear_combination hY
    rw [this]
    field_simp
  simp only [e1, e2] at hpt
  have hneg := hpt.inj hP.neg
  rw [hm] at hneg
  rw [succ_nsmul, hneg, neg_add_cancel]

/-- the generator modulo any divisor of `q` -/
theorem gen_isPt (h : (qMod : F) = 0) :
    ∃ P : (curve (4 : F)).Point, IsPt P (genX : F) (genY : F) := by
  have h1 := cast_eq_of_mod h gen_on.1
  have h2 := cast_ne_zero h gen_on.2
  push_cast at h1 h2
  have hn : (curve (4 : F)).Nonsingular (genX : F) (genY : F) := by
    rw [nonsingular_iff]
    refine ⟨h1, Or.inr fun hh => h2 ?_⟩
    linear_combination hh
  exact ⟨.some _ _ hn, hn, rfl⟩

end nat

theorem rOrder_pos : 0 < rOrder := by decide +kernel

theorem rOrder_succ : rOrder - 1 + 1 = rOrder := by decide +kernel

theorem qMod_pos : 0 < qMod := by decide +kernel

theorem half_le {r p : Nat} (h : r ≤ 2 * p + 1) : (r - 1) / 2 ≤ p := by omega

theorem half_sq : ¬ (rOrder - 1) / 2 * ((rOrder - 1) / 2) ≤ qMod := by decide +kernel

theorem qMod_prime : qMod.Prime := by
  by_contra hq
  have hp := Nat.minFac_prime (n := qMod) (by decide +kernel)
  have hle : qMod.minFac ^ 2 ≤ qMod := Nat.minFac_sq_le_self qMod_pos hq
  have hd := Nat.minFac_dvd qMod
  generalize qMod.minFac = p at hp hle hd
  have : Fact p.Prime := ⟨hp⟩
  have h0 : ((qMod : Nat) : ZMod p) = 0 := (ZMod.natCast_eq_zero_iff _ _).2 hd
  obtain ⟨P, hP⟩ := gen_isPt h0
  have hr := order_of_run qMod_pos h0 rDigits_value hP gen_run
  rw [rOrder_succ] at hr
  have ho : addOrderOf P = rOrder := addOrderOf_eq_prime hr hP.ne_zero (hp := ⟨rOrder_prime⟩)
  have h1 : addOrderOf P ≤ Nat.card (curve (4 : ZMod p)).Point := addOrderOf_le_card
  have h2 := card_points (F := ZMod p) (b := 4)
  rw [Nat.card_zmod] at h2
  rw [ho] at h1
  have h3 : rOrder ≤ 2 * p + 1 := h1.trans h2
  rw [sq] at hle
  exact half_sq ((Nat.mul_le_mul (half_le h3) (half_le h3)).trans hle)

end Pixel.Curve
