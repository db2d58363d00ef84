import Verif.Model.Ext
import Mathlib.NumberTheory.LucasPrimality
import Mathlib.Tactic.NormNum.Prime

/-! # The group order is prime (a Lucas certificate) -/

namespace Pixel

/-- `a ^ n mod m` by repeated squaring (`fuel` bounds the number of bits) -/
def powMod (m : Nat) : Nat → Nat → Nat → Nat
  | 0, _, _ => 1 % m
  | fuel + 1, a, n =>
    if n = 0 then 1 % m
    else
      let h := powMod m fuel (a * a % m) (n / 2)
      if n % 2 = 1 then h * a % m else h

theorem powMod_eq (m : Nat) : ∀ (fuel a n : Nat), n < 2 ^ fuel → powMod m fuel a n = a ^ n % m := by
  intro fuel
  induction fuel with
  | zero =>
    intro a n h
    have : n = 0 := by simpa using h
    subst this
    simp [powMod]
  | succ f ih =>
    intro a n h
    rw [powMod]
    by_cases h0 : n = 0
    · simp [h0]
    · rw [if_neg h0]
      have hl : n / 2 < 2 ^ f := by rw [Nat.pow_succ] at h; omega
      have hh := ih (a * a % m) (n / 2) hl
      have e : (a * a % m) ^ (n / 2) % m = a ^ (2 * (n / 2)) % m := by
        rw [Nat.pow_mul, ← Nat.pow_mod, sq]
      simp only []
      rw [hh, e]
      by_cases h1 : n % 2 = 1
      · rw [if_pos h1]
        have en : n = 2 * (n / 2) + 1 := by omega
        conv_rhs => rw [en, Nat.pow_succ]
        rw [Nat.mod_mul_mod]
      · rw [if_neg h1]
        have en : n = 2 * (n / 2) := by omega
        conv_rhs => rw [en]

/-- the prime factors of `r - 1` -/
def rFactors : List Nat :=
  [2, 3, 11, 19, 10177, 125527, 859267, 906349, 2508409, 2529403, 52437899, 254760293]

theorem rOrder_sub : rOrder - 1 = 2 ^ 32 * 3 * 11 * 19 * 10177 * 125527 * 859267 * 906349 ^ 2 *
    2508409 * 2529403 * 52437899 * 254760293 ^ 2 := by decide +kernel

theorem pow_cast (n : Nat) (h : n < 2 ^ 256) :
    (7 : ZMod rOrder) ^ n = (powMod rOrder 256 7 n : Nat) := by
  rw [powMod_eq _ _ _ _ h, ZMod.natCast_mod, Nat.cast_pow]
  rfl

theorem rOrder_prime : rOrder.Prime := by
  refine lucas_primality rOrder 7 ?_ ?_
  · rw [pow_cast _ (by decide +kernel)]
    have : powMod rOrder 256 7 (rOrder - 1) = 1 := by decide +kernel
    rw [this, Nat.cast_one]
  · intro q hq hdvd
    have hmem : q ∈ rFactors := by
      rw [rOrder_sub] at hdvd
      have p1 : Nat.Prime 2 := by norm_num
      have p2 : Nat.Prime 3 := by norm_num
      have p3 : Nat.Prime 11 := by norm_num
      have p4 : Nat.Prime 19 := by norm_num
      have p5 : Nat.Prime 10177 := by norm_num
      have p6 : Nat.Prime 125527 := by norm_num
      have p7 : Nat.Prime 859267 := by norm_num
      have p8 : Nat.Prime 906349 := by norm_num
      have p9 : Nat.Prime 2508409 := by norm_num
      have p10 : Nat.Prime 2529403 := by norm_num
      have p11 : Nat.Prime 52437899 := by norm_num
      have p12 : Nat.Prime 254760293 := by norm_num
      have eqp : ∀ {p : Nat}, p.Prime → q ∣ p → q = p := fun hp h =>
        (Nat.prime_dvd_prime_iff_eq hq hp).1 h
      simp only [hq.dvd_mul] at hdvd
      rcases hdvd with ((((((((((h | h) | h) | h) | h) | h) | h) | h) | h) | h) | h) | h
      · simp [rFactors, eqp p1 (hq.dvd_of_dvd_pow h)]
      · simp [rFactors, eqp p2 h]
      · simp [rFactors, eqp p3 h]
      · simp [rFactors, eqp p4 h]
      · simp [rFactors, eqp p5 h]
      · simp [rFactors, eqp p6 h]
      · simp [rFactors, eqp p7 h]
      · simp [rFactors, eqp p8 (hq.dvd_of_dvd_pow h)]
      · simp [rFactors, eqp p9 h]
      · simp [rFactors, eqp p10 h]
      · simp [rFactors, eqp p11 h]
      · simp [rFactors, eqp p12 (hq.dvd_of_dvd_pow h)]
    have hlt : (rOrder - 1) / q < 2 ^ 256 :=
      lt_of_le_of_lt (Nat.div_le_self _ _) (by decide +kernel)
    rw [pow_cast _ hlt]
    have key : ∀ q ∈ rFactors, powMod rOrder 256 7 ((rOrder - 1) / q) % rOrder ≠ 1 := by
      decide +kernel
    intro h
    refine key q hmem ?_
    have h1 : ((powMod rOrder 256 7 ((rOrder - 1) / q) : Nat) : ZMod rOrder) = ((1 : Nat) : ZMod rOrder) := by
      rw [h, Nat.cast_one]
    rw [ZMod.natCast_eq_natCast_iff] at h1
    have h2 : 1 % rOrder = 1 := by decide +kernel
    rw [← h2]
    exact h1

end Pixel
