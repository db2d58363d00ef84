import Verif.Proof.Prime
import Mathlib.FieldTheory.Finite.Basic

/-!
# Primality certificates with one large prime factor

Pocklington's criterion, and with it the primality of the order of an auxiliary point
(`Verif/Curve/Torsion.lean`).
-/

namespace Pixel.Curve

open Pixel

/-- Pocklington: `p` is a prime factor of `n - 1` with `n < p²`. -/
theorem pocklington {n m p a : Nat} (hn : 1 < n) (hp : p.Prime) (hm : n - 1 = m * p)
    (hsq : n < p * p) (h1 : a ^ (n - 1) % n = 1) (h2 : Nat.gcd (a ^ m % n + (n - 1)) n = 1) :
    n.Prime := by
  by_contra hnp
  have hs := Nat.minFac_prime (n := n) (by omega)
  have hle : n.minFac ^ 2 ≤ n := Nat.minFac_sq_le_self (by omega) hnp
  have hd := Nat.minFac_dvd n
  generalize n.minFac = s at hs hle hd
  have : Fact s.Prime := ⟨hs⟩
  have hz : ((n : Nat) : ZMod s) = 0 := (ZMod.natCast_eq_zero_iff _ _).2 hd
  have hcast : ∀ x : Nat, ((x % n : Nat) : ZMod s) = (x : ZMod s) := by
    intro x
    conv_rhs => rw [← Nat.div_add_mod x n]
    rw [Nat.cast_add, Nat.cast_mul, hz]
    ring
  have e1 : (a : ZMod s) ^ (n - 1) = 1 := by
    have := hcast (a ^ (n - 1))
    rw [h1, Nat.cast_one, Nat.cast_pow] at this
    exact this.symm
  have e2 : (a : ZMod s) ^ m ≠ 1 := by
    intro h
    have h3 : s ∣ a ^ m % n + (n - 1) := by
      rw [← ZMod.natCast_eq_zero_iff, Nat.cast_add, hcast, Nat.cast_pow, h, ← Nat.cast_one,
        ← Nat.cast_add, show 1 + (n - 1) = n by omega, hz]
    have h4 := Nat.dvd_gcd h3 hd
    rw [h2] at h4
    exact hs.one_lt.ne' (Nat.dvd_one.1 h4)
  have h5 := orderOf_dvd_of_pow_eq_one e1
  rw [hm] at h5
  have h6 : p ∣ orderOf (a : ZMod s) := by
    by_contra h
    have hc : Nat.Coprime (orderOf (a : ZMod s)) p := ((Nat.Prime.coprime_iff_not_dvd hp).2 h).symm
    exact e2 (orderOf_dvd_iff_pow_eq_one.1 (hc.dvd_of_dvd_mul_right h5))
  have ha : (a : ZMod s) ≠ 0 := by
    intro h
    rw [h, zero_pow (by omega)] at e1
    exact zero_ne_one e1
  have h7 := orderOf_dvd_of_pow_eq_one (ZMod.pow_card_sub_one_eq_one ha)
  have h8 : p ≤ s - 1 := Nat.le_of_dvd (by have := hs.one_lt; omega) (h6.trans h7)
  have h9 : p * p ≤ s * s := Nat.mul_le_mul (by omega) (by omega)
  rw [sq] at hle
  omega

/-- the certificate, computed -/
def pockCheck (n m p a fuel : Nat) : Bool :=
  decide (1 < n) && decide (n - 1 = m * p) && decide (n < p * p) && decide (n < 2 ^ fuel) &&
    decide (powMod n fuel a (n - 1) = 1) &&
    decide (Nat.gcd (powMod n fuel a m + (n - 1)) n = 1)

theorem pockCheck_prime {n m p a fuel : Nat} (hp : p.Prime) (h : pockCheck n m p a fuel = true) :
    n.Prime := by
  simp only [pockCheck, Bool.and_eq_true, decide_eq_true_eq] at h
  obtain ⟨⟨⟨⟨⟨h1, h2⟩, h3⟩, h4⟩, h5⟩, h6⟩ := h
  have hm : m < 2 ^ fuel := by
    have := hp.pos
    have : m * 1 ≤ m * p := Nat.mul_le_mul le_rfl hp.pos
    omega
  rw [powMod_eq _ _ _ _ (by omega)] at h5
  rw [powMod_eq _ _ _ _ hm] at h6
  exact pocklington h1 hp h2 h3 h5 h6

theorem prime0 : Nat.Prime 12192593745179 := by
  refine lucas_primality _ 2 ?_ ?_
  · have h : powMod 12192593745179 64 2 (12192593745179 - 1) = 1 := by decide +kernel
    rw [powMod_eq _ _ _ _ (by decide +kernel)] at h
    have h2 := ZMod.natCast_mod (2 ^ (12192593745179 - 1)) 12192593745179
    rw [h, Nat.cast_pow, Nat.cast_one] at h2
    exact h2.symm
  · intro q hq hd
    have hmem : q ∈ [2, 7, 11, 107, 541, 1367711] := by
      rw [show 12192593745179 - 1 = 2 * 7 * 11 * 107 * 541 * 1367711 by decide +kernel] at hd
      have eqp : ∀ {p : Nat}, p.Prime → q ∣ p → q = p := fun hp h =>
        (Nat.prime_dvd_prime_iff_eq hq hp).1 h
      have p0 : Nat.Prime 2 := by norm_num
      have p1 : Nat.Prime 7 := by norm_num
      have p2 : Nat.Prime 11 := by norm_num
      have p3 : Nat.Prime 107 := by norm_num
      have p4 : Nat.Prime 541 := by norm_num
      have p5 : Nat.Prime 1367711 := by norm_num
      simp only [hq.dvd_mul] at hd
      rcases hd with ((((h | h) | h) | h) | h) | h
      · simp [eqp p0 h]
      · simp [eqp p1 h]
      · simp [eqp p2 h]
      · simp [eqp p3 h]
      · simp [eqp p4 h]
      · simp [eqp p5 h]
    have key : ∀ q ∈ [2, 7, 11, 107, 541, 1367711],
        (12192593745179 - 1) / q < 2 ^ 64 ∧ powMod 12192593745179 64 2 ((12192593745179 - 1) / q) ≠ 1 := by decide +kernel
    obtain ⟨k1, k2⟩ := key q hmem
    rw [powMod_eq _ _ _ _ k1] at k2
    intro h
    refine k2 ?_
    have h3 : ((2 ^ ((12192593745179 - 1) / q) : Nat) : ZMod 12192593745179) = ((1 : Nat) : ZMod 12192593745179) := by
      rw [Nat.cast_pow, Nat.cast_one]
      exact h
    rw [ZMod.natCast_eq_natCast_iff] at h3
    exact h3

theorem prime1 : Nat.Prime
    512088937297519 :=
  pockCheck_prime (m := 42) (a := 2) (fuel := 50) prime0 (by decide +kernel)

theorem prime2 : Nat.Prime
    1857858664515398933 :=
  pockCheck_prime (m := 3628) (a := 2) (fuel := 62) prime1 (by decide +kernel)

theorem prime3 : Nat.Prime
    22294303974184787197 :=
  pockCheck_prime (m := 12) (a := 2) (fuel := 66) prime2 (by decide +kernel)

theorem prime4 : Nat.Prime
    19931107752921199754119 :=
  pockCheck_prime (m := 894) (a := 2) (fuel := 76) prime3 (by decide +kernel)

theorem prime5 : Nat.Prime
    81162125843606155545104998607900118769099783 :=
  pockCheck_prime (m := 4072133212551150901578) (a := 2) (fuel := 147) prime4 (by decide +kernel)

theorem prime6 : Nat.Prime
    26935696298915610574513298451669528361624243820491956655650666425177 :=
  pockCheck_prime (m := 331875194481953911837672) (a := 2) (fuel := 225) prime5 (by decide +kernel)

theorem prime7 : Nat.Prime
    4638704574076146691498289350639807119782054683906549022985642612861209609656189848749536921852444848596916990932297 :=
  pockCheck_prime (m := 172214021222941014338396330402661971150362189448) (a := 2) (fuel := 382) prime6 (by decide +kernel)

/-- the order of the auxiliary point -/
def auxOrder : Nat :=
  402096035359507321594726366720466575392706800671181159425656785868777272553337714697862511267018014931937703598282857976535744623203249

theorem auxOrder_prime : Nat.Prime
    auxOrder :=
  pockCheck_prime (m := 86682828996409959984) (a := 2) (fuel := 449) prime7 (by decide +kernel)

end Pixel.Curve
