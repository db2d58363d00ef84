import Verif.Curve.Field
import Verif.Curve.Pocklington
import Mathlib.GroupTheory.PGroup

/-!
# The groups of BLS12-381 and their elements of order `r`

`E(Fq) : y² = x³ + 4` and `E'(Fq2) : y² = x³ + 4(u + 1)` (crate `pairing-plus`: `G1`, `G2`; the
crate's `PixelG2` and `PixelG1`), and the fact that the elements killed by `r` are in each the
multiples of the generator.
-/

namespace Pixel.Curve

open WeierstrassCurve

instance : Fact qMod.Prime := ⟨qMod_prime⟩

/-- the field with `q` elements (crate `pairing-plus`, `Fq`) -/
abbrev Fq := ZMod qMod

/-- `-1` is no square in `Fq` -/
instance : Fact (∀ r : Fq, r ^ 2 ≠ (-1) + 0 * r) := ⟨by
  intro r h
  have h2 : IsSquare (-1 : Fq) := ⟨r, by rw [← sq, h]; ring⟩
  rw [ZMod.exists_sq_eq_neg_one_iff] at h2
  exact h2 (by decide +kernel)⟩

/-- the field with `q²` elements, `c0 + c1 u` with `u² = -1` (crate `pairing-plus`, `Fq2`) -/
abbrev Fq2 := QuadraticAlgebra Fq (-1) 0

instance : Finite Fq2 := Finite.of_equiv _ (QuadraticAlgebra.equivProd (-1 : Fq) 0).symm

theorem card_Fq : Nat.card Fq = qMod := Nat.card_zmod _

theorem card_Fq2 : Nat.card Fq2 = qMod * qMod := by
  rw [Nat.card_congr (QuadraticAlgebra.equivProd (-1 : Fq) 0), Nat.card_prod, card_Fq]

/-- `PixelG2`: BLS12-381 `G1` with all points of the curve -/
abbrev P2 := (curve (4 : Fq)).Point

/-- the coefficient `4(u + 1)` -/
def b2 : Fq2 := ⟨4, 4⟩

/-- `PixelG1`: BLS12-381 `G2` with all points of the curve -/
abbrev P1 := (curve b2).Point

/-! ## arithmetic in `Fq2` -/

/-- pairs of numbers modulo `q` -/
def pairArith : Arith (Nat × Nat) where
  add a b := (Nat.mod (Nat.add a.1 b.1) qMod, Nat.mod (Nat.add a.2 b.2) qMod)
  sub a b := (Nat.mod (Nat.add a.1 (Nat.sub qMod (Nat.mod b.1 qMod))) qMod,
    Nat.mod (Nat.add a.2 (Nat.sub qMod (Nat.mod b.2 qMod))) qMod)
  mul a b := (Nat.mod (Nat.add (Nat.mul a.1 b.1)
      (Nat.mul a.2 (Nat.sub qMod (Nat.mod b.2 qMod)))) qMod,
    Nat.mod (Nat.add (Nat.mul a.1 b.2) (Nat.mul a.2 b.1)) qMod)
  force p k := forceNat p.1 fun a => forceNat p.2 fun b => k (a, b)

/-- the element a pair stands for -/
def toFq2 (p : Nat × Nat) : Fq2 := ⟨(p.1 : Fq), (p.2 : Fq)⟩

theorem qMod_cast : ((qMod : Nat) : Fq) = 0 := ZMod.natCast_self _

theorem pairArith_sound : pairArith.Sound toFq2 := by
  have hm := cast_mod qMod_cast
  have hs : ∀ a : Nat, ((qMod - a % qMod : Nat) : Fq) = -a := by
    intro a
    rw [Nat.cast_sub (Nat.mod_lt _ qMod_pos).le, qMod_cast, hm]
    ring
  refine ⟨fun a b => ?_, fun a b => ?_, fun a b => ?_, fun a k => ?_⟩
  · refine QuadraticAlgebra.ext ?_ ?_
    · show (((a.1 + b.1) % qMod : Nat) : Fq) = a.1 + b.1
      rw [hm, Nat.cast_add]
    · show (((a.2 + b.2) % qMod : Nat) : Fq) = a.2 + b.2
      rw [hm, Nat.cast_add]
  · refine QuadraticAlgebra.ext ?_ ?_
    · show (((a.1 + (qMod - b.1 % qMod)) % qMod : Nat) : Fq) = a.1 - b.1
      rw [hm, Nat.cast_add, hs, sub_eq_add_neg]
    · show (((a.2 + (qMod - b.2 % qMod)) % qMod : Nat) : Fq) = a.2 - b.2
      rw [hm, Nat.cast_add, hs, sub_eq_add_neg]
  · refine QuadraticAlgebra.ext ?_ ?_
    · rw [QuadraticAlgebra.re_mul]
      show (((a.1 * b.1 + a.2 * (qMod - b.2 % qMod)) % qMod : Nat) : Fq) =
        a.1 * b.1 + (-1) * a.2 * b.2
      rw [hm, Nat.cast_add, Nat.cast_mul, Nat.cast_mul, hs]
      ring
    · rw [QuadraticAlgebra.im_mul]
      show (((a.1 * b.2 + a.2 * b.1) % qMod : Nat) : Fq) = a.1 * b.2 + a.2 * b.1 + 0 * a.2 * b.2
      rw [hm, Nat.cast_add, Nat.cast_mul, Nat.cast_mul]
      ring
  · show forceNat a.1 (fun x => forceNat a.2 fun y => k (x, y)) = k a
    rw [forceNat_eq, forceNat_eq]

/-- equality of the elements two pairs stand for -/
def eqPair (a b : Nat × Nat) : Bool := a.1 % qMod == b.1 % qMod && a.2 % qMod == b.2 % qMod

theorem cast_iff {a b : Nat} : (a : Fq) = b ↔ a % qMod = b % qMod :=
  ZMod.natCast_eq_natCast_iff a b qMod

theorem eqPair_iff {a b : Nat × Nat} : eqPair a b = true ↔ toFq2 a = toFq2 b := by
  simp only [eqPair, Bool.and_eq_true, beq_iff_eq, toFq2, QuadraticAlgebra.mk.injEq, cast_iff]

/-- the point with Jacobian coordinates `(X, Y, Z)` is the negative of `(x, y)`: `none` if `Z` is
zero -/
def isNeg2 (x y X Y Z : Nat × Nat) : Option Bool :=
  let A := pairArith
  if eqPair Z (0, 0) then none
  else some (eqPair X (A.mul x (A.mul Z Z)) &&
    eqPair (A.add Y (A.mul y (A.mul Z (A.mul Z Z)))) (0, 0))

theorem toFq2_zero : toFq2 (0, 0) = 0 := by
  refine QuadraticAlgebra.ext ?_ ?_ <;> exact Nat.cast_zero

theorem toFq2_one : toFq2 (1, 0) = 1 := by
  refine QuadraticAlgebra.ext ?_ ?_
  · exact Nat.cast_one
  · exact Nat.cast_zero

instance : DecidableEq Fq2 := inferInstance

/-- the certificate that `m + 1` kills the point, or that it does not -/
theorem order_of_run2 {b : Fq2} {x y : Nat × Nat} {m : Nat} {ds : List Bool}
    (hm : value ds 1 = m) {P : (curve b).Point} (hP : IsPt P (toFq2 x) (toFq2 y)) {o : Bool}
    (hr : run pairArith x y ds x y (1, 0) (isNeg2 x y) = some o) :
    (m + 1) • P = 0 ↔ o = true := by
  have S := pairArith_sound
  obtain ⟨X, Y, Z, e, hj⟩ := run_spec S hP (isNeg2 x y) ds 1 x y (1, 0) (by
    intro _
    rw [one_nsmul, toFq2_one]
    simpa using hP)
  rw [e] at hr
  unfold isNeg2 at hr
  by_cases hZ : eqPair Z (0, 0) = true
  · rw [if_pos hZ] at hr
    exact absurd hr (by simp)
  rw [if_neg hZ] at hr
  have hr := Option.some.inj hr
  have hZ0 : toFq2 Z ≠ 0 := by rwa [← toFq2_zero, ne_eq, ← eqPair_iff]
  have hpt := hj hZ0
  rw [hm] at hpt
  rw [← hr, Bool.and_eq_true, eqPair_iff, eqPair_iff, S.add, S.mul, S.mul, S.mul, S.mul, S.mul,
    toFq2_zero]
  have e0 : (m + 1) • P = 0 ↔ m • P = -P := by
    rw [succ_nsmul, add_eq_zero_iff_eq_neg]
  rw [e0]
  constructor
  · intro h
    rw [h] at hpt
    obtain ⟨e1, e2⟩ := hpt.coords hP.neg
    rw [div_eq_iff (pow_ne_zero _ hZ0)] at e1 e2
    refine ⟨by rw [e1]; ring, ?_⟩
    rw [e2]
    ring
  · rintro ⟨h1, h2⟩
    have e1 : toFq2 X / toFq2 Z ^ 2 = toFq2 x := by
      rw [div_eq_iff (pow_ne_zero _ hZ0), h1]
      ring
    have e2 : toFq2 Y / toFq2 Z ^ 3 = -toFq2 y := by
      rw [div_eq_iff (pow_ne_zero _ hZ0)]
      linear_combination h2
    rw [e1, e2] at hpt
    exact hpt.inj hP.neg

/-! ## the generators, and an auxiliary point -/

/-- coordinates of the generator of BLS12-381 `G2` (crate `pairing-plus`), the crate's
`PixelG1::one()` -/
def gen1X : Nat × Nat :=
  (0x024aa2b2f08f0a91260805272dc51051c6e47ad4fa403b02b4510b647ae3d1770bac0326a805bbefd48056c8c121bdb8,
   0x13e02b6052719f607dacd3a088274f65596bd0d09920b61ab5da61bbdc7f5049334cf11213945d57e5ac7d055d042b7e)
/-- see `gen1X` -/
def gen1Y : Nat × Nat :=
  (0x0ce5d527727d6e118cc9cdc6da2e351aadfd9baa8cbdd3a76d429a695160d12c923ac9cc3baca289e193548608b82801,
   0x0606c4a02ea734cc32acd2b02bc28b99cb3e287e85a763af267492ab572e99ab3f370d275cec1da1aaa9075ff05f79be)

/-- a point of order `auxOrder` on the second curve; it serves only to count points -/
def auxX : Nat × Nat :=
  (0x742c321cfc416938d661ca92e2049e95cbff82f7f224a70ce7f110897519a5d9b04add2c76fff66fbd66bccb00621ac,
   0x3e2e4ca4a68ca97402f2aa09d95197cfc96d6aa1f2b915414c9b44a9440d9a06b6a83f86f01c2e3b1786800eb86c22d)
/-- see `auxX` -/
def auxY : Nat × Nat :=
  (0x7cf38919ab943d5a06d150da63b33d36d4f74f5845a4d4cbc744966e24e1e7a0f510338f484c02b7e3b1a8bbb1a3102,
   0xf3a9c32939b1c049b65f634fdac4efe8ceab9d9a758fc1d53eb78af860513bf0fb9a200edcd0f043cdf355cc142fa01)

/-- the pair satisfies the equation of the second curve, and `y` is not zero -/
def onCurve2 (x y : Nat × Nat) : Bool :=
  let A := pairArith
  eqPair (A.mul y y) (A.add (A.mul x (A.mul x x)) (4, 4)) && !eqPair (A.add y y) (0, 0)

theorem toFq2_b2 : toFq2 (4, 4) = b2 := by
  refine QuadraticAlgebra.ext ?_ ?_ <;> exact Nat.cast_ofNat

theorem onCurve2_isPt {x y : Nat × Nat} (h : onCurve2 x y = true) :
    ∃ P : P1, IsPt P (toFq2 x) (toFq2 y) := by
  have S := pairArith_sound
  simp only [onCurve2, Bool.and_eq_true, Bool.not_eq_true', Bool.eq_false_iff, ne_eq, eqPair_iff,
    S.mul, S.add, toFq2_zero, toFq2_b2] at h
  have hn : (curve b2).Nonsingular (toFq2 x) (toFq2 y) := by
    rw [nonsingular_iff]
    refine ⟨by rw [sq, h.1]; ring, Or.inr fun hh => h.2 ?_⟩
    linear_combination hh
  exact ⟨.some _ _ hn, hn, rfl⟩

theorem gen1_on : onCurve2 gen1X gen1Y = true := by decide +kernel

theorem aux_on : onCurve2 auxX auxY = true := by decide +kernel

theorem gen1_run : run pairArith gen1X gen1Y rDigits gen1X gen1Y (1, 0) (isNeg2 gen1X gen1Y) =
    some true := by decide +kernel

/-- the digits of `auxOrder - 1` after the leading one -/
def auxDigits : List Bool := digitsOf 512 (auxOrder - 1) []

theorem auxDigits_value : value auxDigits 1 = auxOrder - 1 := by decide +kernel

theorem auxOrder_succ : auxOrder - 1 + 1 = auxOrder := by decide +kernel

theorem aux_run : run pairArith auxX auxY auxDigits auxX auxY (1, 0) (isNeg2 auxX auxY) =
    some true := by decide +kernel

/-- `PixelG2::one()` -/
noncomputable def gen2 : P2 := (gen_isPt qMod_cast).choose

theorem gen2_isPt : IsPt gen2 (genX : Fq) (genY : Fq) := (gen_isPt qMod_cast).choose_spec

/-- `PixelG1::one()` -/
noncomputable def gen1 : P1 := (onCurve2_isPt gen1_on).choose

theorem gen1_isPt : IsPt gen1 (toFq2 gen1X) (toFq2 gen1Y) := (onCurve2_isPt gen1_on).choose_spec

theorem gen2_order : rOrder • gen2 = 0 := by
  have := order_of_run qMod_pos qMod_cast rDigits_value gen2_isPt gen_run
  rwa [rOrder_succ] at this

theorem gen1_order : rOrder • gen1 = 0 := by
  have := (order_of_run2 rDigits_value gen1_isPt gen1_run).2 rfl
  rwa [rOrder_succ] at this

/-! ## elements killed by `r` -/

/-- If `p²` does not divide the number of elements, the elements killed by `p` are the multiples of
one of them. -/
theorem cyclic_torsion {A : Type} [AddCommGroup A] [Finite A] {p : Nat} (hp : p.Prime)
    (hsq : ¬ p * p ∣ Nat.card A) {g : A} (hg : p • g = 0) (hg0 : g ≠ 0) {a : A} (ha : p • a = 0) :
    ∃ n : Nat, a = n • g := by
  have : Fact p.Prime := ⟨hp⟩
  let T : AddSubgroup A := (nsmulAddMonoidHom p : A →+ A).ker
  have hT : ∀ x : A, x ∈ T ↔ p • x = 0 := fun x => by
    rw [AddMonoidHom.mem_ker]
    rfl
  have hpg : IsPGroup p (Multiplicative T) := by
    intro x
    refine ⟨1, ?_⟩
    rw [pow_one]
    have : p • (Multiplicative.toAdd x) = 0 := Subtype.ext ((hT _).1 (Multiplicative.toAdd x).2)
    exact this
  obtain ⟨k, hk⟩ := IsPGroup.iff_card.1 hpg
  have hk : Nat.card T = p ^ k := hk
  have hdvd : Nat.card T ∣ Nat.card A := AddSubgroup.card_addSubgroup_dvd_card T
  have hk1 : k ≤ 1 := by
    by_contra h
    refine hsq (dvd_trans ?_ hdvd)
    rw [hk, ← sq]
    exact pow_dvd_pow p (by omega)
  have hle : Nat.card T ≤ p := by
    rw [hk]
    calc p ^ k ≤ p ^ 1 := Nat.pow_le_pow_right hp.pos hk1
      _ = p := pow_one p
  have ho : addOrderOf g = p := addOrderOf_eq_prime hg hg0
  have hsub : AddSubgroup.zmultiples g ≤ T := by
    rw [AddSubgroup.zmultiples_le]
    exact (hT g).2 hg
  have hcard : Nat.card (AddSubgroup.zmultiples g) = p := by rw [Nat.card_zmultiples, ho]
  have heq : AddSubgroup.zmultiples g = T :=
    AddSubgroup.eq_of_le_of_card_ge hsub (by rw [hcard]; exact hle)
  have hmem : a ∈ AddSubgroup.zmultiples g := by
    rw [heq]
    exact (hT a).2 ha
  rw [← mem_multiples_iff_mem_zmultiples] at hmem
  obtain ⟨n, hn⟩ := hmem
  exact ⟨n, hn.symm⟩

theorem bound2 : 2 * qMod + 1 < rOrder * rOrder := by decide +kernel

theorem bound1 : 2 * (qMod * qMod) + 1 < rOrder * rOrder * auxOrder := by decide +kernel

theorem coprime1 : Nat.Coprime (rOrder * rOrder) auxOrder := by
  unfold Nat.Coprime
  decide +kernel

theorem torsion2 {a : P2} (ha : rOrder • a = 0) : ∃ n : Nat, a = n • gen2 := by
  refine cyclic_torsion rOrder_prime ?_ gen2_order gen2_isPt.ne_zero ha
  intro h
  have h1 := Nat.le_of_dvd Nat.card_pos h
  have h2 := card_points (F := Fq) (b := 4)
  rw [card_Fq] at h2
  exact absurd (h1.trans h2) (Nat.not_le.2 bound2)

theorem torsion1 {a : P1} (ha : rOrder • a = 0) : ∃ n : Nat, a = n • gen1 := by
  refine cyclic_torsion rOrder_prime ?_ gen1_order gen1_isPt.ne_zero ha
  intro h
  obtain ⟨Q, hQ⟩ := onCurve2_isPt aux_on
  have hr := (order_of_run2 auxDigits_value hQ aux_run).2 rfl
  rw [auxOrder_succ] at hr
  have ho : addOrderOf Q = auxOrder := addOrderOf_eq_prime hr hQ.ne_zero (hp := ⟨auxOrder_prime⟩)
  have h3 : auxOrder ∣ Nat.card P1 := ho ▸ addOrderOf_dvd_natCard Q
  have h1 := Nat.le_of_dvd Nat.card_pos (coprime1.mul_dvd_of_dvd_of_dvd h h3)
  have h2 := card_points (F := Fq2) (b := b2)
  rw [card_Fq2] at h2
  exact absurd (h1.trans h2) (Nat.not_le.2 bound1)

end Pixel.Curve
