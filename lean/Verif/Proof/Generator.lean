import Verif.Proof.Defects
import Verif.Spec.Generator

/-! # Helper lemmas for C105: another generator -/

namespace Pixel

open Pixel.Spec

variable {G1 G2 GT : Type} [AddCommGroup G1] [AddCommGroup G2] [CommGroup GT]

/-- the same curves with another generator -/
def withGen (E : Ext G1 G2 GT) (g : G2) : Ext G1 G2 GT := { E with gen2 := g }

omit [AddCommGroup G1] [AddCommGroup G2] [CommGroup GT] in
theorem Spec.AnyGenerator.paramWF {E : Ext G1 G2 GT} {pp : PubParam G1 G2} (A : AnyGenerator E pp) :
    ParamWF (withGen E pp.g2) pp :=
  { A.toParamShape with hlist_sub := A.hlist_sub, h_sub := A.h_sub, g2_gen := rfl }

theorem validateLoop_withGen [DecidableEq GT] (E : Ext G1 G2 GT) (g : G2) (pf : Profile)
    (pk : PublicKey G2) (pp : PubParam G1 G2) (gl : List TimeVec) (ssk : List (SubSecretKey G1 G2))
    (is : List Nat) : SecretKey.validateLoop (withGen E g) pf pk pp gl ssk is =
      SecretKey.validateLoop E pf pk pp gl ssk is := by
  induction is with
  | nil => rfl
  | cons i is ih =>
    unfold SecretKey.validateLoop
    rw [ih]
    rfl

theorem validate_withGen [DecidableEq GT] (E : Ext G1 G2 GT) (g : G2) (pf : Profile)
    (sk : SecretKey G1 G2) (pk : PublicKey G2) (pp : PubParam G1 G2) :
    SecretKey.validate (withGen E g) pf sk pk pp = SecretKey.validate E pf sk pk pp := by
  unfold SecretKey.validate
  simp only [validateLoop_withGen]

/-- a multiple of an element of order `r` by a number that is one modulo `r` -/
theorem nsmul_of_mod_one {A : Type} [AddCommGroup A] {g : A} (hg : rOrder • g = 0) {n : Nat}
    (h : ((n : Nat) : Fr) = 1) : n • g = g := by
  have h1 : n % rOrder = 1 := by
    have := congrArg ZMod.val h
    rw [ZMod.val_natCast] at this
    rw [this]
    exact ZMod.val_one'' (by decide)
  rw [← Nat.mod_add_div n rOrder, h1, add_smul, one_smul, mul_comm, mul_smul, hg, smul_zero, add_zero]

/-- multiples of two points of order `r` that agree -/
theorem nsmul_eq_iff_cast {A : Type} [AddCommGroup A] {g : A} (hg : rOrder • g = 0) {m n : Nat} :
    m • g = n • g ↔ g = 0 ∨ ((m : Nat) : Fr) = (n : Nat) := by
  by_cases h0 : g = 0
  · simp [h0]
  · have ho : addOrderOf g = rOrder := addOrderOf_eq_prime hg h0 (hp := ⟨rOrder_prime⟩)
    rw [nsmul_eq_nsmul_iff_modEq, ho, ← ZMod.natCast_eq_natCast_iff]
    simp [h0]

theorem groupLaws_withGen {E : Ext G1 G2 GT} (L : GroupLaws E) {g : G2} (hs : E.inSub2 g = true)
    (h0 : g ≠ 0) : GroupLaws (withGen E g) := by
  have : Fact (Nat.Prime rOrder) := ⟨rOrder_prime⟩
  obtain ⟨z, hz⟩ := L.gen2_gen g hs
  have hord := L.sub2_order _ L.gen2_sub
  have hz0 : ((z : Nat) : Fr) ≠ 0 := by
    intro hc
    obtain ⟨k, rfl⟩ := (ZMod.natCast_eq_zero_iff z rOrder).1 hc
    apply h0
    rw [hz, mul_comm, mul_smul, hord, smul_zero]
  -- the old generator is a multiple of the new one
  let w : Nat := ((z : Fr)⁻¹).val
  have hw : ((w * z : Nat) : Fr) = 1 := by
    rw [Nat.cast_mul, ZMod.natCast_zmod_val, inv_mul_cancel₀ hz0]
  have hgen : w • g = E.gen2 := by
    rw [hz, ← mul_smul]
    exact nsmul_of_mod_one hord hw
  exact { L with
    gen2_sub := hs
    gen2_gen := fun a ha => by
      obtain ⟨n, hn⟩ := L.gen2_gen a ha
      exact ⟨n * w, by rw [hn, ← hgen, ← mul_smul]; rfl⟩
    pair_nondeg := fun b hb h => by
      change pair E g b = 1 at h
      rw [hz, L.pair_nsmul L.gen2_sub hb] at h
      have h2 := L.pair_nondeg _ (L.sub1_nsmul hb _) h
      have h3 : (w * z) • b = b := nsmul_of_mod_one (L.sub1_order b hb) hw
      rw [← h3, mul_smul, h2, smul_zero] }

end Pixel
