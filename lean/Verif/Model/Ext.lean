import Verif.Basic
import Mathlib.Data.ZMod.Basic

/-!
# External crates, as parameters

Nothing in this file comes from `/repo`: it lists the functions the crate *calls* but does not
define.  Their assumed behaviour is in `Verif/Spec/Laws.lean` as hypotheses, never as axioms.
-/

namespace Pixel

/-- Order of the prime-order subgroups of BLS12-381 and modulus of `Fr` (crate `pairing-plus`);
also the constant hard-coded in `/repo/src/prng.rs` 205-210. -/
def rOrder : Nat := 0x73EDA753299D7D483339D80809A1D80553BDA402FFFE5BFEFFFFFFFF00000001

instance : NeZero rOrder := ⟨by decide⟩

/-- `pairing::bls12_381::Fr`. -/
abbrev Fr := ZMod rOrder

/-- `P.mul_assign(s)` for a scalar `s : Fr` on a projective point (crate `pairing-plus`:
multiplication by the canonical integer representative of `s`). -/
def mulFr {G : Type} [AddMonoid G] (s : Fr) (p : G) : G := s.val • p

/-- `PubParam` of the external crate `pixel_param` (re-exported in `/repo/src/lib.rs` 79), seen
through its getters `depth()`, `ciphersuite()`, `g2()`, `h()`, `hlist()`. -/
structure PubParam (G1 G2 : Type) where
  depth : Nat
  ciphersuite : UInt8
  g2 : G2
  h : G1
  hlist : List G1

/-- `VALID_CIPHERSUITE` of the external crate `pixel_param`. -/
def validCiphersuite : List UInt8 := [0, 1]

/-- The external functions.  `G1` is the crate's `PixelG1` (points of BLS12-381 `G2`), `G2` is
`PixelG2` (points of BLS12-381 `G1`), both *including* points outside the prime-order subgroup;
`GT` is `Fq12`. -/
structure Ext (G1 G2 GT : Type) where
  /-- `into_affine().in_subgroup()` on `PixelG1` -/
  inSub1 : G1 → Bool
  /-- `into_affine().in_subgroup()` on `PixelG2` -/
  inSub2 : G2 → Bool
  /-- `Bls12::final_exponentiation(&Bls12::miller_loop(list))` -/
  pairing : List (G2 × G1) → Option GT
  /-- `sha2::Sha512` -/
  sha512 : Bytes → Bytes
  /-- hash-to-curve used by `bls_sigs_ref` (message, ciphersuite) -/
  hashToG1 : Bytes → Bytes → G1
  /-- `PixelG2::one()`, the fixed curve generator used by `bls_sigs_ref` -/
  gen2 : G2
  /-- `PixelG1::serialize(_, compressed)` into a vector -/
  encG1 : Bool → G1 → Bytes
  /-- `PixelG2::serialize(_, compressed)` into a vector -/
  encG2 : Bool → G2 → Bytes
  /-- `PixelG1::deserialize(reader, compressed)` -/
  decG1 : Bool → SM Bytes G1
  /-- `PixelG2::deserialize(reader, compressed)` -/
  decG2 : Bool → SM Bytes G2
  /-- `PubParam::default()` of `pixel_param` -/
  defaultParam : PubParam G1 G2

end Pixel
