import Verif.Model.Ext
import Mathlib.Algebra.BigOperators.Group.List.Basic

/-!
# What is assumed about the external crates

Everything here is a hypothesis (a `Prop`), shown satisfiable in `Verif/Toy.lean`.
-/

namespace Pixel.Spec

open Pixel

variable {G1 G2 GT : Type} [AddCommGroup G1] [AddCommGroup G2] [CommGroup GT]

/-- the pairing of a single pair of points -/
def pair (E : Ext G1 G2 GT) (a : G2) (b : G1) : GT := (E.pairing [(a, b)]).getD 1

/-- Assumptions on the hash function: SHA-512 digests have 64 bytes. -/
structure HashLaws (E : Ext G1 G2 GT) : Prop where
  sha_len : ∀ m, (E.sha512 m).length = 64

/-- Assumptions on the groups, the subgroup tests and the pairing (crate `pairing-plus`) and on
hash-to-curve (crate `bls_sigs_ref`). -/
structure GroupLaws (E : Ext G1 G2 GT) : Prop where
  sub1_zero : E.inSub1 0 = true
  sub1_add : ∀ a b, E.inSub1 a = true → E.inSub1 b = true → E.inSub1 (a + b) = true
  sub1_neg : ∀ a, E.inSub1 a = true → E.inSub1 (-a) = true
  sub1_order : ∀ a, E.inSub1 a = true → rOrder • a = 0
  sub2_zero : E.inSub2 0 = true
  sub2_add : ∀ a b, E.inSub2 a = true → E.inSub2 b = true → E.inSub2 (a + b) = true
  sub2_neg : ∀ a, E.inSub2 a = true → E.inSub2 (-a) = true
  sub2_order : ∀ a, E.inSub2 a = true → rOrder • a = 0
  gen2_sub : E.inSub2 E.gen2 = true
  gen2_gen : ∀ a, E.inSub2 a = true → ∃ n : Nat, a = n • E.gen2
  hash_sub : ∀ m c, E.inSub1 (E.hashToG1 m c) = true
  pairing_prod : ∀ l : List (G2 × G1), (∀ p ∈ l, E.inSub2 p.1 = true ∧ E.inSub1 p.2 = true) →
    E.pairing l = some (l.map (fun p => pair E p.1 p.2)).prod
  pair_add_left : ∀ a a' b, E.inSub2 a = true → E.inSub2 a' = true → E.inSub1 b = true →
    pair E (a + a') b = pair E a b * pair E a' b
  pair_add_right : ∀ a b b', E.inSub2 a = true → E.inSub1 b = true → E.inSub1 b' = true →
    pair E a (b + b') = pair E a b * pair E a b'
  pair_nondeg : ∀ b, E.inSub1 b = true → pair E E.gen2 b = 1 → b = 0

/-- Assumptions on the point codec (crate `pixel_param`): lengths, decoding undoes encoding and
leaves the rest of the input alone, encodings are canonical, only subgroup points are returned, the
compression flag of the bytes must be the requested one, and decoding never panics. -/
structure CodecLaws (E : Ext G1 G2 GT) : Prop where
  enc1_len : ∀ c a, (E.encG1 c a).length = if c then 96 else 192
  enc2_len : ∀ c a, (E.encG2 c a).length = if c then 48 else 96
  dec1_enc : ∀ c a rest, E.inSub1 a = true → E.decG1 c (E.encG1 c a ++ rest) = (.ok a, rest)
  dec2_enc : ∀ c a rest, E.inSub2 a = true → E.decG2 c (E.encG2 c a ++ rest) = (.ok a, rest)
  dec1_canon : ∀ c inp a rest, E.decG1 c inp = (.ok a, rest) →
    inp = E.encG1 c a ++ rest ∧ E.inSub1 a = true
  dec2_canon : ∀ c inp a rest, E.decG2 c inp = (.ok a, rest) →
    inp = E.encG2 c a ++ rest ∧ E.inSub2 a = true
  dec1_flag : ∀ c a rest, (E.decG1 c (E.encG1 (!c) a ++ rest)).1.isErr = true
  dec2_flag : ∀ c a rest, (E.decG2 c (E.encG2 (!c) a ++ rest)).1.isErr = true
  dec1_total : ∀ c inp, (E.decG1 c inp).1.isPanic = false
  dec2_total : ∀ c inp, (E.decG2 c inp).1.isPanic = false

/-- The shape of a public parameter (crate `pixel_param`): `depth + 1` elements `h_0 … h_d` and a
depth the time arithmetic supports. -/
structure ParamShape (pp : PubParam G1 G2) : Prop where
  depth_pos : 1 ≤ pp.depth
  depth_le : pp.depth ≤ 63
  hlist_len : pp.hlist.length = pp.depth + 1

/-- A well-formed public parameter: the right shape, all elements in the subgroup, the fixed
generator. -/
structure ParamWF (E : Ext G1 G2 GT) (pp : PubParam G1 G2) : Prop extends ParamShape pp where
  hlist_sub : ∀ a ∈ pp.hlist, E.inSub1 a = true
  h_sub : E.inSub1 pp.h = true
  g2_gen : pp.g2 = E.gen2

/-- A supported ciphersuite identifier. -/
def Supported (c : UInt8) : Prop := c = 0 ∨ c = 1

/-- What is assumed of `PubParam::default()`: well formed, depth 32, supported ciphersuite. -/
structure DefaultLaws (E : Ext G1 G2 GT) : Prop where
  wf : ParamWF E E.defaultParam
  depth : E.defaultParam.depth = 32
  suite : Supported E.defaultParam.ciphersuite

end Pixel.Spec
