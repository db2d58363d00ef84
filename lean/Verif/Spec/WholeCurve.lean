import Verif.Spec.Laws

/-!
# Points outside the subgroup

Nothing stops a caller from making a `PublicKey` of any point of the curve (`PublicKey::new`,
`/repo/src/public_key.rs` 34).  What is assumed here of the pairing at such points, and the part of a
point that lies in the subgroup.
-/

namespace Pixel.Spec

open Pixel

variable {G1 G2 GT : Type} [AddCommGroup G1] [AddCommGroup G2] [CommGroup GT]

/-- Assumption: the pairing is defined, multiplicative and additive for all points of the curve of
`PixelG2`, as long as the points of `PixelG1` are in the subgroup. -/
structure WholePairing (E : Ext G1 G2 GT) : Prop where
  prod : ∀ l : List (G2 × G1), (∀ p ∈ l, E.inSub1 p.2 = true) →
    E.pairing l = some (l.map (fun p => pair E p.1 p.2)).prod
  add_left : ∀ a a' b, E.inSub1 b = true → pair E (a + a') b = pair E a b * pair E a' b
  add_right : ∀ a b b', E.inSub1 b = true → E.inSub1 b' = true →
    pair E a (b + b') = pair E a b * pair E a b'

/-- the point is `x` times the generator plus a point whose order has no factor in common with `r` -/
def PartOf (E : Ext G1 G2 GT) (p : G2) (x : Nat) : Prop :=
  ∃ (c : G2) (k : Nat), Nat.Coprime k rOrder ∧ k • c = 0 ∧ p = x • E.gen2 + c

end Pixel.Spec
