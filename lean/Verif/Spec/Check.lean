import Verif.Spec.Key

/-!
# What the validation of a secret key looks at
-/

namespace Pixel.Spec

open Pixel

variable {G1 G2 : Type} [AddCommGroup G1] [AddCommGroup G2]

/-- The first two elements of `s` are those of a sub key of the node `v` for the master secret
`alpha`; nothing is said about `hvector`. -/
def HeadFor (pp : PubParam G1 G2) (alpha : G1) (v : List Nat) (s : SubSecretKey G1 G2) : Prop :=
  NodeAt pp.depth s.time v ∧ ∃ rho : Nat, s.g2r = rho • pp.g2 ∧
    s.hpoly = alpha + rho • nodePoint pp v

end Pixel.Spec
