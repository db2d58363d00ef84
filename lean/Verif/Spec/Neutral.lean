import Verif.Spec.Sig

/-!
# Signatures that need no secret (independent of the algorithms)
-/

namespace Pixel.Spec

open Pixel

variable {G1 G2 : Type} [AddCommGroup G1] [AddCommGroup G2]

/-- what everybody can compute from the parameters, for a time `t` with node `v`, a hashed message `M`
and a number `a` -/
def publicSignature (pp : PubParam G1 G2) (t : Nat) (v : List Nat) (M : Fr) (a : Nat) :
    Signature G1 G2 :=
  { ciphersuite := pp.ciphersuite, time := t, sigma1 := a • pp.g2, sigma2 := a • sigPoint pp v M }

end Pixel.Spec
