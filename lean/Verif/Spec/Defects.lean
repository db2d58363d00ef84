import Verif.Spec.Sig

/-!
# How wrong a signature is (independent of the algorithms)

A signature that is made for aggregation comes with a public key `x g2` and has a first component
`a g2`.  Its second component should be `x h + a F(v, M)`; the defect is what it has in excess.
-/

namespace Pixel.Spec

open Pixel

variable {G1 G2 : Type} [AddCommGroup G1] [AddCommGroup G2]

/-- A public key, a signature, and the exponents behind them. -/
structure Share (G1 G2 : Type) where
  pk : PublicKey G2
  sig : Signature G1 G2
  x : Nat
  a : Nat

/-- Key and signature are for the parameters `pp` and the time `t`, with the exponents named.  Nothing
is asked of the second component, not even that it is in the subgroup. -/
structure Share.For (pp : PubParam G1 G2) (t : Nat) (p : Share G1 G2) : Prop where
  key : p.pk.pk = p.x • pp.g2
  key_suite : p.pk.ciphersuite = pp.ciphersuite
  suite : p.sig.ciphersuite = pp.ciphersuite
  time : p.sig.time = t
  first : p.sig.sigma1 = p.a • pp.g2

/-- what the second component has in excess, for the node `v` and the hashed message `M` -/
def Share.defect (pp : PubParam G1 G2) (v : List Nat) (M : Fr) (p : Share G1 G2) : G1 :=
  p.sig.sigma2 - (p.x • pp.h + p.a • sigPoint pp v M)

end Pixel.Spec
