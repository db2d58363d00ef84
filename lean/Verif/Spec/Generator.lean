import Verif.Spec.Laws

/-!
# Public parameters with another generator (independent of the algorithms)

The parameters are an argument of every call, and `g2` is part of them.  The code takes `g2` from there
and does not check it (`/repo/src/key_pair.rs` 128, `/repo/src/subkeys.rs` 104, 137 and 255,
`/repo/src/sig.rs` 252 and 384), while the proofs of possession (crate `bls_sigs_ref`) use the generator
of the curve.
-/

namespace Pixel.Spec

open Pixel

variable {G1 G2 GT : Type} [AddCommGroup G1] [AddCommGroup G2] [CommGroup GT]

/-- Well-formed parameters, except that `g2` may be any element of the subgroup. -/
structure AnyGenerator (E : Ext G1 G2 GT) (pp : PubParam G1 G2) : Prop extends ParamShape pp where
  hlist_sub : ∀ a ∈ pp.hlist, E.inSub1 a = true
  h_sub : E.inSub1 pp.h = true
  g2_sub : E.inSub2 pp.g2 = true

end Pixel.Spec
