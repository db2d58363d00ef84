import Verif.Spec.Laws
import Verif.Spec.Domain
import Verif.Model.Sig

/-!
# The documented wire formats (independent of the codecs in the model)

`/repo/src/serdes.rs` documents the layouts; the point encodings are the external codec's.
-/

namespace Pixel.Spec

open Pixel

variable {G1 G2 GT : Type} [AddCommGroup G1] [AddCommGroup G2] [CommGroup GT]

/-- `|ciphersuite id| pk |` -/
def pkLayout (E : Ext G1 G2 GT) (c : Bool) (k : PublicKey G2) : Bytes :=
  k.ciphersuite :: E.encG2 c k.pk

/-- `|ciphersuite id| pop |` -/
def popLayout (E : Ext G1 G2 GT) (c : Bool) (p : ProofOfPossession G1) : Bytes :=
  p.ciphersuite :: E.encG1 c p.pop

/-- `|ciphersuite id| time | sigma1 | sigma2 |` -/
def sigLayout (E : Ext G1 G2 GT) (c : Bool) (s : Signature G1 G2) : Bytes :=
  s.ciphersuite :: (be32 s.time ++ (E.encG2 c s.sigma1 ++ E.encG1 c s.sigma2))

/-- `| time stamp | hv_length | g2r | hpoly | h_1 | … |` -/
def subLayout (E : Ext G1 G2 GT) (c : Bool) (s : SubSecretKey G1 G2) : Bytes :=
  be32 s.time ++ (UInt8.ofNat s.hvector.length ::
    (E.encG2 c s.g2r ++ (E.encG1 c s.hpoly ++ (s.hvector.map (E.encG1 c)).flatten)))

/-- `|ciphersuite id| number_of_ssk-s | seed | first ssk | second ssk | …` -/
def skLayout (E : Ext G1 G2 GT) (c : Bool) (k : SecretKey G1 G2) : Bytes :=
  k.ciphersuite :: UInt8.ofNat k.ssk.length :: (k.prng.seed ++ (k.ssk.map (subLayout E c)).flatten)

/-- Public keys that have a wire format. -/
structure PkValid (E : Ext G1 G2 GT) (k : PublicKey G2) : Prop where
  suite : Supported k.ciphersuite
  sub : E.inSub2 k.pk = true

/-- Proofs of possession that have a wire format. -/
structure PopValid (E : Ext G1 G2 GT) (p : ProofOfPossession G1) : Prop where
  suite : Supported p.ciphersuite
  sub : E.inSub1 p.pop = true

/-- Signatures that have a wire format. -/
structure SigValid (E : Ext G1 G2 GT) (s : Signature G1 G2) : Prop where
  suite : Supported s.ciphersuite
  time_pos : 0 < s.time
  time_lt : s.time < 2 ^ 32
  sub1 : E.inSub2 s.sigma1 = true
  sub2 : E.inSub1 s.sigma2 = true

/-- Sub secret keys that have a wire format. -/
structure SubValid (E : Ext G1 G2 GT) (s : SubSecretKey G1 G2) : Prop where
  time_pos : 0 < s.time
  time_lt : s.time < 2 ^ 32
  len : s.hvector.length < 256
  g2r : E.inSub2 s.g2r = true
  hpoly : E.inSub1 s.hpoly = true
  hvector : ∀ a ∈ s.hvector, E.inSub1 a = true

/-- Secret keys that have a wire format. -/
structure SkValid (E : Ext G1 G2 GT) (k : SecretKey G1 G2) : Prop where
  suite : Supported k.ciphersuite
  seed : k.prng.seed.length = 64
  len_pos : 0 < k.ssk.length
  len : k.ssk.length < 256
  time : k.ssk.head?.map (·.time) = some k.time
  ssk : ∀ s ∈ k.ssk, SubValid E s

end Pixel.Spec
