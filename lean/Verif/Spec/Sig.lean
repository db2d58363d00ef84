import Verif.Spec.Key
import Verif.Spec.Domain
import Verif.Model.Sig

/-!
# What a signature *is*, and histories of API calls

Only the data types and the API functions themselves are shared with the model.
-/

namespace Pixel.Spec

open Pixel

variable {G1 G2 GT : Type} [AddCommGroup G1] [AddCommGroup G2] [CommGroup GT]

/-- big-endian value of a byte string -/
def natOfBytes : List UInt8 → Nat
  | [] => 0
  | b :: l => b.toNat * 256 ^ l.length + natOfBytes l

/-- The field element a message is mapped to: SHA-512 of the tag, the ciphersuite and the message,
read as a big-endian integer. -/
def msgField (sha : Bytes → Bytes) (cs : UInt8) (msg : Bytes) : Fr :=
  (natOfBytes (sha (text "Pixel hash to message" ++ [cs] ++ msg)) : Nat)

/-- `F(v, M) = h_0 + v_1 h_1 + … + v_k h_k + M h_d`. -/
def sigPoint (pp : PubParam G1 G2) (v : List Nat) (M : Fr) : G1 :=
  nodePoint pp v + M.val • pp.hlist.getLastD 0

/-- `s` is a signature for node `v` and hashed message `M` under the master secret `alpha`, with
randomness `a`: `(a·g2, alpha + a·F(v, M))`. -/
structure SigFor (pp : PubParam G1 G2) (alpha : G1) (v : List Nat) (M : Fr) (a : Nat)
    (s : Signature G1 G2) : Prop where
  suite : s.ciphersuite = pp.ciphersuite
  node : NodeAt pp.depth s.time v
  sigma1 : s.sigma1 = a • pp.g2
  sigma2 : s.sigma2 = alpha + a • sigPoint pp v M

/-- One call of the API on a secret key. -/
inductive Call where
  | update (tar : Nat) (seed : Bytes)
  | sign (tar : Nat) (msg seed : Bytes)
  | signPresent (tar : Nat) (msg : Bytes)
  | signThenUpdate (tar : Nat) (msg seed : Bytes)

/-- The outcome of a call (the signature, if the call makes one) and the key afterwards, whatever
the outcome. -/
def Call.run (sha : Bytes → Bytes) (pf : Profile) (pp : PubParam G1 G2) (c : Call)
    (sk : SecretKey G1 G2) : Res (Option (Signature G1 G2)) × SecretKey G1 G2 :=
  match c with
  | .update tar seed =>
    ((fun _ => none) <$> (SecretKey.update sha pf pp tar seed sk).1,
      (SecretKey.update sha pf pp tar seed sk).2)
  | .sign tar msg seed =>
    (some <$> (Signature.sign sha pf tar pp msg seed sk).1,
      (Signature.sign sha pf tar pp msg seed sk).2)
  | .signPresent tar msg =>
    (some <$> (Signature.signPresent sha pf tar pp msg sk).1,
      (Signature.signPresent sha pf tar pp msg sk).2)
  | .signThenUpdate tar msg seed =>
    (some <$> (Signature.signThenUpdate sha pf tar pp msg seed sk).1,
      (Signature.signThenUpdate sha pf tar pp msg seed sk).2)

/-- The message a call is asked to sign. -/
def Call.msg : Call → Bytes
  | .update _ _ => []
  | .sign _ m _ => m
  | .signPresent _ m => m
  | .signThenUpdate _ m _ => m

/-- The key after a list of calls, each of which may succeed, fail or panic. -/
def runAll (sha : Bytes → Bytes) (pf : Profile) (pp : PubParam G1 G2) (sk : SecretKey G1 G2) :
    List Call → SecretKey G1 G2
  | [] => sk
  | c :: cs => runAll sha pf pp (c.run sha pf pp sk).2 cs

/-- The same, with parameters of the caller's choice for each call. -/
def runAllWith (sha : Bytes → Bytes) (pf : Profile) (sk : SecretKey G1 G2) :
    List (PubParam G1 G2 × Call) → SecretKey G1 G2
  | [] => sk
  | (pp, c) :: cs => runAllWith sha pf (c.run sha pf pp sk).2 cs

end Pixel.Spec
