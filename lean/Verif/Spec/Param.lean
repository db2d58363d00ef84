import Verif.Spec.Laws
import Verif.Spec.Domain
import Verif.Model.Prng

/-!
# The public parameter, as `/repo/spec.md` 650-668 has it
-/

namespace Pixel.Spec

open Pixel

variable {G1 G2 GT : Type} [AddCommGroup G1] [AddCommGroup G2] [CommGroup GT]

/-- The strings `info`: one for `h`, then those for `h_0 … h_d`. -/
def paramInfos (d : Nat) : List Bytes :=
  text "H2G_h" :: (List.range (d + 1)).map (fun i => text "H2G_h" ++ [UInt8.ofNat i])

/-- `HKDF-Expand(HKDF-Extract(DOM_SEP_PARAM_GEN, seed), info, 32)` -/
def paramString (sha : Bytes → Bytes) (seed info : Bytes) : Bytes :=
  (hmac sha (hmac sha (text "Pixel public parameter generation") seed) (info ++ [1])).take 32

/-- The elements `h, h_0, …, h_d`. -/
def paramElements (E : Ext G1 G2 GT) (seed : Bytes) (cs : UInt8) (d : Nat) : List G1 :=
  (paramInfos d).map (fun info => E.hashToG1 (paramString E.sha512 seed info) [cs])

/-- The parameter made from a seed. -/
structure IsParam (E : Ext G1 G2 GT) (seed : Bytes) (cs : UInt8) (d : Nat) (pp : PubParam G1 G2) :
    Prop where
  depth : pp.depth = d
  suite : pp.ciphersuite = cs
  gen : pp.g2 = E.gen2
  elements : pp.h :: pp.hlist = paramElements E seed cs d

/-- Two given inputs of the hash-to-curve are different and have the same point. -/
def Collide (E : Ext G1 G2 GT) (cs : UInt8) (a b : Bytes) : Prop :=
  a ≠ b ∧ E.hashToG1 a [cs] = E.hashToG1 b [cs]

/-- The strings that are hashed to the curve for the parameter. -/
def paramStrings (sha : Bytes → Bytes) (seed : Bytes) (d : Nat) : List Bytes :=
  (paramInfos d).map (paramString sha seed)

end Pixel.Spec
