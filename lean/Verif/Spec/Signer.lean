import Verif.Spec.Schedule
import Verif.Spec.Oracle

/-!
# The signer, described by exponents

A secret key for time `t` is given by the master secret and by one scalar for each of its sub keys.
The functions of the signer act on these scalars in a simple way; where the code takes a pseudo-random
scalar, the description has a variable.
-/

namespace Pixel.Spec

open Pixel Props

variable {G1 G2 GT : Type} [AddCommGroup G1] [AddCommGroup G2] [CommGroup GT]

/-- The sub key of time `s` with randomness `r`. -/
def subKeyOf (pp : PubParam G1 G2) (x : Fr) (s : Nat) (r : Fr) : SubSecretKey G1 G2 where
  time := s
  g2r := r.val • pp.g2
  hpoly := x.val • pp.h + r.val • nodePoint pp (path pp.depth s)
  hvector := (pp.hlist.drop ((path pp.depth s).length + 1)).map fun y => r.val • y

/-- The sub keys of a key for time `t`, with randomness `rho`. -/
def keysOf (pp : PubParam G1 G2) (x : Fr) (t : Nat) (rho : List Fr) : List (SubSecretKey G1 G2) :=
  List.zipWith (subKeyOf pp x) (coverTimes pp.depth t) rho

/-- The signature for time `t` and hashed message `M` with randomness `r`. -/
def signatureOf (pp : PubParam G1 G2) (x : Fr) (t : Nat) (M r : Fr) : Signature G1 G2 where
  ciphersuite := pp.ciphersuite
  time := t
  sigma1 := r.val • pp.g2
  sigma2 := x.val • pp.h + r.val • sigPoint pp (path pp.depth t) M

/-- A secret key, described by exponents. -/
structure KeyAs (pp : PubParam G1 G2) (x : Fr) (t : Nat) (rho : List Fr) (sk : SecretKey G1 G2) :
    Prop where
  suite : sk.ciphersuite = pp.ciphersuite
  time : sk.time = t
  valid : ValidTime pp.depth t
  length : rho.length = (coverTimes pp.depth t).length
  ssk : sk.ssk = keysOf pp x t rho
  prng : sk.prng.WF

/-- The number of sub keys that an update from `t` to `tar` drops before it finds the one it derives
the new ones from: all whose times are not after the target, but the last. -/
def dropped (d t tar : Nat) : Nat := (coverTimes d t).countP (fun s => decide (s ≤ tar)) - 1

/-- The exponents after an update from `t` to `tar`, with scalars `rs`: the sub key for the target
takes over the exponent of the sub key it is derived from, the other new ones add a scalar each, and
the sub keys of later times stay. -/
def stepExponents (d t tar : Nat) (rho rs : List Fr) : List Fr :=
  match rho.drop (dropped d t tar) with
  | [] => []
  | r :: rest => r :: (rs.map (r + ·) ++ rest)

/-- the scalar drawn from the PRNG with an info string -/
def drawn (sha : Bytes → Bytes) (info : Bytes) (p : Prng) : Fr :=
  match (Prng.sampleThenUpdate sha info p).1 with
  | .ok r => r
  | _ => 0

/-- The scalars drawn for an update from `t` to `tar` with `seed`, in a key with PRNG `p`. -/
def updateDraws (sha : Bytes → Bytes) (d : Nat) (p : Prng) (t tar : Nat) (seed : Bytes) : List Fr :=
  (List.range (drawsNeeded d t tar)).map fun k =>
    drawn sha (text "Pixel secret key update") (afterDraws sha (reseeded sha p seed t) k)

/-- The scalar drawn to sign `msg` at time `t`, in a key with PRNG `p` (the state stays). -/
def signDraw (sha : Bytes → Bytes) (p : Prng) (t : Nat) (msg : Bytes) : Fr :=
  match (Prng.sample sha (text "Pixel randomness for signing" ++ msg ++ be32 t) p).1 with
  | .ok r => r
  | _ => 0

/-- The exponents after a history of updates, given by targets and seeds. -/
def exponentsAfter (sha : Bytes → Bytes) (d : Nat) :
    Prng → Nat → List Fr → List (Nat × Bytes) → List Fr
  | _, _, rho, [] => rho
  | p, t, rho, (tar, seed) :: us =>
    exponentsAfter sha d (afterDraws sha (reseeded sha p seed t) (drawsNeeded d t tar)) tar
      (stepExponents d t tar rho (updateDraws sha d p t tar seed)) us

/-- The two scalars drawn for a new key: the master secret and the randomness of the root sub key. -/
def keyDraws (sha : Bytes → Bytes) (seed : Bytes) (cs : UInt8) : Fr × Fr :=
  let p : Prng := ⟨hmac sha (text "Pixel master key" ++ [cs]) seed⟩
  (drawn sha (text "key initialization") p,
    drawn sha (text "Pixel secret key init" ++ be32 1)
      (Prng.sampleThenUpdate sha (text "key initialization") p).2)

/-- The average of `f` over lists of `n` scalars. -/
noncomputable def avgs : Nat → (List Fr → ℚ) → ℚ
  | 0, f => f []
  | n + 1, f => avg fun r => avgs n fun rs => f (r :: rs)

end Pixel.Spec
