import Verif.Props.Update

/-!
# The stream of PRNG states of a signer (independent of the algorithms and of the groups)

How many scalars an update draws depends on the two times alone.  So the states of the PRNG along a
history of updates can be computed from the first state, the times and the seeds, without any group
element.
-/

namespace Pixel.Spec

open Pixel Props

/-- The times of the sub keys of a secret key for time `t`, in a tree with `d` levels: root, left
subtree and right subtree hold the times `1`, `2 … 2^(d-1)` and `2^(d-1) + 1 … 2^d - 1`. -/
def coverTimes : Nat → Nat → List Nat
  | 0, _ => []
  | d + 1, t =>
    if t = 1 then [1]
    else if t ≤ 2 ^ d then (coverTimes d (t - 1)).map (· + 1) ++ [2 ^ d + 1]
    else (coverTimes d (t - 2 ^ d)).map (· + 2 ^ d)

/-- The times a key for `tar` has and a key for `t` has not. -/
def newTimes (d t tar : Nat) : List Nat :=
  (coverTimes d tar).filter (fun s => ! (coverTimes d t).contains s)

/-- The number of scalars drawn by an update from `t` to `tar`: one for each new sub key but the
first. -/
def drawsNeeded (d t tar : Nat) : Nat := (newTimes d t tar).length - 1

/-- The PRNG state after an update from `t` to `tar` with `seed`; none if one of the states after
the draws is the state before the update. -/
def prngStep (sha : Bytes → Bytes) (d : Nat) (p : Prng) (t tar : Nat) (seed : Bytes) : Option Prng :=
  let q := reseeded sha p seed t
  let n := drawsNeeded d t tar
  if (List.range n).any (fun k => decide (afterDraws sha q (k + 1) = p)) then none
  else some (afterDraws sha q n)

/-- The PRNG state after a history of updates, given by targets and seeds. -/
def prngStream (sha : Bytes → Bytes) (d : Nat) : Prng → Nat → List (Nat × Bytes) → Option Prng
  | p, _, [] => some p
  | p, t, (tar, seed) :: us =>
    match prngStep sha d p t tar seed with
    | none => none
    | some q => prngStream sha d q tar us

/-- The PRNG state of a new key: extracted from the seed, then two scalars are drawn (the master
secret and the randomness of the root sub key). -/
def firstState (sha : Bytes → Bytes) (seed : Bytes) (cs : UInt8) : Prng :=
  (Prng.sampleThenUpdate sha (text "Pixel secret key init" ++ be32 1)
    (Prng.sampleThenUpdate sha (text "key initialization")
      ⟨hmac sha (text "Pixel master key" ++ [cs]) seed⟩).2).2

end Pixel.Spec
