import Verif.Model.Vectors
import Verif.Spec.Schedule

/-!
# What the test-vector programs are to do
-/

namespace Pixel.Spec

open Pixel Pixel.Vectors

/-- the `i`-th triangular number: the times of the "fast forward" keys are 3, 6, 10, 15, … -/
def tri (i : Nat) : Nat := i * (i + 1) / 2

/-- The files of the Rust program that the Python program checks, as functions of the directory:
the public key; key and signature for each time below `n`; key and signature after each jump. -/
def checkedFiles (n : Nat) : List (Bytes → Bytes) :=
  pkFile ::
    ((List.range' 1 (n - 1)).flatMap (fun i => [fun dir => skFile dir i, fun dir => sigFile dir i]) ++
      (List.range' 2 (n - 2)).flatMap (fun i =>
        [fun dir => skFileFF dir (tri (i - 1)) (tri i), fun dir => sigFileFF dir (tri (i - 1)) (tri i)]))

/-- On disk `d` the file `name` in the Rust directory is what it is on disk `ref`, or `filecmp` takes
it to be: the length is right and the time of modification is that of the Python file. -/
def Passes (mtime : Bytes → Bytes → Bool) (ref d : Disk) (name : Bytes → Bytes) : Prop :=
  ∃ x y, ref.read (name rustDir) = some x ∧ d.read (name rustDir) = some y ∧
    (y = x ∨ (x.length = y.length ∧ mtime (name pyDir) (name rustDir) = true))

/-- two disks with the same files, except in one directory -/
def SameOutside (dir : Bytes) (d d' : Disk) : Prop :=
  ∀ f, ¬ dir <+: f → d'.read f = d.read f

/-- the updates of the first loop: to the times 2, 3, 4, … -/
def sequentialUpdates (n : Nat) (rngseed : Bytes) : List (Nat × Bytes) :=
  (List.range' 2 (n - 2)).map (fun i => (i, rngseed))

/-- the updates of the second loop: to the times 3, 6, 10, … -/
def fastForwardUpdates (n : Nat) (rngseed : Bytes) : List (Nat × Bytes) :=
  (List.range' 2 (n - 2)).map (fun i => (tri i, rngseed))

/-- no PRNG state comes back within an update of either loop -/
def StreamsDefined (sha : Bytes → Bytes) (seed rngseed : Bytes) (cs : UInt8) (n : Nat) : Prop :=
  (prngStream sha 32 (firstState sha seed cs) 1 (sequentialUpdates n rngseed)).isSome = true ∧
  (prngStream sha 32 (firstState sha seed cs) 1 (fastForwardUpdates n rngseed)).isSome = true

end Pixel.Spec
