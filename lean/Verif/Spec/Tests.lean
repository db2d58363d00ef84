import Verif.Model.Tests
import Verif.Spec.Vectors

/-!
# When a unit test passes (independent of the programs)

The only thing a test can depend on, besides its constants, is whether the PRNG states along the
updates it makes are defined (`Verif/Spec/Schedule.lean`).
-/

namespace Pixel.Spec

open Pixel

/-- The test `x` passes if `P` holds, and panics if not; it never returns an error. -/
def PassesIff (x : Res Unit) (P : Prop) : Prop :=
  (P → x = .ok ()) ∧ (¬ P → ∃ p, x = .panic p)

/-- The updates `us` of the key made from `seed` are possible: no PRNG state comes back within one of
them. -/
def Runs (sha : Bytes → Bytes) (d : Nat) (seed : Bytes) (cs : UInt8) (us : List (Nat × Bytes)) :
    Prop :=
  (prngStream sha d (firstState sha seed cs) 1 us).isSome = true

/-- a new key can be updated to each of the times 2, 3, …, n - 1 -/
def OneStep (sha : Bytes → Bytes) (d : Nat) (seed : Bytes) (cs : UInt8) (useed : Bytes) (n : Nat) :
    Prop :=
  ∀ j, 2 ≤ j → j < n → Runs sha d seed cs [(j, useed)]

/-- a new key can be updated to each of the times 2, 3, …, n - 1, and from there to each later one -/
def TwoSteps (sha : Bytes → Bytes) (d : Nat) (seed : Bytes) (cs : UInt8) (useed : Bytes) (n : Nat) :
    Prop :=
  ∀ j, 2 ≤ j → j < n → Runs sha d seed cs [(j, useed)] ∧
    ∀ i, j < i → i < n → Runs sha d seed cs [(j, useed), (i, useed)]

/-- a new key can be updated to the times 2, 3, …, n - 1, one after the other -/
def InARow (sha : Bytes → Bytes) (d : Nat) (seed : Bytes) (cs : UInt8) (useed : Bytes) (n : Nat) :
    Prop :=
  Runs sha d seed cs (sequentialUpdates n useed)

end Pixel.Spec
