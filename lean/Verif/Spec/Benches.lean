import Verif.Spec.Tests

/-!
# When a benchmark runs to its end (independent of the programs)

A sample of a benchmark is a seed and a random number.
-/

namespace Pixel.Spec

open Pixel

/-- the time that `gen_range(0, high)` gives for the random number of a sample -/
def sampleTime (high : Nat) (s : Bytes × Nat) : Nat := s.2 % high

/-- The key of the sample can be brought to its random time: that is neither 0 nor 1, and the update
is possible. -/
def Prepared (sha : Bytes → Bytes) (d : Nat) (cs : UInt8) (high : Nat) (s : Bytes × Nat) : Prop :=
  2 ≤ sampleTime high s ∧ Runs sha d s.1 cs [(sampleTime high s, [])]

/-- The sample that round `i` works on satisfies `P`. -/
def AtRound {α : Type} (samples : List α) (i : Nat) (P : α → Prop) : Prop :=
  ∀ s, samples[i % samples.length]? = some s → P s

end Pixel.Spec
