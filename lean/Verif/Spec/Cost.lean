import Verif.Spec.Schedule
import Verif.Spec.Trace

/-!
# The number of scalar multiplications of an update (independent of the algorithms and of the groups)

A scalar multiplication is by far the most expensive operation of the scheme apart from the pairing,
which only verification uses.
-/

namespace Pixel.Spec

/-- The number of scalar multiplications (in either group) in a record. -/
def muls (l : List Trace.Ev) : Nat := l.countP (fun e => decide (e = .call "mul" []))

/-- The number of levels of the subtree whose root has time `t`, in a tree with `d` levels: the whole
tree for time `1`; the left subtree holds the times `2 … 2^(d-1)`, the right one the rest. -/
def height : Nat → Nat → Nat
  | 0, _ => 0
  | d + 1, t => if t = 1 then d + 1 else if t ≤ 2 ^ d then height d (t - 1) else height d (t - 2 ^ d)

/-- The multiplications of an update from `t` to `tar`: for each new sub key but the first, one in
each group and one for each level of its subtree. -/
def updateCost (d t tar : Nat) : Nat :=
  ((newTimes d t tar).tail.map (fun s => height d s + 2)).sum

/-- The multiplications of the updates from time 1 through all times, one by one, to time `n + 1`. -/
def lifetimeCost (d n : Nat) : Nat := ((List.range n).map (fun k => updateCost d (k + 1) (k + 2))).sum


end Pixel.Spec
