import Verif.Spec.Reduce

/-!
# Solving the problem of C75 with the groups as black boxes

An algorithm that gets at the elements of an instance only by forming combinations, pairing them, and
comparing.  It can be run on an instance like any other algorithm (`Solver.run`).
-/

namespace Pixel.Spec

open Pixel

variable {G1 G2 GT : Type} [AddCommGroup G1] [AddCommGroup G2] [CommGroup GT]

/-- A linear combination of the elements of an instance on one side: coefficients for the powers of
`γ`, and one for `b`. -/
structure Mix where
  pow : Nat → Fr
  b : Fr

/-- the combination in `G1` -/
def Instance.mix1 (I : Instance G1 G2) (c : Mix) : G1 := lin c.pow I.pow1 + c.b.val • I.b1

/-- the combination in `G2` -/
def Instance.mix2 (I : Instance G1 G2) (c : Mix) : G2 := lin c.pow I.pow2 + c.b.val • I.b2

/-- a product of pairings of combinations -/
def Instance.mixT (E : Ext G1 G2 GT) (I : Instance G1 G2) (l : List (Mix × Mix)) : GT :=
  (l.map fun p => pair E (I.mix2 p.1) (I.mix1 p.2)).prod

/-- An algorithm: it throws dice, asks whether combinations are zero (or one, in `GT`), and goes on
depending on the answer; in the end it names a product of pairings. -/
inductive Solver where
  | toss (n : Nat) (hn : 0 < n) (next : Fin n → Solver)
  | isZero1 (c : Mix) (yes no : Solver)
  | isZero2 (c : Mix) (yes no : Solver)
  | isOneT (l : List (Mix × Mix)) (yes no : Solver)
  | out (l : List (Mix × Mix))

/-- it makes at most `m` tests -/
def Solver.Tests : Solver → Nat → Prop
  | .toss _ _ n, m => ∀ c, (n c).Tests m
  | .isZero1 _ y n, m => 0 < m ∧ y.Tests (m - 1) ∧ n.Tests (m - 1)
  | .isZero2 _ y n, m => 0 < m ∧ y.Tests (m - 1) ∧ n.Tests (m - 1)
  | .isOneT _ y n, m => 0 < m ∧ y.Tests (m - 1) ∧ n.Tests (m - 1)
  | .out _, _ => True

open Classical in
/-- the algorithm on an instance -/
noncomputable def Solver.run (E : Ext G1 G2 GT) (I : Instance G1 G2) : Solver → Guess GT
  | .toss m hm n => .toss m hm fun c => (n c).run E I
  | .isZero1 c y n => if I.mix1 c = 0 then y.run E I else n.run E I
  | .isZero2 c y n => if I.mix2 c = 0 then y.run E I else n.run E I
  | .isOneT l y n => if I.mixT E l = 1 then y.run E I else n.run E I
  | .out l => .out (I.mixT E l)

end Pixel.Spec
