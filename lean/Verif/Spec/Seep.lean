import Verif.Spec.BlackBox
import Verif.Spec.Spill

/-!
# Forgers that use the groups as black boxes and look at the state of the generator

The game of `Spec/Spill.lean`, for adversaries as in `Spec/BlackBox.lean`: they get at group elements only
by forming combinations, pairing and comparing.
-/

namespace Pixel.Spec

open Pixel Props

variable {G1 G2 GT : Type} [AddCommGroup G1] [AddCommGroup G2] [CommGroup GT]

/-- An adversary.  What it does next depends on dice, on values of the hash function, on answers to
questions, on the states of the generator that it sees, and after a break-in on the times and numbers of
elements of the sub keys. -/
inductive SeepPlayer where
  | toss (n : Nat) (hn : 0 < n) (next : Fin n → SeepPlayer)
  | eval (m : Bytes) (next : Bytes → SeepPlayer)
  | test (q : Question) (yes no : SeepPlayer)
  | point (next : SeepPlayer)
  | sign (msg : Bytes) (next : SeepPlayer)
  /-- an update with a seed of its choice -/
  | update (tar : Nat) (seed : Bytes) (next : SeepPlayer)
  /-- an update with an unseen seed -/
  | refresh (tar : Nat) (next : SeepPlayer)
  /-- look at the PRNG state -/
  | look (next : Bytes → SeepPlayer)
  | breakIn (next : Bytes → List (Nat × Nat) → SeepPlayer)
  | forge (F : BoxClaim)

open Classical in
/-- The adversary plays with the groups; what it is shown is appended to what it knows. -/
noncomputable def SeepPlayer.play (E : Ext G1 G2 GT) :
    SeepPlayer → List G1 → List G2 → SpillPlayer G1 G2
  | .toss n hn next, k1, k2 => .toss n hn fun c => (next c).play E k1 k2
  | .eval m next, k1, k2 => .eval m fun b => (next b).play E k1 k2
  | .test q y n, k1, k2 => if q.Holds E k1 k2 then y.play E k1 k2 else n.play E k1 k2
  | .point next, k1, k2 => .point fun p => next.play E (k1 ++ [p]) k2
  | .sign msg next, k1, k2 => .sign msg fun s => next.play E (k1 ++ [s.sigma2]) (k2 ++ [s.sigma1])
  | .update tar seed next, k1, k2 => .update tar seed (next.play E k1 k2)
  | .refresh tar next, k1, k2 => .refresh tar (next.play E k1 k2)
  | .look next, k1, k2 => .look fun p => (next p.seed).play E k1 k2
  | .breakIn next, k1, k2 => .breakIn fun sk => (next sk.prng.seed (keyShape sk)).play E
      (k1 ++ keyElements1 sk) (k2 ++ keyElements2 sk)
  | .forge F, k1, k2 => .forge (F.made k1 k2)

/-- The adversary in the game: it knows the parameters, the public key, its hash, and the proof of
possession. -/
noncomputable def SeepPlayer.against (E : Ext G1 G2 GT) (P : SeepPlayer) (W : World G1 G2) :
    SpillPlayer G1 G2 :=
  P.play E (W.pp.h :: W.q :: W.pop :: W.pp.hlist) [W.pp.g2, W.pk.pk]

/-- what an adversary may do -/
structure SeepBudget extends Budget where
  /-- updates with unseen seeds (which count as updates too) -/
  unseen : Nat

/-- The adversary keeps to the budget; strings that are hashed have at most `B` octets, messages and seeds
at most `B - 300`; there are fewer than `r - 1` co-signers. -/
def SeepPlayer.Keeps (B : Nat) : SeepPlayer → SeepBudget → Prop
  | .toss _ _ next, b => ∀ c, (next c).Keeps B b
  | .eval m next, b => m.length ≤ B ∧ 0 < b.evals ∧
      ∀ x, (next x).Keeps B { b with evals := b.evals - 1 }
  | .test _ y n, b => 0 < b.tests ∧ y.Keeps B { b with tests := b.tests - 1 } ∧
      n.Keeps B { b with tests := b.tests - 1 }
  | .point next, b => 0 < b.points ∧ next.Keeps B { b with points := b.points - 1 }
  | .sign msg next, b => msg.length + 300 ≤ B ∧ 0 < b.signs ∧
      next.Keeps B { b with signs := b.signs - 1 }
  | .update _ seed next, b => seed.length + 300 ≤ B ∧ 0 < b.updates ∧
      next.Keeps B { b with updates := b.updates - 1 }
  | .refresh _ next, b => 0 < b.updates ∧ 0 < b.unseen ∧
      next.Keeps B { b with updates := b.updates - 1, unseen := b.unseen - 1 }
  | .look next, b => ∀ x, (next x).Keeps B b
  | .breakIn next, b => ∀ x l, (next x l).Keeps B b
  | .forge F, _ => F.msg.length + 300 ≤ B ∧ F.cosigners.length + 1 < rOrder

end Pixel.Spec
