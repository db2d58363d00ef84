import Verif.Spec.Single
import Verif.Spec.Box

/-!
# Forgers that use the groups as black boxes and evaluate a random hash function

The game of `Spec/Single.lean`, for adversaries that get at group elements only by forming combinations,
pairing and comparing.  Such an adversary is a tree of decisions; `against` lets it play the game with
the groups.
-/

namespace Pixel.Spec

open Pixel Props

variable {G1 G2 GT : Type} [AddCommGroup G1] [AddCommGroup G2] [CommGroup GT]

/-- What can be asked about the elements known so far, which are numbered on each side: whether a
combination, or a product of pairings of combinations, is trivial. -/
inductive Question where
  | isZero1 (c : Nat → Fr)
  | isZero2 (c : Nat → Fr)
  | isOneT (l : List ((Nat → Fr) × (Nat → Fr)))

/-- the answer, with the elements `k1` of `G1` and `k2` of `G2` -/
def Question.Holds (E : Ext G1 G2 GT) (k1 : List G1) (k2 : List G2) : Question → Prop
  | .isZero1 c => lin c k1 = 0
  | .isZero2 c => lin c k2 = 0
  | .isOneT l => (l.map fun p => pair E (lin p.1 k2) (lin p.2 k1)).prod = 1

/-- A co-signer: a combination, the number of the hash point (`none`: the key is the honest one), a
combination. -/
structure BoxPartner where
  key : Nat → Fr
  point : Option Nat
  pop : Nat → Fr

/-- The final output. -/
structure BoxClaim where
  time : Nat
  msg : Bytes
  sigma1 : Nat → Fr
  sigma2 : Nat → Fr
  cosigners : List BoxPartner

/-- An adversary.  What it does next depends on dice, on values of the hash function, on answers to
questions, and after a break-in on the state of the generator, and the times and numbers of elements of
the sub keys. -/
inductive BoxPlayer where
  | toss (n : Nat) (hn : 0 < n) (next : Fin n → BoxPlayer)
  | eval (m : Bytes) (next : Bytes → BoxPlayer)
  | test (q : Question) (yes no : BoxPlayer)
  | point (next : BoxPlayer)
  | sign (msg : Bytes) (next : BoxPlayer)
  | update (tar : Nat) (seed : Bytes) (next : BoxPlayer)
  | breakIn (next : Bytes → List (Nat × Nat) → BoxPlayer)
  | forge (F : BoxClaim)

/-- the elements of the claim -/
def BoxClaim.made (k1 : List G1) (k2 : List G2) (F : BoxClaim) : Claim G1 G2 where
  time := F.time
  msg := F.msg
  sigma1 := lin F.sigma1 k2
  sigma2 := lin F.sigma2 k1
  cosigners := F.cosigners.map fun c => { key := lin c.key k2, point := c.point, pop := lin c.pop k1 }

/-- the elements of `G1` in a secret key -/
def keyElements1 (sk : SecretKey G1 G2) : List G1 := sk.ssk.flatMap fun s => s.hpoly :: s.hvector

/-- the elements of `G2` in a secret key -/
def keyElements2 (sk : SecretKey G1 G2) : List G2 := sk.ssk.map SubSecretKey.g2r

/-- times and numbers of elements -/
def keyShape (sk : SecretKey G1 G2) : List (Nat × Nat) := sk.ssk.map fun s => (s.time, s.hvector.length)

open Classical in
/-- The adversary plays with the groups; what it is shown is appended to what it knows. -/
noncomputable def BoxPlayer.play (E : Ext G1 G2 GT) :
    BoxPlayer → List G1 → List G2 → HashPlayer G1 G2
  | .toss n hn next, k1, k2 => .toss n hn fun c => (next c).play E k1 k2
  | .eval m next, k1, k2 => .eval m fun b => (next b).play E k1 k2
  | .test q y n, k1, k2 => if q.Holds E k1 k2 then y.play E k1 k2 else n.play E k1 k2
  | .point next, k1, k2 => .point fun p => next.play E (k1 ++ [p]) k2
  | .sign msg next, k1, k2 => .sign msg fun s => next.play E (k1 ++ [s.sigma2]) (k2 ++ [s.sigma1])
  | .update tar seed next, k1, k2 => .update tar seed (next.play E k1 k2)
  | .breakIn next, k1, k2 => .breakIn fun sk => (next sk.prng.seed (keyShape sk)).play E
      (k1 ++ keyElements1 sk) (k2 ++ keyElements2 sk)
  | .forge F, k1, k2 => .forge (F.made k1 k2)

/-- The adversary in the game: it knows the parameters, the public key, its hash, and the proof of
possession. -/
noncomputable def BoxPlayer.against (E : Ext G1 G2 GT) (P : BoxPlayer) (W : World G1 G2) :
    HashPlayer G1 G2 :=
  P.play E (W.pp.h :: W.q :: W.pop :: W.pp.hlist) [W.pp.g2, W.pk.pk]

/-- what an adversary may do -/
structure Budget where
  /-- evaluations of the hash function -/
  evals : Nat
  /-- questions -/
  tests : Nat
  /-- hash points -/
  points : Nat
  /-- signatures -/
  signs : Nat
  /-- updates -/
  updates : Nat

/-- The adversary keeps to the budget; strings that are hashed have at most `B` octets, messages and seeds
at most `B - 300`; there are fewer than `r - 1` co-signers. -/
def BoxPlayer.Keeps (B : Nat) : BoxPlayer → Budget → Prop
  | .toss _ _ next, b => ∀ c, (next c).Keeps B b
  | .eval m next, b => m.length ≤ B ∧ 0 < b.evals ∧
      ∀ x, (next x).Keeps B { b with evals := b.evals - 1 }
  | .test _ y n, b => 0 < b.tests ∧ y.Keeps B { b with tests := b.tests - 1 } ∧
      n.Keeps B { b with tests := b.tests - 1 }
  | .point next, b => 0 < b.points ∧ next.Keeps B { b with points := b.points - 1 }
  | .sign msg next, b => msg.length + 300 ≤ B ∧ 0 < b.signs ∧
      next.Keeps B { b with signs := b.signs - 1 }
  | .update _ seed next, b => seed.length + 300 ≤ B ∧ 0 < b.updates ∧
      next.Keeps B { b with updates := b.updates - 1 }
  | .breakIn next, b => ∀ x l, (next x l).Keeps B b
  | .forge F, _ => F.msg.length + 300 ≤ B ∧ F.cosigners.length + 1 < rOrder

end Pixel.Spec
