import Verif.Spec.Game
import Mathlib.Algebra.BigOperators.Group.Finset.Basic
import Mathlib.Algebra.BigOperators.Fin
import Mathlib.Data.Rat.Defs
import Mathlib.Order.Interval.Finset.Nat

/-!
# Forgers that are arbitrary algorithms, and the problem a forger can be used to solve

Here the adversary is not restricted to black-box use of the groups: it is any function of the group
elements it is shown.  No forger can then be excluded outright.  What is shown instead is that a
forger can be used, once and without rewinding, to solve a problem about the pairing:

  given `γ^i·g` and `γ^i·g2` for `i ≤ d`, and `b·g`, `b·g2`, find `e(g2, g)^(b γ^(d+1))`

("weak bilinear Diffie-Hellman inversion", the assumption of the Pixel paper).

Only the data types and the verification functions are shared with the model.
-/

namespace Pixel.Spec

open Pixel

variable {G1 G2 GT : Type} [AddCommGroup G1] [AddCommGroup G2] [CommGroup GT]

/-- the average of a function on a finite set -/
noncomputable def avg {α : Type} [Fintype α] (f : α → ℚ) : ℚ := (∑ a, f a) / Fintype.card α

/-! ## The game -/

/-- A co-signer: a public key, the number of the answer that is the hash of this key (`none`: the
key is the honest one again), and a proof of possession. -/
structure Partner (G1 G2 : Type) where
  key : G2
  point : Option Nat
  pop : G1

/-- The final output of the adversary. -/
structure Claim (G1 G2 : Type) where
  time : Nat
  msg : Bytes
  sigma1 : G2
  sigma2 : G1
  cosigners : List (Partner G1 G2)

/-- An adversary: it throws dice (with any number `n` of sides), asks, and in the end makes a claim.
What it does next is an arbitrary function of what it got. -/
inductive Player (G1 G2 : Type) where
  | toss (n : Nat) (hn : 0 < n) (next : Fin n → Player G1 G2)
  | ask (q : Query) (next : Answer G1 G2 → Player G1 G2)
  | forge (F : Claim G1 G2)

/-- all queries are legal, and there are fewer than `r - 1` co-signers -/
def Player.Legal (d : Nat) : Player G1 G2 → Prop
  | .toss _ _ n => ∀ c, (n c).Legal d
  | .ask q n => q.Legal d ∧ ∀ a, (n a).Legal d
  | .forge F => F.cosigners.length + 1 < rOrder

/-- at most `k` queries are for random points -/
def Player.Points : Player G1 G2 → Nat → Prop
  | .toss _ _ n, k => ∀ c, (n c).Points k
  | .ask .point n, k => 0 < k ∧ ∀ a, (n a).Points (k - 1)
  | .ask (.subKey _ _) n, k => ∀ a, (n a).Points k
  | .ask (.signature _ _ _) n, k => ∀ a, (n a).Points k
  | .forge _, _ => True

/-- A co-signer is admitted: the key is the honest one; or it is a point of the subgroup (as every
key is that was deserialized) and the model's `validate` accepts the proof of possession when
hash-to-curve returns the point named. -/
def Partner.Admitted [DecidableEq GT] (E : Ext G1 G2 GT) (W : World G1 G2) (c : Partner G1 G2) :
    Prop :=
  match c.point with
  | none => c.key = W.pk.pk
  | some k => E.inSub2 c.key = true ∧ ∃ p, W.answers[k]? = some (.point p) ∧
      PublicKey.validate { E with hashToG1 := fun _ _ => p }
        { ciphersuite := W.pp.ciphersuite, pk := c.key }
        { ciphersuite := W.pp.ciphersuite, pop := c.pop } = true

/-- The claim is accepted: all co-signers are admitted and the model's aggregate verification accepts
the signature for the honest key and the keys of the co-signers. -/
def Claim.Accepted [DecidableEq GT] (E : Ext G1 G2 GT) (pf : Profile) (W : World G1 G2)
    (F : Claim G1 G2) : Prop :=
  (∀ c ∈ F.cosigners, c.Admitted E W) ∧
  Signature.verifyBytesAggregated E pf
    { ciphersuite := W.pp.ciphersuite, time := F.time, sigma1 := F.sigma1, sigma2 := F.sigma2 }
    (W.pk :: F.cosigners.map fun c => { ciphersuite := W.pp.ciphersuite, pk := c.key })
    W.pp F.msg = .ok true

/-- The claim is not one the answers give away. -/
def Claim.Fresh (sha : Bytes → Bytes) (d : Nat) (cs : UInt8) (qs : List Query) (F : Claim G1 G2) :
    Prop :=
  ∀ w, NodeAt d F.time w →
    (∀ t v, .subKey t v ∈ qs → ¬ AncestorOrSelf v w) ∧
    (∀ t, .signature t w (msgField sha cs F.msg) ∉ qs)

open Classical in
/-- The chance that the adversary wins, over its dice and the fresh exponents of the answers, with a
claim for a time and a hashed message in `T`; `qs` and `W` are the queries and the world so far, `x`
is the master secret. -/
noncomputable def Player.chance [DecidableEq GT] (E : Ext G1 G2 GT) (pf : Profile) (g : G1)
    (T : Finset (Nat × Fr)) (x : Fr) : Player G1 G2 → List Query → World G1 G2 → ℚ
  | .toss _ _ n, qs, W => avg fun c => (n c).chance E pf g T x qs W
  | .ask q n, qs, W => avg fun r =>
      (n (answer W.pp g x r q)).chance E pf g T x (qs ++ [q])
        { W with answers := W.answers ++ [answer W.pp g x r q] }
  | .forge F, qs, W =>
      if F.Accepted E pf W ∧ F.Fresh E.sha512 W.pp.depth W.pp.ciphersuite qs ∧
        (F.time, msgField E.sha512 W.pp.ciphersuite F.msg) ∈ T then 1 else 0

/-- The chance that the adversary wins, over the parameters and the key of the honest signer as
well.  (`worldOf` with no queries: parameters, public key, proof of possession.) -/
noncomputable def forgeChance [DecidableEq GT] (E : Ext G1 G2 GT) (pf : Profile) (g : G1) (d : Nat)
    (cs : UInt8) (T : Finset (Nat × Fr)) (A : World G1 G2 → Player G1 G2) : ℚ :=
  avg fun a : Secret d 0 → Fr =>
    (A (worldOf E g cs a [])).chance E pf g T (a .x) [] (worldOf E g cs a [])

/-! ## The problem -/

/-- an instance of the problem -/
structure Instance (G1 G2 : Type) where
  pow1 : List G1
  pow2 : List G2
  b1 : G1
  b2 : G2

/-- the instance with exponents `γ` and `b` -/
def instanceOf (E : Ext G1 G2 GT) (g : G1) (d : Nat) (γ b : Fr) : Instance G1 G2 where
  pow1 := List.ofFn fun i : Fin (d + 1) => (γ ^ i.val).val • g
  pow2 := List.ofFn fun i : Fin (d + 1) => (γ ^ i.val).val • E.gen2
  b1 := b.val • g
  b2 := b.val • E.gen2

/-- its solution -/
def solutionOf (E : Ext G1 G2 GT) (g : G1) (d : Nat) (γ b : Fr) : GT :=
  pair E E.gen2 ((b * γ ^ (d + 1)).val • g)

/-- An algorithm that throws dice, draws scalars and then names an element. -/
inductive Guess (GT : Type) where
  | toss (n : Nat) (hn : 0 < n) (next : Fin n → Guess GT)
  | draw (next : Fr → Guess GT)
  | out (z : GT)

open Classical in
/-- the chance that it names `z` -/
noncomputable def Guess.chance (z : GT) : Guess GT → ℚ
  | .toss _ _ n => avg fun c => (n c).chance z
  | .draw n => avg fun c => (n c).chance z
  | .out y => if y = z then 1 else 0

/-! ## How the forger is used -/

/-- The coins for the parameters. -/
inductive Coin (d : Nat) where
  | h
  | q
  | gen (i : Fin (d + 1))
  deriving DecidableEq, Fintype

/-- the chance that an algorithm solves a random instance -/
noncomputable def solveChance (E : Ext G1 G2 GT) (g : G1) (d : Nat)
    (S : Instance G1 G2 → (Coin d → Fr) → Guess GT) : ℚ :=
  avg fun γ : Fr => avg fun b : Fr => avg fun k : Coin d → Fr =>
    (S (instanceOf E g d γ b) k).chance (solutionOf E g d γ b)

/-- the exponents of `h_0 … h_d` in the point for a node and a hashed message -/
def coefs (d : Nat) (v : List Nat) (M : Fr) (i : Nat) : Fr :=
  if i = 0 then 1 else if i = d then M else ((v.getD (i - 1) 0 : Nat) : Fr)

section Reduction

variable (E : Ext G1 G2 GT) (cs : UInt8) (d : Nat) (w : List Nat) (M : Fr)
  (I : Instance G1 G2) (k : Coin d → Fr)

/-- `γ^i·g` -/
def Instance.at1 (i : Nat) : G1 := I.pow1.getD i 0

/-- `γ^i·g2` -/
def Instance.at2 (i : Nat) : G2 := I.pow2.getD i 0

/-- The parameters shown to the forger, made for a forgery at node `w` and hashed message `M`:
`h = γ^d + δ`, `h_i = δ_i - γ^(d+1-i)`, `h_0 = δ_0 + Σ c_i γ^(d+1-i)` in the exponents. -/
def simParam : PubParam G1 G2 where
  depth := d
  ciphersuite := cs
  g2 := E.gen2
  h := (k .h).val • I.at1 0 + I.at1 d
  hlist := List.ofFn fun i : Fin (d + 1) => (k (.gen i)).val • I.at1 0 +
    (if i.val = 0 then ∑ j ∈ Finset.Icc 1 d, (coefs d w M j).val • I.at1 (d + 1 - j)
    else - I.at1 (d + 1 - i))

/-- What the forger is shown at the start: the public key is `γ·g2`. -/
def simWorld : World G1 G2 where
  pp := simParam E cs d w M I k
  pk := { ciphersuite := cs, pk := I.at2 1 }
  q := (k .q).val • I.at1 0
  pop := (k .q).val • I.at1 1
  answers := []

/-- the first place where the coefficients `c` differ from those of the target -/
def firstDiff (c : Nat → Fr) : Nat :=
  ((List.range (d + 1)).find? fun j => c j ≠ coefs d w M j).getD 0

/-- the inverse of that difference -/
def factor (c : Nat → Fr) : Fr :=
  (c (firstDiff d w M c) - coefs d w M (firstDiff d w M c))⁻¹

/-- first component of an answer: randomness `r + κ γ^j` -/
def simFirst (c : Nat → Fr) (r : Fr) : G2 :=
  r.val • E.gen2 + (factor d w M c).val • I.at2 (firstDiff d w M c)

/-- second component: the two terms with `γ^(d+1)` cancel -/
def simSecond (v : List Nat) (M' : Fr) (r : Fr) : G1 :=
  let c := coefs d v M'
  let j := firstDiff d w M c
  (k .h).val • I.at1 1 + r.val • sigPoint (simParam E cs d w M I k) v M' +
    (∑ i : Fin (d + 1), (factor d w M c * c i * k (.gen i)).val • I.at1 j) +
    ∑ i ∈ Finset.Ioc j d, (factor d w M c * (coefs d w M i - c i)).val • I.at1 (d + 1 - i + j)

/-- component `i` of the vector of a sub key -/
def simVector (c : Nat → Fr) (r : Fr) (i : Fin (d + 1)) : G1 :=
  r.val • (k (.gen i)).val • I.at1 0 - r.val • I.at1 (d + 1 - i) +
    (factor d w M c * k (.gen i)).val • I.at1 (firstDiff d w M c) -
    (factor d w M c).val • I.at1 (d + 1 - i + firstDiff d w M c)

/-- the answer to a query -/
def simAnswer (r : Fr) : Query → Answer G1 G2
  | .subKey t v => .subKey
      { time := t
        g2r := simFirst E d w M I (coefs d v 0) r
        hpoly := simSecond E cs d w M I k v 0 r
        hvector := (List.ofFn (simVector d w M I k (coefs d v 0) r)).drop (v.length + 1) }
  | .signature t v M' => .signature
      { ciphersuite := cs
        time := t
        sigma1 := simFirst E d w M I (coefs d v M') r
        sigma2 := simSecond E cs d w M I k v M' r }
  | .point => .point (r.val • (simParam E cs d w M I k).h)

/-- what the co-signers contribute to the signature, from their proofs of possession; `us` are the
fresh exponents of the answers -/
def stripOf (us : List Fr) (l : List (Partner G1 G2)) : G1 :=
  (l.map fun c => match c.point with
    | none => 0
    | some k => ((us.getD k 0)⁻¹).val • c.pop).sum

/-- how often the honest key is among the co-signers -/
def copies (l : List (Partner G1 G2)) : Nat := l.countP fun c => c.point.isNone

/-- the solution computed from a claim -/
def extract (us : List Fr) (F : Claim G1 G2) : GT :=
  let κ : Fr := ((copies F.cosigners + 1 : Nat) : Fr)⁻¹
  let f : Fr := ∑ i : Fin (d + 1), coefs d w M i * k (.gen i)
  pair E I.b2 (κ.val • (F.sigma2 - stripOf us F.cosigners) - (k .h).val • I.at1 1) *
    pair E F.sigma1 ((-(κ * f)).val • I.b1)

/-- The forger is run once, on answers made from the instance. -/
def Player.reduce : Player G1 G2 → List Fr → Guess GT
  | .toss m hm n, us => .toss m hm fun c => (n c).reduce us
  | .ask q n, us => .draw fun r => (n (simAnswer E cs d w M I k r q)).reduce (us ++ [r])
  | .forge F, us => .out (extract E d w M I k us F)

end Reduction

/-- The algorithm that uses the forger `A` to solve the problem; it bets on a forgery for node `w`
and hashed message `M`. -/
def reduction (E : Ext G1 G2 GT) (cs : UInt8) (d : Nat) (w : List Nat) (M : Fr)
    (A : World G1 G2 → Player G1 G2) (I : Instance G1 G2) (k : Coin d → Fr) : Guess GT :=
  (A (simWorld E cs d w M I k)).reduce E cs d w M I k []

end Pixel.Spec
