import Verif.Spec.Forge
import Verif.Model.KeyPair

/-!
# The forgery game: an adaptive adversary that uses the groups as black boxes

The adversary sees group elements only through their labels.  It may ask, in any order and depending
on everything learnt before: for sub secret keys, for signatures, for fresh hash points (for proofs
of possession of keys of its own), and whether a combination of the elements it holds is zero - in
`G1`, in `G2`, or, after pairing, in `GT`.  In the end it names co-signers, with proofs of
possession, and an aggregate signature for the honest signer and the co-signers.

Only the data types and the verification functions are shared with the model.
-/

namespace Pixel.Spec

open Pixel

variable {G1 G2 GT : Type} [AddCommGroup G1] [AddCommGroup G2] [CommGroup GT]

/-- The unknown exponents: the master secret of the honest signer, the discrete logarithms of `h`,
`q` and `h_0 … h_d`, and a fresh one for each of `N` answers. -/
inductive Secret (d N : Nat) where
  | x
  | h
  | q
  | gen (i : Fin (d + 1))
  | fresh (k : Fin N)
  deriving DecidableEq, Fintype

/-- What the adversary can ask for: the sub secret key of a node `v` (with its time stamp `t`), a
signature for a node and a hashed message, a random point. -/
inductive Query where
  | subKey (t : Nat) (v : List Nat)
  | signature (t : Nat) (v : List Nat) (M : Fr)
  | point

/-- What it gets. -/
inductive Answer (G1 G2 : Type) where
  | subKey (s : SubSecretKey G1 G2)
  | signature (s : Signature G1 G2)
  | point (p : G1)

/-- the elements of `G1` in an answer -/
def Answer.inG1 : Answer G1 G2 → List G1
  | .subKey s => s.hpoly :: s.hvector
  | .signature s => [s.sigma2]
  | .point p => [p]

/-- the elements of `G2` in an answer -/
def Answer.inG2 : Answer G1 G2 → List G2
  | .subKey s => [s.g2r]
  | .signature s => [s.sigma1]
  | .point _ => []

/-- Everything seen at some moment: parameters, the public key of the honest signer, the hash `q` of
that key and the proof of possession, and the answers so far. -/
structure World (G1 G2 : Type) where
  pp : PubParam G1 G2
  pk : PublicKey G2
  q : G1
  pop : G1
  answers : List (Answer G1 G2)

/-- A linear combination: coefficients for the elements known from the start, and for element `j` of
answer `k`. -/
structure Comb where
  start : Nat → Fr
  on : Nat → Nat → Fr

/-- the combination of the known elements of `G1` -/
def World.inG1 (W : World G1 G2) (c : Comb) : G1 :=
  lin c.start (W.pp.h :: W.q :: W.pop :: W.pp.hlist) + linVectors c.on (W.answers.map Answer.inG1)

/-- the combination of the known elements of `G2` -/
def World.inG2 (W : World G1 G2) (c : Comb) : G2 :=
  lin c.start [W.pp.g2, W.pk.pk] + linVectors c.on (W.answers.map Answer.inG2)

/-- A co-signer: a public key, the number of the answer that is the hash of this key (`none`: the
key is the honest one again), and a proof of possession. -/
structure CoSigner where
  key : Comb
  point : Option Nat
  pop : Comb

/-- The final output. -/
structure Forgery where
  time : Nat
  msg : Bytes
  sigma1 : Comb
  sigma2 : Comb
  cosigners : List CoSigner

/-- An adversary, as a tree of decisions. -/
inductive Adversary where
  | ask (q : Query) (next : Adversary)
  | isZero1 (c : Comb) (yes no : Adversary)
  | isZero2 (c : Comb) (yes no : Adversary)
  | isOneT (l : List (Comb × Comb)) (yes no : Adversary)
  | forge (F : Forgery)

/-- the largest number of queries -/
def Adversary.queries : Adversary → Nat
  | .ask _ n => n.queries + 1
  | .isZero1 _ y n => max y.queries n.queries
  | .isZero2 _ y n => max y.queries n.queries
  | .isOneT _ y n => max y.queries n.queries
  | .forge _ => 0

/-- the largest number of tests -/
def Adversary.tests : Adversary → Nat
  | .ask _ n => n.tests
  | .isZero1 _ y n => max y.tests n.tests + 1
  | .isZero2 _ y n => max y.tests n.tests + 1
  | .isOneT _ y n => max y.tests n.tests + 1
  | .forge _ => 0

/-- the time stamps in a query belong to the nodes -/
def Query.Legal (d : Nat) : Query → Prop
  | .subKey t v => NodeAt d t v
  | .signature t v _ => NodeAt d t v
  | .point => True

/-- all queries are legal, and there are fewer than `r - 1` co-signers -/
def Adversary.Legal (d : Nat) : Adversary → Prop
  | .ask q n => q.Legal d ∧ n.Legal d
  | .isZero1 _ y n => y.Legal d ∧ n.Legal d
  | .isZero2 _ y n => y.Legal d ∧ n.Legal d
  | .isOneT _ y n => y.Legal d ∧ n.Legal d
  | .forge F => F.cosigners.length + 1 < rOrder

/-- The parameters with the given exponents, with respect to `g`. -/
def gameParam (E : Ext G1 G2 GT) (g : G1) (cs : UInt8) {d N : Nat} (a : Secret d N → Fr) :
    PubParam G1 G2 where
  depth := d
  ciphersuite := cs
  g2 := E.gen2
  h := (a .h).val • g
  hlist := List.ofFn fun i => (a (.gen i)).val • g

/-- the fresh exponent of answer `k` -/
def freshOf {R : Type} [Zero R] {d N : Nat} (a : Secret d N → R) (k : Nat) : R :=
  if h : k < N then a (.fresh ⟨k, h⟩) else 0

/-- Answer number `k`, made with the master secret and the fresh exponent `r`. -/
def answer (pp : PubParam G1 G2) (g : G1) (x r : Fr) : Query → Answer G1 G2
  | .subKey t v => .subKey
      { time := t
        g2r := r.val • pp.g2
        hpoly := x.val • pp.h + r.val • nodePoint pp v
        hvector := (pp.hlist.drop (v.length + 1)).map fun y => r.val • y }
  | .signature t v M => .signature
      { ciphersuite := pp.ciphersuite
        time := t
        sigma1 := r.val • pp.g2
        sigma2 := x.val • pp.h + r.val • sigPoint pp v M }
  | .point => .point (r.val • g)

/-- What has been seen after the queries `qs`. -/
def worldOf (E : Ext G1 G2 GT) (g : G1) (cs : UInt8) {d N : Nat} (a : Secret d N → Fr)
    (qs : List Query) : World G1 G2 where
  pp := gameParam E g cs a
  pk := { ciphersuite := cs, pk := (a .x).val • E.gen2 }
  q := (a .q).val • g
  pop := (a .x).val • (a .q).val • g
  answers := List.ofFn fun k : Fin qs.length =>
    answer (gameParam E g cs a) g (a .x) (freshOf a k) qs[k]

/-- A co-signer is admitted: the key is the honest one, or the model's `validate` accepts the proof
of possession when hash-to-curve returns the point named. -/
def CoSigner.Admitted [DecidableEq GT] (E : Ext G1 G2 GT) (W : World G1 G2) (c : CoSigner) : Prop :=
  match c.point with
  | none => W.inG2 c.key = W.pk.pk
  | some k => ∃ p, W.answers[k]? = some (.point p) ∧
      PublicKey.validate { E with hashToG1 := fun _ _ => p }
        { ciphersuite := W.pp.ciphersuite, pk := W.inG2 c.key }
        { ciphersuite := W.pp.ciphersuite, pop := W.inG1 c.pop } = true

/-- The forgery is accepted: all co-signers are admitted and the model's aggregate verification
accepts the signature for the honest key and the keys of the co-signers. -/
def Forgery.Accepted [DecidableEq GT] (E : Ext G1 G2 GT) (pf : Profile) (W : World G1 G2)
    (F : Forgery) : Prop :=
  (∀ c ∈ F.cosigners, c.Admitted E W) ∧
  Signature.verifyBytesAggregated E pf
    { ciphersuite := W.pp.ciphersuite, time := F.time, sigma1 := W.inG2 F.sigma1,
      sigma2 := W.inG1 F.sigma2 }
    (W.pk :: F.cosigners.map fun c => { ciphersuite := W.pp.ciphersuite, pk := W.inG2 c.key })
    W.pp F.msg = .ok true

/-- The forgery is not one the answers give away: its node is not below the node of a sub key that
was asked for, and no signature was asked for the node and the hashed message. -/
def Forgery.Fresh (sha : Bytes → Bytes) (d : Nat) (cs : UInt8) (qs : List Query) (F : Forgery) :
    Prop :=
  ∀ w, NodeAt d F.time w →
    (∀ t v, .subKey t v ∈ qs → ¬ AncestorOrSelf v w) ∧
    (∀ t, .signature t w (msgField sha cs F.msg) ∉ qs)

/-- The adversary wins the game with exponents `a`, after the queries `qs`. -/
def Adversary.Wins [DecidableEq GT] (E : Ext G1 G2 GT) (pf : Profile) (g : G1) (cs : UInt8)
    {d N : Nat} (a : Secret d N → Fr) : Adversary → List Query → Prop
  | .ask q n, qs => n.Wins E pf g cs a (qs ++ [q])
  | .isZero1 c y n, qs =>
    ((worldOf E g cs a qs).inG1 c = 0 ∧ y.Wins E pf g cs a qs) ∨
      ((worldOf E g cs a qs).inG1 c ≠ 0 ∧ n.Wins E pf g cs a qs)
  | .isZero2 c y n, qs =>
    ((worldOf E g cs a qs).inG2 c = 0 ∧ y.Wins E pf g cs a qs) ∨
      ((worldOf E g cs a qs).inG2 c ≠ 0 ∧ n.Wins E pf g cs a qs)
  | .isOneT l y n, qs =>
    ((l.map fun p => pair E ((worldOf E g cs a qs).inG2 p.1)
        ((worldOf E g cs a qs).inG1 p.2)).prod = 1 ∧ y.Wins E pf g cs a qs) ∨
      ((l.map fun p => pair E ((worldOf E g cs a qs).inG2 p.1)
        ((worldOf E g cs a qs).inG1 p.2)).prod ≠ 1 ∧ n.Wins E pf g cs a qs)
  | .forge F, qs => F.Accepted E pf (worldOf E g cs a qs) ∧ F.Fresh E.sha512 d cs qs

end Pixel.Spec
