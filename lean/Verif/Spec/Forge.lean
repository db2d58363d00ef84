import Verif.Spec.Sig
import Verif.Spec.Laws
import Mathlib.Tactic.DeriveFintype

/-!
# Linear forgers, and random parameters and keys

An adversary that treats the groups as black boxes can only output linear combinations of the
elements it has seen, with coefficients of its choice.  Only the data types of the model are used.
-/

namespace Pixel.Spec

open Pixel

variable {G1 G2 GT : Type} [AddCommGroup G1] [AddCommGroup G2] [CommGroup GT]

/-- `c_0·a_0 + c_1·a_1 + …` over the elements of a list -/
def lin {A : Type} [AddCommGroup A] (c : Nat → Fr) : List A → A
  | [] => 0
  | a :: l => (c 0).val • a + lin (fun i => c (i + 1)) l

/-- Everything the adversary gets to see: the public parameters, the public key, a point `q` (the
hash of the public key) and the proof of possession for it, leaked sub secret keys, and
signatures. -/
structure View (G1 G2 : Type) where
  pp : PubParam G1 G2
  pk : PublicKey G2
  q : G1
  pop : G1
  ssk : List (SubSecretKey G1 G2)
  sigs : List (Signature G1 G2)

/-- The coefficients of a linear adversary: one for each element in its view.  (`onHvector j i`
belongs to entry `i` of the `hvector` of sub key `j`.) -/
structure Strategy where
  onG2 : Fr
  onPk : Fr
  onG2r : Nat → Fr
  onSigma1 : Nat → Fr
  onH : Fr
  onQ : Fr
  onPop : Fr
  onHlist : Nat → Fr
  onHpoly : Nat → Fr
  onHvector : Nat → Nat → Fr
  onSigma2 : Nat → Fr

/-- The sum of the combinations of the `hvector` elements. -/
def linVectors {A : Type} [AddCommGroup A] (c : Nat → Nat → Fr) : List (List A) → A
  | [] => 0
  | l :: ls => lin (c 0) l + linVectors (fun j => c (j + 1)) ls

/-- The signature for time `t` the adversary puts together. -/
def Strategy.forge (S : Strategy) (V : View G1 G2) (t : Nat) : Signature G1 G2 where
  ciphersuite := V.pp.ciphersuite
  time := t
  sigma1 := S.onG2.val • V.pp.g2 + S.onPk.val • V.pk.pk + lin S.onG2r (V.ssk.map (·.g2r)) +
    lin S.onSigma1 (V.sigs.map (·.sigma1))
  sigma2 := S.onH.val • V.pp.h + S.onQ.val • V.q + S.onPop.val • V.pop + lin S.onHlist V.pp.hlist +
    lin S.onHpoly (V.ssk.map (·.hpoly)) + linVectors S.onHvector (V.ssk.map (·.hvector)) +
    lin S.onSigma2 (V.sigs.map (·.sigma2))

/-- `V` is a view of honestly made objects: parameters of depth `d` and ciphersuite `cs`, the public
key of the master secret exponent `x`, its proof of possession, the sub keys of the given nodes and
signatures for the given nodes and hashed messages. -/
structure HonestView (E : Ext G1 G2 GT) (d : Nat) (cs : UInt8) (nodes : List (List Nat))
    (signed : List (List Nat × Fr)) (x : Nat) (V : View G1 G2) : Prop where
  wf : ParamWF E V.pp
  depth : V.pp.depth = d
  suite : V.pp.ciphersuite = cs
  pk : V.pk.pk = x • V.pp.g2
  q : E.inSub1 V.q = true
  pop : V.pop = x • V.q
  ssk : List.Forall₂ (fun v s => ∃ rho, SubKeyFor V.pp (x • V.pp.h) v rho s) nodes V.ssk
  sigs : List.Forall₂ (fun p s => ∃ a, SigFor V.pp (x • V.pp.h) p.1 p.2 a s) signed V.sigs

/-- The unknown exponents of a system of depth `d` with `n` sub keys and `m` signatures: the master
secret, the discrete logarithms of `h`, `q` and `h_0 … h_d`, and the randomness of each sub key and
signature. -/
inductive Var (d n m : Nat) where
  | x
  | h
  | q
  | gen (i : Fin (d + 1))
  | rho (j : Fin n)
  | rnd (k : Fin m)
  deriving DecidableEq, Fintype

/-- The parameters with the given exponents, with respect to `g`. -/
def paramOf (E : Ext G1 G2 GT) (g : G1) (cs : UInt8) {d n m : Nat} (a : Var d n m → Fr) :
    PubParam G1 G2 where
  depth := d
  ciphersuite := cs
  g2 := E.gen2
  h := (a .h).val • g
  hlist := List.ofFn fun i => (a (.gen i)).val • g

/-- The whole view with the given exponents: sub keys for the nodes (with time stamps) `leak`,
signatures for the times, nodes and hashed messages `signed`. -/
def viewOf (E : Ext G1 G2 GT) (g : G1) (d : Nat) (cs : UInt8) (leak : List (Nat × List Nat))
    (signed : List (Nat × List Nat × Fr)) (a : Var d leak.length signed.length → Fr) :
    View G1 G2 where
  pp := paramOf E g cs a
  pk := { ciphersuite := cs, pk := (a .x).val • E.gen2 }
  q := (a .q).val • g
  pop := (a .x).val • (a .q).val • g
  ssk := List.ofFn fun j =>
    { time := leak[j].1
      g2r := (a (.rho j)).val • E.gen2
      hpoly := (a .x).val • (a .h).val • g + (a (.rho j)).val • nodePoint (paramOf E g cs a) leak[j].2
      hvector := ((paramOf E g cs a).hlist.drop (leak[j].2.length + 1)).map
        (fun y => (a (.rho j)).val • y) }
  sigs := List.ofFn fun k =>
    { ciphersuite := cs
      time := signed[k].1
      sigma1 := (a (.rnd k)).val • E.gen2
      sigma2 := (a .x).val • (a .h).val • g +
        (a (.rnd k)).val • sigPoint (paramOf E g cs a) signed[k].2.1 signed[k].2.2 }

/-- The coefficients of `h_1, …, h_d` in `F(v, M) - F(w, M')`. -/
def relation (d : Nat) (v : List Nat) (M : Fr) (w : List Nat) (M' : Fr) : List Int :=
  (List.range (d - 1)).map (fun i => (v.getD i 0 : Int) - (w.getD i 0 : Int)) ++
    [(M.val : Int) - (M'.val : Int)]

end Pixel.Spec
