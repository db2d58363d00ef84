import Verif.Spec.Tree
import Verif.Model.SecretKey

/-!
# What a sub secret key and a secret key *are* (independent of the algorithms)

Only the data types are shared with the model.
-/

namespace Pixel.Spec

open Pixel

variable {G1 G2 : Type} [AddCommGroup G1] [AddCommGroup G2]

/-- `F(v) = h_0 + v_1 h_1 + … + v_k h_k` for the node `v = [v_1, …, v_k]`. -/
def nodePoint (pp : PubParam G1 G2) (v : List Nat) : G1 :=
  pp.hlist.headD 0 + (List.zipWith (fun t h => t • h) v pp.hlist.tail).sum

/-- `s` is the sub secret key of the node `v` for the master secret `alpha`, with randomness
`rho`:  `(rho·g2, alpha + rho·F(v), rho·h_{|v|+1}, …, rho·h_d)`. -/
structure SubKeyFor (pp : PubParam G1 G2) (alpha : G1) (v : List Nat) (rho : Nat)
    (s : SubSecretKey G1 G2) : Prop where
  node : NodeAt pp.depth s.time v
  g2r : s.g2r = rho • pp.g2
  hpoly : s.hpoly = alpha + rho • nodePoint pp v
  hvector : s.hvector = (pp.hlist.drop (v.length + 1)).map (fun h => rho • h)

/-- Sub secret keys obtainable with the API from the master secret `alpha`: the root sub key, and
whatever successful delegations and re-randomisations make of it. -/
inductive Derived (pf : Profile) (pp : PubParam G1 G2) (alpha : G1) : SubSecretKey G1 G2 → Prop
  | root {r : Fr} {s : SubSecretKey G1 G2} (h : SubSecretKey.init pp alpha r = .ok s) :
      Derived pf pp alpha s
  | delegate {tar : Nat} {s s' : SubSecretKey G1 G2} (h : Derived pf pp alpha s)
      (h' : SubSecretKey.delegate pf tar pp.depth s = (.ok (), s')) : Derived pf pp alpha s'
  | randomize {r : Fr} {s s' : SubSecretKey G1 G2} (h : Derived pf pp alpha s)
      (h' : SubSecretKey.randomization pf pp r s = (.ok (), s')) : Derived pf pp alpha s'

/-- `vs` lists, by increasing time stamp, the node of time `t` and the right siblings of the path
to it: the roots of the subtrees that make up the present and the future. -/
structure CoverList (d t : Nat) (vs : List (List Nat)) : Prop where
  mem : ∀ s, s ∈ vs ↔ ∃ v, NodeAt d t v ∧ (s = v ∨ RightSiblingOnPath v s)
  sorted : vs.Pairwise (fun a b => ∃ ta tb, NodeAt d ta a ∧ NodeAt d tb b ∧ ta < tb)

/-- `sk` is a secret key for time `t` and master secret `alpha`: one sub key per element of the
cover of `t`, in order. -/
structure KeyFor (pp : PubParam G1 G2) (alpha : G1) (t : Nat) (sk : SecretKey G1 G2) : Prop where
  suite : sk.ciphersuite = pp.ciphersuite
  time : sk.time = t
  valid : ValidTime pp.depth t
  /-- the Rust array type `[u8; 64]` -/
  prng : sk.prng.seed.length = 64
  ssk : ∃ vs, CoverList pp.depth t vs ∧
    List.Forall₂ (fun v s => ∃ rho, SubKeyFor pp alpha v rho s) vs sk.ssk

/-- Sub keys that can be made with the API from a given list of sub keys: the list itself, and
whatever successful delegations and re-randomisations make of it. -/
inductive Obtainable (pf : Profile) (pp : PubParam G1 G2) (start : List (SubSecretKey G1 G2)) :
    SubSecretKey G1 G2 → Prop
  | start {s : SubSecretKey G1 G2} (h : s ∈ start) : Obtainable pf pp start s
  | delegate {tar : Nat} {s s' : SubSecretKey G1 G2} (h : Obtainable pf pp start s)
      (h' : SubSecretKey.delegate pf tar pp.depth s = (.ok (), s')) : Obtainable pf pp start s'
  | randomize {r : Fr} {s s' : SubSecretKey G1 G2} (h : Obtainable pf pp start s)
      (h' : SubSecretKey.randomization pf pp r s = (.ok (), s')) : Obtainable pf pp start s'

end Pixel.Spec
