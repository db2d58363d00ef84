import Verif.Spec.Schedule

/-!
# Secret keys that did not come from key generation (independent of the algorithms)

A secret key can also come from bytes.  Reading checks the time stamps and the group elements one by
one, but not that they belong together.
-/

namespace Pixel.Spec

open Pixel

variable {G1 G2 : Type} [AddCommGroup G1] [AddCommGroup G2]

/-- The sub keys of `sk` have the time stamps of a key for time `t`.  Nothing is asked of the group
elements, nor of how many there are. -/
structure TimesFor (pp : PubParam G1 G2) (t : Nat) (sk : SecretKey G1 G2) : Prop where
  suite : sk.ciphersuite = pp.ciphersuite
  time : sk.time = t
  valid : ValidTime pp.depth t
  /-- the Rust array type `[u8; 64]` -/
  prng : sk.prng.seed.length = 64
  ssk : ∃ vs, CoverList pp.depth t vs ∧
    List.Forall₂ (fun v s => NodeAt pp.depth (SubSecretKey.time s) v) vs sk.ssk

/-- Each sub key has one element of `hvector` for each level below its node.  Nothing is asked of the
time stamps. -/
def RightLengths (pp : PubParam G1 G2) (sk : SecretKey G1 G2) : Prop :=
  ∀ s ∈ sk.ssk, ∀ v, NodeAt pp.depth s.time v → v.length + s.hvector.length = pp.depth

/-- The state of the PRNG comes back in an update from `t` to `tar`. -/
def ComesBack (sha : Bytes → Bytes) (d : Nat) (p : Prng) (seed : Bytes) (t tar : Nat) : Prop :=
  ∃ k, 1 ≤ k ∧ k ≤ drawsNeeded d t tar ∧ Props.afterDraws sha (Props.reseeded sha p seed t) k = p

/-- The node of time `t'` lies strictly below the one of time `t`. -/
def Below (d t t' : Nat) : Prop :=
  ∃ v w, NodeAt d t v ∧ NodeAt d t' (v ++ w) ∧ w ≠ []

/-- The times of a key for `tar`, up to the first that `old` has. -/
def upTo (d tar : Nat) (old : List Nat) : List Nat :=
  (coverTimes d tar).takeWhile fun t => ! old.contains t

/-- All group elements of `sk` are in the subgroups of order `r`, as reading from bytes ensures. -/
def InGroups {GT : Type} [CommGroup GT] (E : Ext G1 G2 GT) (sk : SecretKey G1 G2) : Prop :=
  ∀ s ∈ sk.ssk, E.inSub2 s.g2r = true ∧ E.inSub1 s.hpoly = true ∧ ∀ h ∈ s.hvector, E.inSub1 h = true

/-- `s_0 + w_1 a_1 + … + w_k a_k + M a_n` for a sub key with the elements `s_0` (`hpoly`) and
`a_1, …, a_n` (`hvector`): what signing makes of it `w` further down for the hashed message `M`, the
random part left out. -/
def bareSignature (s : SubSecretKey G1 G2) (w : List Nat) (M : Fr) : G1 :=
  s.hpoly + (List.zipWith (fun t a => t • a) w s.hvector).sum + M.val • s.hvector.getLastD 0

/-- the sub key number `i` of `sk` with its element number `j` wrong by `e` -/
def withError (sk : SecretKey G1 G2) (i j : Nat) (e : G1) : SecretKey G1 G2 :=
  { sk with ssk := sk.ssk.modify i fun s => { s with hvector := s.hvector.modify j (· + e) } }

end Pixel.Spec
