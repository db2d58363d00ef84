import Verif.Spec.Reduce
import Verif.Model.Prng

/-!
# The game with the hash of messages as a random oracle

As in `Spec/Reduce.lean` the adversary is an arbitrary function of what it is shown.  Now it need not
commit itself to a target: it chooses the time and the message of its claim at the end, by everything
it has seen.  For this SHA-512, where the code uses it to hash messages, is replaced by a random
function whose values (64 octets) are drawn when they are first needed.
-/

namespace Pixel.Spec

open Pixel

variable {G1 G2 GT : Type} [AddCommGroup G1] [AddCommGroup G2] [CommGroup GT]

/-- the values of the hash function, as numbers -/
abbrev Digest := Fin (256 ^ 64)

theorem digests_pos : 0 < 256 ^ 64 := Nat.pow_pos (by omega)

/-- the 64 octets -/
def Digest.bytes (D : Digest) : Bytes := natToBE 64 D.val

/-- the field element -/
def Digest.field (D : Digest) : Fr := (D.val : Fr)

/-- the messages hashed so far -/
abbrev Table := List (Bytes × Digest)

/-- What the adversary can ask for. -/
inductive RoQuery where
  | subKey (t : Nat) (v : List Nat)
  | signature (t : Nat) (v : List Nat) (msg : Bytes)
  | point

/-- An adversary with access to the hash function. -/
inductive RoPlayer (G1 G2 : Type) where
  | toss (n : Nat) (hn : 0 < n) (next : Fin n → RoPlayer G1 G2)
  | hash (msg : Bytes) (next : Bytes → RoPlayer G1 G2)
  | ask (q : RoQuery) (next : Answer G1 G2 → RoPlayer G1 G2)
  | forge (F : Claim G1 G2)

/-- the time stamps in a query belong to the nodes -/
def RoQuery.Legal (d : Nat) : RoQuery → Prop
  | .subKey t v => NodeAt d t v
  | .signature t v _ => NodeAt d t v
  | .point => True

/-- all queries are legal, and there are fewer than `r - 1` co-signers -/
def RoPlayer.Legal (d : Nat) : RoPlayer G1 G2 → Prop
  | .toss _ _ n => ∀ c, (n c).Legal d
  | .hash _ n => ∀ b, (n b).Legal d
  | .ask q n => q.Legal d ∧ ∀ a, (n a).Legal d
  | .forge F => F.cosigners.length + 1 < rOrder

/-- at most `k` queries are for random points -/
def RoPlayer.Points : RoPlayer G1 G2 → Nat → Prop
  | .toss _ _ n, k => ∀ c, (n c).Points k
  | .hash _ n, k => ∀ b, (n b).Points k
  | .ask .point n, k => 0 < k ∧ ∀ a, (n a).Points (k - 1)
  | .ask (.subKey _ _) n, k => ∀ a, (n a).Points k
  | .ask (.signature _ _ _) n, k => ∀ a, (n a).Points k
  | .forge _, _ => True

/-- at most `k` messages are hashed: for the adversary, for a signature, or to check the claim -/
def RoPlayer.Hashes : RoPlayer G1 G2 → Nat → Prop
  | .toss _ _ n, k => ∀ c, (n c).Hashes k
  | .hash _ n, k => 0 < k ∧ ∀ b, (n b).Hashes (k - 1)
  | .ask .point n, k => ∀ a, (n a).Hashes k
  | .ask (.subKey _ _) n, k => ∀ a, (n a).Hashes k
  | .ask (.signature _ _ _) n, k => 0 < k ∧ ∀ a, (n a).Hashes (k - 1)
  | .forge _, k => 0 < k

/-- The claim is not one the answers give away: its node is not below the node of a sub key that was
asked for, and no signature was asked for the node and the message. -/
def Claim.RoFresh (d : Nat) (qs : List RoQuery) (F : Claim G1 G2) : Prop :=
  ∀ w, NodeAt d F.time w →
    (∀ t v, .subKey t v ∈ qs → ¬ AncestorOrSelf v w) ∧ (∀ t, .signature t w F.msg ∉ qs)

/-- the average of `f` over the value of the oracle at `msg`, and the table afterwards -/
noncomputable def oracle (tab : Table) (msg : Bytes) (f : Digest → Table → ℚ) : ℚ :=
  match tab.lookup msg with
  | some D => f D tab
  | none => avg fun D : Digest => f D (tab ++ [(msg, D)])

open Classical in
/-- The chance that the adversary wins; `qs`, `tab` and `W` are the queries, the hashed messages and
the world so far, `x` is the master secret.  The claim is checked by the functions of the model, with
the value of the oracle for SHA-512. -/
noncomputable def RoPlayer.chance [DecidableEq GT] (E : Ext G1 G2 GT) (pf : Profile) (g : G1)
    (x : Fr) : RoPlayer G1 G2 → List RoQuery → Table → World G1 G2 → ℚ
  | .toss _ _ n, qs, tab, W => avg fun c => (n c).chance E pf g x qs tab W
  | .hash msg n, qs, tab, W => oracle tab msg fun D tab' => (n D.bytes).chance E pf g x qs tab' W
  | .ask (.subKey t v) n, qs, tab, W => avg fun r =>
      (n (answer W.pp g x r (.subKey t v))).chance E pf g x (qs ++ [.subKey t v]) tab
        { W with answers := W.answers ++ [answer W.pp g x r (.subKey t v)] }
  | .ask .point n, qs, tab, W => avg fun r =>
      (n (answer W.pp g x r .point)).chance E pf g x (qs ++ [.point]) tab
        { W with answers := W.answers ++ [answer W.pp g x r .point] }
  | .ask (.signature t v msg) n, qs, tab, W => oracle tab msg fun D tab' => avg fun r =>
      (n (answer W.pp g x r (.signature t v D.field))).chance E pf g x
        (qs ++ [.signature t v msg]) tab'
        { W with answers := W.answers ++ [answer W.pp g x r (.signature t v D.field)] }
  | .forge F, qs, tab, W => oracle tab F.msg fun D _ =>
      if F.Accepted { E with sha512 := fun _ => D.bytes } pf W ∧ F.RoFresh W.pp.depth qs then 1
      else 0

/-- The chance that the adversary wins, over the parameters and the key of the honest signer as
well. -/
noncomputable def roForgeChance [DecidableEq GT] (E : Ext G1 G2 GT) (pf : Profile) (g : G1)
    (d : Nat) (cs : UInt8) (A : World G1 G2 → RoPlayer G1 G2) : ℚ :=
  avg fun a : Secret d 0 → Fr =>
    (A (worldOf E g cs a [])).chance E pf g (a .x) [] [] (worldOf E g cs a [])

/-! ## How the forger is used -/

/-- the oracle, played by the reduction: the value for new message number `i` is fixed in advance -/
def playOracle (i : Nat) (D0 : Digest) (tab : Table) (msg : Bytes)
    (f : Digest → Table → Player G1 G2) : Player G1 G2 :=
  match tab.lookup msg with
  | some D => f D tab
  | none => if tab.length = i then f D0 (tab ++ [(msg, D0)])
    else .toss (256 ^ 64) digests_pos fun D => f D (tab ++ [(msg, D)])

/-- The adversary without an oracle that plays the oracle itself. -/
def RoPlayer.plain (i : Nat) (D0 : Digest) : RoPlayer G1 G2 → Table → Player G1 G2
  | .toss m hm n, tab => .toss m hm fun c => (n c).plain i D0 tab
  | .hash msg n, tab => playOracle i D0 tab msg fun D tab' => (n D.bytes).plain i D0 tab'
  | .ask (.subKey t v) n, tab => .ask (.subKey t v) fun a => (n a).plain i D0 tab
  | .ask .point n, tab => .ask .point fun a => (n a).plain i D0 tab
  | .ask (.signature t v msg) n, tab => playOracle i D0 tab msg fun D tab' =>
      .ask (.signature t v D.field) fun a => (n a).plain i D0 tab'
  | .forge F, tab => playOracle i D0 tab F.msg fun _ _ => .forge F

/-- The algorithm that uses the forger `A`; it bets on a claim for node `w` and the message that is
hashed as number `i`. -/
def roReduction (E : Ext G1 G2 GT) (cs : UInt8) (d : Nat) (w : List Nat) (i : Nat)
    (A : World G1 G2 → RoPlayer G1 G2) (I : Instance G1 G2) (k : Coin d → Fr) : Guess GT :=
  .toss (256 ^ 64) digests_pos fun D0 : Digest =>
    reduction E cs d w D0.field (fun W => (A W).plain i D0 []) I k

end Pixel.Spec
