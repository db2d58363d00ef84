import Verif.Spec.Heal

/-!
# The game against a signer whose generator leaks

As in `Spec/Code.lean` the adversary directs the signer of the code, breaks in, and claims a signature
for a time before the first break-in.  Now it may also look at the PRNG state of the key, without this
being a break-in, and there are updates with a uniform seed of `n` bytes that it does not see, besides
those with a seed of its choice.

A look counts as a break-in only if the state is put to use: if a message has been or is signed with the
state that was looked at, or if the next update is made with a seed that the adversary chose.  An update
with an unseen seed repairs the generator.
-/

namespace Pixel.Spec

open Pixel Props

variable {G1 G2 GT : Type} [AddCommGroup G1] [AddCommGroup G2] [CommGroup GT]

/-- The state of the signer, with what is recorded for the check at the end. -/
structure LeakSigner (G1 G2 : Type) where
  sk : SecretKey G1 G2
  /-- times and messages of the signatures made -/
  signed : List (Nat × Bytes)
  /-- the times of the break-ins, and of looks that count as break-ins -/
  broken : List Nat
  /-- the adversary knows the PRNG state -/
  looked : Bool
  /-- a message was signed with the PRNG state -/
  used : Bool

/-- An adversary. -/
inductive LeakPlayer (G1 G2 : Type) where
  | toss (n : Nat) (hn : 0 < n) (next : Fin n → LeakPlayer G1 G2)
  | hash (msg : Bytes) (next : Bytes → LeakPlayer G1 G2)
  | point (next : G1 → LeakPlayer G1 G2)
  | sign (msg : Bytes) (next : Signature G1 G2 → LeakPlayer G1 G2)
  /-- an update with a seed of its choice -/
  | update (tar : Nat) (seed : Bytes) (next : LeakPlayer G1 G2)
  /-- an update with an unseen seed -/
  | refresh (tar : Nat) (next : LeakPlayer G1 G2)
  /-- look at the PRNG state -/
  | look (next : Prng → LeakPlayer G1 G2)
  | breakIn (next : SecretKey G1 G2 → LeakPlayer G1 G2)
  | forge (F : Claim G1 G2)

/-- there are fewer than `r - 1` co-signers -/
def LeakPlayer.Legal : LeakPlayer G1 G2 → Prop
  | .toss _ _ n => ∀ c, (n c).Legal
  | .hash _ n => ∀ b, (n b).Legal
  | .point n => ∀ p, (n p).Legal
  | .sign _ n => ∀ s, (n s).Legal
  | .update _ _ n => n.Legal
  | .refresh _ n => n.Legal
  | .look n => ∀ p, (n p).Legal
  | .breakIn n => ∀ sk, (n sk).Legal
  | .forge F => F.cosigners.length + 1 < rOrder

/-- at most `k` random points are used -/
def LeakPlayer.Points : LeakPlayer G1 G2 → Nat → Prop
  | .toss _ _ n, k => ∀ c, (n c).Points k
  | .hash _ n, k => ∀ b, (n b).Points k
  | .point n, k => 0 < k ∧ ∀ p, (n p).Points (k - 1)
  | .sign _ n, k => ∀ s, (n s).Points k
  | .update _ _ n, k => n.Points k
  | .refresh _ n, k => n.Points k
  | .look n, k => ∀ p, (n p).Points k
  | .breakIn n, k => ∀ sk, (n sk).Points k
  | .forge _, _ => True

/-- at most `k` messages are hashed: for the adversary, for a signature, or to check the claim -/
def LeakPlayer.Hashes : LeakPlayer G1 G2 → Nat → Prop
  | .toss _ _ n, k => ∀ c, (n c).Hashes k
  | .hash _ n, k => 0 < k ∧ ∀ b, (n b).Hashes (k - 1)
  | .point n, k => ∀ p, (n p).Hashes k
  | .sign _ n, k => 0 < k ∧ ∀ s, (n s).Hashes (k - 1)
  | .update _ _ n, k => n.Hashes k
  | .refresh _ n, k => n.Hashes k
  | .look n, k => ∀ p, (n p).Hashes k
  | .breakIn n, k => ∀ sk, (n sk).Hashes k
  | .forge _, k => 0 < k

/-- at most `k` updates -/
def LeakPlayer.Updates : LeakPlayer G1 G2 → Nat → Prop
  | .toss _ _ n, k => ∀ c, (n c).Updates k
  | .hash _ n, k => ∀ b, (n b).Updates k
  | .point n, k => ∀ p, (n p).Updates k
  | .sign _ n, k => ∀ s, (n s).Updates k
  | .update _ _ n, k => 0 < k ∧ n.Updates (k - 1)
  | .refresh _ n, k => 0 < k ∧ n.Updates (k - 1)
  | .look n, k => ∀ p, (n p).Updates k
  | .breakIn n, k => ∀ sk, (n sk).Updates k
  | .forge _, _ => True

/-- at most `k` updates with unseen seeds -/
def LeakPlayer.Refreshes : LeakPlayer G1 G2 → Nat → Prop
  | .toss _ _ n, k => ∀ c, (n c).Refreshes k
  | .hash _ n, k => ∀ b, (n b).Refreshes k
  | .point n, k => ∀ p, (n p).Refreshes k
  | .sign _ n, k => ∀ s, (n s).Refreshes k
  | .update _ _ n, k => n.Refreshes k
  | .refresh _ n, k => 0 < k ∧ n.Refreshes (k - 1)
  | .look n, k => ∀ p, (n p).Refreshes k
  | .breakIn n, k => ∀ sk, (n sk).Refreshes k
  | .forge _, _ => True

/-- at most `k` scalars are drawn, if an update draws at most `d` -/
def LeakPlayer.Scalars (d : Nat) : LeakPlayer G1 G2 → Nat → Prop
  | .toss _ _ n, k => ∀ c, (n c).Scalars d k
  | .hash _ n, k => ∀ b, (n b).Scalars d k
  | .point n, k => ∀ p, (n p).Scalars d k
  | .sign _ n, k => 0 < k ∧ ∀ s, (n s).Scalars d (k - 1)
  | .update _ _ n, k => d ≤ k ∧ n.Scalars d (k - d)
  | .refresh _ n, k => d ≤ k ∧ n.Scalars d (k - d)
  | .look n, k => ∀ p, (n p).Scalars d k
  | .breakIn n, k => ∀ sk, (n sk).Scalars d k
  | .forge _, _ => True

/-- the record when the present time has to count as one of a break-in, if `b` is true -/
def LeakSigner.spoiled (S : LeakSigner G1 G2) (b : Bool) : List Nat :=
  if b then S.broken ++ [S.sk.time] else S.broken

open Classical in
/-- The chance that the adversary wins.  If an update panics it has lost. -/
noncomputable def LeakPlayer.chance [DecidableEq GT] (E : Ext G1 G2 GT) (pf : Profile) (g : G1) (n : Nat) :
    LeakPlayer G1 G2 → LeakSigner G1 G2 → Table → World G1 G2 → ℚ
  | .toss _ _ nx, S, tab, W => avg fun c => (nx c).chance E pf g n S tab W
  | .hash msg nx, S, tab, W => oracle tab msg fun D tab' => (nx D.bytes).chance E pf g n S tab' W
  | .point nx, S, tab, W => avg fun r : Fr => (nx (r.val • g)).chance E pf g n S tab
      { W with answers := W.answers ++ [.point (r.val • g)] }
  | .sign msg nx, S, tab, W => oracle tab msg fun D tab' =>
      match signHashed E.sha512 pf W.pp S.sk msg D.field with
      | .ok s => (nx s).chance E pf g n { S with signed := S.signed ++ [(S.sk.time, msg)]
                                                 broken := S.spoiled S.looked
                                                 used := true } tab' W
      | _ => 0
  | .update tar seed nx, S, tab, W =>
      match SecretKey.update E.sha512 pf W.pp tar seed S.sk with
      | (.ok (), sk) => nx.chance E pf g n { S with sk := sk
                                                    broken := S.spoiled S.looked
                                                    used := false } tab W
      | (.err _, sk) => nx.chance E pf g n { S with sk := sk } tab W
      | (.panic _, _) => 0
  | .refresh tar nx, S, tab, W => avg fun s : Seed n =>
      match SecretKey.update E.sha512 pf W.pp tar s.bytes S.sk with
      | (.ok (), sk) => nx.chance E pf g n { S with sk := sk
                                                    looked := false
                                                    used := false } tab W
      | (.err _, sk) => nx.chance E pf g n { S with sk := sk } tab W
      | (.panic _, _) => 0
  | .look nx, S, tab, W => (nx S.sk.prng).chance E pf g n { S with broken := S.spoiled S.used
                                                                   looked := true } tab W
  | .breakIn nx, S, tab, W => (nx S.sk).chance E pf g n { S with broken := S.spoiled true } tab W
  | .forge F, S, tab, W => oracle tab F.msg fun D _ =>
      if F.Accepted { E with sha512 := fun _ => D.bytes } pf W ∧ F.Counts ⟨S.sk, S.signed, S.broken⟩
        then 1 else 0

/-- The chance that the adversary wins, over the parameters and the state of the PRNG at key
generation as well. -/
noncomputable def leakForgeChance [DecidableEq GT] (E : Ext G1 G2 GT) (pf : Profile) (g : G1)
    (d : Nat) (cs : UInt8) (n : Nat) (A : World G1 G2 → LeakPlayer G1 G2) : ℚ :=
  avg fun a : Secret d 0 → Fr => avg fun K : Digest =>
    match Prng.sampleThenUpdate E.sha512 (ascii "key initialization") ⟨K.bytes⟩ with
    | (.ok x, p) =>
      match SecretKey.init E.sha512 (worldOf E g cs (Function.update a .x x) []).pp
        (mulFr x (worldOf E g cs (Function.update a .x x) []).pp.h) p with
      | .ok sk => (A (worldOf E g cs (Function.update a .x x) [])).chance E pf g n
          ⟨sk, [], [], false, false⟩ [] (worldOf E g cs (Function.update a .x x) [])
      | _ => 0
    | _ => 0

/-! ## How the adversary is used against HMAC and HKDF-extract -/

/-- the adversary gives up if its claim would not be for time `t0` -/
def LeakPlayer.only (t0 : Nat) : LeakPlayer G1 G2 → LeakPlayer G1 G2
  | .toss m hm n => .toss m hm fun c => (n c).only t0
  | .hash msg n => .hash msg fun b => (n b).only t0
  | .point n => .point fun p => (n p).only t0
  | .sign msg n => .sign msg fun s => (n s).only t0
  | .update tar seed n => .update tar seed (n.only t0)
  | .refresh tar n => .refresh tar (n.only t0)
  | .look n => .look fun p => (n p).only t0
  | .breakIn n => .breakIn fun sk => (n sk).only t0
  | .forge F => if F.time = t0 then .forge F else .forge .none

/-- the oracle for messages, by tosses -/
def HealPlayer.table (tab : Table) (msg : Bytes) (f : Digest → Table → HealPlayer) : HealPlayer :=
  match tab.lookup msg with
  | some D => f D tab
  | none => .toss (256 ^ 64) digests_pos fun D => f D (tab ++ [(msg, D)])

/-- `n` draws for an update -/
def HealPlayer.draws : Nat → (List Fr → HealPlayer) → HealPlayer
  | 0, k => k []
  | n + 1, k => .draw DOM_SEP_SK_UPDATE fun r => HealPlayer.draws n fun l => k (r :: l)

/-- The game for a bet on `t0`, played with the PRNG; `looked` and `used` are as in the record of the
signer. -/
noncomputable def LeakPlayer.play [DecidableEq GT] (E : Ext G1 G2 GT) (pf : Profile) (g : G1) (n : Nat)
    (t0 : Nat) (x : Fr) :
    LeakPlayer G1 G2 → Known0 → (looked used : Bool) → Table → World G1 G2 → HealPlayer
  | .toss m hm nx, S, lo, us, tab, W => .toss m hm fun c => (nx c).play E pf g n t0 x S lo us tab W
  | .hash msg nx, S, lo, us, tab, W => .table tab msg fun D tab' =>
      (nx D.bytes).play E pf g n t0 x S lo us tab' W
  | .point nx, S, lo, us, tab, W => .toss rOrder (Nat.pos_of_ne_zero (NeZero.ne rOrder)) fun c =>
      (nx ((c.val : Fr).val • g)).play E pf g n t0 x S lo us tab
        { W with answers := W.answers ++ [.point ((c.val : Fr).val • g)] }
  | .sign msg nx, S, lo, _, tab, W =>
      if lo then .stop 0
      else .table tab msg fun D tab' => .sample (signInfo msg S.time) fun r =>
        (nx (signatureOf W.pp x S.time D.field (S.rho.headD 0 + r))).play E pf g n t0 x
          { S with signed := S.signed ++ [(S.time, msg)] } lo true tab' W
  | .update tar seed nx, S, lo, us, tab, W =>
      if S.time < tar ∧ tar ≤ 2 ^ W.pp.depth - 1 then
        if lo then .stop 0
        else .mix seed (DOM_SEP_SK_RERANDOMIZE_INFO ++ timeBytes S.time)
          (.draws (drawsNeeded W.pp.depth S.time tar) fun rs =>
            if tar ≤ t0 then nx.play E pf g n t0 x
              { S with time := tar, rho := stepExponents W.pp.depth S.time tar S.rho rs }
              lo false tab W
            else .leak fun p => .stop ((nx.only t0).chance E pf g n
              { sk := Known0.key W.pp x
                  { S with time := tar, rho := stepExponents W.pp.depth S.time tar S.rho rs } p
                signed := S.signed, broken := [], looked := lo, used := false } tab W))
      else nx.play E pf g n t0 x S lo us tab W
  | .refresh tar nx, S, lo, us, tab, W =>
      if S.time < tar ∧ tar ≤ 2 ^ W.pp.depth - 1 then
        .refresh (DOM_SEP_SK_RERANDOMIZE_INFO ++ timeBytes S.time)
          (.draws (drawsNeeded W.pp.depth S.time tar) fun rs =>
            if tar ≤ t0 then nx.play E pf g n t0 x
              { S with time := tar, rho := stepExponents W.pp.depth S.time tar S.rho rs }
              false false tab W
            else .leak fun p => .stop ((nx.only t0).chance E pf g n
              { sk := Known0.key W.pp x
                  { S with time := tar, rho := stepExponents W.pp.depth S.time tar S.rho rs } p
                signed := S.signed, broken := [], looked := false, used := false } tab W))
      else nx.play E pf g n t0 x S lo us tab W
  | .look nx, S, _, us, tab, W =>
      if us then .stop 0 else .leak fun p => (nx p).play E pf g n t0 x S true us tab W
  | .breakIn _, _, _, _, _, _ => .stop 0
  | .forge F, S, lo, us, tab, W => .stop (((LeakPlayer.forge F).only t0).chance E pf g n
      { sk := Known0.key W.pp x S ⟨[]⟩, signed := S.signed, broken := [], looked := lo, used := us }
      tab W)

/-- The whole game for a bet on `t0`, played with the PRNG: parameters, key generation, and what
follows. -/
noncomputable def leakGame [DecidableEq GT] (E : Ext G1 G2 GT) (pf : Profile) (g : G1) (d : Nat)
    (cs : UInt8) (n : Nat) (A : World G1 G2 → LeakPlayer G1 G2) (t0 : Nat) : HealPlayer :=
  .toss (Fintype.card (Secret d 0 → Fr)) Fintype.card_pos fun c =>
    .draw (ascii "key initialization") fun x => .draw (DOM_SEP_SK_INIT ++ [0, 0, 0, 1]) fun r =>
      (A (worldOf E g cs (Function.update ((Fintype.equivFin _).symm c) .x x) [])).play E pf g n t0 x
        { time := 1, rho := [r], signed := [] } false false []
        (worldOf E g cs (Function.update ((Fintype.equivFin _).symm c) .x x) [])

/-! ## How the adversary is used in the game without leaks

For a bet on `t0`: up to `t0` the first look since the last unseen seed is answered by a toss.  When the
signer has passed `t0`, there is a break-in, and from then on looks are answered from the copy of the key. -/

/-- with a copy of the key -/
def LeakPlayer.copied (sha : Bytes → Bytes) (pf : Profile) (n : Nat) (pp : PubParam G1 G2) :
    LeakPlayer G1 G2 → SecretKey G1 G2 → CodePlayer G1 G2
  | .toss m hm nx, sk => .toss m hm fun c => (nx c).copied sha pf n pp sk
  | .hash msg nx, sk => .hash msg fun b => (nx b).copied sha pf n pp sk
  | .point nx, sk => .point fun p => (nx p).copied sha pf n pp sk
  | .sign msg nx, sk => .sign msg fun s => (nx s).copied sha pf n pp sk
  | .update tar seed nx, sk => .update tar seed
      (nx.copied sha pf n pp (SecretKey.update sha pf pp tar seed sk).2)
  | .refresh tar nx, sk => .toss (256 ^ n) (Nat.pow_pos (by decide)) fun s =>
      .update tar (Seed.bytes s)
        (nx.copied sha pf n pp (SecretKey.update sha pf pp tar (Seed.bytes s) sk).2)
  | .look nx, sk => (nx sk.prng).copied sha pf n pp sk
  | .breakIn nx, sk => (nx sk).copied sha pf n pp sk
  | .forge F, _ => .forge F

/-- up to time `t0`; `seen` is the PRNG state, if the adversary has looked at it -/
def LeakPlayer.shield (sha : Bytes → Bytes) (pf : Profile) (n : Nat) (pp : PubParam G1 G2) (t0 : Nat) :
    LeakPlayer G1 G2 → (time : Nat) → (seen : Option Prng) → (used : Bool) → CodePlayer G1 G2
  | .toss m hm nx, t, se, us => .toss m hm fun c => (nx c).shield sha pf n pp t0 t se us
  | .hash msg nx, t, se, us => .hash msg fun b => (nx b).shield sha pf n pp t0 t se us
  | .point nx, t, se, us => .point fun p => (nx p).shield sha pf n pp t0 t se us
  | .sign msg nx, t, se, _ =>
      if se.isSome then .forge .none
      else .sign msg fun s => (nx s).shield sha pf n pp t0 t se true
  | .update tar seed nx, t, se, us =>
      if t < tar ∧ tar ≤ 2 ^ pp.depth - 1 then
        if se.isSome then .forge .none
        else .update tar seed (if tar ≤ t0 then nx.shield sha pf n pp t0 tar se false
          else .breakIn fun sk => nx.copied sha pf n pp sk)
      else .update tar seed (nx.shield sha pf n pp t0 t se us)
  | .refresh tar nx, t, se, us =>
      if t < tar ∧ tar ≤ 2 ^ pp.depth - 1 then
        .update tar [] (if tar ≤ t0 then nx.shield sha pf n pp t0 tar none false
          else .breakIn fun sk => nx.copied sha pf n pp sk)
      else .update tar [] (nx.shield sha pf n pp t0 t se us)
  | .look nx, t, se, us =>
      if us then .forge .none
      else match se with
        | some p => (nx p).shield sha pf n pp t0 t (some p) us
        | none => .toss (256 ^ 64) digests_pos fun K =>
            (nx ⟨Digest.bytes K⟩).shield sha pf n pp t0 t (some ⟨Digest.bytes K⟩) us
  | .breakIn _, _, _, _ => .forge .none
  | .forge F, _, _, _ => .forge F

/-- The adversary of the game of `Spec/Code.lean` that bets on time `t0`. -/
def leakShield (sha : Bytes → Bytes) (pf : Profile) (n t0 : Nat) (A : World G1 G2 → LeakPlayer G1 G2)
    (W : World G1 G2) : CodePlayer G1 G2 :=
  (A W).shield sha pf n W.pp t0 1 none false

end Pixel.Spec
