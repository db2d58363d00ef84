import Verif.Spec.Api
import Verif.Spec.Prf

/-!
# The game against the signer of the code

As in `Spec/Api.lean` the adversary directs a signer, breaks in, and claims a signature for a time
before the first break-in.  Now the signer is the code: key generation, signing and update are those
of the model, with the PRNG.  A break-in shows the whole secret key with the PRNG state, and the
adversary chooses the seeds of the updates.  What stays ideal: the PRNG of key generation starts from a
uniform state, the hash of messages is a random oracle (`Spec/Oracle.lean`), and hash-to-curve gives
random points (`Spec/Game.lean`).
-/

namespace Pixel.Spec

open Pixel Props

variable {G1 G2 GT : Type} [AddCommGroup G1] [AddCommGroup G2] [CommGroup GT]

/-- The state of the signer, with what is recorded for the check at the end. -/
structure CodeSigner (G1 G2 : Type) where
  sk : SecretKey G1 G2
  /-- times and messages of the signatures made -/
  signed : List (Nat × Bytes)
  /-- the times of the break-ins -/
  broken : List Nat

/-- An adversary. -/
inductive CodePlayer (G1 G2 : Type) where
  | toss (n : Nat) (hn : 0 < n) (next : Fin n → CodePlayer G1 G2)
  | hash (msg : Bytes) (next : Bytes → CodePlayer G1 G2)
  | point (next : G1 → CodePlayer G1 G2)
  | sign (msg : Bytes) (next : Signature G1 G2 → CodePlayer G1 G2)
  | update (tar : Nat) (seed : Bytes) (next : CodePlayer G1 G2)
  | breakIn (next : SecretKey G1 G2 → CodePlayer G1 G2)
  | forge (F : Claim G1 G2)

/-- there are fewer than `r - 1` co-signers -/
def CodePlayer.Legal : CodePlayer G1 G2 → Prop
  | .toss _ _ n => ∀ c, (n c).Legal
  | .hash _ n => ∀ b, (n b).Legal
  | .point n => ∀ p, (n p).Legal
  | .sign _ n => ∀ s, (n s).Legal
  | .update _ _ n => n.Legal
  | .breakIn n => ∀ sk, (n sk).Legal
  | .forge F => F.cosigners.length + 1 < rOrder

/-- at most `k` random points are used -/
def CodePlayer.Points : CodePlayer G1 G2 → Nat → Prop
  | .toss _ _ n, k => ∀ c, (n c).Points k
  | .hash _ n, k => ∀ b, (n b).Points k
  | .point n, k => 0 < k ∧ ∀ p, (n p).Points (k - 1)
  | .sign _ n, k => ∀ s, (n s).Points k
  | .update _ _ n, k => n.Points k
  | .breakIn n, k => ∀ sk, (n sk).Points k
  | .forge _, _ => True

/-- at most `k` messages are hashed: for the adversary, for a signature, or to check the claim -/
def CodePlayer.Hashes : CodePlayer G1 G2 → Nat → Prop
  | .toss _ _ n, k => ∀ c, (n c).Hashes k
  | .hash _ n, k => 0 < k ∧ ∀ b, (n b).Hashes (k - 1)
  | .point n, k => ∀ p, (n p).Hashes k
  | .sign _ n, k => 0 < k ∧ ∀ s, (n s).Hashes (k - 1)
  | .update _ _ n, k => n.Hashes k
  | .breakIn n, k => ∀ sk, (n sk).Hashes k
  | .forge _, k => 0 < k

/-- at most `k` updates -/
def CodePlayer.Updates : CodePlayer G1 G2 → Nat → Prop
  | .toss _ _ n, k => ∀ c, (n c).Updates k
  | .hash _ n, k => ∀ b, (n b).Updates k
  | .point n, k => ∀ p, (n p).Updates k
  | .sign _ n, k => ∀ s, (n s).Updates k
  | .update _ _ n, k => 0 < k ∧ n.Updates (k - 1)
  | .breakIn n, k => ∀ sk, (n sk).Updates k
  | .forge _, _ => True

/-- The claim counts: its time is before every break-in, and the signer did not sign its message at
its time. -/
def Claim.Counts (S : CodeSigner G1 G2) (F : Claim G1 G2) : Prop :=
  (∀ t ∈ S.broken, F.time < t) ∧ (F.time, F.msg) ∉ S.signed

/-- Signing at the present time as the code does, with `M` for the hash of the message: the scalar is
drawn from the PRNG of the key. -/
def signHashed (sha : Bytes → Bytes) (pf : Profile) (pp : PubParam G1 G2) (sk : SecretKey G1 G2)
    (msg : Bytes) (M : Fr) : Res (Signature G1 G2) := do
  let (r, _) ← (Prng.sample sha (signInfo msg sk.time)).exec sk.prng
  Signature.signFr pf sk sk.time pp M r

open Classical in
/-- The chance that the adversary wins.  If an update panics (it does when its draws lead back to the
old PRNG state) the adversary has lost. -/
noncomputable def CodePlayer.chance [DecidableEq GT] (E : Ext G1 G2 GT) (pf : Profile) (g : G1) :
    CodePlayer G1 G2 → CodeSigner G1 G2 → Table → World G1 G2 → ℚ
  | .toss _ _ n, S, tab, W => avg fun c => (n c).chance E pf g S tab W
  | .hash msg n, S, tab, W => oracle tab msg fun D tab' => (n D.bytes).chance E pf g S tab' W
  | .point n, S, tab, W => avg fun r : Fr => (n (r.val • g)).chance E pf g S tab
      { W with answers := W.answers ++ [.point (r.val • g)] }
  | .sign msg n, S, tab, W => oracle tab msg fun D tab' =>
      match signHashed E.sha512 pf W.pp S.sk msg D.field with
      | .ok s => (n s).chance E pf g { S with signed := S.signed ++ [(S.sk.time, msg)] } tab' W
      | _ => 0
  | .update tar seed n, S, tab, W =>
      match SecretKey.update E.sha512 pf W.pp tar seed S.sk with
      | (.ok (), sk) => n.chance E pf g { S with sk := sk } tab W
      | (.err _, sk) => n.chance E pf g { S with sk := sk } tab W
      | (.panic _, _) => 0
  | .breakIn n, S, tab, W =>
      (n S.sk).chance E pf g { S with broken := S.broken ++ [S.sk.time] } tab W
  | .forge F, S, tab, W => oracle tab F.msg fun D _ =>
      if F.Accepted { E with sha512 := fun _ => D.bytes } pf W ∧ F.Counts S then 1 else 0

/-- The chance that the adversary wins, over the parameters and the state of the PRNG at key
generation as well. -/
noncomputable def codeForgeChance [DecidableEq GT] (E : Ext G1 G2 GT) (pf : Profile) (g : G1)
    (d : Nat) (cs : UInt8) (A : World G1 G2 → CodePlayer G1 G2) : ℚ :=
  avg fun a : Secret d 0 → Fr => avg fun K : Digest =>
    match Prng.sampleThenUpdate E.sha512 (ascii "key initialization") ⟨K.bytes⟩ with
    | (.ok x, p) =>
      match SecretKey.init E.sha512 (worldOf E g cs (Function.update a .x x) []).pp
        (mulFr x (worldOf E g cs (Function.update a .x x) []).pp.h) p with
      | .ok sk => (A (worldOf E g cs (Function.update a .x x) [])).chance E pf g ⟨sk, [], []⟩ []
          (worldOf E g cs (Function.update a .x x) [])
      | _ => 0
    | _ => 0

/-! ## How the adversary is used against HMAC

For a bet on time `t0` the game is played by someone who knows all secrets but the PRNG, which is used
as in `Spec/Prf.lean` up to time `t0`.  When the signer passes `t0`, the state is revealed, and the
rest of the game is the one above. -/

/-- the adversary gives up if its claim would not be for time `t0` -/
def CodePlayer.only (t0 : Nat) : CodePlayer G1 G2 → CodePlayer G1 G2
  | .toss m hm n => .toss m hm fun c => (n c).only t0
  | .hash msg n => .hash msg fun b => (n b).only t0
  | .point n => .point fun p => (n p).only t0
  | .sign msg n => .sign msg fun s => (n s).only t0
  | .update tar seed n => .update tar seed (n.only t0)
  | .breakIn n => .breakIn fun sk => (n sk).only t0
  | .forge F => if F.time = t0 then .forge F else .forge .none

/-- the oracle for messages, by tosses -/
def PrngPlayer.table (tab : Table) (msg : Bytes) (f : Digest → Table → PrngPlayer) : PrngPlayer :=
  match tab.lookup msg with
  | some D => f D tab
  | none => .toss (256 ^ 64) digests_pos fun D => f D (tab ++ [(msg, D)])

/-- `n` draws for an update -/
def PrngPlayer.draws : Nat → (List Fr → PrngPlayer) → PrngPlayer
  | 0, k => k []
  | n + 1, k => .draw DOM_SEP_SK_UPDATE fun r => PrngPlayer.draws n fun l => k (r :: l)

/-- What is known about the signer up to time `t0`. -/
structure Known0 where
  time : Nat
  /-- the exponents of the sub keys -/
  rho : List Fr
  signed : List (Nat × Bytes)

/-- the secret key with this PRNG -/
def Known0.key (pp : PubParam G1 G2) (x : Fr) (S : Known0) (p : Prng) : SecretKey G1 G2 where
  ciphersuite := pp.ciphersuite
  time := S.time
  ssk := keysOf pp x S.time S.rho
  prng := p

/-- The game for a bet on `t0`, played with the PRNG. -/
noncomputable def CodePlayer.play [DecidableEq GT] (E : Ext G1 G2 GT) (pf : Profile) (g : G1)
    (t0 : Nat) (x : Fr) : CodePlayer G1 G2 → Known0 → Table → World G1 G2 → PrngPlayer
  | .toss m hm n, S, tab, W => .toss m hm fun c => (n c).play E pf g t0 x S tab W
  | .hash msg n, S, tab, W => .table tab msg fun D tab' => (n D.bytes).play E pf g t0 x S tab' W
  | .point n, S, tab, W => .toss rOrder (Nat.pos_of_ne_zero (NeZero.ne rOrder)) fun c =>
      (n ((c.val : Fr).val • g)).play E pf g t0 x S tab
        { W with answers := W.answers ++ [.point ((c.val : Fr).val • g)] }
  | .sign msg n, S, tab, W => .table tab msg fun D tab' => .sample (signInfo msg S.time) fun r =>
      (n (signatureOf W.pp x S.time D.field (S.rho.headD 0 + r))).play E pf g t0 x
        { S with signed := S.signed ++ [(S.time, msg)] } tab' W
  | .update tar seed n, S, tab, W =>
      if S.time < tar ∧ tar ≤ 2 ^ W.pp.depth - 1 then
        .mix seed (DOM_SEP_SK_RERANDOMIZE_INFO ++ timeBytes S.time)
          (.draws (drawsNeeded W.pp.depth S.time tar) fun rs =>
            if tar ≤ t0 then n.play E pf g t0 x
              { S with time := tar, rho := stepExponents W.pp.depth S.time tar S.rho rs } tab W
            else .reveal fun p => (n.only t0).chance E pf g
              { sk := Known0.key W.pp x
                  { S with time := tar, rho := stepExponents W.pp.depth S.time tar S.rho rs } p
                signed := S.signed, broken := [] } tab W)
      else n.play E pf g t0 x S tab W
  | .breakIn _, _, _, _ => .stop 0
  | .forge F, S, tab, W => .stop (((CodePlayer.forge F).only t0).chance E pf g
      { sk := Known0.key W.pp x S ⟨[]⟩, signed := S.signed, broken := [] } tab W)

/-- The whole game for a bet on `t0`, played with the PRNG: parameters, key generation, and what
follows. -/
noncomputable def codeGame [DecidableEq GT] (E : Ext G1 G2 GT) (pf : Profile) (g : G1) (d : Nat)
    (cs : UInt8) (A : World G1 G2 → CodePlayer G1 G2) (t0 : Nat) : PrngPlayer :=
  .toss (Fintype.card (Secret d 0 → Fr)) Fintype.card_pos fun c =>
    .draw (ascii "key initialization") fun x => .draw (DOM_SEP_SK_INIT ++ [0, 0, 0, 1]) fun r =>
      (A (worldOf E g cs (Function.update ((Fintype.equivFin _).symm c) .x x) [])).play E pf g t0 x
        { time := 1, rho := [r], signed := [] } []
        (worldOf E g cs (Function.update ((Fintype.equivFin _).symm c) .x x) [])

/-! ## How the adversary is used against the signer with uniform scalars -/

/-- After time `t0`: the signer is run by the functions of the model, with a known key. -/
def CodePlayer.run (sha : Bytes → Bytes) (pf : Profile) (pp : PubParam G1 G2) (t0 : Nat) :
    CodePlayer G1 G2 → SecretKey G1 G2 → ApiPlayer G1 G2
  | .toss m hm n, sk => .toss m hm fun c => (n c).run sha pf pp t0 sk
  | .hash msg n, sk => .hash msg fun b => (n b).run sha pf pp t0 sk
  | .point n, sk => .point fun p => (n p).run sha pf pp t0 sk
  | .sign msg n, sk => .hash msg fun b => match signHashed sha pf pp sk msg (natOfBytes b) with
      | .ok s => (n s).run sha pf pp t0 sk
      | _ => .forge .none
  | .update tar seed n, sk => match SecretKey.update sha pf pp tar seed sk with
      | (.ok (), sk') => n.run sha pf pp t0 sk'
      | (.err _, sk') => n.run sha pf pp t0 sk'
      | (.panic _, _) => .forge .none
  | .breakIn n, sk => (n sk).run sha pf pp t0 sk
  | .forge F, _ => if F.time = t0 then .forge F else .forge .none

/-- Up to time `t0`: signatures are asked for, once for each message at each time.  When `t0` is
passed, there is a break-in, and the PRNG state is a toss. -/
def CodePlayer.lift (sha : Bytes → Bytes) (pf : Profile) (pp : PubParam G1 G2) (t0 : Nat) :
    CodePlayer G1 G2 → Nat → List (Bytes × Signature G1 G2) → ApiPlayer G1 G2
  | .toss m hm n, t, memo => .toss m hm fun c => (n c).lift sha pf pp t0 t memo
  | .hash msg n, t, memo => .hash msg fun b => (n b).lift sha pf pp t0 t memo
  | .point n, t, memo => .point fun p => (n p).lift sha pf pp t0 t memo
  | .sign msg n, t, memo => match memo.lookup msg with
      | some s => (n s).lift sha pf pp t0 t memo
      | none => .sign msg fun s => (n s).lift sha pf pp t0 t (memo ++ [(msg, s)])
  | .update tar _ n, t, memo =>
      if t < tar ∧ tar ≤ 2 ^ pp.depth - 1 then
        .update tar (if tar ≤ t0 then n.lift sha pf pp t0 tar []
          else .breakIn fun keys _ => .toss (256 ^ 64) digests_pos fun K =>
            n.run sha pf pp t0
              { ciphersuite := pp.ciphersuite, time := tar, ssk := keys, prng := ⟨Digest.bytes K⟩ })
      else n.lift sha pf pp t0 t memo
  | .breakIn _, _, _ => .forge .none
  | .forge F, _, _ => if F.time = t0 then .forge F else .forge .none

/-- The adversary of the game of `Spec/Api.lean` that bets on time `t0`. -/
def codeLift (sha : Bytes → Bytes) (pf : Profile) (t0 : Nat) (A : World G1 G2 → CodePlayer G1 G2)
    (W : World G1 G2) : ApiPlayer G1 G2 :=
  (A W).lift sha pf W.pp t0 1 []

/-- at most `k` scalars are drawn up to time `t0`, if an update draws at most `d` -/
def CodePlayer.Scalars (d : Nat) : CodePlayer G1 G2 → Nat → Prop
  | .toss _ _ n, k => ∀ c, (n c).Scalars d k
  | .hash _ n, k => ∀ b, (n b).Scalars d k
  | .point n, k => ∀ p, (n p).Scalars d k
  | .sign _ n, k => 0 < k ∧ ∀ s, (n s).Scalars d (k - 1)
  | .update _ _ n, k => d ≤ k ∧ n.Scalars d (k - d)
  | .breakIn n, k => ∀ sk, (n sk).Scalars d k
  | .forge _, _ => True

end Pixel.Spec
