import Verif.Spec.Signer

/-!
# The game against a signer

The adversary does not ask for sub keys any more.  It directs a signer: it chooses the messages that
are signed at the present time and when, and to which time, the key is updated; it may break in, any
number of times, and copies the secret key.  In the end it claims a signature for a time before the
first break-in.

The signer is the one of `Spec/Signer.lean`, with uniform scalars for the pseudo-random ones.  What a
break-in shows, besides the sub keys, is what the copied PRNG state would allow to compute: the
scalars of the signatures made since the last update (signing does not change the state), and once the
adversary has broken in, all scalars drawn afterwards.  (The state itself would be a uniform string that
occurs nowhere else; the adversary can throw dice for it.  The code signs the same message at the same
time with the same scalar; the signer of the game takes a new one, so it shows no less.)
-/

namespace Pixel.Spec

open Pixel Props

variable {G1 G2 GT : Type} [AddCommGroup G1] [AddCommGroup G2] [CommGroup GT]

/-- The state of the signer, with what is recorded for the check at the end. -/
structure Signer where
  /-- the present time -/
  time : Nat
  /-- the exponents of the sub keys -/
  rho : List Fr
  /-- the scalars that a break-in would show -/
  shown : List Fr
  /-- times and messages of the signatures made -/
  signed : List (Nat × Bytes)
  /-- the times of the break-ins -/
  broken : List Nat

/-- a new signer -/
def Signer.new (r : Fr) : Signer :=
  { time := 1, rho := [r], shown := [], signed := [], broken := [] }

/-- after an update with scalars `rs` -/
def Signer.updated (d tar : Nat) (rs : List Fr) (S : Signer) : Signer :=
  { S with time := tar
           rho := stepExponents d S.time tar S.rho rs
           shown := if S.broken = [] then [] else S.shown ++ rs }

/-- after signing `msg` with the scalar `r` -/
def Signer.after (msg : Bytes) (r : Fr) (S : Signer) : Signer :=
  { S with shown := S.shown ++ [r], signed := S.signed ++ [(S.time, msg)] }

/-- after a break-in -/
def Signer.caught (S : Signer) : Signer := { S with broken := S.broken ++ [S.time] }

/-- An adversary. -/
inductive ApiPlayer (G1 G2 : Type) where
  | toss (n : Nat) (hn : 0 < n) (next : Fin n → ApiPlayer G1 G2)
  | hash (msg : Bytes) (next : Bytes → ApiPlayer G1 G2)
  | point (next : G1 → ApiPlayer G1 G2)
  | sign (msg : Bytes) (next : Signature G1 G2 → ApiPlayer G1 G2)
  | update (tar : Nat) (next : ApiPlayer G1 G2)
  | breakIn (next : List (SubSecretKey G1 G2) → List Fr → ApiPlayer G1 G2)
  | forge (F : Claim G1 G2)

/-- there are fewer than `r - 1` co-signers -/
def ApiPlayer.Legal : ApiPlayer G1 G2 → Prop
  | .toss _ _ n => ∀ c, (n c).Legal
  | .hash _ n => ∀ b, (n b).Legal
  | .point n => ∀ p, (n p).Legal
  | .sign _ n => ∀ s, (n s).Legal
  | .update _ n => n.Legal
  | .breakIn n => ∀ l s, (n l s).Legal
  | .forge F => F.cosigners.length + 1 < rOrder

/-- at most `k` random points are used -/
def ApiPlayer.Points : ApiPlayer G1 G2 → Nat → Prop
  | .toss _ _ n, k => ∀ c, (n c).Points k
  | .hash _ n, k => ∀ b, (n b).Points k
  | .point n, k => 0 < k ∧ ∀ p, (n p).Points (k - 1)
  | .sign _ n, k => ∀ s, (n s).Points k
  | .update _ n, k => n.Points k
  | .breakIn n, k => ∀ l s, (n l s).Points k
  | .forge _, _ => True

/-- at most `k` messages are hashed: for the adversary, for a signature, or to check the claim -/
def ApiPlayer.Hashes : ApiPlayer G1 G2 → Nat → Prop
  | .toss _ _ n, k => ∀ c, (n c).Hashes k
  | .hash _ n, k => 0 < k ∧ ∀ b, (n b).Hashes (k - 1)
  | .point n, k => ∀ p, (n p).Hashes k
  | .sign _ n, k => 0 < k ∧ ∀ s, (n s).Hashes (k - 1)
  | .update _ n, k => n.Hashes k
  | .breakIn n, k => ∀ l s, (n l s).Hashes k
  | .forge _, k => 0 < k

/-- The claim counts: its time is before every break-in, and the signer did not sign its message at
its time. -/
def Claim.Unsigned (S : Signer) (F : Claim G1 G2) : Prop :=
  (∀ t ∈ S.broken, F.time < t) ∧ (F.time, F.msg) ∉ S.signed

open Classical in
/-- The chance that the adversary wins; `tab` holds the hashed messages, the answers in `W` are the
points handed out.  An update to a time that is not later, or beyond the last, does nothing. -/
noncomputable def ApiPlayer.chance [DecidableEq GT] (E : Ext G1 G2 GT) (pf : Profile) (g : G1)
    (x : Fr) : ApiPlayer G1 G2 → Signer → Table → World G1 G2 → ℚ
  | .toss _ _ n, S, tab, W => avg fun c => (n c).chance E pf g x S tab W
  | .hash msg n, S, tab, W => oracle tab msg fun D tab' => (n D.bytes).chance E pf g x S tab' W
  | .point n, S, tab, W => avg fun r : Fr => (n (r.val • g)).chance E pf g x S tab
      { W with answers := W.answers ++ [.point (r.val • g)] }
  | .sign msg n, S, tab, W => oracle tab msg fun D tab' => avg fun r : Fr =>
      (n (signatureOf W.pp x S.time D.field (S.rho.headD 0 + r))).chance E pf g x (S.after msg r)
        tab' W
  | .update tar n, S, tab, W =>
      if S.time < tar ∧ tar ≤ 2 ^ W.pp.depth - 1 then
        avgs (drawsNeeded W.pp.depth S.time tar) fun rs =>
          n.chance E pf g x (S.updated W.pp.depth tar rs) tab W
      else n.chance E pf g x S tab W
  | .breakIn n, S, tab, W =>
      (n (keysOf W.pp x S.time S.rho) S.shown).chance E pf g x S.caught tab W
  | .forge F, S, tab, W => oracle tab F.msg fun D _ =>
      if F.Accepted { E with sha512 := fun _ => D.bytes } pf W ∧ F.Unsigned S then 1 else 0

/-- The chance that the adversary wins, over the parameters and the key of the signer as well. -/
noncomputable def apiForgeChance [DecidableEq GT] (E : Ext G1 G2 GT) (pf : Profile) (g : G1)
    (d : Nat) (cs : UInt8) (A : World G1 G2 → ApiPlayer G1 G2) : ℚ :=
  avg fun a : Secret d 0 → Fr => avg fun r : Fr =>
    (A (worldOf E g cs a [])).chance E pf g (a .x) (.new r) [] (worldOf E g cs a [])

/-! ## How the adversary is used

For a bet on time `t0`: as long as the signer's time is not after `t0`, signatures are asked for.  When
the signer passes `t0`, the sub keys of its secret key are asked for - none of them is above the node
of `t0` - and from then on the signer is run with that key, by the functions of the model. -/

/-- What is kept while the adversary runs. -/
structure Copy (G1 G2 : Type) where
  time : Nat
  /-- the sub keys, once time `t0` is passed -/
  keys : List (SubSecretKey G1 G2)
  shown : List Fr
  broken : Bool
  /-- the number of queries made -/
  asked : Nat
  /-- which of them gave the points -/
  points : List Nat

/-- ask for the sub keys of the times `ss` -/
def RoPlayer.fetch (d : Nat) : List Nat → (List (SubSecretKey G1 G2) → RoPlayer G1 G2) →
    RoPlayer G1 G2
  | [], k => k []
  | s :: ss, k => .ask (.subKey s (path d s)) fun a => match a with
    | .subKey key => RoPlayer.fetch d ss fun l => k (key :: l)
    | _ => RoPlayer.fetch d ss k

/-- throw dice for `n` scalars -/
def RoPlayer.scalars : Nat → (List Fr → RoPlayer G1 G2) → RoPlayer G1 G2
  | 0, k => k []
  | n + 1, k => .toss rOrder (Nat.pos_of_ne_zero (NeZero.ne rOrder)) fun c =>
      RoPlayer.scalars n fun l => k ((c.val : Fr) :: l)

/-- a claim that cannot win -/
def Claim.none : Claim G1 G2 := { time := 0, msg := [], sigma1 := 0, sigma2 := 0, cosigners := [] }

/-- The sub key for time `s` by delegation. -/
def delegatedTo (pf : Profile) (pp : PubParam G1 G2) (key : SubSecretKey G1 G2) (s : Nat) :
    SubSecretKey G1 G2 := (SubSecretKey.delegate pf s pp.depth key).2

/-- The sub keys after an update. -/
def stepKeys (pf : Profile) (pp : PubParam G1 G2) (t tar : Nat) (keys : List (SubSecretKey G1 G2))
    (rs : List Fr) : List (SubSecretKey G1 G2) :=
  match keys.drop (dropped pp.depth t tar) with
  | [] => []
  | key :: rest =>
    match newTimes pp.depth t tar with
    | [] => key :: rest
    | s :: ss => delegatedTo pf pp key s ::
        (List.zipWith (fun s r => (SubSecretKey.randomization pf pp r (delegatedTo pf pp key s)).2)
          ss rs ++ rest)

/-- The signature made with a known key. -/
def signWith (pf : Profile) (pp : PubParam G1 G2) (t : Nat) (keys : List (SubSecretKey G1 G2))
    (M r : Fr) : Signature G1 G2 :=
  match Signature.signFr pf
    { ciphersuite := pp.ciphersuite, time := t, ssk := keys, prng := ⟨[]⟩ } t pp M r with
  | .ok s => s
  | _ => { ciphersuite := pp.ciphersuite, time := t, sigma1 := 0, sigma2 := 0 }

/-- the point is one of those handed out -/
def Partner.moved (points : List Nat) (c : Partner G1 G2) : Partner G1 G2 :=
  { c with point := c.point.map fun k => points.getD k 0 }

/-- The adversary that bets on time `t0`. -/
def ApiPlayer.bet (pf : Profile) (pp : PubParam G1 G2) (d t0 : Nat) :
    ApiPlayer G1 G2 → Copy G1 G2 → RoPlayer G1 G2
  | .toss m hm n, C => .toss m hm fun c => (n c).bet pf pp d t0 C
  | .hash msg n, C => .hash msg fun b => (n b).bet pf pp d t0 C
  | .point n, C => .ask .point fun a => match a with
    | .point p => (n p).bet pf pp d t0
        { C with asked := C.asked + 1, points := C.points ++ [C.asked] }
    | _ => .forge .none
  | .sign msg n, C =>
    if C.time ≤ t0 then
      .ask (.signature C.time (path d C.time) msg) fun a => match a with
        | .signature s => (n s).bet pf pp d t0 { C with asked := C.asked + 1 }
        | _ => .forge .none
    else .hash msg fun b => .scalars 1 fun rs =>
      (n (signWith pf pp C.time C.keys (natOfBytes b : Fr) (rs.headD 0))).bet pf pp d t0
        { C with shown := C.shown ++ rs }
  | .update tar n, C =>
    if C.time < tar ∧ tar ≤ 2 ^ d - 1 then
      if tar ≤ t0 then n.bet pf pp d t0 { C with time := tar }
      else if C.time ≤ t0 then .fetch d (coverTimes d tar) fun keys =>
        n.bet pf pp d t0
          { C with time := tar, keys := keys, shown := []
                   asked := C.asked + (coverTimes d tar).length }
      else .scalars (drawsNeeded d C.time tar) fun rs => n.bet pf pp d t0
        { C with time := tar
                 keys := stepKeys pf pp C.time tar C.keys rs
                 shown := if C.broken then C.shown ++ rs else [] }
    else n.bet pf pp d t0 C
  | .breakIn n, C =>
    if C.time ≤ t0 then .forge .none
    else (n C.keys C.shown).bet pf pp d t0 { C with broken := true }
  | .forge F, C =>
    if F.time = t0 then .forge { F with cosigners := F.cosigners.map (Partner.moved C.points) }
    else .forge .none

/-- The beginning. -/
def Copy.start : Copy G1 G2 :=
  { time := 1, keys := [], shown := [], broken := false, asked := 0, points := [] }

/-- The adversary of the game of `Spec/Oracle.lean` that bets on time `t0`. -/
def apiBet (pf : Profile) (d t0 : Nat) (A : World G1 G2 → ApiPlayer G1 G2) (W : World G1 G2) :
    RoPlayer G1 G2 :=
  (A W).bet pf W.pp d t0 .start

end Pixel.Spec
