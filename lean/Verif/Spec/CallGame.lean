import Verif.Spec.Script

/-!
# The game with all functions of the trait

As in `Spec/Script.lean`, but the adversary directs the signers with the functions of the trait
`PixelSignature` (`/repo/src/lib.rs` 121-176): `sk_update`, `sign` (which goes on to a later time first),
`sign_present` and `sign_then_update`.  It gives the time for each of them, and sees what the function
returns, errors included.
-/

namespace Pixel.Spec

open Pixel Props

variable {G1 G2 GT : Type} [AddCommGroup G1] [AddCommGroup G2] [CommGroup GT] {N : Nat}

/-- A call as in `Call.run`, with `M` for the hash of the message. -/
def Call.runHashed (sha : Bytes → Bytes) (pf : Profile) (pp : PubParam G1 G2) (c : Call) (M : Fr)
    (sk : SecretKey G1 G2) : Res (Option (Signature G1 G2)) × SecretKey G1 G2 :=
  match c with
  | .update tar seed =>
    match SecretKey.update sha pf pp tar seed sk with
    | (.ok _, sk') => (.ok none, sk')
    | (.err e, sk') => (.err e, sk')
    | (.panic p, sk') => (.panic p, sk')
  | .sign tar msg seed =>
    if tar < sk.time then (.err .timeStamp, sk)
    else if tar = sk.time then (some <$> signHashed sha pf pp sk msg M, sk)
    else match SecretKey.update sha pf pp tar seed sk with
      | (.ok _, sk') => (some <$> signHashed sha pf pp sk' msg M, sk')
      | (.err e, sk') => (.err e, sk')
      | (.panic p, sk') => (.panic p, sk')
  | .signPresent tar msg =>
    if tar = sk.time then (some <$> signHashed sha pf pp sk msg M, sk) else (.err .timeStamp, sk)
  | .signThenUpdate tar msg seed =>
    if tar = sk.time then
      match signHashed sha pf pp sk msg M, add64 pf tar 1 with
      | .ok s, .ok next => match SecretKey.update sha pf pp next seed sk with
        | (.ok _, sk') => (.ok (some s), sk')
        | (.err e, sk') => (.err e, sk')
        | (.panic p, sk') => (.panic p, sk')
      | .ok _, .err e => (.err e, sk)
      | .ok _, .panic p => (.panic p, sk)
      | .err e, _ => (.err e, sk)
      | .panic p, _ => (.panic p, sk)
    else (.err .timeStamp, sk)

/-- how many messages a call hashes -/
def Call.hashes : Call → Nat
  | .update _ _ => 0
  | _ => 1

/-- how many updates a call makes, at most -/
def Call.updates : Call → Nat
  | .signPresent _ _ => 0
  | _ => 1

/-- how many scalars a call draws, at most, if an update draws at most `d` -/
def Call.scalars (d : Nat) : Call → Nat
  | .update _ _ => d
  | .signPresent _ _ => 1
  | _ => d + 1

/-- An adversary. -/
inductive CallPlayer (G1 G2 : Type) (N : Nat) where
  | toss (n : Nat) (hn : 0 < n) (next : Fin n → CallPlayer G1 G2 N)
  | hash (msg : Bytes) (next : Bytes → CallPlayer G1 G2 N)
  | curve (input : Bytes × Bytes) (next : G1 → CallPlayer G1 G2 N)
  | call (j : Fin N) (c : Call) (next : Res (Option (Signature G1 G2)) → CallPlayer G1 G2 N)
  | breakIn (j : Fin N) (next : SecretKey G1 G2 → CallPlayer G1 G2 N)
  | forge (F : ByteClaim)

/-- there are fewer than `r` signers in the claim -/
def CallPlayer.Legal : CallPlayer G1 G2 N → Prop
  | .toss _ _ n => ∀ c, (n c).Legal
  | .hash _ n => ∀ b, (n b).Legal
  | .curve _ n => ∀ p, (n p).Legal
  | .call _ _ n => ∀ o, (n o).Legal
  | .breakIn _ n => ∀ sk, (n sk).Legal
  | .forge F => F.signers.length < rOrder

/-- at most `k` inputs are hashed to the curve: for the adversary, or to check the claim -/
def CallPlayer.Points : CallPlayer G1 G2 N → Nat → Prop
  | .toss _ _ n, k => ∀ c, (n c).Points k
  | .hash _ n, k => ∀ b, (n b).Points k
  | .curve _ n, k => 0 < k ∧ ∀ p, (n p).Points (k - 1)
  | .call _ _ n, k => ∀ o, (n o).Points k
  | .breakIn _ n, k => ∀ sk, (n sk).Points k
  | .forge F, k => F.signers.length ≤ k

/-- at most `k` messages are hashed: for the adversary, by calls, or to check the claim -/
def CallPlayer.Hashes : CallPlayer G1 G2 N → Nat → Prop
  | .toss _ _ n, k => ∀ c, (n c).Hashes k
  | .hash _ n, k => 0 < k ∧ ∀ b, (n b).Hashes (k - 1)
  | .curve _ n, k => ∀ p, (n p).Hashes k
  | .call _ c n, k => c.hashes ≤ k ∧ ∀ o, (n o).Hashes (k - c.hashes)
  | .breakIn _ n, k => ∀ sk, (n sk).Hashes k
  | .forge _, k => 0 < k

/-- at most `k` updates of signer `i` -/
def CallPlayer.Updates (i : Fin N) : CallPlayer G1 G2 N → Nat → Prop
  | .toss _ _ n, k => ∀ c, (n c).Updates i k
  | .hash _ n, k => ∀ b, (n b).Updates i k
  | .curve _ n, k => ∀ p, (n p).Updates i k
  | .call j c n, k =>
      if j = i then c.updates ≤ k ∧ ∀ o, (n o).Updates i (k - c.updates) else ∀ o, (n o).Updates i k
  | .breakIn _ n, k => ∀ sk, (n sk).Updates i k
  | .forge _, _ => True

/-- signer `i` draws at most `k` scalars, if an update draws at most `d` -/
def CallPlayer.Scalars (i : Fin N) (d : Nat) : CallPlayer G1 G2 N → Nat → Prop
  | .toss _ _ n, k => ∀ c, (n c).Scalars i d k
  | .hash _ n, k => ∀ b, (n b).Scalars i d k
  | .curve _ n, k => ∀ p, (n p).Scalars i d k
  | .call j c n, k =>
      if j = i then c.scalars d ≤ k ∧ ∀ o, (n o).Scalars i d (k - c.scalars d)
      else ∀ o, (n o).Scalars i d k
  | .breakIn _ n, k => ∀ sk, (n sk).Scalars i d k
  | .forge _, _ => True

open Classical in
/-- The chance that the adversary wins against one of the signers.  A signature counts as made if it is
returned.  If a call panics the adversary has lost. -/
noncomputable def CallPlayer.chance [DecidableEq GT] (E : Ext G1 G2 GT) (pf : Profile) (g : G1)
    (pp : PubParam G1 G2) (pk : Fin N → PublicKey G2) :
    CallPlayer G1 G2 N → (Fin N → CodeSigner G1 G2) → Table → Curve G1 → ℚ
  | .toss _ _ n, S, tab, pts => avg fun c => (n c).chance E pf g pp pk S tab pts
  | .hash msg n, S, tab, pts => oracle tab msg fun D tab' =>
      (n D.bytes).chance E pf g pp pk S tab' pts
  | .curve i n, S, tab, pts => curveOracle g pts i fun p pts' =>
      (n p).chance E pf g pp pk S tab pts'
  | .call j c n, S, tab, pts => oracle tab c.msg fun D tab' =>
      match c.runHashed E.sha512 pf pp D.field (S j).sk with
      | (.ok (some s), sk) => (n (.ok (some s))).chance E pf g pp pk (Function.update S j
          { S j with sk := sk, signed := (S j).signed ++ [(s.time, c.msg)] }) tab' pts
      | (.ok none, sk) => (n (.ok none)).chance E pf g pp pk
          (Function.update S j { S j with sk := sk }) tab pts
      | (.err e, sk) => (n (.err e)).chance E pf g pp pk
          (Function.update S j { S j with sk := sk }) tab pts
      | (.panic _, _) => 0
  | .breakIn j n, S, tab, pts =>
      (n (S j).sk).chance E pf g pp pk (Function.update S j
        { S j with broken := (S j).broken ++ [(S j).sk.time] }) tab pts
  | .forge F, S, tab, pts => curveOracles g (F.inputs E) pts fun pts' => oracle tab F.msg fun D _ =>
      if ∃ i, F.Wins { E with sha512 := fun _ => D.bytes, hashToG1 := pts'.hash } pf pp (pk i) (S i)
      then 1 else 0

open Classical in
/-- The chance that the adversary wins, over the seeds and the oracles; everything as in
`Spec/Script.lean`. -/
noncomputable def callForgeChance [DecidableEq GT] (E : Ext G1 G2 GT) (pf : Profile) (g : G1)
    (seed : Bytes) (d : Nat) (cs : UInt8) (n N : Nat)
    (A : PubParam G1 G2 → (Fin N → PublicKey G2) → (Fin N → ProofOfPossession G1) →
      CallPlayer G1 G2 N) : ℚ :=
  curveOracles g (paramInputs E.sha512 seed cs d) [] fun pts0 =>
    match Py.paramGen { E with hashToG1 := pts0.hash } seed cs d with
    | .ok pp => avg fun s : Fin N → Seed n =>
      if ∀ i, ∃ b, keygen E (s i).bytes pp = .ok b then
        curveOracles g (List.ofFn fun i => popInput E (born E pp (s i).bytes).1) pts0 fun pts =>
          let b := fun i => born { E with hashToG1 := pts.hash } pp (s i).bytes
          (A pp (fun i => (b i).1) (fun i => (b i).2.2)).chance E pf g pp (fun i => (b i).1)
            (fun i => ⟨(b i).2.1, [], []⟩) [] pts
      else 0
    | _ => 0

/-! ## How the adversary is used -/

/-- The adversary of the game of `Spec/Script.lean`, at depth `d`: it keeps the times of the signers to
know what a call does. -/
def CallPlayer.lower (d : Nat) : CallPlayer G1 G2 N → (Fin N → Nat) → CrowdPlayer G1 G2 N
  | .toss m hm n, T => .toss m hm fun c => (n c).lower d T
  | .hash msg n, T => .hash msg fun b => (n b).lower d T
  | .curve q n, T => .curve q fun p => (n p).lower d T
  | .call j (.update tar seed) n, T =>
      if T j < tar ∧ tar ≤ 2 ^ d - 1 then
        .update j tar seed ((n (.ok none)).lower d (Function.update T j tar))
      else (n (.err .timeStamp)).lower d T
  | .call j (.sign tar msg seed) n, T =>
      if T j = tar then .sign j msg fun s => (n (.ok (some s))).lower d T
      else if T j < tar ∧ tar ≤ 2 ^ d - 1 then
        .update j tar seed (.sign j msg fun s =>
          (n (.ok (some s))).lower d (Function.update T j tar))
      else (n (.err .timeStamp)).lower d T
  | .call j (.signPresent tar msg) n, T =>
      if T j = tar then .sign j msg fun s => (n (.ok (some s))).lower d T
      else (n (.err .timeStamp)).lower d T
  | .call j (.signThenUpdate tar msg seed) n, T =>
      if T j = tar ∧ tar + 1 ≤ 2 ^ d - 1 then
        .sign j msg fun s => .update j (tar + 1) seed
          ((n (.ok (some s))).lower d (Function.update T j (tar + 1)))
      else (n (.err .timeStamp)).lower d T
  | .breakIn j n, T => .breakIn j fun sk => (n sk).lower d T
  | .forge F, _ => .forge F

/-- All signers begin at time 1. -/
def callLower (d : Nat)
    (A : PubParam G1 G2 → (Fin N → PublicKey G2) → (Fin N → ProofOfPossession G1) →
      CallPlayer G1 G2 N) (pp : PubParam G1 G2) (pk : Fin N → PublicKey G2)
    (pop : Fin N → ProofOfPossession G1) : CrowdPlayer G1 G2 N :=
  (A pp pk pop).lower d fun _ => 1

/-- An adversary of the game of `Spec/Script.lean` as one of this game. -/
def CrowdPlayer.raise (d : Nat) : CrowdPlayer G1 G2 N → (Fin N → Nat) → CallPlayer G1 G2 N
  | .toss m hm n, T => .toss m hm fun c => (n c).raise d T
  | .hash msg n, T => .hash msg fun b => (n b).raise d T
  | .curve q n, T => .curve q fun p => (n p).raise d T
  | .sign j msg n, T => .call j (.signPresent (T j) msg) fun o => match o with
      | .ok (some s) => (n s).raise d T
      | _ => .forge ⟨[], [], []⟩
  | .update j tar seed n, T => .call j (.update tar seed) fun _ =>
      n.raise d (if T j < tar ∧ tar ≤ 2 ^ d - 1 then Function.update T j tar else T)
  | .breakIn j n, T => .breakIn j fun sk => (n sk).raise d T
  | .forge F, _ => .forge F

/-- All signers begin at time 1. -/
def callRaise (d : Nat)
    (A : PubParam G1 G2 → (Fin N → PublicKey G2) → (Fin N → ProofOfPossession G1) →
      CrowdPlayer G1 G2 N) (pp : PubParam G1 G2) (pk : Fin N → PublicKey G2)
    (pop : Fin N → ProofOfPossession G1) : CallPlayer G1 G2 N :=
  (A pp pk pop).raise d fun _ => 1

end Pixel.Spec
