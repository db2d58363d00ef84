import Verif.Spec.Script
import Verif.Spec.Ffi

/-!
# The game against users of the C interface

As in `Spec/Script.lean`, but everything goes through the functions of `/repo/src/ffi.rs`
(`Model/Ffi.lean`): the keys of the signers are blobs made by `c_keygen`, signatures are made by
`c_sign_present` and updates by `c_sk_update`, the adversary sees the bytes of keys, proofs and
signatures, a break-in gives it the blob of the secret key, and at the end `c_verify_pop` and
`c_verify_agg` are called.  A signer keeps the last blob only.
-/

namespace Pixel.Spec

open Pixel Props

variable {G1 G2 GT : Type} [AddCommGroup G1] [AddCommGroup G2] [CommGroup GT] {N : Nat}

/-- `c_sign_present`, with `M` for the hash of the message -/
def cSignHashed (E : Ext G1 G2 GT) (pf : Profile) (sk msg : Bytes) (tarTime : Nat) (M : Fr) :
    Res Bytes := do
  let k ← Ffi.parse (SecretKey.deserialize E true) sk
  if k.time ≠ tarTime then
    .panic .explicit
  else do
    let sig ← Ffi.unwrap (signHashed E.sha512 pf E.defaultParam k msg M)
    let sigBuf ← Ffi.unwrap (sig.serialize E true)
    Ffi.toArray 149 sigBuf

/-- A signer: the blob of the secret key, and what is recorded. -/
structure CSigner where
  sk : Bytes
  /-- the time of the blob -/
  time : Nat
  /-- times and messages of the signatures made -/
  signed : List (Nat × Bytes)
  /-- the times of the break-ins -/
  broken : List Nat

/-- An adversary.  It is told whether a call aborts. -/
inductive CPlayer (G1 : Type) (N : Nat) where
  | toss (n : Nat) (hn : 0 < n) (next : Fin n → CPlayer G1 N)
  | hash (msg : Bytes) (next : Bytes → CPlayer G1 N)
  | curve (input : Bytes × Bytes) (next : G1 → CPlayer G1 N)
  | sign (j : Fin N) (t : Nat) (msg : Bytes) (next : Option Bytes → CPlayer G1 N)
  | update (j : Fin N) (tar : Nat) (seed : Bytes) (next : Bool → CPlayer G1 N)
  | breakIn (j : Fin N) (next : Bytes → CPlayer G1 N)
  | forge (F : ByteClaim)

/-- there are fewer than `r` signers in the claim -/
def CPlayer.Legal : CPlayer G1 N → Prop
  | .toss _ _ n => ∀ c, (n c).Legal
  | .hash _ n => ∀ b, (n b).Legal
  | .curve _ n => ∀ p, (n p).Legal
  | .sign _ _ _ n => ∀ s, (n s).Legal
  | .update _ _ _ n => ∀ b, (n b).Legal
  | .breakIn _ n => ∀ sk, (n sk).Legal
  | .forge F => F.signers.length < rOrder

/-- at most `k` inputs are hashed to the curve: for the adversary, or to check the claim -/
def CPlayer.Points : CPlayer G1 N → Nat → Prop
  | .toss _ _ n, k => ∀ c, (n c).Points k
  | .hash _ n, k => ∀ b, (n b).Points k
  | .curve _ n, k => 0 < k ∧ ∀ p, (n p).Points (k - 1)
  | .sign _ _ _ n, k => ∀ s, (n s).Points k
  | .update _ _ _ n, k => ∀ b, (n b).Points k
  | .breakIn _ n, k => ∀ sk, (n sk).Points k
  | .forge F, k => F.signers.length ≤ k

/-- at most `k` messages are hashed: for the adversary, for a signature, or to check the claim -/
def CPlayer.Hashes : CPlayer G1 N → Nat → Prop
  | .toss _ _ n, k => ∀ c, (n c).Hashes k
  | .hash _ n, k => 0 < k ∧ ∀ b, (n b).Hashes (k - 1)
  | .curve _ n, k => ∀ p, (n p).Hashes k
  | .sign _ _ _ n, k => 0 < k ∧ (∀ s, (n (some s)).Hashes (k - 1)) ∧ (n none).Hashes k
  | .update _ _ _ n, k => ∀ b, (n b).Hashes k
  | .breakIn _ n, k => ∀ sk, (n sk).Hashes k
  | .forge _, k => 0 < k

/-- at most `k` updates of signer `i` that do not abort -/
def CPlayer.Updates (i : Fin N) : CPlayer G1 N → Nat → Prop
  | .toss _ _ n, k => ∀ c, (n c).Updates i k
  | .hash _ n, k => ∀ b, (n b).Updates i k
  | .curve _ n, k => ∀ p, (n p).Updates i k
  | .sign _ _ _ n, k => ∀ s, (n s).Updates i k
  | .update j _ _ n, k =>
      (if j = i then 0 < k ∧ (n true).Updates i (k - 1) else (n true).Updates i k) ∧
        (n false).Updates i k
  | .breakIn _ n, k => ∀ sk, (n sk).Updates i k
  | .forge _, _ => True

/-- signer `i` draws at most `k` scalars, if an update draws at most `d` -/
def CPlayer.Scalars (i : Fin N) (d : Nat) : CPlayer G1 N → Nat → Prop
  | .toss _ _ n, k => ∀ c, (n c).Scalars i d k
  | .hash _ n, k => ∀ b, (n b).Scalars i d k
  | .curve _ n, k => ∀ p, (n p).Scalars i d k
  | .sign j _ _ n, k =>
      (if j = i then 0 < k ∧ ∀ s, (n (some s)).Scalars i d (k - 1)
        else ∀ s, (n (some s)).Scalars i d k) ∧ (n none).Scalars i d k
  | .update j _ _ n, k =>
      (if j = i then d ≤ k ∧ (n true).Scalars i d (k - d) else (n true).Scalars i d k) ∧
        (n false).Scalars i d k
  | .breakIn _ n, k => ∀ sk, (n sk).Scalars i d k
  | .forge _, _ => True

/-- what is hashed to the curve for the proof of possession of a key, from the bytes of the key -/
def cPopInput (pk : Bytes) : Bytes × Bytes := (text "Pixel public key POP" ++ pk.drop 1, pk.take 1)

/-- the strings have the sizes of `pixel_sig`, `pixel_pk` and `pixel_pop` -/
def ByteClaim.Fits (F : ByteClaim) : Prop :=
  F.sig.length = 149 ∧ ∀ s ∈ F.signers, s.1.length = 49 ∧ s.2.length = 97

/-- the time in the bytes of the signature -/
def ByteClaim.time (F : ByteClaim) : Nat := beNat ((F.sig.drop 1).take 4)

/-- The adversary has won: `c_verify_pop` accepts all proofs of possession, `c_verify_agg` accepts the
signature, the honest key is one of the keys, the time is before every break-in, and the honest
signer did not sign the message at that time. -/
def ByteClaim.CWins [DecidableEq GT] (E : Ext G1 G2 GT) (pf : Profile) (pk : Bytes) (S : CSigner)
    (F : ByteClaim) : Prop :=
  F.Fits ∧ (∀ s ∈ F.signers, Ffi.cVerifyPop E s.1 s.2 = .ok true) ∧
    Ffi.cVerifyAgg E pf (F.signers.map (·.1)) F.msg F.sig = .ok true ∧
    pk ∈ F.signers.map (·.1) ∧ (∀ t ∈ S.broken, F.time < t) ∧ (F.time, F.msg) ∉ S.signed

open Classical in
/-- The chance that the adversary wins against one of the signers.  If an update stops at the assertion
on the PRNG, it has lost; if another call aborts, nothing is changed. -/
noncomputable def CPlayer.chance [DecidableEq GT] (E : Ext G1 G2 GT) (pf : Profile) (g : G1)
    (pk : Fin N → Bytes) : CPlayer G1 N → (Fin N → CSigner) → Table → Curve G1 → ℚ
  | .toss _ _ n, S, tab, pts => avg fun c => (n c).chance E pf g pk S tab pts
  | .hash msg n, S, tab, pts => oracle tab msg fun D tab' => (n D.bytes).chance E pf g pk S tab' pts
  | .curve i n, S, tab, pts => curveOracle g pts i fun p pts' => (n p).chance E pf g pk S tab pts'
  | .sign j t msg n, S, tab, pts => oracle tab msg fun D tab' =>
      match cSignHashed E pf (S j).sk msg t D.field with
      | .ok s => (n (some s)).chance E pf g pk (Function.update S j
          { S j with signed := (S j).signed ++ [(t, msg)] }) tab' pts
      | _ => (n none).chance E pf g pk S tab pts
  | .update j tar seed n, S, tab, pts =>
      match Ffi.cSkUpdate E pf (S j).sk seed tar with
      | .ok sk => (n true).chance E pf g pk (Function.update S j
          { S j with sk := sk, time := tar }) tab pts
      | .panic .assertion => 0
      | _ => (n false).chance E pf g pk S tab pts
  | .breakIn j n, S, tab, pts =>
      (n (S j).sk).chance E pf g pk (Function.update S j
        { S j with broken := (S j).broken ++ [(S j).time] }) tab pts
  | .forge F, S, tab, pts => curveOracles g (F.signers.map fun s => cPopInput s.1) pts fun pts' =>
      oracle tab F.msg fun D _ =>
        if ∃ i, F.CWins { E with sha512 := fun _ => D.bytes, hashToG1 := pts'.hash } pf (pk i) (S i)
        then 1 else 0

/-- what `c_keygen` returns (something else if it aborts) -/
def cBorn (E : Ext G1 G2 GT) (seed : Bytes) : Ffi.Keys :=
  match Ffi.cKeygen E seed with
  | .ok k => k
  | _ => ⟨[], [], []⟩

open Classical in
/-- The chance that the adversary wins, over the seeds and the oracles: the script makes the default
parameters, and every signer calls `c_keygen`. -/
noncomputable def cForgeChance [DecidableEq GT] (E : Ext G1 G2 GT) (pf : Profile) (g : G1)
    (seed : Bytes) (cs : UInt8) (n N : Nat)
    (A : PubParam G1 G2 → (Fin N → Bytes) → (Fin N → Bytes) → CPlayer G1 N) : ℚ :=
  curveOracles g (paramInputs E.sha512 seed cs Ffi.cGetDepth) [] fun pts0 =>
    match Py.paramGen { E with hashToG1 := pts0.hash } seed cs Ffi.cGetDepth with
    | .ok pp => avg fun s : Fin N → Seed n =>
      if ∀ i, ∃ k, Ffi.cKeygen { E with defaultParam := pp } (s i).bytes = .ok k then
        curveOracles g
          (List.ofFn fun i => cPopInput (cBorn { E with defaultParam := pp } (s i).bytes).pk) pts0
          fun pts =>
            let k := fun i => cBorn { E with defaultParam := pp, hashToG1 := pts.hash } (s i).bytes
            (A pp (fun i => (k i).pk) (fun i => (k i).pop)).chance { E with defaultParam := pp } pf g
              (fun i => (k i).pk) (fun i => ⟨(k i).sk, 1, [], []⟩) [] pts
      else 0
    | _ => 0

/-! ## How the adversary is used -/

open Classical in
/-- The adversary of the game of `Spec/Script.lean`: it makes the bytes itself, and keeps the times of
the signers to know which calls abort. -/
noncomputable def CPlayer.lower (E : Ext G1 G2 GT) :
    CPlayer G1 N → (Fin N → Nat) → CrowdPlayer G1 G2 N
  | .toss m hm n, T => .toss m hm fun c => (n c).lower E T
  | .hash msg n, T => .hash msg fun b => (n b).lower E T
  | .curve q n, T => .curve q fun p => (n p).lower E T
  | .sign j t msg n, T =>
      if T j = t then .sign j msg fun s => (n (some (sigLayout E true s))).lower E T
      else (n none).lower E T
  | .update j tar seed n, T =>
      if T j < tar ∧ tar ≤ 2 ^ 32 - 1 then .update j tar seed ((n true).lower E (Function.update T j tar))
      else (n false).lower E T
  | .breakIn j n, T => .breakIn j fun sk => (n (skLayout E true sk)).lower E T
  | .forge F, _ => if F.Fits then .forge F else .forge ⟨[], [], []⟩

/-- What is shown to it at the beginning. -/
noncomputable def cLower (E : Ext G1 G2 GT)
    (A : PubParam G1 G2 → (Fin N → Bytes) → (Fin N → Bytes) → CPlayer G1 N) (pp : PubParam G1 G2)
    (pk : Fin N → PublicKey G2) (pop : Fin N → ProofOfPossession G1) : CrowdPlayer G1 G2 N :=
  (A pp (fun i => pkLayout E true (pk i)) (fun i => popLayout E true (pop i))).lower E fun _ => 1

end Pixel.Spec
