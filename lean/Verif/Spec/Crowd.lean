import Verif.Spec.Bytes
import Mathlib.Algebra.BigOperators.Fin

/-!
# The game with many honest signers

As in `Spec/Bytes.lean`, but there are `N` honest signers, with the same parameters and a seed each.
The adversary may direct each of them and break into each of them; it need not say in advance whom
it attacks.
-/

namespace Pixel.Spec

open Pixel Props

variable {G1 G2 GT : Type} [AddCommGroup G1] [AddCommGroup G2] [CommGroup GT] {N : Nat}

/-- An adversary. -/
inductive CrowdPlayer (G1 G2 : Type) (N : Nat) where
  | toss (n : Nat) (hn : 0 < n) (next : Fin n → CrowdPlayer G1 G2 N)
  | hash (msg : Bytes) (next : Bytes → CrowdPlayer G1 G2 N)
  | curve (input : Bytes × Bytes) (next : G1 → CrowdPlayer G1 G2 N)
  | sign (j : Fin N) (msg : Bytes) (next : Signature G1 G2 → CrowdPlayer G1 G2 N)
  | update (j : Fin N) (tar : Nat) (seed : Bytes) (next : CrowdPlayer G1 G2 N)
  | breakIn (j : Fin N) (next : SecretKey G1 G2 → CrowdPlayer G1 G2 N)
  | forge (F : ByteClaim)

/-- there are fewer than `r` signers in the claim -/
def CrowdPlayer.Legal : CrowdPlayer G1 G2 N → Prop
  | .toss _ _ n => ∀ c, (n c).Legal
  | .hash _ n => ∀ b, (n b).Legal
  | .curve _ n => ∀ p, (n p).Legal
  | .sign _ _ n => ∀ s, (n s).Legal
  | .update _ _ _ n => n.Legal
  | .breakIn _ n => ∀ sk, (n sk).Legal
  | .forge F => F.signers.length < rOrder

/-- at most `k` inputs are hashed to the curve: for the adversary, or to check the claim -/
def CrowdPlayer.Points : CrowdPlayer G1 G2 N → Nat → Prop
  | .toss _ _ n, k => ∀ c, (n c).Points k
  | .hash _ n, k => ∀ b, (n b).Points k
  | .curve _ n, k => 0 < k ∧ ∀ p, (n p).Points (k - 1)
  | .sign _ _ n, k => ∀ s, (n s).Points k
  | .update _ _ _ n, k => n.Points k
  | .breakIn _ n, k => ∀ sk, (n sk).Points k
  | .forge F, k => F.signers.length ≤ k

/-- at most `k` messages are hashed: for the adversary, for a signature, or to check the claim -/
def CrowdPlayer.Hashes : CrowdPlayer G1 G2 N → Nat → Prop
  | .toss _ _ n, k => ∀ c, (n c).Hashes k
  | .hash _ n, k => 0 < k ∧ ∀ b, (n b).Hashes (k - 1)
  | .curve _ n, k => ∀ p, (n p).Hashes k
  | .sign _ _ n, k => 0 < k ∧ ∀ s, (n s).Hashes (k - 1)
  | .update _ _ _ n, k => n.Hashes k
  | .breakIn _ n, k => ∀ sk, (n sk).Hashes k
  | .forge _, k => 0 < k

/-- at most `k` updates of signer `i` -/
def CrowdPlayer.Updates (i : Fin N) : CrowdPlayer G1 G2 N → Nat → Prop
  | .toss _ _ n, k => ∀ c, (n c).Updates i k
  | .hash _ n, k => ∀ b, (n b).Updates i k
  | .curve _ n, k => ∀ p, (n p).Updates i k
  | .sign _ _ n, k => ∀ s, (n s).Updates i k
  | .update j _ _ n, k => if j = i then 0 < k ∧ n.Updates i (k - 1) else n.Updates i k
  | .breakIn _ n, k => ∀ sk, (n sk).Updates i k
  | .forge _, _ => True

/-- signer `i` draws at most `k` scalars, if an update draws at most `d` -/
def CrowdPlayer.Scalars (i : Fin N) (d : Nat) : CrowdPlayer G1 G2 N → Nat → Prop
  | .toss _ _ n, k => ∀ c, (n c).Scalars i d k
  | .hash _ n, k => ∀ b, (n b).Scalars i d k
  | .curve _ n, k => ∀ p, (n p).Scalars i d k
  | .sign j _ n, k => if j = i then 0 < k ∧ ∀ s, (n s).Scalars i d (k - 1)
      else ∀ s, (n s).Scalars i d k
  | .update j _ _ n, k => if j = i then d ≤ k ∧ n.Scalars i d (k - d) else n.Scalars i d k
  | .breakIn _ n, k => ∀ sk, (n sk).Scalars i d k
  | .forge _, _ => True

open Classical in
/-- The chance that the adversary wins against one of the signers: the claim wins the game of
`Spec/Bytes.lean` against the signer with its key. -/
noncomputable def CrowdPlayer.chance [DecidableEq GT] (E : Ext G1 G2 GT) (pf : Profile) (g : G1)
    (pp : PubParam G1 G2) (pk : Fin N → PublicKey G2) :
    CrowdPlayer G1 G2 N → (Fin N → CodeSigner G1 G2) → Table → Curve G1 → ℚ
  | .toss _ _ n, S, tab, pts => avg fun c => (n c).chance E pf g pp pk S tab pts
  | .hash msg n, S, tab, pts => oracle tab msg fun D tab' =>
      (n D.bytes).chance E pf g pp pk S tab' pts
  | .curve i n, S, tab, pts => curveOracle g pts i fun p pts' =>
      (n p).chance E pf g pp pk S tab pts'
  | .sign j msg n, S, tab, pts => oracle tab msg fun D tab' =>
      match signHashed E.sha512 pf pp (S j).sk msg D.field with
      | .ok s => (n s).chance E pf g pp pk (Function.update S j
          { S j with signed := (S j).signed ++ [((S j).sk.time, msg)] }) tab' pts
      | _ => 0
  | .update j tar seed n, S, tab, pts =>
      match SecretKey.update E.sha512 pf pp tar seed (S j).sk with
      | (.ok (), sk) => n.chance E pf g pp pk (Function.update S j { S j with sk := sk }) tab pts
      | (.err _, sk) => n.chance E pf g pp pk (Function.update S j { S j with sk := sk }) tab pts
      | (.panic _, _) => 0
  | .breakIn j n, S, tab, pts =>
      (n (S j).sk).chance E pf g pp pk (Function.update S j
        { S j with broken := (S j).broken ++ [(S j).sk.time] }) tab pts
  | .forge F, S, tab, pts => curveOracles g (F.inputs E) pts fun pts' => oracle tab F.msg fun D _ =>
      if ∃ i, F.Wins { E with sha512 := fun _ => D.bytes, hashToG1 := pts'.hash } pf pp (pk i) (S i)
      then 1 else 0

/-- what `keygen` returns (something else if it fails) -/
def born (E : Ext G1 G2 GT) (pp : PubParam G1 G2) (seed : Bytes) :
    PublicKey G2 × SecretKey G1 G2 × ProofOfPossession G1 :=
  match keygen E seed pp with
  | .ok b => b
  | _ => (⟨0, 0⟩, ⟨0, 0, [], ⟨[]⟩⟩, ⟨0, 0⟩)

open Classical in
/-- The chance that the adversary wins, over the parameters, the seeds and the oracles.  It is shown
the parameters, and the public keys and the proofs of possession that `keygen` returned.  (The
inputs of hash-to-curve for the proofs are found with the public keys, which do not depend on
hash-to-curve.  The component `q` of `a` is not used here.) -/
noncomputable def crowdForgeChance [DecidableEq GT] (E : Ext G1 G2 GT) (pf : Profile) (g : G1)
    (d : Nat) (cs : UInt8) (n N : Nat)
    (A : PubParam G1 G2 → (Fin N → PublicKey G2) → (Fin N → ProofOfPossession G1) →
      CrowdPlayer G1 G2 N) : ℚ :=
  avg fun a : Secret d 0 → Fr => avg fun s : Fin N → Seed n =>
    if ∀ i, ∃ b, keygen E (s i).bytes (gameParam E g cs a) = .ok b then
      curveOracles g (List.ofFn fun i => popInput E (born E (gameParam E g cs a) (s i).bytes).1) []
        fun pts =>
          let b := fun i => born { E with hashToG1 := pts.hash } (gameParam E g cs a) (s i).bytes
          (A (gameParam E g cs a) (fun i => (b i).1) (fun i => (b i).2.2)).chance E pf g
            (gameParam E g cs a) (fun i => (b i).1) (fun i => ⟨(b i).2.1, [], []⟩) [] pts
    else 0

/-! ## How the adversary is used -/

/-- The adversary against signer `i` alone: it plays the other signers itself, with the secret keys
`sk` (the entry for `i` is not used). -/
def CrowdPlayer.one (sha : Bytes → Bytes) (pf : Profile) (pp : PubParam G1 G2) (i : Fin N) :
    CrowdPlayer G1 G2 N → (Fin N → SecretKey G1 G2) → BytePlayer G1 G2
  | .toss m hm n, sk => .toss m hm fun c => (n c).one sha pf pp i sk
  | .hash msg n, sk => .hash msg fun b => (n b).one sha pf pp i sk
  | .curve q n, sk => .curve q fun p => (n p).one sha pf pp i sk
  | .sign j msg n, sk =>
      if j = i then .sign msg fun s => (n s).one sha pf pp i sk
      else .hash msg fun b => match signHashed sha pf pp (sk j) msg (beNat b : Fr) with
        | .ok s => (n s).one sha pf pp i sk
        | _ => (n ⟨0, 0, 0, 0⟩).one sha pf pp i sk
  | .update j tar seed n, sk =>
      if j = i then .update tar seed (n.one sha pf pp i sk)
      else n.one sha pf pp i (Function.update sk j (SecretKey.update sha pf pp tar seed (sk j)).2)
  | .breakIn j n, sk =>
      if j = i then .breakIn fun s => (n s).one sha pf pp i sk
      else (n (sk j)).one sha pf pp i sk
  | .forge F, _ => .forge F

/-- ask for the points of several inputs -/
def BytePlayer.ask : List (Bytes × Bytes) → Curve G1 → (Curve G1 → BytePlayer G1 G2) →
    BytePlayer G1 G2
  | [], known, f => f known
  | i :: is, known, f => .curve i fun p => BytePlayer.ask is (known ++ [(i, p)]) f

theorem seeds_pos (n N : Nat) : 0 < (256 ^ n) ^ N := Nat.pow_pos (Nat.pow_pos (by omega))

/-- The adversary of the game of `Spec/Bytes.lean` whose honest signer is signer `i`: it draws the
seeds of the other signers and asks for the points of the proofs of possession. -/
def crowdOne (E : Ext G1 G2 GT) (pf : Profile) (n : Nat) (i : Fin N)
    (A : PubParam G1 G2 → (Fin N → PublicKey G2) → (Fin N → ProofOfPossession G1) →
      CrowdPlayer G1 G2 N) (pp : PubParam G1 G2) (pk : PublicKey G2) (pop : ProofOfPossession G1) :
    BytePlayer G1 G2 :=
  .toss ((256 ^ n) ^ N) (seeds_pos n N) fun c =>
    let s : Fin N → Seed n := finFunctionFinEquiv.symm c
    let pks := Function.update (fun j => (born E pp (s j).bytes).1) i pk
    .ask (List.ofFn fun j => popInput E (pks j)) [] fun known =>
      let b := fun j => born { E with hashToG1 := known.hash } pp (s j).bytes
      (A pp pks (Function.update (fun j => (b j).2.2) i pop)).one E.sha512 pf pp i
        fun j => (b j).2.1

/-- An adversary of the game of `Spec/Bytes.lean` that attacks the only signer. -/
def BytePlayer.alone : BytePlayer G1 G2 → CrowdPlayer G1 G2 1
  | .toss m hm n => .toss m hm fun c => (n c).alone
  | .hash msg n => .hash msg fun b => (n b).alone
  | .curve q n => .curve q fun p => (n p).alone
  | .sign msg n => .sign 0 msg fun s => (n s).alone
  | .update tar seed n => .update 0 tar seed n.alone
  | .breakIn n => .breakIn 0 fun sk => (n sk).alone
  | .forge F => .forge F

end Pixel.Spec
