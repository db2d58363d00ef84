import Verif.Spec.Seed
import Verif.Model.Serdes

/-!
# The game on bytes

As in `Spec/Seed.lean`, but the end of the game is what a verifier does: the adversary hands over a
serialised signature and the serialised keys of all signers with their proofs of possession; the
functions of the model read them, check the proofs and verify the signature.  Hash-to-curve is a
random oracle, which the adversary may ask for any input; the key generation and the checks use the
same oracle.
-/

namespace Pixel.Spec

open Pixel Props

variable {G1 G2 GT : Type} [AddCommGroup G1] [AddCommGroup G2] [CommGroup GT]

/-- the inputs of hash-to-curve (octets, ciphersuite) so far, with the points -/
abbrev Curve (G1 : Type) := List ((Bytes × Bytes) × G1)

/-- the average of `f` over the point for the input `i`, and the table afterwards -/
noncomputable def curveOracle (g : G1) (pts : Curve G1) (i : Bytes × Bytes)
    (f : G1 → Curve G1 → ℚ) : ℚ :=
  match pts.lookup i with
  | some p => f p pts
  | none => avg fun r : Fr => f (r.val • g) (pts ++ [(i, r.val • g)])

/-- the same for several inputs -/
noncomputable def curveOracles (g : G1) : List (Bytes × Bytes) → Curve G1 → (Curve G1 → ℚ) → ℚ
  | [], pts, f => f pts
  | i :: is, pts, f => curveOracle g pts i fun _ pts' => curveOracles g is pts' f

/-- hash-to-curve by the table -/
def Curve.hash (pts : Curve G1) (m c : Bytes) : G1 := (pts.lookup (m, c)).getD 0

/-- what is hashed to the curve for a proof of possession -/
def popInput (E : Ext G1 G2 GT) (pk : PublicKey G2) : Bytes × Bytes :=
  (text "Pixel public key POP" ++ E.encG2 true pk.pk, [pk.ciphersuite])

/-- The final output of the adversary: a message, a serialised signature, and the serialised public
keys of the signers with their proofs of possession. -/
structure ByteClaim where
  msg : Bytes
  sig : Bytes
  signers : List (Bytes × Bytes)

/-- An adversary. -/
inductive BytePlayer (G1 G2 : Type) where
  | toss (n : Nat) (hn : 0 < n) (next : Fin n → BytePlayer G1 G2)
  | hash (msg : Bytes) (next : Bytes → BytePlayer G1 G2)
  | curve (input : Bytes × Bytes) (next : G1 → BytePlayer G1 G2)
  | sign (msg : Bytes) (next : Signature G1 G2 → BytePlayer G1 G2)
  | update (tar : Nat) (seed : Bytes) (next : BytePlayer G1 G2)
  | breakIn (next : SecretKey G1 G2 → BytePlayer G1 G2)
  | forge (F : ByteClaim)

/-- there are fewer than `r` signers -/
def BytePlayer.Legal : BytePlayer G1 G2 → Prop
  | .toss _ _ n => ∀ c, (n c).Legal
  | .hash _ n => ∀ b, (n b).Legal
  | .curve _ n => ∀ p, (n p).Legal
  | .sign _ n => ∀ s, (n s).Legal
  | .update _ _ n => n.Legal
  | .breakIn n => ∀ sk, (n sk).Legal
  | .forge F => F.signers.length < rOrder

/-- at most `k` inputs are hashed to the curve: for the adversary, or to check the claim -/
def BytePlayer.Points : BytePlayer G1 G2 → Nat → Prop
  | .toss _ _ n, k => ∀ c, (n c).Points k
  | .hash _ n, k => ∀ b, (n b).Points k
  | .curve _ n, k => 0 < k ∧ ∀ p, (n p).Points (k - 1)
  | .sign _ n, k => ∀ s, (n s).Points k
  | .update _ _ n, k => n.Points k
  | .breakIn n, k => ∀ sk, (n sk).Points k
  | .forge F, k => F.signers.length ≤ k

/-- at most `k` messages are hashed: for the adversary, for a signature, or to check the claim -/
def BytePlayer.Hashes : BytePlayer G1 G2 → Nat → Prop
  | .toss _ _ n, k => ∀ c, (n c).Hashes k
  | .hash _ n, k => 0 < k ∧ ∀ b, (n b).Hashes (k - 1)
  | .curve _ n, k => ∀ p, (n p).Hashes k
  | .sign _ n, k => 0 < k ∧ ∀ s, (n s).Hashes (k - 1)
  | .update _ _ n, k => n.Hashes k
  | .breakIn n, k => ∀ sk, (n sk).Hashes k
  | .forge _, k => 0 < k

/-- at most `k` updates -/
def BytePlayer.Updates : BytePlayer G1 G2 → Nat → Prop
  | .toss _ _ n, k => ∀ c, (n c).Updates k
  | .hash _ n, k => ∀ b, (n b).Updates k
  | .curve _ n, k => ∀ p, (n p).Updates k
  | .sign _ n, k => ∀ s, (n s).Updates k
  | .update _ _ n, k => 0 < k ∧ n.Updates (k - 1)
  | .breakIn n, k => ∀ sk, (n sk).Updates k
  | .forge _, _ => True

/-- at most `k` scalars are drawn, if an update draws at most `d` -/
def BytePlayer.Scalars (d : Nat) : BytePlayer G1 G2 → Nat → Prop
  | .toss _ _ n, k => ∀ c, (n c).Scalars d k
  | .hash _ n, k => ∀ b, (n b).Scalars d k
  | .curve _ n, k => ∀ p, (n p).Scalars d k
  | .sign _ n, k => 0 < k ∧ ∀ s, (n s).Scalars d (k - 1)
  | .update _ _ n, k => d ≤ k ∧ n.Scalars d (k - d)
  | .breakIn n, k => ∀ sk, (n sk).Scalars d k
  | .forge _, _ => True

/-- what a reader makes of a string (octets after it are left alone) -/
def parsed {α : Type} (p : SM Bytes α) (b : Bytes) : Option α :=
  match p.run b with
  | (.ok a, _) => some a
  | _ => none

/-- the keys and proofs of all signers, if all can be read -/
def ByteClaim.keys (E : Ext G1 G2 GT) (F : ByteClaim) :
    Option (List (PublicKey G2 × ProofOfPossession G1)) :=
  F.signers.mapM fun s => do
    let pk ← parsed (PublicKey.deserialize E true) s.1
    let pop ← parsed (ProofOfPossession.deserialize E true) s.2
    pure (pk, pop)

/-- The verifier accepts: signature, keys and proofs can be read, the proofs of possession are
valid, and the signature is valid for the message and the keys. -/
def ByteClaim.Accepted [DecidableEq GT] (E : Ext G1 G2 GT) (pf : Profile) (pp : PubParam G1 G2)
    (F : ByteClaim) (sig : Signature G1 G2) (ks : List (PublicKey G2 × ProofOfPossession G1)) : Prop :=
  parsed (Signature.deserialize E true) F.sig = some sig ∧ F.keys E = some ks ∧
  (∀ k ∈ ks, PublicKey.validate E k.1 k.2 = true) ∧
  Signature.verifyBytesAggregated E pf sig (ks.map (·.1)) pp F.msg = .ok true

/-- The adversary has won: the verifier accepts, the honest key is one of the signers, the time is
before every break-in, and the honest signer did not sign the message at that time. -/
def ByteClaim.Wins [DecidableEq GT] (E : Ext G1 G2 GT) (pf : Profile) (pp : PubParam G1 G2)
    (pk : PublicKey G2) (S : CodeSigner G1 G2) (F : ByteClaim) : Prop :=
  ∃ sig ks, F.Accepted E pf pp sig ks ∧ pk ∈ ks.map (·.1) ∧
    (∀ t ∈ S.broken, sig.time < t) ∧ (sig.time, F.msg) ∉ S.signed

/-- the inputs of hash-to-curve for the keys of the claim -/
def ByteClaim.inputs (E : Ext G1 G2 GT) (F : ByteClaim) : List (Bytes × Bytes) :=
  F.signers.filterMap fun s => (parsed (PublicKey.deserialize E true) s.1).map (popInput E)

open Classical in
/-- The chance that the adversary wins; `tab` and `pts` are the messages and the inputs hashed so
far. -/
noncomputable def BytePlayer.chance [DecidableEq GT] (E : Ext G1 G2 GT) (pf : Profile) (g : G1)
    (pp : PubParam G1 G2) (pk : PublicKey G2) :
    BytePlayer G1 G2 → CodeSigner G1 G2 → Table → Curve G1 → ℚ
  | .toss _ _ n, S, tab, pts => avg fun c => (n c).chance E pf g pp pk S tab pts
  | .hash msg n, S, tab, pts => oracle tab msg fun D tab' =>
      (n D.bytes).chance E pf g pp pk S tab' pts
  | .curve i n, S, tab, pts => curveOracle g pts i fun p pts' =>
      (n p).chance E pf g pp pk S tab pts'
  | .sign msg n, S, tab, pts => oracle tab msg fun D tab' =>
      match signHashed E.sha512 pf pp S.sk msg D.field with
      | .ok s => (n s).chance E pf g pp pk { S with signed := S.signed ++ [(S.sk.time, msg)] } tab' pts
      | _ => 0
  | .update tar seed n, S, tab, pts =>
      match SecretKey.update E.sha512 pf pp tar seed S.sk with
      | (.ok (), sk) => n.chance E pf g pp pk { S with sk := sk } tab pts
      | (.err _, sk) => n.chance E pf g pp pk { S with sk := sk } tab pts
      | (.panic _, _) => 0
  | .breakIn n, S, tab, pts =>
      (n S.sk).chance E pf g pp pk { S with broken := S.broken ++ [S.sk.time] } tab pts
  | .forge F, S, tab, pts => curveOracles g (F.inputs E) pts fun pts' => oracle tab F.msg fun D _ =>
      if F.Wins { E with sha512 := fun _ => D.bytes, hashToG1 := pts'.hash } pf pp pk S then 1 else 0

/-- The chance that the adversary wins, over the parameters, the seed and the oracles.  It is shown
the parameters, and the public key and the proof of possession that `keygen` returned. -/
noncomputable def byteForgeChance [DecidableEq GT] (E : Ext G1 G2 GT) (pf : Profile) (g : G1)
    (d : Nat) (cs : UInt8) (n : Nat)
    (A : PubParam G1 G2 → PublicKey G2 → ProofOfPossession G1 → BytePlayer G1 G2) : ℚ :=
  avg fun a : Secret d 0 → Fr => avg fun s : Seed n =>
    match keygen { E with hashToG1 := fun _ _ => (a .q).val • g } s.bytes (gameParam E g cs a) with
    | .ok (pk, sk, pop) => (A (gameParam E g cs a) pk pop).chance E pf g (gameParam E g cs a) pk
        ⟨sk, [], []⟩ [] [(popInput E pk, (a .q).val • g)]
    | _ => 0

/-! ## How the adversary is used -/

/-- ask for the points of several inputs -/
def CodePlayer.points : List (Bytes × Bytes) → Curve G1 → (Curve G1 → CodePlayer G1 G2) →
    CodePlayer G1 G2
  | [], pts, f => f pts
  | i :: is, pts, f => match pts.lookup i with
    | some _ => CodePlayer.points is pts f
    | none => .point fun p => CodePlayer.points is (pts ++ [(i, p)]) f

/-- A signer as a co-signer: the first entry of the table belongs to the honest key, the others to
the points that were asked for. -/
def partner (E : Ext G1 G2 GT) (pts : Curve G1) (k : PublicKey G2 × ProofOfPossession G1) :
    Partner G1 G2 where
  key := k.1.pk
  point := match pts.findIdx fun e => e.1 == popInput E k.1 with
    | 0 => none
    | j + 1 => some j
  pop := k.2.pop

open Classical in
/-- The claim, with the honest key taken from the list. -/
noncomputable def ByteClaim.lower (E : Ext G1 G2 GT) (pk : PublicKey G2) (pts : Curve G1)
    (F : ByteClaim) : Claim G1 G2 :=
  match parsed (Signature.deserialize E true) F.sig, F.keys E with
  | some sig, some ks => if pk ∈ ks.map (·.1) then
      { time := sig.time, msg := F.msg, sigma1 := sig.sigma1, sigma2 := sig.sigma2
        cosigners := (ks.eraseP fun k => decide (k.1 = pk)).map (partner E pts) }
    else .none
  | _, _ => .none

/-- The adversary of the game of `Spec/Code.lean`. -/
noncomputable def BytePlayer.lower (E : Ext G1 G2 GT) (pk : PublicKey G2) :
    BytePlayer G1 G2 → Curve G1 → CodePlayer G1 G2
  | .toss m hm n, pts => .toss m hm fun c => (n c).lower E pk pts
  | .hash msg n, pts => .hash msg fun b => (n b).lower E pk pts
  | .curve i n, pts => match pts.lookup i with
    | some p => (n p).lower E pk pts
    | none => .point fun p => (n p).lower E pk (pts ++ [(i, p)])
  | .sign msg n, pts => .sign msg fun s => (n s).lower E pk pts
  | .update tar seed n, pts => .update tar seed (n.lower E pk pts)
  | .breakIn n, pts => .breakIn fun sk => (n sk).lower E pk pts
  | .forge F, pts => .points (F.inputs E) pts fun pts' => .forge (F.lower E pk pts')

/-- What is shown to it at the beginning. -/
noncomputable def byteLower (E : Ext G1 G2 GT)
    (A : PubParam G1 G2 → PublicKey G2 → ProofOfPossession G1 → BytePlayer G1 G2)
    (W : World G1 G2) : CodePlayer G1 G2 :=
  (A W.pp W.pk { ciphersuite := W.pp.ciphersuite, pop := W.pop }).lower E W.pk
    [(popInput E W.pk, W.q)]

end Pixel.Spec
