import Verif.Model.SecretKey

/-! # Model of `/repo/src/public_key.rs`, `/repo/src/pop.rs`, `/repo/src/key_pair.rs` -/

namespace Pixel

variable {G1 G2 GT : Type} [AddCommGroup G1] [AddCommGroup G2] [CommGroup GT]

/-- Models `ProofOfPossession`, `/repo/src/pop.rs` 6-11. -/
structure ProofOfPossession (G1 : Type) where
  ciphersuite : UInt8
  pop : G1

/-- `BLSSigCore::core_sign(x, msg, ciphersuite)` of the external crate `bls_sigs_ref`:
hash to the curve and multiply by the secret scalar. -/
def blsCoreSign (E : Ext G1 G2 GT) (x : Fr) (msg ciphersuite : Bytes) : G1 :=
  mulFr x (E.hashToG1 msg ciphersuite)

/-- `BLSSigCore::core_verify(pk, sig, msg, ciphersuite)` of the external crate `bls_sigs_ref`:
subgroup checks and the pairing equation `e(-g, sig) * e(pk, H(msg)) = 1` for the fixed curve
generator `g`. -/
def blsCoreVerify [DecidableEq GT] (E : Ext G1 G2 GT) (pk : G2) (sig : G1)
    (msg ciphersuite : Bytes) : Bool :=
  if !E.inSub2 pk || !E.inSub1 sig then
    false
  else
    match E.pairing [(-E.gen2, sig), (pk, E.hashToG1 msg ciphersuite)] with
    | none => false
    | some x => decide (x = 1)

namespace PublicKey

/-- Models `PublicKey::init`, `/repo/src/public_key.rs` 20-31. -/
def init (pp : PubParam G1 G2) (pk : G2) : Res (PublicKey G2) :=
  if !validCiphersuite.contains pp.ciphersuite then .err .ciphersuite
  else .ok { ciphersuite := pp.ciphersuite, pk := pk }

/-- Models `PublicKey::size` and `PK_LEN`, `/repo/src/public_key.rs` 39-41, `/repo/src/lib.rs`
67. -/
def size (_self : PublicKey G2) : Nat := 49

/-- Models `PublicKey::validate`, `/repo/src/public_key.rs` 55-77.  Serialising a point into a
`Vec` cannot fail. -/
def validate [DecidableEq GT] (E : Ext G1 G2 GT) (self : PublicKey G2)
    (pop : ProofOfPossession G1) : Bool :=
  if !validCiphersuite.contains self.ciphersuite then
    false
  else if self.ciphersuite ≠ pop.ciphersuite then
    false
  else
    let buf := DOM_SEP_POP ++ E.encG2 true self.pk
    blsCoreVerify E self.pk pop.pop buf [self.ciphersuite]

/-- Models `PartialEq for PublicKey`, `/repo/src/public_key.rs` 80-85. -/
def eq [DecidableEq G2] (self other : PublicKey G2) : Bool :=
  decide (self.ciphersuite = other.ciphersuite) && decide (self.pk = other.pk)

end PublicKey

/-- Models `proof_of_possession`, `/repo/src/key_pair.rs` 149-158. -/
def proofOfPossession (E : Ext G1 G2 GT) (msk : Fr) (pk : G2) (ciphersuite : UInt8) : Res G1 :=
  let buf := DOM_SEP_POP ++ E.encG2 true pk
  .ok (blsCoreSign E msk buf [ciphersuite])

/-- Models `master_key_gen`, `/repo/src/key_pair.rs` 88-143: `(pk, sk, pop, prng)`. -/
def masterKeyGen (E : Ext G1 G2 GT) (seed : Bytes) (pp : PubParam G1 G2) :
    Res (G2 × G1 × G1 × Prng) :=
  if seed.length < 32 then
    .err .seedTooShort
  else
    let ciphersuite := pp.ciphersuite
    if !validCiphersuite.contains ciphersuite then
      .err .ciphersuite
    else do
      let salt := DOM_SEP_MASTER_KEY ++ [ciphersuite]
      let prng ← Prng.init E.sha512 seed salt
      let info := ascii "key initialization"
      let (x, prng) ← (Prng.sampleThenUpdate E.sha512 info).exec prng
      let pk := mulFr x pp.g2
      let pop ← proofOfPossession E x pk pp.ciphersuite
      let sk := mulFr x pp.h
      .ok (pk, sk, pop, prng)

/-- Models `KeyPair::keygen`, `/repo/src/key_pair.rs` 24-73, and `key_gen`, `/repo/src/lib.rs`
110-117. -/
def keygen (E : Ext G1 G2 GT) (seed : Bytes) (pp : PubParam G1 G2) :
    Res (PublicKey G2 × SecretKey G1 G2 × ProofOfPossession G1) :=
  if seed.length < 32 then
    .err .seedTooShort
  else do
    let (pk, msk, pop, prng) ← masterKeyGen E seed pp
    let pk ← PublicKey.init pp pk
    let sk ← SecretKey.init E.sha512 pp msk prng
    .ok (pk, sk, { ciphersuite := pp.ciphersuite, pop := pop })

/-- Models the test-only `validate_master_key`, `/repo/src/key_pair.rs` 163-184. -/
def validateMasterKey [DecidableEq GT] (E : Ext G1 G2 GT) (pk : G2) (sk : G1)
    (pp : PubParam G1 G2) : Bool :=
  match E.pairing [(-pp.g2, sk), (pk, pp.h)] with
  | none => false
  | some x => decide (x = 1)

end Pixel
