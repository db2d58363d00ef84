import Verif.Model.Ffi
import Verif.Model.Kat
import Mathlib.Data.Nat.Digits.Defs

/-!
# Model of the unit tests: `/repo/src/test/{keys,sig,api,ffi,getter,serdes}.rs`

Each test is a program with the result `Res Unit`: `ok` if the test passes, `panic` if it fails.
The constants of the tests are arguments: the parameter (`PubParam::init_without_seed()`,
`PubParam::init(..)` and `PubParam::default()` are functions of the crate `pixel_param`), the seeds,
the messages, the scalars read from strings, and the bound `n` of the loops `for j in 2..n` (16 in
all tests but `test_delegate`, where it is 5).  A key that is cloned is a second variable with the
same value.  What is printed on the terminal is not modelled.

The tests with known answers of `/repo/src/test/serdes.rs` are in `Verif/Model/Kat.lean`.  Not
modelled: the getter tests that call nothing but a constructor and field accesses
(`/repo/src/test/getter.rs` 9-27, 41-47), the empty test 63-65 there, `test_group_is_correct`
(`/repo/src/test/api.rs` 50-55, a statement about types), and `/repo/src/test/pixel_zeroize.rs`, which
reads memory that has been freed.
-/

namespace Pixel.Tests

open Pixel

/-! ## assertions and loops -/

/-- `assert!(res.is_ok()); let a = res.unwrap();` -/
def mustOk {α : Type} : Res α → Res α
  | .ok a => .ok a
  | .err _ => .panic .assertion
  | .panic p => .panic p

/-- `assert!(res.is_err())`, and `res.expect_err(msg)`, which panics with `msg` on `Ok` and does not
look at the error. -/
def mustErr {α : Type} : Res α → Res Unit
  | .ok _ => .panic .assertion
  | .err _ => .ok ()
  | .panic p => .panic p

/-- `assert!(b)` where computing `b` may panic -/
def must (b : Res Bool) : Res Unit := b >>= assertRes

/-- `assert!(!b)` -/
def mustNot (b : Res Bool) : Res Unit := b >>= fun b => assertRes (!b)

/-- `for j in a..n { .. }` without a variable that survives the rounds -/
def forRange (a n : Nat) (f : Nat → Res Unit) : Res Unit := Kat.forEach (List.range' a (n - a)) f

/-- `for j in a..n { .. }` with a variable `s` that survives the rounds -/
def forRangeWith {σ : Type} (a n : Nat) (s : σ) (f : σ → Nat → Res σ) : Res σ :=
  (List.range' a (n - a)).foldlM f s

/-- a `for` loop that pushes one element to a `Vec` in each round -/
def collect {α β : Type} : List α → (α → Res β) → Res (List β)
  | [], _ => .ok []
  | a :: l, f => do
    let b ← f a
    let bs ← collect l f
    .ok (b :: bs)

variable {G1 G2 GT : Type} [AddCommGroup G1] [AddCommGroup G2] [CommGroup GT]
  [DecidableEq GT]

/-- The start of most tests: `let res = KeyPair::keygen(seed, &pp); assert!(res.is_ok(), ..); let
(pk, sk, pop) = res.unwrap(); assert!(pk.validate(&pop));` -/
def newKey (E : Ext G1 G2 GT) (pp : PubParam G1 G2) (seed : Bytes) :
    Res (PublicKey G2 × SecretKey G1 G2) := do
  let (pk, sk, pop) ← mustOk (keygen E seed pp)
  assertRes (pk.validate E pop)
  .ok (pk, sk)

/-- `let mut sk2 = sk.clone(); let res = sk2.update(&pp, j, seed); assert!(res.is_ok(), ..);` -/
def updated (E : Ext G1 G2 GT) (pf : Profile) (pp : PubParam G1 G2) (sk : SecretKey G1 G2) (j : Nat)
    (useed : Bytes) : Res (SecretKey G1 G2) := do
  let (_, sk2) ← mustOk ((SecretKey.update E.sha512 pf pp j useed).exec sk)
  .ok sk2

/-- `for ssk in sk.ssk_vec() { assert!(ssk.validate(&pk, &pp), ..); }` -/
def subKeysValid (E : Ext G1 G2 GT) (pf : Profile) (pp : PubParam G1 G2) (pk : PublicKey G2)
    (sk : SecretKey G1 G2) : Res Unit :=
  Kat.forEach sk.ssk fun s => must (s.validate E pf pk pp)

/-- `let res = Signature::sign_bytes(&sk, time, &pp, msg); assert!(res.is_ok(), ..); let sig =
res.unwrap(); assert!(sig.verify_bytes(&pk, &pp, msg), ..);` -/
def signed (E : Ext G1 G2 GT) (pf : Profile) (pp : PubParam G1 G2) (pk : PublicKey G2)
    (sk : SecretKey G1 G2) (time : Nat) (msg : Bytes) : Res (Signature G1 G2) := do
  let sig ← mustOk (Signature.signBytes E.sha512 pf sk time pp msg)
  must (sig.verifyBytes E pf pk pp msg)
  .ok sig

/-! ## `/repo/src/test/keys.rs` -/

/-- Models `negative_test_key_gen`, `/repo/src/test/keys.rs` 11-14, and the second half of
`test_must_fails_seed`, `/repo/src/test/sig.rs` 14-16 (the first half is about `pixel_param`). -/
def negativeKeyGen (E : Ext G1 G2 GT) (pp : PubParam G1 G2) : Res Unit :=
  mustErr (keygen E [] pp)

/-- Models `negative_test_pop`, `/repo/src/test/keys.rs` 17-29; `one` is `PixelG1::one()`. -/
def negativePop (E : Ext G1 G2 GT) (one : G1) : Res Unit := do
  let pk : PublicKey G2 := { ciphersuite := 1, pk := E.gen2 }
  let pop : ProofOfPossession G1 := { ciphersuite := 0, pop := one }
  assertRes (!pk.validate E pop)
  let pk : PublicKey G2 := { ciphersuite := 0, pk := E.gen2 }
  let pop : ProofOfPossession G1 := { ciphersuite := 1, pop := one }
  assertRes (!pk.validate E pop)
  let pk : PublicKey G2 := { ciphersuite := 0, pk := E.gen2 }
  let pop : ProofOfPossession G1 := { ciphersuite := 0, pop := one }
  assertRes (!pk.validate E pop)

/-- Models `negative_test_sk`, `/repo/src/test/keys.rs` 32-44. -/
def negativeSk (E : Ext G1 G2 GT) (pf : Profile) (pp : PubParam G1 G2) (seed : Bytes) : Res Unit := do
  let (_, sk, _) ← mustOk (keygen E seed pp)
  let pk : PublicKey G2 := { ciphersuite := 1, pk := 0 }
  mustNot (sk.validate E pf pk pp)

/-- Models `test_master_key`, `/repo/src/test/keys.rs` 47-56. -/
def masterKey (E : Ext G1 G2 GT) (pp : PubParam G1 G2) (seed : Bytes) : Res Unit := do
  let (pk, sk, _, _) ← mustOk (masterKeyGen E seed pp)
  assertRes (validateMasterKey E pk sk pp)

/-- Models `test_quick_key_update`, `/repo/src/test/keys.rs` 65-110. -/
def quickKeyUpdate (E : Ext G1 G2 GT) (pf : Profile) (pp : PubParam G1 G2) (seed useed : Bytes)
    (n : Nat) : Res Unit := do
  let (pk, sk) ← newKey E pp seed
  forRange 2 n fun j => do
    let sk2 ← updated E pf pp sk j useed
    assertRes (!sk.prng.eq sk2.prng)
    subKeysValid E pf pp pk sk2
  let _ ← forRangeWith 2 n sk fun sk j => do
    let sk2 ← updated E pf pp sk j useed
    subKeysValid E pf pp pk sk2
    .ok sk2
  .ok ()

/-- Models `test_long_key_update`, `/repo/src/test/keys.rs` 125-170. -/
def longKeyUpdate (E : Ext G1 G2 GT) (pf : Profile) (pp : PubParam G1 G2) (seed useed : Bytes)
    (n : Nat) : Res Unit := do
  let (pk, sk) ← newKey E pp seed
  forRange 2 n fun j => do
    let sk2 ← updated E pf pp sk j useed
    forRange (j + 1) n fun i => do
      let sk3 ← updated E pf pp sk2 i useed
      subKeysValid E pf pp pk sk3
    subKeysValid E pf pp pk sk2

/-- Models `test_sk_validation`, `/repo/src/test/keys.rs` 173-198. -/
def skValidation (E : Ext G1 G2 GT) (pf : Profile) (pp : PubParam G1 G2) (seed useed : Bytes)
    (n : Nat) : Res Unit := do
  let (pk, sk) ← newKey E pp seed
  must (sk.validate E pf pk pp)
  forRange 2 n fun j => do
    let sk2 ← updated E pf pp sk j useed
    must (sk2.validate E pf pk pp)

/-- Models `test_long_sk_validation`, `/repo/src/test/keys.rs` 204-244. -/
def longSkValidation (E : Ext G1 G2 GT) (pf : Profile) (pp : PubParam G1 G2) (seed useed : Bytes)
    (n : Nat) : Res Unit := do
  let (pk, sk) ← newKey E pp seed
  must (sk.validate E pf pk pp)
  forRange 2 n fun j => do
    let sk2 ← updated E pf pp sk j useed
    must (sk2.validate E pf pk pp)
    forRange (j + 1) n fun i => do
      let sk3 ← updated E pf pp sk2 i useed
      must (sk3.validate E pf pk pp)

/-- Models `test_key_gen`, `/repo/src/test/keys.rs` 247-289.  The buffers start with `size()` zeros
and `serialize` appends to them. -/
def keyGen [DecidableEq G1] [DecidableEq G2] (E : Ext G1 G2 GT) (pf : Profile) (pp : PubParam G1 G2)
    (msk r : Fr) : Res Unit := do
  let alpha := mulFr msk pp.h
  let t ← SubSecretKey.init pp alpha r
  let t1 ← mustOk (SubSecretKey.initFromRandomization pf pp alpha r)
  assertRes (decide (t.g2r = t1.g2r))
  assertRes (decide (t.hpoly = t1.hpoly))
  let b ← mustOk (t.serialize E true)
  let buf : Bytes := List.replicate t.size 0 ++ b
  let b2 ← mustOk (t1.serialize E true)
  let buf2 : Bytes := List.replicate t.size 0 ++ b2
  assertRes (decide (buf = buf2))

/-- Models `test_randomization`, `/repo/src/test/keys.rs` 292-341; `r2` is 12345. -/
def randomizationTest (E : Ext G1 G2 GT) (pf : Profile) (pp : PubParam G1 G2) (msk r r2 : Fr) :
    Res Unit := do
  let alpha := mulFr msk pp.h
  let pk ← mustOk (PublicKey.init pp (mulFr msk pp.g2))
  let t ← SubSecretKey.init pp alpha r
  must (t.validate E pf pk pp)
  let (_, t) ← mustOk ((SubSecretKey.randomization pf pp r2).exec t)
  must (t.validate E pf pk pp)

/-- The body of the loops of `test_delegate`, `/repo/src/test/keys.rs` 396-422 and 426-457. -/
def delegateRound (E : Ext G1 G2 GT) (pf : Profile) (pp : PubParam G1 G2) (pk : PublicKey G2)
    (r2 : Fr) (t : SubSecretKey G1 G2) (i : Nat) : Res (SubSecretKey G1 G2) := do
  let (_, t) ← mustOk ((SubSecretKey.delegate pf i pp.depth).exec t)
  must (t.validate E pf pk pp)
  let (_, t) ← mustOk ((SubSecretKey.randomization pf pp r2).exec t)
  must (t.validate E pf pk pp)
  .ok t

/-- Models `test_delegate`, `/repo/src/test/keys.rs` 344-458; `n` is 5. -/
def delegateTest (E : Ext G1 G2 GT) (pf : Profile) (pp : PubParam G1 G2) (msk r r2 : Fr) (n : Nat) :
    Res Unit := do
  let alpha := mulFr msk pp.h
  let pk ← mustOk (PublicKey.init pp (mulFr msk pp.g2))
  let t ← SubSecretKey.init pp alpha r
  let t1 := t
  must (t.validate E pf pk pp)
  let (_, t) ← mustOk ((SubSecretKey.randomization pf pp r2).exec t)
  must (t.validate E pf pk pp)
  let _ ← forRangeWith 2 n t (delegateRound E pf pp pk r2)
  forRange 2 n fun i => do
    let _ ← delegateRound E pf pp pk r2 t1 i
    .ok ()

/-! ## `/repo/src/test/sig.rs` -/

/-- The first part of `test_must_fails_mismatch`, `/repo/src/test/sig.rs` 37-46: each proof of
possession with each public key. -/
def mismatchPops (E : Ext G1 G2 GT) (k1 k2 k3 : PublicKey G2 × ProofOfPossession G1) : Res Unit := do
  assertRes (k1.1.validate E k1.2)
  assertRes (!k1.1.validate E k2.2)
  assertRes (!k1.1.validate E k3.2)
  assertRes (k2.1.validate E k2.2)
  assertRes (!k2.1.validate E k1.2)
  assertRes (!k2.1.validate E k3.2)
  assertRes (k3.1.validate E k3.2)
  assertRes (!k3.1.validate E k1.2)
  assertRes (!k3.1.validate E k2.2)

/-- Models `test_must_fails_mismatch`, `/repo/src/test/sig.rs` 20-76; `pp2` there is a clone of
`pp1`. -/
def mismatch (E : Ext G1 G2 GT) (pf : Profile) (pp1 pp3 : PubParam G1 G2)
    (seed1 seed2 seed3 msg1 msg2 : Bytes) : Res Unit := do
  let pp2 := pp1
  let (pk1, sk1, pop1) ← Ffi.unwrap (keygen E seed1 pp1)
  let (pk2, sk2, pop2) ← Ffi.unwrap (keygen E seed2 pp2)
  let (pk3, _, pop3) ← Ffi.unwrap (keygen E seed3 pp3)
  mismatchPops E (pk1, pop1) (pk2, pop2) (pk3, pop3)
  let sig11 ← mustOk (Signature.signBytes E.sha512 pf sk1 1 pp1 msg1)
  let sig12 ← mustOk (Signature.signBytes E.sha512 pf sk1 1 pp1 msg2)
  must (sig11.verifyBytes E pf pk1 pp1 msg1)
  mustNot (sig11.verifyBytes E pf pk2 pp1 msg1)
  mustNot (sig11.verifyBytes E pf pk1 pp3 msg1)
  mustNot (sig11.verifyBytes E pf pk1 pp1 msg2)
  mustNot (sig12.verifyBytes E pf pk1 pp1 msg1)
  let sig21 ← mustOk (Signature.signBytes E.sha512 pf sk2 1 pp1 msg1)
  let sig22 ← mustOk (Signature.signBytes E.sha512 pf sk2 1 pp1 msg2)
  must (sig21.verifyBytes E pf pk2 pp2 msg1)
  mustNot (sig21.verifyBytes E pf pk1 pp1 msg1)
  mustNot (sig21.verifyBytes E pf pk1 pp3 msg1)
  mustNot (sig21.verifyBytes E pf pk1 pp1 msg2)
  mustNot (sig22.verifyBytes E pf pk1 pp1 msg1)

/-- Models `test_must_fails_time_stamp`, `/repo/src/test/sig.rs` 79-121; `tar` is 10.  After each
failing call the key goes on as the call left it. -/
def mustFailTime (E : Ext G1 G2 GT) (pf : Profile) (pp : PubParam G1 G2) (seed msg useed : Bytes)
    (tar : Nat) : Res Unit := do
  let (_, sk, _) ← Ffi.unwrap (keygen E seed pp)
  let sk2 := sk
  mustErr (Signature.signPresent E.sha512 pf 2 pp msg sk).1
  let (_, sk2) ← mustOk ((SecretKey.update E.sha512 pf pp tar useed).exec sk2)
  let x := Signature.signPresent E.sha512 pf 0 pp msg sk2
  mustErr x.1
  let x := Signature.signPresent E.sha512 pf (tar - 1) pp msg x.2
  mustErr x.1
  let x := Signature.signPresent E.sha512 pf (tar + 1) pp msg x.2
  mustErr x.1
  let x := Signature.sign E.sha512 pf 0 pp msg useed x.2
  mustErr x.1
  let x := Signature.sign E.sha512 pf (tar - 1) pp msg useed x.2
  mustErr x.1
  let x := Signature.sign E.sha512 pf tar pp msg useed x.2
  let _ ← mustOk x.1
  let y := SecretKey.update E.sha512 pf pp 0 useed x.2
  mustErr y.1
  let y := SecretKey.update E.sha512 pf pp (tar - 1) useed y.2
  mustErr y.1
  let y := SecretKey.update E.sha512 pf pp tar useed y.2
  mustErr y.1

/-- Models `test_quick_signature_tests`, `/repo/src/test/sig.rs` 129-156. -/
def quickSignature (E : Ext G1 G2 GT) (pf : Profile) (pp : PubParam G1 G2) (seed useed msg : Bytes)
    (n : Nat) : Res Unit := do
  let (pk, sk) ← newKey E pp seed
  let _ ← signed E pf pp pk sk 1 msg
  forRange 2 n fun j => do
    let sk2 ← updated E pf pp sk j useed
    let _ ← signed E pf pp pk sk2 sk2.time msg
    .ok ()

/-- Models `test_long_signature_tests`, `/repo/src/test/sig.rs` 162-210. -/
def longSignature (E : Ext G1 G2 GT) (pf : Profile) (pp : PubParam G1 G2) (seed useed msg : Bytes)
    (n : Nat) : Res Unit := do
  let (pk, sk) ← newKey E pp seed
  let _ ← signed E pf pp pk sk 1 msg
  forRange 2 n fun j => do
    let sk2 ← updated E pf pp sk j useed
    must (sk2.validate E pf pk pp)
    forRange (j + 1) n fun i => do
      let sk3 ← updated E pf pp sk2 i useed
      must (sk3.validate E pf pk pp)
      let _ ← signed E pf pp pk sk3 sk3.time msg
      .ok ()
    let _ ← signed E pf pp pk sk2 sk2.time msg
    .ok ()

/-- `Signature::aggregate_without_validate(&siglist).unwrap()`, then `assert!` of
`sig_agg.verify_bytes_aggregated(&pklist, &pp, msg)`. -/
def aggregated (E : Ext G1 G2 GT) (pf : Profile) (pp : PubParam G1 G2)
    (pks : List (PublicKey G2)) (sigs : List (Signature G1 G2)) (msg : Bytes) : Res Unit := do
  let agg ← Ffi.unwrap (Signature.aggregateWithoutValidate sigs)
  must (agg.verifyBytesAggregated E pf pks pp msg)

/-- Models `test_quick_aggregated_signature_tests`, `/repo/src/test/sig.rs` 219-276, and
`test_long_aggregated_signature_tests`, 286-343, which does the same; `seeds` are the ten seeds
`this is a very very long seed for testing #{i}`.  The list of signatures is never changed after the
first loop, so all aggregates are made of the signatures for time 1. -/
def aggregatedSignatures (E : Ext G1 G2 GT) (pf : Profile) (pp : PubParam G1 G2) (seeds : List Bytes)
    (useed msg : Bytes) (n : Nat) : Res Unit := do
  let keys ← collect seeds (newKey E pp)
  let sigs ← collect keys fun k => signed E pf pp k.1 k.2 1 msg
  aggregated E pf pp (keys.map (·.1)) sigs msg
  forRange 2 n fun j => do
    Kat.forEach keys fun k => do
      let sk2 ← updated E pf pp k.2 j useed
      let _ ← signed E pf pp k.1 sk2 sk2.time msg
      .ok ()
    aggregated E pf pp (keys.map (·.1)) sigs msg

/-! ## `/repo/src/test/serdes.rs` -/

/-- `T::deserialize(&mut buf[..].as_ref(), true).unwrap()` -/
def reread {α : Type} (p : SM Bytes α) (buf : Bytes) : Res α := Ffi.unwrap (p buf).1

/-- Models `test_ssk_serialization_rand`, `/repo/src/test/serdes.rs` 18-47. -/
def sskRand [DecidableEq G1] [DecidableEq G2] (E : Ext G1 G2 GT) (pp : PubParam G1 G2) (msk r : Fr) :
    Res Unit := do
  let alpha := mulFr msk pp.h
  let t ← SubSecretKey.init pp alpha r
  let buf ← mustOk (t.serialize E true)
  assertRes (decide (buf.length = t.size))
  let s ← reread (SubSecretKey.deserialize E true) buf
  assertRes (SecretKey.sskEq t s)

/-- The part of `test_sk_serialization_rand` that is done for each key, `/repo/src/test/serdes.rs`
62-79 and 96-112. -/
def skWrite [DecidableEq G1] [DecidableEq G2] (E : Ext G1 G2 GT) (pf : Profile) (pp : PubParam G1 G2)
    (sk : SecretKey G1 G2) (j : Nat) : Res Unit := do
  let estsize ← Ffi.unwrap (SecretKey.estimateSize pf j pp.depth)
  assertRes (decide (sk.size = estsize))
  let buf ← mustOk (sk.serialize E true)
  assertRes (decide (buf.length = sk.size))
  let sk' ← reread (SecretKey.deserialize E true) buf
  assertRes (sk.eq sk')

/-- Models `test_sk_serialization_rand`, `/repo/src/test/serdes.rs` 50-114. -/
def skRand [DecidableEq G1] [DecidableEq G2] (E : Ext G1 G2 GT) (pf : Profile) (pp : PubParam G1 G2)
    (seed useed : Bytes) (n : Nat) : Res Unit := do
  let (pk, sk) ← newKey E pp seed
  skWrite E pf pp sk 1
  forRange 2 n fun j => do
    let sk2 ← updated E pf pp sk j useed
    must (sk2.validate E pf pk pp)
    skWrite E pf pp sk2 j

/-- Models `test_pk_serialization_rand`, `/repo/src/test/serdes.rs` 117-142; `PK_LEN` is 49. -/
def pkRand [DecidableEq G2] (E : Ext G1 G2 GT) (pp : PubParam G1 G2) (seed : Bytes) : Res Unit := do
  let (pk, _) ← newKey E pp seed
  let buf ← mustOk (pk.serialize E true)
  assertRes (decide (buf.length = 49))
  let pk' ← reread (PublicKey.deserialize E true) buf
  assertRes (pk.eq pk')

/-- Models `test_signature_serialization_rand`, `/repo/src/test/serdes.rs` 145-169; `SIG_LEN` is
149. -/
def sigRand [DecidableEq G1] [DecidableEq G2] (E : Ext G1 G2 GT) (pf : Profile) (pp : PubParam G1 G2)
    (seed msg : Bytes) : Res Unit := do
  let (pk, sk) ← newKey E pp seed
  let sig ← signed E pf pp pk sk 1 msg
  let buf ← mustOk (sig.serialize E true)
  assertRes (decide (buf.length = 149))
  let sig' ← reread (Signature.deserialize E true) buf
  assertRes (sig.eq sig')

/-! ## `/repo/src/test/api.rs`, `/repo/src/test/ffi.rs` and `/repo/src/test/getter.rs` -/

/-- `let res = Pixel::sign(&mut sk, j, &pp, msg, seed); assert!(res.is_ok(), ..); let sig =
res.unwrap(); assert!(Pixel::verify(&pk, &pp, msg, &sig), ..);` — the key as the call leaves it -/
def apiSign (E : Ext G1 G2 GT) (pf : Profile) (pp : PubParam G1 G2) (pk : PublicKey G2)
    (useed msg : Bytes) (sk : SecretKey G1 G2) (j : Nat) : Res (SecretKey G1 G2) := do
  let (sig, sk) ← mustOk ((Signature.sign E.sha512 pf j pp msg useed).exec sk)
  must (sig.verifyBytes E pf pk pp msg)
  .ok sk

/-- Models `test_pixel_api`, `/repo/src/test/api.rs` 8-44, after `Pixel::param_gen`. -/
def api (E : Ext G1 G2 GT) (pf : Profile) (pp : PubParam G1 G2) (seed useed msg : Bytes) (n : Nat) :
    Res Unit := do
  let (pk, sk) ← newKey E pp seed
  let sk2 := sk
  let sk ← apiSign E pf pp pk useed msg sk 1
  let _ ← forRangeWith 2 n sk fun sk j => do
    let sk ← updated E pf pp sk j useed
    apiSign E pf pp pk useed msg sk j
  forRange 2 n fun j => do
    let _ ← apiSign E pf pp pk useed msg sk2 j
    .ok ()

/-- Models `test_pixel_ffi_basic`, `/repo/src/test/ffi.rs` 6-30.  `c_sk_update` is always called
with the key of the key pair, and the update seed is the key generation seed. -/
def ffiBasic (E : Ext G1 G2 GT) (pf : Profile) (seed msg : Bytes) (n : Nat) : Res Unit := do
  let _ ← Ffi.cEstimateSkSize pf 1 Ffi.cGetDepth
  let kp ← Ffi.cKeygen E seed
  must (Ffi.cVerifyPop E kp.pk kp.pop)
  let sig ← Ffi.cSignPresent E pf kp.sk msg 1
  must (Ffi.cVerify E pf kp.pk msg sig)
  forRange 2 n fun j => do
    let skNew ← Ffi.cSkUpdate E pf kp.sk seed j
    let sig ← Ffi.cSignPresent E pf skNew msg j
    must (Ffi.cVerify E pf kp.pk msg sig)

/-- Models `test_pixel_ffi_aggregation`, `/repo/src/test/ffi.rs` 33-56. -/
def ffiAggregation (E : Ext G1 G2 GT) (pf : Profile) (seed1 seed2 msg : Bytes) : Res Unit := do
  let kp1 ← Ffi.cKeygen E seed1
  let kp2 ← Ffi.cKeygen E seed2
  let sig1 ← Ffi.cSignPresent E pf kp1.sk msg 1
  let sig2 ← Ffi.cSignPresent E pf kp2.sk msg 1
  let agg ← Ffi.cAggregation E [sig1, sig2]
  must (Ffi.cVerifyAgg E pf [kp1.pk, kp2.pk] msg agg)

/-- Models `test_sk_getter`, `/repo/src/test/getter.rs` 30-38. -/
def skGetter (E : Ext G1 G2 GT) (pp : PubParam G1 G2) (seed : Bytes) : Res Unit := do
  let (_, sk, _) ← Ffi.unwrap (keygen E seed pp)
  assertRes (decide (sk.ciphersuite = 0))
  assertRes (decide (sk.time = 1))
  let _ ← mustOk (sk.digest E)
  .ok ()

/-- Models `test_ssk_getter`, `/repo/src/test/getter.rs` 50-60. -/
def sskGetter (E : Ext G1 G2 GT) (pp : PubParam G1 G2) (seed : Bytes) : Res Unit := do
  let (_, sk, _) ← Ffi.unwrap (keygen E seed pp)
  let ssk ← Ffi.unwrap sk.firstSsk
  assertRes (decide (ssk.time = 1))

end Pixel.Tests
