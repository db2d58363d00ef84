import Verif.Model.Serdes

/-!
# Model of `/repo/src/ffi.rs`

C arrays and pointers are byte lists (`Verif/Model/CHeap.lean` adds pointers); a Rust panic crossing the
`extern "C"` boundary is the outcome `Res.panic`.
-/

namespace Pixel

variable {G1 G2 GT : Type} [AddCommGroup G1] [AddCommGroup G2] [CommGroup GT]

namespace Ffi

/-- `match r { Ok(p) => p, Err(e) => panic!(..) }` and `assert!(r.is_ok())`. -/
def unwrap {α : Type} : Res α → Res α
  | .ok a => .ok a
  | .err _ => .panic .explicit
  | .panic p => .panic p

/-- Read an object from a byte buffer, ignoring what is left in the buffer, and panic on error. -/
def parse {α : Type} (p : SM Bytes α) (b : Bytes) : Res α := unwrap (p b).1

/-- `array.copy_from_slice(&buf)` for an array of length `n`. -/
def toArray (n : Nat) (b : Bytes) : Res Bytes :=
  if b.length = n then .ok b else .panic .assertion

/-- Models `pixel_keys`, `/repo/src/ffi.rs` 57-61. -/
structure Keys where
  pk : Bytes
  sk : Bytes
  pop : Bytes

/-- Models `c_keygen`, `/repo/src/ffi.rs` 86-142. -/
def cKeygen (E : Ext G1 G2 GT) (seed : Bytes) : Res Keys := do
  let pp := E.defaultParam
  let (pk, sk, pop) ← unwrap (keygen E seed pp)
  let pkBuf ← unwrap (pk.serialize E true)
  let skBuf ← unwrap (sk.serialize E true)
  let popBuf ← unwrap (pop.serialize E true)
  let pkArray ← toArray 49 pkBuf
  let popArray ← toArray 97 popBuf
  .ok { pk := pkArray, sk := skBuf, pop := popArray }

/-- Models `c_sign_present`, `/repo/src/ffi.rs` 149-183. -/
def cSignPresent (E : Ext G1 G2 GT) (pf : Profile) (sk msg : Bytes) (tarTime : Nat) :
    Res Bytes := do
  let pp := E.defaultParam
  let k ← parse (SecretKey.deserialize E true) sk
  let sig ← unwrap (Signature.signPresent E.sha512 pf tarTime pp msg k).1
  let sigBuf ← unwrap (sig.serialize E true)
  toArray 149 sigBuf

/-- Models `c_verify`, `/repo/src/ffi.rs` 188-220. -/
def cVerify [DecidableEq GT] (E : Ext G1 G2 GT) (pf : Profile) (pk msg sig : Bytes) :
    Res Bool := do
  let pp := E.defaultParam
  let k ← parse (PublicKey.deserialize E true) pk
  let s ← parse (Signature.deserialize E true) sig
  Signature.verifyBytes E pf s k pp msg

/-- Models `c_sk_update`, `/repo/src/ffi.rs` 227-275: the input blob is only read. -/
def cSkUpdate (E : Ext G1 G2 GT) (pf : Profile) (sk seed : Bytes) (tarTime : Nat) :
    Res Bytes := do
  let pp := E.defaultParam
  let k ← parse (SecretKey.deserialize E true) sk
  let (_, k) ← unwrap ((SecretKey.update E.sha512 pf pp tarTime seed).exec k)
  unwrap (k.serialize E true)

/-- The decoding loops `/repo/src/ffi.rs` 289-300 and 334-345. -/
def parseAll {α : Type} (p : SM Bytes α) : List Bytes → Res (List α)
  | [] => .ok []
  | b :: bs => do
    let x ← parse p b
    let xs ← parseAll p bs
    .ok (x :: xs)

/-- Models `c_aggregation`, `/repo/src/ffi.rs` 281-319. -/
def cAggregation (E : Ext G1 G2 GT) (sigList : List Bytes) : Res Bytes := do
  let sigVec ← parseAll (Signature.deserialize E true) sigList
  let agg ← unwrap (Signature.aggregateWithoutValidate sigVec)
  let sigBuf ← unwrap (agg.serialize E true)
  toArray 149 sigBuf

/-- Models `c_verify_agg`, `/repo/src/ffi.rs` 323-360. -/
def cVerifyAgg [DecidableEq GT] (E : Ext G1 G2 GT) (pf : Profile) (pkList : List Bytes)
    (msg aggSig : Bytes) : Res Bool := do
  let pp := E.defaultParam
  let pkVec ← parseAll (PublicKey.deserialize E true) pkList
  let sig ← parse (Signature.deserialize E true) aggSig
  Signature.verifyBytesAggregated E pf sig pkVec pp msg

/-- Models `c_verify_pop`, `/repo/src/ffi.rs` 364-388. -/
def cVerifyPop [DecidableEq GT] (E : Ext G1 G2 GT) (pk pop : Bytes) : Res Bool := do
  let k ← parse (PublicKey.deserialize E true) pk
  let p ← parse (ProofOfPossession.deserialize E true) pop
  .ok (k.validate E p)

/-- Models `c_estimate_sk_size`, `/repo/src/ffi.rs` 393-398. -/
def cEstimateSkSize (pf : Profile) (time depth : Nat) : Res Nat :=
  unwrap (SecretKey.estimateSize pf time depth)

/-- Models `c_get_depth`, `/repo/src/ffi.rs` 402-404; `CONST_D` is 32 (crate `pixel_param`). -/
def cGetDepth : Nat := 32

end Ffi

end Pixel
