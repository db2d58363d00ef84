import Verif.Model.Ext

/-! # Model of `/repo/src/prng.rs` and `/repo/src/domain_sep.rs`, with HMAC/HKDF-SHA512 -/

namespace Pixel

/-- Bytes of an ASCII string literal (`str::as_bytes`, `as_ref`). -/
def ascii (s : String) : Bytes := s.toList.map (fun c => UInt8.ofNat c.toNat)

/-- Models `/repo/src/domain_sep.rs` 4. -/
def DOM_SEP_HASH_TO_MSG : Bytes := ascii "Pixel hash to message"
/-- Models `/repo/src/domain_sep.rs` 7. -/
def DOM_SEP_SIG : Bytes := ascii "Pixel randomness for signing"
/-- Models `/repo/src/domain_sep.rs` 10. -/
def DOM_SEP_MASTER_KEY : Bytes := ascii "Pixel master key"
/-- Models `/repo/src/domain_sep.rs` 13. -/
def DOM_SEP_SK_INIT : Bytes := ascii "Pixel secret key init"
/-- Models `/repo/src/domain_sep.rs` 16. -/
def DOM_SEP_SK_UPDATE : Bytes := ascii "Pixel secret key update"
/-- Models `/repo/src/domain_sep.rs` 20. -/
def DOM_SEP_SK_RERANDOMIZE_INFO : Bytes := ascii "Pixel secret key rerandomize expand"
/-- Models `/repo/src/domain_sep.rs` 23. -/
def DOM_SEP_POP : Bytes := ascii "Pixel public key POP"

/-- Big-endian integer value of an octet string (OS2IP of RFC 8017 §4.2; also
`u64::from_be_bytes`, `u32::from_be_bytes` and `U512::from(&[u8])` of crate `bigint`). -/
def beNat (b : Bytes) : Nat := b.foldl (fun a x => a * 256 + x.toNat) 0

/-- The `k` low-order bytes of `n`, big endian (`U512::to_big_endian` for `k = 64`). -/
def natToBE : Nat → Nat → Bytes
  | 0, _ => []
  | k + 1, n => natToBE k (n / 256) ++ [UInt8.ofNat (n % 256)]

/-- The four bytes `[(t >> 24 & 0xFF) as u8, (t >> 16 & 0xFF) as u8, (t >> 8 & 0xFF) as u8,
(t & 0xFF) as u8]`, which occur verbatim in `/repo/src/secret_key.rs` 227-232,
`/repo/src/sig.rs` 193-198 and `/repo/src/serdes.rs` 89-92, 303-306. -/
def timeBytes (t : Nat) : Bytes :=
  [UInt8.ofNat ((t >>> 24) &&& 0xFF), UInt8.ofNat ((t >>> 16) &&& 0xFF),
   UInt8.ofNat ((t >>> 8) &&& 0xFF), UInt8.ofNat (t &&& 0xFF)]

section HKDF

/-- The HMAC key block for SHA-512 (block size 128): RFC 2104; crate `hmac` used by `hkdf`. -/
def hmacKey (sha512 : Bytes → Bytes) (key : Bytes) : Bytes :=
  let k := if key.length > 128 then sha512 key else key
  k ++ List.replicate (128 - k.length) 0

/-- HMAC-SHA512 (RFC 2104), crate `hmac` used by `hkdf`. -/
def hmac (sha512 : Bytes → Bytes) (key msg : Bytes) : Bytes :=
  let k := hmacKey sha512 key
  sha512 (k.map (· ^^^ 0x5c) ++ sha512 (k.map (· ^^^ 0x36) ++ msg))

/-- `Hkdf::<Sha512>::extract(Some(salt), ikm).prk` (RFC 5869 §2.2), crate `hkdf`. -/
def hkdfExtract (sha512 : Bytes → Bytes) (salt ikm : Bytes) : Bytes := hmac sha512 salt ikm

/-- Output blocks `T(c), T(c+1), …` of HKDF-Expand (RFC 5869 §2.3), crate `hkdf`. -/
def hkdfBlocks (sha512 : Bytes → Bytes) (prk info : Bytes) : Nat → Nat → Bytes → Bytes
  | 0, _, _ => []
  | n + 1, c, prev =>
    let t := hmac sha512 prk (prev ++ info ++ [UInt8.ofNat c])
    t ++ hkdfBlocks sha512 prk info n (c + 1) t

/-- `Hkdf { prk }.expand(info, &mut okm)` with `okm.len() = len`; `none` is the `InvalidLength`
error.  Crate `hkdf`. -/
def hkdfExpand (sha512 : Bytes → Bytes) (prk info : Bytes) (len : Nat) : Option Bytes :=
  if len > 255 * 64 then none
  else some ((hkdfBlocks sha512 prk info ((len + 63) / 64) 1 []).take len)

end HKDF

/-- Models `PRNG([u8; 64])`, `/repo/src/prng.rs` 20-22.  The array length is a separate
invariant, `Prng.WF`. -/
structure Prng where
  seed : Bytes
deriving DecidableEq, Repr

/-- the length of the Rust array type `[u8; 64]` -/
def Prng.WF (p : Prng) : Prop := p.seed.length = 64

/-- Models `PartialEq for PRNG`, `/repo/src/prng.rs` 46-55. -/
def Prng.eq (a b : Prng) : Bool := (List.range 64).all (fun i => a.seed[i]? == b.seed[i]?)

/-- `Fr::from_repr(FrRepr([l0, l1, l2, l3]))` of the external crate `ff`/`pairing-plus`: the
little-endian limbs must represent an integer below the modulus. -/
def frFromRepr (l0 l1 l2 l3 : Nat) : Option Fr :=
  let n := l0 + l1 * 2 ^ 64 + l2 * 2 ^ 128 + l3 * 2 ^ 192
  if n < rOrder then some (n : Fr) else none

/-- Models `os2ip_mod_p`, `/repo/src/prng.rs` 182-251.  `U512::from(&[u8])` (crate `bigint`)
asserts that there are at most 64 bytes; lines 237-244 only clear memory. -/
def os2ipModP (octStr : Bytes) : Res Fr := do
  assertRes (octStr.length ≤ 64)
  let r := beNat octStr
  let p := beNat ([0, 0, 0, 0, 0, 0, 0, 0, 0, 0, 0, 0, 0, 0, 0, 0, 0, 0, 0, 0, 0, 0, 0, 0, 0, 0, 0, 0,
    0, 0, 0, 0, 0x73, 0xED, 0xA7, 0x53, 0x29, 0x9D, 0x7D, 0x48, 0x33, 0x39, 0xD8, 0x08, 0x09, 0xA1,
    0xD8, 0x05, 0x53, 0xBD, 0xA4, 0x02, 0xFF, 0xFE, 0x5B, 0xFE, 0xFF, 0xFF, 0xFF, 0xFF, 0x00,
    0x00, 0x00, 0x01])
  let t := r % p
  let bytes := natToBE 64 t
  let top ← slice bytes 0 32
  assertRes (top == List.replicate 32 0)
  let b0 ← slice bytes 56 64
  let b1 ← slice bytes 48 56
  let b2 ← slice bytes 40 48
  let b3 ← slice bytes 32 40
  match frFromRepr (beNat b0) (beNat b1) (beNat b2) (beNat b3) with
  | none => .panic .explicit
  | some x => .ok x

/-- `copy_from_slice` into a `[u8; 64]`: panics unless the lengths agree. -/
def copy64 (b : Bytes) : Res Bytes := if b.length = 64 then .ok b else .panic .assertion

/-- Models `PRNG::init`, `/repo/src/prng.rs` 71-79. -/
def Prng.init (sha512 : Bytes → Bytes) (seed salt : Bytes) : Res Prng := do
  let prk := hkdfExtract sha512 salt seed
  let s ← slice prk 0 64
  let s ← copy64 s
  .ok { seed := s }

/-- `assert!(hk.expand(info, &mut out).is_ok())`: `/repo/src/prng.rs` 91-94, 131-134, 157-160. -/
def expandAsserted (sha512 : Bytes → Bytes) (prk info : Bytes) (len : Nat) : Res Bytes :=
  match hkdfExpand sha512 prk info len with
  | none => .panic .assertion
  | some o => .ok o

/-- Models `PRNG::sample_then_update`, `/repo/src/prng.rs` 83-119. -/
def Prng.sampleThenUpdate (sha512 : Bytes → Bytes) (info : Bytes) : SM Prng Fr := do
  let self ← SM.get
  let output ← SM.lift (expandAsserted sha512 self.seed info 128)
  let o1 ← SM.lift (slice output 0 64)
  let r ← SM.lift (os2ipModP o1)
  let o2 ← SM.lift (slice output 64 128)
  let newSeed ← SM.lift (copy64 o2)
  SM.set { seed := newSeed }
  pure r

/-- Models `PRNG::sample`, `/repo/src/prng.rs` 123-145. -/
def Prng.sample (sha512 : Bytes → Bytes) (info : Bytes) : SM Prng Fr := do
  let self ← SM.get
  let output ← SM.lift (expandAsserted sha512 self.seed info 64)
  SM.lift (os2ipModP output)

/-- Models `PRNG::rerandomize`, `/repo/src/prng.rs` 148-175. -/
def Prng.rerandomize (sha512 : Bytes → Bytes) (seed info : Bytes) : SM Prng Unit := do
  let self ← SM.get
  let m ← SM.lift (expandAsserted sha512 self.seed info 128)
  let m1 ← SM.lift (slice m 0 64)
  let m2 ← SM.lift (slice m 64 128)
  let tmp := m1 ++ seed
  let prk := hkdfExtract sha512 m2 tmp
  let s ← SM.lift (slice prk 0 64)
  let s ← SM.lift (copy64 s)
  SM.set { seed := s }

end Pixel
