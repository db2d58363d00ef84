import Verif.Model.Sig

/-!
# Model of `/repo/src/serdes.rs`, and of `SecretKey::digest`

A writer is a `Vec<u8>`: `serialize` returns the appended bytes.  A reader is the list of
remaining bytes (`&[u8]` / `Cursor`).
-/

namespace Pixel

variable {G1 G2 GT : Type} [AddCommGroup G1] [AddCommGroup G2] [CommGroup GT]

/-- `reader.read_exact(&mut [0u8; n])` on a byte slice.  (On failure the position of the reader is
left alone; the crate never reads on after such an error.) -/
def readExact (n : Nat) : SM Bytes Bytes :=
  ⟨fun s => if n ≤ s.length then (.ok (s.take n), s.drop n) else (.err .eof, s)⟩

/-- `reader.read(&mut [0u8; 1])` on a byte slice into a zeroed buffer: at the end of the input it
reads nothing and reports no error. -/
def readByteLax : SM Bytes UInt8 where
  run s := match s with
    | [] => (.ok 0, [])
    | b :: rest => (.ok b, rest)

/-- Run a reader `n` times (`for _ in 0..n { v.push(deserialize(reader)?) }`). -/
def readMany {α : Type} (p : SM Bytes α) : Nat → SM Bytes (List α)
  | 0 => pure []
  | n + 1 => do
    let x ← p
    let xs ← readMany p n
    pure (x :: xs)

namespace ProofOfPossession

/-- Models `ProofOfPossession::serialize`, `/repo/src/serdes.rs` 24-35. -/
def serialize (E : Ext G1 G2 GT) (compressed : Bool) (self : ProofOfPossession G1) : Res Bytes :=
  if !validCiphersuite.contains self.ciphersuite then .err .ciphersuite
  else .ok ([self.ciphersuite] ++ E.encG1 compressed self.pop)

/-- Models `ProofOfPossession::deserialize`, `/repo/src/serdes.rs` 46-62. -/
def deserialize (E : Ext G1 G2 GT) (compressed : Bool) : SM Bytes (ProofOfPossession G1) := do
  let constants ← readExact 1
  let c0 ← SM.lift (idx constants 0)
  if !validCiphersuite.contains c0 then
    SM.err .ciphersuite
  else do
    let pop ← E.decG1 compressed
    pure { ciphersuite := c0, pop := pop }

end ProofOfPossession

namespace Signature

/-- Models `Signature::serialize`, `/repo/src/serdes.rs` 72-102. -/
def serialize (E : Ext G1 G2 GT) (compressed : Bool) (self : Signature G1 G2) : Res Bytes :=
  if !validCiphersuite.contains self.ciphersuite then .err .ciphersuite
  else if self.time ≥ 2 ^ 32 then .err .serial
  else .ok ([self.ciphersuite] ++ timeBytes self.time ++ E.encG2 compressed self.sigma1
    ++ E.encG1 compressed self.sigma2)

/-- Models `Signature::deserialize`, `/repo/src/serdes.rs` 113-152. -/
def deserialize (E : Ext G1 G2 GT) (compressed : Bool) : SM Bytes (Signature G1 G2) := do
  let constants ← readExact 1
  let time ← readExact 4
  let time := beNat time
  if time = 0 then
    SM.err .timeStamp
  else do
    let c0 ← SM.lift (idx constants 0)
    if !validCiphersuite.contains c0 then
      SM.err .ciphersuite
    else do
      let sigma1 ← E.decG2 compressed
      if !compressed then
        SM.err .compress
      else do
        let sigma2 ← E.decG1 compressed
        if !compressed then
          SM.err .compress
        else
          pure { ciphersuite := c0, time := time, sigma1 := sigma1, sigma2 := sigma2 }

end Signature

namespace PublicKey

/-- Models `PublicKey::serialize`, `/repo/src/serdes.rs` 161-173. -/
def serialize (E : Ext G1 G2 GT) (compressed : Bool) (self : PublicKey G2) : Res Bytes :=
  if !validCiphersuite.contains self.ciphersuite then .err .ciphersuite
  else .ok ([self.ciphersuite] ++ E.encG2 compressed self.pk)

/-- Models `PublicKey::deserialize`, `/repo/src/serdes.rs` 179-194. -/
def deserialize (E : Ext G1 G2 GT) (compressed : Bool) : SM Bytes (PublicKey G2) := do
  let constants ← readExact 1
  let c0 ← SM.lift (idx constants 0)
  if !validCiphersuite.contains c0 then
    SM.err .ciphersuite
  else do
    let pk ← E.decG2 compressed
    pure { ciphersuite := c0, pk := pk }

end PublicKey

namespace SubSecretKey

/-- Models `SubSecretKey::serialize`, `/repo/src/serdes.rs` 291-329.  `hvlen as u8` truncates. -/
def serialize (E : Ext G1 G2 GT) (compressed : Bool) (self : SubSecretKey G1 G2) : Res Bytes :=
  if self.time > 2 ^ 32 then .err .serial
  else .ok (timeBytes self.time ++ [UInt8.ofNat self.hvector.length] ++ E.encG2 compressed self.g2r
    ++ E.encG1 compressed self.hpoly ++ (self.hvector.map (E.encG1 compressed)).flatten)

/-- Models `SubSecretKey::deserialize`, `/repo/src/serdes.rs` 334-365. -/
def deserialize (E : Ext G1 G2 GT) (compressed : Bool) : SM Bytes (SubSecretKey G1 G2) := do
  let time ← readExact 4
  let time := beNat time
  if time = 0 then
    SM.err .timeStamp
  else do
    let hvlen ← readByteLax
    let g2r ← E.decG2 compressed
    let hpoly ← E.decG1 compressed
    let hv ← readMany (E.decG1 compressed) hvlen.toNat
    pure { time := time, g2r := g2r, hpoly := hpoly, hvector := hv }

end SubSecretKey

namespace SecretKey

/-- The loop `for e in &self.ssk_vec() { e.serialize(&mut buf, compressed)?; }`,
`/repo/src/serdes.rs` 226-228. -/
def serializeSsks (E : Ext G1 G2 GT) (compressed : Bool) :
    List (SubSecretKey G1 G2) → Bytes → Res Bytes
  | [], buf => .ok buf
  | e :: es, buf => do
    let b ← e.serialize E compressed
    serializeSsks E compressed es (buf ++ b)

/-- Models `SecretKey::serialize`, `/repo/src/serdes.rs` 211-236.  `ssk_number() as u8`
truncates. -/
def serialize (E : Ext G1 G2 GT) (compressed : Bool) (self : SecretKey G1 G2) : Res Bytes :=
  if !validCiphersuite.contains self.ciphersuite then .err .ciphersuite
  else
    serializeSsks E compressed self.ssk
      ([self.ciphersuite] ++ [UInt8.ofNat self.ssk.length] ++ self.prng.seed)

/-- Models `SecretKey::deserialize`, `/repo/src/serdes.rs` 250-284. -/
def deserialize (E : Ext G1 G2 GT) (compressed : Bool) : SM Bytes (SecretKey G1 G2) := do
  let constants ← readExact 2
  let rngseed ← readExact 64
  let c0 ← SM.lift (idx constants 0)
  if !validCiphersuite.contains c0 then
    SM.err .ciphersuite
  else do
    let c1 ← SM.lift (idx constants 1)
    if c1 = 0 then
      SM.err .deserial
    else do
      let ssk ← SubSecretKey.deserialize E compressed
      let rest ← readMany (SubSecretKey.deserialize E compressed) (c1.toNat - 1)
      let sskVec := ssk :: rest
      let first ← SM.lift (idx sskVec 0)
      pure { ciphersuite := c0, time := first.time, ssk := sskVec, prng := { seed := rngseed } }

/-- Models `SecretKey::digest`, `/repo/src/secret_key.rs` 131-141: the buffer starts as
`vec![0u8; self.size()]` and `serialize` *appends* to it. -/
def digest (E : Ext G1 G2 GT) (self : SecretKey G1 G2) : Res Bytes :=
  let hashinput : Bytes := List.replicate self.size 0
  match self.serialize E true with
  | .ok b => .ok (E.sha512 (hashinput ++ b))
  | .err _ => .err .serial
  | .panic p => .panic p

end SecretKey

end Pixel
