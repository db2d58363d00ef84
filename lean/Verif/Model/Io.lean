import Verif.Model.Serdes

/-!
# `serialize` and `deserialize` on arbitrary readers and writers

`/repo/src/serdes.rs` is generic in `R: Read` and `W: Write`; `Verif/Model/Serdes.lean` looks at the
special case of a byte slice and a byte vector.  Here a reader or writer is a script of the answers
it gives to successive calls of `read` or `write`.  The loops of `read_exact` and `write_all` are
those of the Rust standard library (not part of `/repo`).
-/

namespace Pixel

variable {G1 G2 GT : Type} [AddCommGroup G1] [AddCommGroup G2] [CommGroup GT]

/-- One answer of a reader to `read`. -/
inductive ReadStep where
  /-- `Ok(n)`: (up to) these bytes; no bytes at all is `Ok(0)` -/
  | data (b : Bytes)
  /-- `Err` of kind `Interrupted` -/
  | interrupted
  /-- `Err` of any other kind -/
  | fail
deriving DecidableEq, Repr

/-- A reader: its future answers.  At the end of the script it is at the end of the file. -/
abbrev Reader := List ReadStep

/-- How `read` can end. -/
inductive ReadRes where
  | ok (b : Bytes)
  | interrupted
  | failed
deriving DecidableEq, Repr

/-- `reader.read(&mut buf)` with a buffer of `n` bytes.  Bytes that do not fit stay for the next
call. -/
def Reader.read (n : Nat) : Reader → ReadRes × Reader
  | [] => (.ok [], [])
  | .data b :: r => (.ok (b.take n), if b.length ≤ n then r else .data (b.drop n) :: r)
  | .interrupted :: r => (.interrupted, r)
  | .fail :: r => (.failed, r)

/-- `reader.read_exact(&mut buf)` with a buffer of `n` bytes (Rust standard library): reads until
the buffer is full, tries again after an interruption, gives up after `Ok(0)` or another error. -/
def readExactR (n : Nat) : SM Reader Bytes where
  run r :=
    let rec loop : Nat → Reader → Res Bytes × Reader
      | 0, r => (.ok [], r)
      | _ + 1, [] => (.err .eof, [])
      | n + 1, .data b :: r =>
        if b = [] then (.err .eof, r)
        else if n + 1 < b.length then (.ok (b.take (n + 1)), .data (b.drop (n + 1)) :: r)
        else match loop (n + 1 - b.length) r with
          | (.ok b', r') => (.ok (b ++ b'), r')
          | (.err e, r') => (.err e, r')
          | (.panic p, r') => (.panic p, r')
      | n + 1, .interrupted :: r => loop (n + 1) r
      | _ + 1, .fail :: r => (.err .io, r)
    loop n r

/-- `let mut hvlen = [0u8; 1]; if reader.read(&mut hvlen).is_err() { return Err(..) }`,
`/repo/src/serdes.rs` 345-349: a plain `read`, so an interruption is an error and `Ok(0)` leaves the
zero in the buffer. -/
def readByteLaxR : SM Reader UInt8 where
  run r := match Reader.read 1 r with
    | (.ok b, r') => (.ok (b.headD 0), r')
    | (.interrupted, r') => (.err .deserial, r')
    | (.failed, r') => (.err .deserial, r')

/-- Run a reader `n` times (`for _ in 0..n { v.push(deserialize(reader)?) }`). -/
def readManyR {α : Type} (p : SM Reader α) : Nat → SM Reader (List α)
  | 0 => pure []
  | n + 1 => do
    let x ← p
    let xs ← readManyR p n
    pure (x :: xs)

/-- The external point decoders on an arbitrary reader: they fill a buffer of the length of the
encoding by `read_exact` and decode the buffer (crate `pairing-plus`). -/
def decR {α : Type} (len : Nat) (dec : SM Bytes α) : SM Reader α := do
  let b ← readExactR len
  SM.lift (dec b).1

/-- `PixelG1::deserialize(reader, compressed)`; 96 or 192 bytes. -/
def decR1 (E : Ext G1 G2 GT) (compressed : Bool) : SM Reader G1 :=
  decR (if compressed then 96 else 192) (E.decG1 compressed)

/-- `PixelG2::deserialize(reader, compressed)`; 48 or 96 bytes. -/
def decR2 (E : Ext G1 G2 GT) (compressed : Bool) : SM Reader G2 :=
  decR (if compressed then 48 else 96) (E.decG2 compressed)

namespace ProofOfPossession

/-- Models `ProofOfPossession::deserialize` for any reader, `/repo/src/serdes.rs` 46-62. -/
def deserializeR (E : Ext G1 G2 GT) (compressed : Bool) : SM Reader (ProofOfPossession G1) := do
  let constants ← readExactR 1
  let c0 ← SM.lift (idx constants 0)
  if !validCiphersuite.contains c0 then
    SM.err .ciphersuite
  else do
    let pop ← decR1 E compressed
    pure { ciphersuite := c0, pop := pop }

end ProofOfPossession

namespace Signature

/-- Models `Signature::deserialize` for any reader, `/repo/src/serdes.rs` 113-152. -/
def deserializeR (E : Ext G1 G2 GT) (compressed : Bool) : SM Reader (Signature G1 G2) := do
  let constants ← readExactR 1
  let time ← readExactR 4
  let time := beNat time
  if time = 0 then
    SM.err .timeStamp
  else do
    let c0 ← SM.lift (idx constants 0)
    if !validCiphersuite.contains c0 then
      SM.err .ciphersuite
    else do
      let sigma1 ← decR2 E compressed
      if !compressed then
        SM.err .compress
      else do
        let sigma2 ← decR1 E compressed
        if !compressed then
          SM.err .compress
        else
          pure { ciphersuite := c0, time := time, sigma1 := sigma1, sigma2 := sigma2 }

end Signature

namespace PublicKey

/-- Models `PublicKey::deserialize` for any reader, `/repo/src/serdes.rs` 179-194. -/
def deserializeR (E : Ext G1 G2 GT) (compressed : Bool) : SM Reader (PublicKey G2) := do
  let constants ← readExactR 1
  let c0 ← SM.lift (idx constants 0)
  if !validCiphersuite.contains c0 then
    SM.err .ciphersuite
  else do
    let pk ← decR2 E compressed
    pure { ciphersuite := c0, pk := pk }

end PublicKey

namespace SubSecretKey

/-- Models `SubSecretKey::deserialize` for any reader, `/repo/src/serdes.rs` 334-365. -/
def deserializeR (E : Ext G1 G2 GT) (compressed : Bool) : SM Reader (SubSecretKey G1 G2) := do
  let time ← readExactR 4
  let time := beNat time
  if time = 0 then
    SM.err .timeStamp
  else do
    let hvlen ← readByteLaxR
    let g2r ← decR2 E compressed
    let hpoly ← decR1 E compressed
    let hv ← readManyR (decR1 E compressed) hvlen.toNat
    pure { time := time, g2r := g2r, hpoly := hpoly, hvector := hv }

end SubSecretKey

namespace SecretKey

/-- Models `SecretKey::deserialize` for any reader, `/repo/src/serdes.rs` 250-284. -/
def deserializeR (E : Ext G1 G2 GT) (compressed : Bool) : SM Reader (SecretKey G1 G2) := do
  let constants ← readExactR 2
  let rngseed ← readExactR 64
  let c0 ← SM.lift (idx constants 0)
  if !validCiphersuite.contains c0 then
    SM.err .ciphersuite
  else do
    let c1 ← SM.lift (idx constants 1)
    if c1 = 0 then
      SM.err .deserial
    else do
      let ssk ← SubSecretKey.deserializeR E compressed
      let rest ← readManyR (SubSecretKey.deserializeR E compressed) (c1.toNat - 1)
      let sskVec := ssk :: rest
      let first ← SM.lift (idx sskVec 0)
      pure { ciphersuite := c0, time := first.time, ssk := sskVec, prng := { seed := rngseed } }

end SecretKey

/-! ### Writers -/

/-- One answer of a writer to `write`. -/
inductive WriteStep where
  /-- takes at most `n` bytes; `n = 0` is `Ok(0)` -/
  | take (n : Nat)
  /-- `Err` of kind `Interrupted` -/
  | interrupted
  /-- `Err` of any other kind -/
  | fail
deriving DecidableEq, Repr

/-- A writer: its future answers (afterwards it takes everything) and the bytes it took. -/
structure Writer where
  script : List WriteStep
  written : Bytes
deriving DecidableEq, Repr

/-- `writer.write_all(&buf)` (Rust standard library): writes until nothing is left, tries again
after an interruption, gives up after `Ok(0)` or another error. -/
def writeAll (buf : Bytes) : SM Writer Unit where
  run w :=
    let rec loop : Bytes → List WriteStep → Bytes → Res Unit × Writer
      | [], s, out => (.ok (), ⟨s, out⟩)
      | b :: buf, [], out => (.ok (), ⟨[], out ++ (b :: buf)⟩)
      | b :: buf, .take n :: s, out =>
        if n = 0 then (.err .io, ⟨s, out⟩)
        else loop ((b :: buf).drop n) s (out ++ (b :: buf).take n)
      | b :: buf, .interrupted :: s, out => loop (b :: buf) s out
      | _ :: _, .fail :: s, out => (.err .io, ⟨s, out⟩)
    loop buf w.script w.written

/-- `ProofOfPossession::serialize` into any writer, `/repo/src/serdes.rs` 24-35: everything is
collected in `buf` and written by one `write_all`. -/
def ProofOfPossession.serializeW (E : Ext G1 G2 GT) (compressed : Bool)
    (self : ProofOfPossession G1) : SM Writer Unit := do
  let buf ← SM.lift (self.serialize E compressed)
  writeAll buf

/-- `Signature::serialize` into any writer, `/repo/src/serdes.rs` 72-102. -/
def Signature.serializeW (E : Ext G1 G2 GT) (compressed : Bool) (self : Signature G1 G2) :
    SM Writer Unit := do
  let buf ← SM.lift (self.serialize E compressed)
  writeAll buf

/-- `PublicKey::serialize` into any writer, `/repo/src/serdes.rs` 161-173. -/
def PublicKey.serializeW (E : Ext G1 G2 GT) (compressed : Bool) (self : PublicKey G2) :
    SM Writer Unit := do
  let buf ← SM.lift (self.serialize E compressed)
  writeAll buf

/-- `SubSecretKey::serialize` into any writer, `/repo/src/serdes.rs` 291-329. -/
def SubSecretKey.serializeW (E : Ext G1 G2 GT) (compressed : Bool) (self : SubSecretKey G1 G2) :
    SM Writer Unit := do
  let buf ← SM.lift (self.serialize E compressed)
  writeAll buf

/-- `SecretKey::serialize` into any writer, `/repo/src/serdes.rs` 211-236; the sub keys are written
to the vector `buf`, so only the last line can fail for the writer. -/
def SecretKey.serializeW (E : Ext G1 G2 GT) (compressed : Bool) (self : SecretKey G1 G2) :
    SM Writer Unit := do
  let buf ← SM.lift (self.serialize E compressed)
  writeAll buf

end Pixel
