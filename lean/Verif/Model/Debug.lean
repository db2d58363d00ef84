import Verif.Model.Sig

/-!
# The text of secret values

Models the `Debug` instances of the secret types.  How the points are written is left to the caller
(`Debug` of the `pairing` crate), so are the words `assert_ne!` puts around its operands.
-/

namespace Pixel.Debug

variable {G1 G2 : Type}

/-- `{}` of an unsigned integer: its decimal digits. -/
def decimal (n : Nat) : Bytes :=
  if n < 10 then [UInt8.ofNat (48 + n)] else decimal (n / 10) ++ [UInt8.ofNat (48 + n % 10)]

/-- a hexadecimal digit, in lower case -/
def hexDigit (n : Nat) : UInt8 := if n < 10 then UInt8.ofNat (48 + n) else UInt8.ofNat (87 + n)

/-- `{:02x}` of a `u8` -/
def hex2 (b : UInt8) : Bytes := [hexDigit (b.toNat / 16), hexDigit (b.toNat % 16)]

/-- the end of a line -/
def newline : Bytes := [10]

/-- The inner loop of `Debug for PRNG`, `/repo/src/prng.rs` 35-37. -/
def prngLine (p : Prng) (i : Nat) : Bytes :=
  (List.range 8).flatMap (fun j => ascii "0x" ++ hex2 (p.seed.getD (i * 8 + j) 0) ++ ascii ", ")

/-- Models `Debug for PRNG`, `/repo/src/prng.rs` 32-43.  The array has 64 bytes (`Prng.WF`). -/
def prng (p : Prng) : Bytes := (List.range 8).flatMap (fun i => prngLine p i ++ newline)

/-- Models `Debug for SubSecretKey`, `/repo/src/subkeys.rs` 306-325. -/
def ssk (show1 : G1 → Bytes) (show2 : G2 → Bytes) (s : SubSecretKey G1 G2) : Bytes :=
  ascii "================================\n==========Sub Secret key========\ntime : " ++
    decimal s.time ++ ascii "\ng1r: " ++ show2 s.g2r ++ ascii "\nh0 : " ++ show1 s.hpoly ++ newline ++
    ((List.range s.hvector.length).zip s.hvector).flatMap (fun x =>
      ascii "hlist: h" ++ decimal x.1 ++ ascii ": " ++ show1 x.2 ++ newline) ++
    ascii "================================\n"

/-- Models `Debug for SecretKey`, `/repo/src/secret_key.rs` 612-626. -/
def secretKey (show1 : G1 → Bytes) (show2 : G2 → Bytes) (sk : SecretKey G1 G2) : Bytes :=
  ascii "================================\ntime:" ++ decimal sk.time ++ newline ++
    ascii "seed: \n" ++ prng sk.prng ++ newline ++
    ((List.range sk.ssk.length).zip sk.ssk).flatMap (fun x =>
      ascii "========" ++ decimal x.1 ++ ascii "-th subkey============\n" ++
        ssk show1 show2 x.2 ++ newline) ++
    ascii "================================\n"

/-- Models `Debug for Signature`, `/repo/src/sig.rs` 482-496. -/
def signature (show1 : G1 → Bytes) (show2 : G2 → Bytes) (s : Signature G1 G2) : Bytes :=
  ascii "================================\n==========Signature======\nsigma1  : " ++ show2 s.sigma1 ++
    ascii "\nsigma2  : " ++ show1 s.sigma2 ++ newline ++
    ascii "================================\n"

/-- The message of `assert_ne!(new_sk.prng, self.prng, "prng not updated")`,
`/repo/src/secret_key.rs` 392: the two operands, with the words of the standard library around
them. -/
def assertNe (words : Bytes × Bytes × Bytes) (new old : Prng) : Bytes :=
  words.1 ++ prng new ++ words.2.1 ++ prng old ++ words.2.2 ++ ascii "prng not updated"

end Pixel.Debug
