import Verif.Model.Debug
import Verif.Model.CHeap

/-!
# The text of public values, and of the structures of the C interface

Models the `Debug` instances that `Model/Debug.lean` leaves out.  `derive(Debug)` writes the name of the
structure and its fields in order, `Name { field: value, field: value }`.  `PublicKey` and
`ProofOfPossession` write their point in projective coordinates, so that one point has many texts: the
text of the point is an argument.  `KeyPair` and `Pixel` have no fields, their text is their name.
-/

namespace Pixel.Debug

variable {G1 G2 : Type}

/-- Models `Debug` for `pixel_pk`, `pixel_pop` and `pixel_sig`, `/repo/src/ffi.rs` 28-35, 45-52 and 71-78. -/
def cBytes (b : Bytes) : Bytes := b.flatMap (fun e => hex2 e ++ ascii ", ") ++ newline

/-- `{:x}`: hexadecimal digits. -/
def hexadecimal (n : Nat) : Bytes :=
  if n < 16 then [hexDigit n] else hexadecimal (n / 16) ++ [hexDigit (n % 16)]

/-- Models the derived `Debug` for `pixel_sk`, `/repo/src/ffi.rs` 12-17.  A raw pointer is written as its
address; `addr` tells the addresses. -/
def cSk (addr : Option CHeap.Ptr → Nat) (k : CHeap.Sk) : Bytes :=
  ascii "pixel_sk { data: 0x" ++ hexadecimal (addr k.data) ++ ascii ", len: " ++ decimal k.len ++ ascii " }"

/-- Models the derived `Debug` for `pixel_keys`, `/repo/src/ffi.rs` 54-61. -/
def cKeys (addr : Option CHeap.Ptr → Nat) (k : CHeap.Keys) : Bytes :=
  ascii "pixel_keys { pk: " ++ cBytes k.pk ++ ascii ", sk: " ++ cSk addr k.sk ++ ascii ", pop: " ++
    cBytes k.pop ++ ascii " }"

/-- Models the derived `Debug` for `PublicKey`, `/repo/src/public_key.rs` 9-15. -/
def publicKey (point : Bytes) (k : PublicKey G2) : Bytes :=
  ascii "PublicKey { ciphersuite: " ++ decimal k.ciphersuite.toNat ++ ascii ", pk: " ++ point ++ ascii " }"

/-- Models the derived `Debug` for `ProofOfPossession`, `/repo/src/pop.rs` 5-11. -/
def pop (point : Bytes) (k : ProofOfPossession G1) : Bytes :=
  ascii "ProofOfPossession { ciphersuite: " ++ decimal k.ciphersuite.toNat ++ ascii ", pop: " ++ point ++
    ascii " }"

/-- `{:?}` of a vector of unsigned integers, after the opening bracket. -/
def items : List Nat → Bytes
  | [] => ascii "]"
  | [x] => decimal x ++ ascii "]"
  | x :: y :: l => decimal x ++ ascii ", " ++ items (y :: l)

/-- Models the derived `Debug` for `TimeVec`, `/repo/src/time.rs` 14-18. -/
def timeVec (v : TimeVec) : Bytes :=
  ascii "TimeVec { time: " ++ decimal v.time ++ ascii ", vec: [" ++ items v.vec ++ ascii " }"

end Pixel.Debug
