import Verif.Basic

/-!
# HMAC and HKDF as in the RFCs

RFC 2104 and RFC 5869 for a hash function `H` with blocks of 128 bytes and outputs of 64 (SHA-512),
written from the documents.
-/

namespace Pixel.Spec.Rfc

open Pixel

variable (H : Bytes → Bytes)

/-- RFC 2104 §2: the key, hashed if it is longer than a block, filled up with zeros: byte `i` of `K0` -/
def keyByte (K : Bytes) (i : Nat) : UInt8 :=
  ((if 128 < K.length then H K else K)[i]?).getD 0

/-- `H(K XOR opad, H(K XOR ipad, text))` -/
def HMAC (K text : Bytes) : Bytes :=
  H ((List.range 128).map (fun i => 0x5c ^^^ keyByte H K i) ++
    H ((List.range 128).map (fun i => 0x36 ^^^ keyByte H K i) ++ text))

/-- RFC 5869 §2.2 -/
def extract (salt IKM : Bytes) : Bytes := HMAC H salt IKM

/-- RFC 5869 §2.3: `T(0) = ""`, `T(i) = HMAC(PRK, T(i-1) | info | i)` -/
def T (PRK info : Bytes) : Nat → Bytes
  | 0 => []
  | i + 1 => HMAC H PRK (T PRK info i ++ info ++ [UInt8.ofNat (i + 1)])

/-- RFC 5869 §2.3: `OKM` is the first `L` octets of `T(1) | … | T(N)`, with `N = ceil(L/64)`, defined for
`L <= 255*64` -/
def Expand (PRK info : Bytes) (L : Nat) (OKM : Bytes) : Prop :=
  L ≤ 255 * 64 ∧ OKM.length = L ∧
    ∃ N, L ≤ 64 * N ∧ 64 * N < L + 64 ∧
      OKM <+: ((List.range N).map fun i => T H PRK info (i + 1)).flatten

end Pixel.Spec.Rfc
