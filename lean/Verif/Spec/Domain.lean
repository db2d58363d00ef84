import Verif.Basic

/-!
# The documented derivation strings (independent of the model)

`/repo/src/domain_sep.rs` and the comments in `key_pair.rs`, `secret_key.rs`, `sig.rs` describe
which string each use of the PRNG feeds to HKDF-Expand.
-/

namespace Pixel.Spec

/-- What a PRNG draw is used for. -/
inductive Purpose where
  | masterKey
  | keyInit
  | signing
  | keyUpdate
  | reseed
deriving DecidableEq

/-- the bytes of an ASCII text -/
def text (s : String) : List UInt8 := s.toUTF8.toList

/-- A time stamp as four bytes, most significant first, reduced modulo `2 ^ 32`. -/
def be32 (t : Nat) : List UInt8 :=
  [UInt8.ofNat (t / 2 ^ 24), UInt8.ofNat (t / 2 ^ 16), UInt8.ofNat (t / 2 ^ 8), UInt8.ofNat t]

/-- `InfoFor p b`: the string `b` may be fed to HKDF-Expand for purpose `p`. -/
inductive InfoFor : Purpose → List UInt8 → Prop
  | masterKey : InfoFor .masterKey (text "key initialization")
  | keyInit : InfoFor .keyInit (text "Pixel secret key init" ++ [0, 0, 0, 1])
  | signing (msg : List UInt8) (t : Nat) :
      InfoFor .signing (text "Pixel randomness for signing" ++ msg ++ be32 t)
  | keyUpdate : InfoFor .keyUpdate (text "Pixel secret key update")
  | reseed (t : Nat) : InfoFor .reseed (text "Pixel secret key rerandomize expand" ++ be32 t)

end Pixel.Spec
