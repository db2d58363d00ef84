import Verif.Model.Serdes

/-!
# The known-answer tests of the serialization

`/repo/src/test/serdes.rs` 250-712, as programs: a failed `assert!` is the panic it is in Rust.
The constants are written as big-endian numbers of the given number of bytes.
-/

namespace Pixel.Kat

open Pixel

variable {G1 G2 GT : Type}

/-- `assert!(res.is_ok())` after `T::deserialize(&mut Cursor::new(tmp), compressed)`.  Reading from
a `Cursor` is reading from a slice. -/
def expectOk {α : Type} (p : SM Bytes α) (tmp : Bytes) : Res Unit :=
  match (p tmp).1 with
  | .ok _ => .ok ()
  | .err _ => .panic .assertion
  | .panic x => .panic x

/-- `assert!(res.is_err())` after `T::deserialize(&mut Cursor::new(tmp), compressed)` -/
def expectErr {α : Type} (p : SM Bytes α) (tmp : Bytes) : Res Unit :=
  match (p tmp).1 with
  | .ok _ => .panic .assertion
  | .err _ => .ok ()
  | .panic x => .panic x

/-- a `for` loop over an array -/
def forEach {α : Type} : List α → (α → Res Unit) → Res Unit
  | [], _ => .ok ()
  | a :: l, f => do
    f a
    forEach l f

/-- the bytes of `v`, the last ones first, in front of `acc` -/
def litAux : Nat → Nat → Bytes → Bytes
  | 0, _, acc => acc
  | n + 1, v, acc => litAux n (v / 256) (UInt8.ofNat (v % 256) :: acc)

/-- an array of `n` bytes, written as one number -/
def lit (n v : Nat) : Bytes := litAux n v []

/-- `VALID_G1_ZERO_COM`, `/repo/src/test/serdes.rs` 252-256: the encoding of a 0 element in G1 in compressed mode -/
def validG1ZeroCom : Bytes := lit 48
  0xc00000000000000000000000000000000000000000000000000000000000000000000000000000000000000000000000

/-- `VALID_G1_ZERO_UNCOM`, `/repo/src/test/serdes.rs` 260-267: the encoding of a 0 element in G1 in uncompressed mode -/
def validG1ZeroUncom : Bytes := lit 96
  0x400000000000000000000000000000000000000000000000000000000000000000000000000000000000000000000000000000000000000000000000000000000000000000000000000000000000000000000000000000000000000000000000

/-- `VALID_G1_COM`, `/repo/src/test/serdes.rs` 271-275: the encoding of a random element in G1 in compressed mode -/
def validG1Com : Bytes := lit 48
  0xb8d2c41d7ae7d3539d815282852850605ca3cc01d6939b0e2a132bd03a5aafcbd792b5e185b4be72e9add9e577c17666

/-- `INVALID_G1_ZERO_DATA_1`, `/repo/src/test/serdes.rs` 282-286: the 2-nd byte is changed -/
def invalidG1ZeroData1 : Bytes := lit 48
  0xc01000000000000000000000000000000000000000000000000000000000000000000000000000000000000000000000

/-- `INVALID_G1_ZERO_DATA_2`, `/repo/src/test/serdes.rs` 290-297: the 5-th byte is modified -/
def invalidG1ZeroData2 : Bytes := lit 96
  0x400000000100000000000000000000000000000000000000000000000000000000000000000000000000000000000000000000000000000000000000000000000000000000000000000000000000000000000000000000000000000000000000

/-- `INVALID_G1_ZERO_COM`, `/repo/src/test/serdes.rs` 301-305: the compressed flag is unset -/
def invalidG1ZeroCom : Bytes := lit 48
  0x400000000000000000000000000000000000000000000000000000000000000000000000000000000000000000000000

/-- `INVALID_G1_ZERO_COM_LEN`, `/repo/src/test/serdes.rs` 309-313: the length is not correct -/
def invalidG1ZeroComLen : Bytes := lit 47
  0xc000000000000000000000000000000000000000000000000000000000000000000000000000000000000000000000

/-- `INVALID_G1_ZERO_UNCOM_LEN`, `/repo/src/test/serdes.rs` 317-324: the length is not correct -/
def invalidG1ZeroUncomLen : Bytes := lit 95
  0x4000000000000000000000000000000000000000000000000000000000000000000000000000000000000000000000000000000000000000000000000000000000000000000000000000000000000000000000000000000000000000000000

/-- `INVALID_G1_DATA`, `/repo/src/test/serdes.rs` 328-332: modified one byte -/
def invalidG1Data : Bytes := lit 48
  0xb8d2c41d7ae7d3539d815282852850605ca4cc01d6939b0e2a132bd03a5aafcbd792b5e185b4be72e9add9e577c17666

/-- `INVALID_G1_LEN`, `/repo/src/test/serdes.rs` 336-340: the length is not correct -/
def invalidG1Len : Bytes := lit 47
  0xb8d2c41d7ae7d3539d815282852850605ca3cc01d6939b0e2a132bd03a5aafcbd792b5e185b4be72e9add9e577c176

/-- `INVALID_G1_COM`, `/repo/src/test/serdes.rs` 344-348: the compressed flag is unset -/
def invalidG1Com : Bytes := lit 48
  0x28d2c41d7ae7d3539d815282852850605ca3cc01d6939b0e2a132bd03a5aafcbd792b5e185b4be72e9add9e577c17666

/-- `VALID_G2_ZERO_COM`, `/repo/src/test/serdes.rs` 416-423: the encoding of a 0 element in G2 in compressed mode -/
def validG2ZeroCom : Bytes := lit 96
  0xc00000000000000000000000000000000000000000000000000000000000000000000000000000000000000000000000000000000000000000000000000000000000000000000000000000000000000000000000000000000000000000000000

/-- `VALID_G2_ZERO_UNCOM`, `/repo/src/test/serdes.rs` 426-439: the encoding of a 0 element in G2 in uncompressed mode -/
def validG2ZeroUncom : Bytes := lit 192
  0x400000000000000000000000000000000000000000000000000000000000000000000000000000000000000000000000000000000000000000000000000000000000000000000000000000000000000000000000000000000000000000000000000000000000000000000000000000000000000000000000000000000000000000000000000000000000000000000000000000000000000000000000000000000000000000000000000000000000000000000000000000000000000000000000

/-- `VALID_G2_COM`, `/repo/src/test/serdes.rs` 443-450: the encoding of a random element in G2 in compressed mode -/
def validG2Com : Bytes := lit 96
  0x909cd334a9d0cc8e7b3004982b928ace4107fb7ef5210574266d5a84355ae7647d491a1acc5e3ad33a8cce4f4709b7f60e7fd9b1cd92d89d96311f4c486c35d0e72617d916061ea7aed7cd4882969ee5dcae568b7f1a55411bda7b2e4b66b38d

/-- `INVALID_G2_ZERO_DATA_1`, `/repo/src/test/serdes.rs` 457-464: the 2-nd byte is modified -/
def invalidG2ZeroData1 : Bytes := lit 96
  0xc01000000000000000000000000000000000000000000000000000000000000000000000000000000000000000000000000000000000000000000000000000000000000000000000000000000000000000000000000000000000000000000000

/-- `INVALID_G2_ZERO_DATA_2`, `/repo/src/test/serdes.rs` 468-481: the 55-th byte is modified -/
def invalidG2ZeroData2 : Bytes := lit 192
  0x400000000000000000000000000000000000000000000000000000000000000000000000000000000000000000000000000000000000100000000000000000000000000000000000000000000000000000000000000000000000000000000000000000000000000000000000000000000000000000000000000000000000000000000000000000000000000000000000000000000000000000000000000000000000000000000000000000000000000000000000000000000000000000000000

/-- `INVALID_G2_ZERO_COM`, `/repo/src/test/serdes.rs` 485-492: the compressed flag is unset -/
def invalidG2ZeroCom : Bytes := lit 96
  0x401000000000000000000000000000000000000000000000000000000000000000000000000000000000000000000000000000000000000000000000000000000000000000000000000000000000000000000000000000000000000000000000

/-- `INVALID_G2_ZERO_COM_LEN`, `/repo/src/test/serdes.rs` 496-509: the length is not correct -/
def invalidG2ZeroComLen : Bytes := lit 191
  0x4000000000000000000000000000000000000000000000000000000000000000000000000000000000000000000000000000000000000000000000000000000000000000000000000000000000000000000000000000000000000000000000000000000000000000000000000000000000000000000000000000000000000000000000000000000000000000000000000000000000000000000000000000000000000000000000000000000000000000000000000000000000000000000000

/-- `INVALID_G2_ZERO_UNCOM_LEN`, `/repo/src/test/serdes.rs` 513-520: the length is not correct -/
def invalidG2ZeroUncomLen : Bytes := lit 95
  0x4000000000000000000000000000000000000000000000000000000000000000000000000000000000000000000000000000000000000000000000000000000000000000000000000000000000000000000000000000000000000000000000

/-- `INVALID_G2_DATA`, `/repo/src/test/serdes.rs` 524-531: one byte is altered -/
def invalidG2Data : Bytes := lit 96
  0x909cd334a9d0cc8e7b3004982b928ace4107fb7ef5210574266d5a84355ae7647d491a1acc5e3ad33a8cce4f4709b7f60e7fd9b1cd92d89d96311f4c486c35d0e72617d916061ea7aed7cd4882969ee5dcae568b7f1a55411bda7b2e4b66b39d

/-- `INVALID_G2_LEN`, `/repo/src/test/serdes.rs` 535-542: the length is not correct -/
def invalidG2Len : Bytes := lit 95
  0x909cd334a9d0cc8e7b3004982b928ace4107fb7ef5210574266d5a84355ae7647d491a1acc5e3ad33a8cce4f4709b7f60e7fd9b1cd92d89d96311f4c486c35d0e72617d916061ea7aed7cd4882969ee5dcae568b7f1a55411bda7b2e4b66b3

/-- `INVALID_G2_COM`, `/repo/src/test/serdes.rs` 546-553: the compressed flag is unset -/
def invalidG2Com : Bytes := lit 96
  0x109cd334a9d0cc8e7b3004982b928ace4107fb7ef5210574266d5a84355ae7647d491a1acc5e3ad33a8cce4f4709b7f60e7fd9b1cd92d89d96311f4c486c35d0e72617d916061ea7aed7cd4882969ee5dcae568b7f1a55411bda7b2e4b66b38d

/-- `VALID_G1_POINTS`, `/repo/src/test/serdes.rs` 278-278 -/
def validG1Points : List Bytes :=
  [validG1ZeroCom, validG1Com, validG1ZeroUncom]

/-- `INVALID_G1_POINTS`, `/repo/src/test/serdes.rs` 351-360 -/
def invalidG1Points : List Bytes :=
  [invalidG1ZeroData1, invalidG1ZeroData2, invalidG1ZeroCom, invalidG1ZeroComLen,
    invalidG1ZeroUncomLen, invalidG1Data, invalidG1Len, invalidG1Com]

/-- `VALID_G2_POINTS`, `/repo/src/test/serdes.rs` 453-453 -/
def validG2Points : List Bytes :=
  [validG2ZeroCom, validG2Com, validG2ZeroUncom]

/-- `INVALID_G2_POINTS`, `/repo/src/test/serdes.rs` 556-565 -/
def invalidG2Points : List Bytes :=
  [invalidG2ZeroData1, invalidG2ZeroData2, invalidG2ZeroCom, invalidG2ZeroComLen,
    invalidG2ZeroUncomLen, invalidG2Data, invalidG2Len, invalidG2Com]

/-- `INVALID_CIPHERSUITE`, `/repo/src/test/serdes.rs` 363 -/
def invalidCiphersuite : List UInt8 := [0x0f, 0xff]

/-- Models `test_pk_serialization_kat`, `/repo/src/test/serdes.rs` 366-412. -/
def pkTest (E : Ext G1 G2 GT) : Res Unit := do
  forEach [validG1ZeroCom, validG1Com] fun val => forEach validCiphersuite fun csid =>
    expectOk (PublicKey.deserialize E true) ([csid] ++ val)
  forEach validCiphersuite fun csid =>
    expectOk (PublicKey.deserialize E false) ([csid] ++ validG1ZeroUncom)
  forEach [validG1ZeroCom, validG1Com] fun val => forEach validCiphersuite fun csid =>
    expectErr (PublicKey.deserialize E false) ([csid] ++ val)
  forEach validCiphersuite fun csid =>
    expectErr (PublicKey.deserialize E true) ([csid] ++ validG1ZeroUncom)
  forEach invalidG1Points fun inval => forEach validCiphersuite fun csid =>
    expectErr (PublicKey.deserialize E true) ([csid] ++ inval)
  forEach validG1Points fun val => forEach invalidCiphersuite fun csid =>
    expectErr (PublicKey.deserialize E true) ([csid] ++ val)

/-- Models `test_pop_serialization_kat`, `/repo/src/test/serdes.rs` 568-602. -/
def popTest (E : Ext G1 G2 GT) : Res Unit := do
  forEach (validG2Points.take 2) fun val => forEach validCiphersuite fun csid =>
    expectOk (ProofOfPossession.deserialize E true) ([csid] ++ val)
  forEach validCiphersuite fun csid => do
    let val ← idx validG2Points 2
    expectErr (ProofOfPossession.deserialize E true) ([csid] ++ val)
  forEach invalidG2Points fun inval => forEach validCiphersuite fun csid =>
    expectErr (ProofOfPossession.deserialize E true) ([csid] ++ inval)
  forEach validG2Points fun val => forEach invalidCiphersuite fun csid =>
    expectErr (ProofOfPossession.deserialize E true) ([csid] ++ val)

/-- the time stamp of the tests, `/repo/src/test/serdes.rs` 610 -/
def katTime : Bytes := [1, 2, 3, 4]

/-- Models `test_sig_serialization_kat_valid`, `/repo/src/test/serdes.rs` 605-617. -/
def sigTestValid (E : Ext G1 G2 GT) : Res Unit :=
  forEach (validG1Points.take 2) fun val1 => forEach (validG2Points.take 2) fun val2 =>
    forEach validCiphersuite fun csid =>
      expectOk (Signature.deserialize E true) ([csid] ++ katTime ++ val1 ++ val2)

/-- Models `test_sig_serialization_kat_invalid_const`, `/repo/src/test/serdes.rs` 620-661. -/
def sigTestConst (E : Ext G1 G2 GT) : Res Unit := do
  forEach validCiphersuite fun csid =>
    expectErr (Signature.deserialize E true) ([csid] ++ katTime ++ validG1ZeroCom ++ validG2ZeroUncom)
  forEach validCiphersuite fun csid =>
    expectErr (Signature.deserialize E true) ([csid] ++ katTime ++ validG1ZeroUncom ++ validG2ZeroCom)
  forEach validG1Points fun val1 => forEach validG2Points fun val2 =>
    forEach invalidCiphersuite fun csid =>
      expectErr (Signature.deserialize E true) ([csid] ++ katTime ++ val1 ++ val2)
  forEach validG1Points fun val1 => forEach validG2Points fun val2 =>
    forEach validCiphersuite fun csid =>
      expectErr (Signature.deserialize E true) ([csid] ++ [0, 0, 0, 0] ++ val1 ++ val2)

/-- Models `test_sig_serialization_kat_invalid_points`, `/repo/src/test/serdes.rs` 664-712. -/
def sigTestPoints (E : Ext G1 G2 GT) : Res Unit := do
  forEach invalidG1Points fun inval1 => forEach validG2Points fun val2 =>
    forEach validCiphersuite fun csid =>
      expectErr (Signature.deserialize E true) ([csid] ++ katTime ++ inval1 ++ val2)
  forEach validG1Points fun val1 => forEach invalidG2Points fun inval2 =>
    forEach validCiphersuite fun csid =>
      expectErr (Signature.deserialize E true) ([csid] ++ katTime ++ val1 ++ inval2)
  forEach invalidG1Points fun inval1 => forEach invalidG2Points fun inval2 =>
    forEach validCiphersuite fun csid =>
      expectErr (Signature.deserialize E true) ([csid] ++ katTime ++ inval1 ++ inval2)
  forEach validG1Points fun val1 => forEach validG2Points fun val2 =>
    forEach validCiphersuite fun csid =>
      expectErr (Signature.deserialize E true) ([csid] ++ katTime ++ val2 ++ val1)

/-- One of the four blocks of the next two tests: serialize, check the length, deserialize, compare
(`==` on projective points compares the points they stand for). -/
def pointBlock {G : Type} [DecidableEq G] (enc : Bool → G → Bytes) (dec : Bool → SM Bytes G)
    (compressed : Bool) (len : Nat) (p : G) : Res Unit := do
  let buf := enc compressed p
  assertRes (buf.length == len)
  match (dec compressed buf).1 with
  | .ok q => assertRes (decide (p = q))
  | .err _ => .panic .explicit
  | .panic x => .panic x

/-- Models `test_g1_serialization_rand`, `/repo/src/test/serdes.rs` 172-210; `one` is
`PixelG1::one()`. -/
def g1Test [DecidableEq G1] [Zero G1] (E : Ext G1 G2 GT) (one : G1) : Res Unit := do
  pointBlock E.encG1 E.decG1 true 96 0
  pointBlock E.encG1 E.decG1 true 96 one
  pointBlock E.encG1 E.decG1 false 192 0
  pointBlock E.encG1 E.decG1 false 192 one

/-- Models `test_g2_serialization_rand`, `/repo/src/test/serdes.rs` 213-248. -/
def g2Test [DecidableEq G2] [Zero G2] (E : Ext G1 G2 GT) : Res Unit := do
  pointBlock E.encG2 E.decG2 true 48 0
  pointBlock E.encG2 E.decG2 true 48 E.gen2
  pointBlock E.encG2 E.decG2 false 96 0
  pointBlock E.encG2 E.decG2 false 96 E.gen2

end Pixel.Kat
