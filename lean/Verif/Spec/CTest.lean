import Verif.Model.CTest

/-!
# What the C program prints and leaves behind

Independent of the loops of the program: a hex dump is described line by line.
-/

namespace Pixel.Spec

open Pixel Pixel.CHeap

/-- the character shown for a byte: itself if it is printable ASCII -/
def printable (b : UInt8) : UInt8 := if 32 ≤ b.toNat ∧ b.toNat ≤ 126 then b else 46

/-- A line of a dump: the offset, up to sixteen bytes in hexadecimal in columns of width three,
blanks in place of those that are missing, and the bytes as characters. -/
def dumpLine (off : Nat) (bs : Bytes) : Bytes :=
  ascii "  " ++ CTest.hex4 off ++ ascii " " ++ bs.flatMap (fun b => ascii " " ++ Debug.hex2 b) ++
    List.replicate (3 * (16 - bs.length)) 32 ++ ascii "  " ++ bs.map printable ++ [10]

/-- lines of sixteen bytes -/
def dumpLines (off : Nat) (bs : Bytes) : Bytes :=
  if bs.length ≤ 16 then dumpLine off bs
  else dumpLine off (bs.take 16) ++ dumpLines (off + 16) (bs.drop 16)
termination_by bs.length
decreasing_by simp; omega

/-- A dump of `v` bytes, `v` being a C `int`, of which `bs` are the first ones. -/
def dumpText (desc : Bytes) (v : Int) (bs : Bytes) : Bytes :=
  desc ++ ascii ":" ++ [10] ++
    (if v = 0 then ascii "  ZERO LENGTH" ++ [10]
     else if v < 0 then ascii "  NEGATIVE LENGTH: -" ++ Vectors.decimal v.natAbs ++ [10]
     else dumpLines 0 (bs.take v.toNat))

/-- the contents of the live blocks, in the order of allocation -/
def live (h : Heap) : List Bytes := h.blocks.filterMap id

variable {G1 G2 GT : Type} [AddCommGroup G1] [AddCommGroup G2] [CommGroup GT]

/-- the keys that updates to these times give, one after the other -/
inductive UpdatedKeys (E : Ext G1 G2 GT) (pf : Profile) (rngseed : Bytes) :
    Bytes → List Nat → List Bytes → Prop
  | nil (b : Bytes) : UpdatedKeys E pf rngseed b [] []
  | cons {b b' : Bytes} {t : Nat} {ts : List Nat} {bs : List Bytes}
      (h1 : Ffi.cSkUpdate E pf b rngseed t = .ok b') (h2 : UpdatedKeys E pf rngseed b' ts bs) :
      UpdatedKeys E pf rngseed b (t :: ts) (b' :: bs)

/-- keys from the first `32 + i`, `33 + i`, … bytes of the seed, each with a signature for time 1 that
verifies -/
inductive Rounds [DecidableEq GT] (E : Ext G1 G2 GT) (pf : Profile) (seed msg : Bytes) :
    Nat → List (Ffi.Keys × Bytes) → Prop
  | nil (i : Nat) : Rounds E pf seed msg i []
  | cons {i : Nat} {k : Ffi.Keys} {s : Bytes} {l : List (Ffi.Keys × Bytes)}
      (h1 : Ffi.cKeygen E (seed.take (32 + i)) = .ok k)
      (h2 : Ffi.cSignPresent E pf k.sk msg 1 = .ok s)
      (h3 : Ffi.cVerify E pf k.pk msg s = .ok true) (h4 : Rounds E pf seed msg (i + 1) l) :
      Rounds E pf seed msg i ((k, s) :: l)

/-- the values the first part of the program computes -/
structure Values where
  key : Ffi.Keys
  sig1 : Bytes
  sk2 : Bytes
  sig2 : Bytes
  rounds : List (Ffi.Keys × Bytes)
  agg : Bytes

/-- they are what the library gives for the seed and the message, and all of them verify -/
structure Values.Of [DecidableEq GT] (E : Ext G1 G2 GT) (pf : Profile) (seed rngseed msg : Bytes)
    (v : Values) : Prop where
  key : Ffi.cKeygen E seed = .ok v.key
  pop : Ffi.cVerifyPop E v.key.pk v.key.pop = .ok true
  sig1 : Ffi.cSignPresent E pf v.key.sk msg 1 = .ok v.sig1
  ver1 : Ffi.cVerify E pf v.key.pk msg v.sig1 = .ok true
  sk2 : Ffi.cSkUpdate E pf v.key.sk rngseed 2 = .ok v.sk2
  sig2 : Ffi.cSignPresent E pf v.sk2 msg 2 = .ok v.sig2
  ver2 : Ffi.cVerify E pf v.key.pk msg v.sig2 = .ok true
  len : v.rounds.length = 5
  rounds : Rounds E pf seed msg 0 v.rounds
  agg : Ffi.cAggregation E (v.rounds.map (·.2)) = .ok v.agg
  verAgg : Ffi.cVerifyAgg E pf (v.rounds.map (·.1.pk)) msg v.agg = .ok true

/-- the secret keys among them -/
def Values.sks (v : Values) : List Bytes := v.key.sk :: v.sk2 :: v.rounds.map (·.1.sk)

/-- what a loop prints, round `i` first -/
def numbered {α : Type} (text : Nat → α → Bytes) : Nat → List α → Bytes
  | _, [] => []
  | i, a :: l => text i a ++ numbered text (i + 1) l

/-- what the loop prints in round `i` -/
def roundText (i : Nat) (a : Ffi.Keys × Bytes) : Bytes :=
  ascii "the " ++ Vectors.decimal i ++ ascii "-th signature" ++ [10] ++
    dumpText (ascii "pk") 49 a.1.pk ++ dumpText (ascii "sig") 149 a.2

/-- what the first part of the program prints: keys and signatures, the secret key among them -/
def Values.text (msg : Bytes) (v : Values) : Bytes :=
  [10] ++ ascii "key generation" ++ [10] ++
  dumpText (ascii "pk") 49 v.key.pk ++
  dumpText (ascii "sk") (CTest.toInt v.key.sk.length) v.key.sk ++
  ([10] ++ ascii "Signing a message: " ++ (msg ++ [0]).takeWhile (· ≠ 0) ++ [10]) ++
  dumpText (ascii "sig") 149 v.sig1 ++
  (ascii "Updating an sk" ++ [10]) ++
  dumpText (ascii "sig") 149 v.sig2 ++
  numbered roundText 0 v.rounds ++
  dumpText (ascii "aggregated signature") 149 v.agg

/-- what the second part prints -/
def vectorText (ts : List Nat) : Bytes := ts.flatMap fun t =>
  ascii "generating " ++ Vectors.padded 2 t ++ ascii "-th signature" ++ [10]

end Pixel.Spec
