import Verif.Model.CHeap
import Verif.Model.Debug
import Verif.Model.Vectors

/-!
# Model of `/repo/c_wrapper/test.c` with memory and output

`Model/Vectors.lean` has the same program on byte lists.  Here the arrays of the program and the
secret keys it gets are blocks of memory (`Model/CHeap.lean`), and what it prints is recorded.

The local arrays of a function are blocks allocated at its start and freed at its end; those without
an initial value hold arbitrary bytes (`stack`).  The structures `pixel_pk`, `pixel_pop`, `pixel_sig`
are values, which are put into memory for the time of a call of `hexDump`.  Files can always be
created and written, as in `Model/Vectors.lean`.
-/

namespace Pixel.CTest

open Pixel Pixel.CHeap Pixel.Vectors

variable {G1 G2 GT : Type} [AddCommGroup G1] [AddCommGroup G2] [CommGroup GT]

/-- what the program works on: memory, files, and what it has printed -/
structure World where
  heap : Heap
  disk : Disk
  out : Bytes

/-- a piece of the program -/
structure PM (α : Type) where
  run : World → COut α × World

instance {α : Type} : CoeFun (PM α) (fun _ => World → COut α × World) := ⟨PM.run⟩

instance : Monad PM where
  pure a := ⟨fun w => (.ret a, w)⟩
  bind x f := ⟨fun w => match x w with
    | (.ret a, w') => f a w'
    | (.abort p, w') => (.abort p, w')
    | (.ub, w') => (.ub, w')⟩

/-- something that concerns memory only -/
def mem {α : Type} (x : CM α) : PM α := ⟨fun w => match x w.heap with
  | (o, h) => (o, { w with heap := h })⟩

/-- `printf` with the text it comes to -/
def print (b : Bytes) : PM Unit := ⟨fun w => (.ret (), { w with out := w.out ++ b })⟩

/-- `assert` -/
def assertC (b : Bool) : PM Unit := ⟨fun w => (if b then .ret () else .abort .assertion, w)⟩

/-- `fopen`, `fwrite`, `fclose` -/
def write (name b : Bytes) : PM Unit := ⟨fun w => (.ret (), { w with disk := (name, b) :: w.disk })⟩

/-- a local array with these contents -/
def array (b : Bytes) : PM Ptr := mem (forget b)

/-- the end of its life -/
def release (p : Ptr) : PM Unit := mem (clientFree p)

/-- reading `n` bytes from offset `i` of a pointer -/
def load (p : Option Ptr) (i n : Nat) : PM Bytes :=
  mem (fromRawParts (p.map fun q => { q with off := q.off + i }) n)

/-- writing at offset `i` of an array -/
def store (p : Ptr) (i : Nat) (b : Bytes) : PM Unit := mem (clientWrite { p with off := p.off + i } b)

/-- what `%s` prints of an array: the bytes before the first zero; undefined if there is none -/
def cString (p : Ptr) : PM Bytes := ⟨fun w => match w.heap.blocks[p.block]? with
  | some (some b) =>
    if 0 ∈ b.drop p.off then (.ret ((b.drop p.off).takeWhile (· ≠ 0)), w) else (.ub, w)
  | _ => (.ub, w)⟩

/-- `size_t` (64 bits) to `int` (32 bits) -/
def toInt (n : Nat) : Int := ((n + 2 ^ 31) % 2 ^ 32 : Nat) - 2 ^ 31

/-! ## `hexDump` -/

/-- `%x` -/
def hex (n : Nat) : Bytes :=
  if n = 0 then [48] else (Nat.digits 16 n).reverse.map Debug.hexDigit

/-- `%04x` -/
def hex4 (n : Nat) : Bytes := List.replicate (4 - (hex n).length) 48 ++ hex n

/-- the character shown for a byte, `/repo/c_wrapper/test.c` 198-201 -/
def shown (c : UInt8) : UInt8 := if c < 0x20 ∨ c > 0x7e then 46 else c

/-- `printf("  %s\n", buff)` -/
def printBuff (buff : Ptr) : PM Unit := do
  let s ← cString buff
  print (ascii "  " ++ s ++ [10])

/-- One round of the loop over the bytes, `/repo/c_wrapper/test.c` 182-203. -/
def dumpByte (buff : Ptr) (addr : Option Ptr) (i : Nat) : PM Unit := do
  if i % 16 = 0 then
    if i ≠ 0 then printBuff buff
    print (ascii "  " ++ hex4 i ++ ascii " ")
  let c ← load addr i 1
  print (ascii " " ++ c.flatMap Debug.hex2)
  store buff (i % 16) (c.map shown)
  store buff (i % 16 + 1) [0]

/-- The loop over the bytes from `i` on, `k` rounds. -/
def dumpBytes (buff : Ptr) (addr : Option Ptr) : Nat → Nat → PM Unit
  | _, 0 => pure ()
  | i, k + 1 => do
    dumpByte buff addr i
    dumpBytes buff addr (i + 1) k

/-- The loop that fills the last line, `/repo/c_wrapper/test.c` 206-209. -/
def dumpPad (i : Nat) : PM Unit :=
  if i % 16 ≠ 0 then do
    print (ascii "   ")
    dumpPad (i + 1)
  else pure ()
termination_by (16 - i % 16) % 16
decreasing_by omega

/-- Models `hexDump`, `/repo/c_wrapper/test.c` 163-213; `stack` is what `buff` holds at first.  The
description is never `NULL` in this program. -/
def hexDump (stack desc : Bytes) (addr : Option Ptr) (len : Int) : PM Unit := do
  let buff ← array (stack.take 17)
  print (desc ++ ascii ":" ++ [10])
  if len = 0 then
    print (ascii "  ZERO LENGTH" ++ [10])
  else if len < 0 then
    print (ascii "  NEGATIVE LENGTH: -" ++ decimal len.natAbs ++ [10])
  else
    dumpBytes buff addr 0 len.toNat
    dumpPad len.toNat
    printBuff buff
  release buff

/-- `hexDump` of a structure that is a local variable -/
def dumpValue (stack desc b : Bytes) : PM Unit := do
  let p ← array b
  hexDump stack desc (some p) b.length
  release p

/-! ## `test` -/

/-- One round of the loop, `/repo/c_wrapper/test.c` 63-82. -/
def testRound [DecidableEq GT] (E : Ext G1 G2 GT) (pf : Profile) (stack : Bytes)
    (seed msg pkList sigList : Ptr) (msgLen : Nat) (i : Nat) : PM Unit := do
  print (ascii "the " ++ decimal i ++ ascii "-th signature" ++ [10])
  let key ← mem (CHeap.cKeygen E (some seed) (32 + i))
  store pkList (i * 49) key.pk
  dumpValue stack (ascii "pk") key.pk
  let sig ← mem (CHeap.cSignPresent E pf key.sk (some msg) msgLen 1)
  store sigList (i * 149) sig
  dumpValue stack (ascii "sig") sig
  let ok ← mem (CHeap.cVerify E pf key.pk (some msg) msgLen sig)
  assertC (ok = true)

/-- the rounds from `i` on -/
def testRounds [DecidableEq GT] (E : Ext G1 G2 GT) (pf : Profile) (stack : Bytes)
    (seed msg pkList sigList : Ptr) (msgLen : Nat) : Nat → Nat → PM Unit
  | _, 0 => pure ()
  | i, k + 1 => do
    testRound E pf stack seed msg pkList sigList msgLen i
    testRounds E pf stack seed msg pkList sigList msgLen (i + 1) k

/-- Models `test`, `/repo/c_wrapper/test.c` 13-91. -/
def test [DecidableEq GT] (E : Ext G1 G2 GT) (pf : Profile) (stack seed rngseed msg : Bytes) :
    PM Unit := do
  let seedA ← array (seed ++ [0])
  let rngA ← array (rngseed ++ [0])
  let msgA ← array (msg ++ [0])
  let sigList ← array (stack.take (5 * 149))
  let pkList ← array (stack.take (5 * 49))
  print ([10] ++ ascii "key generation" ++ [10])
  let key ← mem (CHeap.cKeygen E (some seedA) seed.length)
  dumpValue stack (ascii "pk") key.pk
  hexDump stack (ascii "sk") key.sk.data (toInt key.sk.len)
  let ok ← mem (lift (Ffi.cVerifyPop E key.pk key.pop))
  assertC (ok = true)
  print ([10] ++ ascii "Signing a message: " ++ (msg ++ [0]).takeWhile (· ≠ 0) ++ [10])
  let sig ← mem (CHeap.cSignPresent E pf key.sk (some msgA) msg.length 1)
  dumpValue stack (ascii "sig") sig
  let ok ← mem (CHeap.cVerify E pf key.pk (some msgA) msg.length sig)
  assertC (ok = true)
  print (ascii "Updating an sk" ++ [10])
  let sk2 ← mem (CHeap.cSkUpdate E pf key.sk (some rngA) rngseed.length 2)
  let sig ← mem (CHeap.cSignPresent E pf sk2 (some msgA) msg.length 2)
  dumpValue stack (ascii "sig") sig
  let ok ← mem (CHeap.cVerify E pf key.pk (some msgA) msg.length sig)
  assertC (ok = true)
  testRounds E pf stack seedA msgA pkList sigList msg.length 0 5
  let aggSig ← mem (CHeap.cAggregation E (some sigList) 5)
  dumpValue stack (ascii "aggregated signature") aggSig
  let ok ← mem (CHeap.cVerifyAgg E pf (some pkList) 5 (some msgA) msg.length aggSig)
  assertC (ok = true)
  release seedA
  release rngA
  release msgA
  release sigList
  release pkList

/-! ## `test_vector` -/

/-- The loop, `/repo/c_wrapper/test.c` 131-147. -/
def vectorRounds (E : Ext G1 G2 GT) (pf : Profile) (rng msg : Ptr) (rngLen msgLen : Nat) :
    List Nat → Sk → PM Unit
  | [], _ => pure ()
  | i :: is, sk => do
    print (ascii "generating " ++ padded 2 i ++ ascii "-th signature" ++ [10])
    let sk2 ← mem (CHeap.cSkUpdate E pf sk (some rng) rngLen i)
    let sig ← mem (CHeap.cSignPresent E pf sk2 (some msg) msgLen i)
    write (cSigName i) sig
    let b ← load sk2.data 0 sk2.len
    write (cSkName i) b
    vectorRounds E pf rng msg rngLen msgLen is sk2

/-- Models `test_vector`, `/repo/c_wrapper/test.c` 94-150; the arrays for the file names are part of
`cSigName` and `cSkName`. -/
def testVector [DecidableEq GT] (E : Ext G1 G2 GT) (pf : Profile) (seed rngseed msg : Bytes)
    (n : Nat) : PM Unit := do
  let seedA ← array (seed ++ [0])
  let rngA ← array (rngseed ++ [0])
  let msgA ← array (msg ++ [0])
  let key ← mem (CHeap.cKeygen E (some seedA) seed.length)
  let sig ← mem (CHeap.cSignPresent E pf key.sk (some msgA) msg.length 1)
  let ok ← mem (lift (Ffi.cVerifyPop E key.pk key.pop))
  assertC ok
  write (cSigName 1) sig
  let b ← load key.sk.data 0 key.sk.len
  write (cSkName 1) b
  vectorRounds E pf rngA msgA rngseed.length msg.length (List.range' 2 (n - 2)) key.sk
  release seedA
  release rngA
  release msgA

/-- Models `main`, `/repo/c_wrapper/test.c` 153-158. -/
def main [DecidableEq GT] (E : Ext G1 G2 GT) (pf : Profile) (stack seed rngseed msg : Bytes)
    (n : Nat) : PM Unit := do
  test E pf stack seed rngseed msg
  testVector E pf seed rngseed msg n
  print (ascii "Hello Algorand" ++ [10])

end Pixel.CTest
