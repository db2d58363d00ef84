import Verif.Model.Ffi
import Verif.Model.PyRef
import Mathlib.Data.Nat.Digits.Defs

/-!
# Model of the test-vector programs: `make test`, `/repo/Makefile` 25

`make test` runs, in this order and from the root of the repository,

* `/repo/test_vector/src/main.rs`, which writes keys and signatures to files,
* `/repo/pixel-python/test_vector.py`, which makes the same files and compares,
* `/repo/c_wrapper/test.c`, which makes some of the files through the C interface,
* `/repo/test_buf/test_vector.py`, which compares these.

The constants of these programs are arguments here: the seed of the key generation, the seed of the
updates, the message and the bound `n` of the loops (64).  File names are byte strings, relative to
the root of the repository (the Rust program runs in `/repo/test_vector`, the first Python program
in `/repo/pixel-python`).  Files can always be created and written; failing writers are the subject
of `Verif/Model/Io.lean`.  Not modelled: the files with "plain" in their names, which hold debug
output, the two parameter files, and what is printed on the terminal.
-/

namespace Pixel.Vectors

open Pixel

/-! ## files -/

/-- The files on the disk: names and contents, the latest write first. -/
abbrev Disk := List (Bytes × Bytes)

/-- the content of a file, if it exists -/
def Disk.read : Disk → Bytes → Option Bytes
  | [], _ => none
  | (name, b) :: d, f => if name = f then some b else Disk.read d f

/-- open a file for writing (which empties or creates it), write, close -/
def writeFile (name b : Bytes) : SM Disk Unit := ⟨fun d => (.ok (), (name, b) :: d)⟩

/-- `let mut file = File::create(name)?; x.serialize(&mut file, ..)?;` — the file exists, and is
empty, before the object is serialized. -/
def createWith (name : Bytes) (b : Res Bytes) : SM Disk Unit := do
  writeFile name []
  let b ← SM.lift b
  writeFile name b

/-- `assert` in Rust, C and Python -/
def assertM (b : Bool) : SM Disk Unit := SM.lift (if b then .ok () else .panic .assertion)

/-- a number in decimal -/
def decimal (n : Nat) : Bytes :=
  if n = 0 then [48] else (Nat.digits 10 n).reverse.map (fun k => UInt8.ofNat (48 + k))

/-- `{:02?}`, `%02d` (width 2) and `{:04?}`, `{:04}`, `%04d` (width 4): zeros in front -/
def padded (width n : Nat) : Bytes :=
  List.replicate (width - (decimal n).length) 48 ++ decimal n

/-- the directory the Rust program writes to -/
def rustDir : Bytes := ascii "test_vector/test_vector/"
/-- the directory the Python program writes to -/
def pyDir : Bytes := ascii "pixel-python/test_vector/"
/-- the directory the C program writes to -/
def cDir : Bytes := ascii "test_buf/"

/-- `pk_bin.txt` -/
def pkFile (dir : Bytes) : Bytes := dir ++ ascii "pk_bin.txt"
/-- `pop_bin.txt` -/
def popFile (dir : Bytes) : Bytes := dir ++ ascii "pop_bin.txt"
/-- `sk_bin_{:02}.txt` -/
def skFile (dir : Bytes) (i : Nat) : Bytes :=
  dir ++ (ascii "sk_bin_" ++ padded 2 i ++ ascii ".txt")
/-- `sig_bin_{:02}.txt` -/
def sigFile (dir : Bytes) (i : Nat) : Bytes :=
  dir ++ (ascii "sig_bin_" ++ padded 2 i ++ ascii ".txt")
/-- `sk_bin_ff_{:04}_{:04}.txt` -/
def skFileFF (dir : Bytes) (cur tar : Nat) : Bytes :=
  dir ++ (ascii "sk_bin_ff_" ++ padded 4 cur ++ ascii "_" ++ padded 4 tar ++ ascii ".txt")
/-- `sig_bin_ff_{:04}_{:04}.txt` -/
def sigFileFF (dir : Bytes) (cur tar : Nat) : Bytes :=
  dir ++ (ascii "sig_bin_ff_" ++ padded 4 cur ++ ascii "_" ++ padded 4 tar ++ ascii ".txt")

variable {G1 G2 GT : Type} [AddCommGroup G1] [AddCommGroup G2] [CommGroup GT]

/-- What the two loops of each program differ in: the target time, from the current time and the
loop variable, and the names of the two files, from the current and the target time. -/
structure Plan where
  target : Nat → Nat → Nat
  skName : Bytes → Nat → Nat → Bytes
  sigName : Bytes → Nat → Nat → Bytes

/-- the first loop: one time stamp after the other -/
def sequential : Plan where
  target _ i := i
  skName dir _ tar := skFile dir tar
  sigName dir _ tar := sigFile dir tar

/-- the second loop: "fast forward" by 2, 3, 4, … -/
def fastForward : Plan where
  target cur i := cur + i
  skName := skFileFF
  sigName := sigFileFF

/-! ## `/repo/test_vector/src/main.rs` -/

/-- The loops `/repo/test_vector/src/main.rs` 54-69 (`sequential`) and 74-92 (`fastForward`); the
result is the key after the last round. -/
def rustLoop [DecidableEq GT] (E : Ext G1 G2 GT) (pf : Profile) (pk : PublicKey G2)
    (rngseed msg : Bytes) (P : Plan) : List Nat → SecretKey G1 G2 → SM Disk (SecretKey G1 G2)
  | [], sk => pure sk
  | i :: is, sk => do
    let cur := sk.time
    let tar := P.target cur i
    let (_, sk) ← SM.lift (Ffi.unwrap
      ((SecretKey.update E.sha512 pf E.defaultParam tar rngseed).exec sk))
    let (sig, sk) ← SM.lift (Ffi.unwrap
      ((Signature.signPresent E.sha512 pf tar E.defaultParam msg).exec sk))
    let ok ← SM.lift (Signature.verifyBytes E pf sig pk E.defaultParam msg)
    assertM ok
    createWith (P.skName rustDir cur tar) (sk.serialize E true)
    createWith (P.sigName rustDir cur tar) (sig.serialize E true)
    rustLoop E pf pk rngseed msg P is sk

/-- Models `main`, `/repo/test_vector/src/main.rs` 8-96. -/
def rustMain [DecidableEq GT] (E : Ext G1 G2 GT) (pf : Profile) (seed rngseed msg : Bytes) (n : Nat) :
    SM Disk Unit := do
  let (pk, sk, pop) ← SM.lift (Ffi.unwrap (keygen E seed E.defaultParam))
  let sk2 := sk
  createWith (pkFile rustDir) (pk.serialize E true)
  createWith (popFile rustDir) (pop.serialize E true)
  createWith (skFile rustDir 1) (sk.serialize E true)
  let (sig, sk) ← SM.lift (Ffi.unwrap
    ((Signature.signPresent E.sha512 pf 1 E.defaultParam msg).exec sk))
  let ok ← SM.lift (Signature.verifyBytes E pf sig pk E.defaultParam msg)
  assertM ok
  createWith (sigFile rustDir 1) (sig.serialize E true)
  let _ ← rustLoop E pf pk rngseed msg sequential (List.range' 2 (n - 2)) sk
  let _ ← rustLoop E pf pk rngseed msg fastForward (List.range' 2 (n - 2)) sk2
  pure ()

/-! ## `/repo/pixel-python/test_vector.py` -/

/-- `filecmp.cmp(a, b)` (Python library): with the default `shallow=True`, two files of the same
length and the same time of modification count as equal without a look inside; `mtime a b` says
whether the times of modification are the same.  An exception if one of the files is missing. -/
def fileCmp (mtime : Bytes → Bytes → Bool) (a b : Bytes) : SM Disk Bool := ⟨fun d =>
  match d.read a, d.read b with
  | some x, some y =>
    (.ok (if x.length = y.length ∧ mtime a b = true then true else decide (x = y)), d)
  | _, _ => (.panic .explicit, d)⟩

/-- write a file and assert that it is the same as Rust's -/
def pyCheck (mtime : Bytes → Bytes → Bool) (name : Bytes → Bytes) (b : Bytes) : SM Disk Unit := do
  writeFile (name pyDir) b
  let ok ← fileCmp mtime (name pyDir) (name rustDir)
  assertM ok

/-- The loops `/repo/pixel-python/test_vector.py` 74-115 (`sequential`) and 118-162
(`fastForward`). -/
def pyLoop (E : Ext G1 G2 GT) (mtime : Bytes → Bytes → Bool) (rngseed msg : Bytes) (P : Plan) :
    List Nat → Py.Key G1 G2 → SM Disk (Py.Key G1 G2)
  | [], sk => pure sk
  | i :: is, sk => do
    let ssk ← SM.lift (idx sk.ssk 0)
    let cur := ssk.time
    let tar := P.target cur i
    let sk ← SM.lift (Py.skUpdate E.sha512 sk E.defaultParam tar rngseed)
    let sig ← SM.lift (Py.signPresent E.sha512 sk tar E.defaultParam msg)
    let skBuf ← SM.lift (Py.serializeSk E sk)
    pyCheck mtime (fun dir => P.skName dir cur tar) skBuf
    let sigBuf ← SM.lift (Py.serializeSig E sig)
    pyCheck mtime (fun dir => P.sigName dir cur tar) sigBuf
    pyLoop E mtime rngseed msg P is sk

/-- Models `test_vector`, `/repo/pixel-python/test_vector.py` 26-162. -/
def pyMain (E : Ext G1 G2 GT) (mtime : Bytes → Bytes → Bool) (seed rngseed msg : Bytes) (n : Nat) :
    SM Disk Unit := do
  let (pk, sk) ← SM.lift (Py.keyGen E.sha512 E.defaultParam seed)
  let sig ← SM.lift (Py.signPresent E.sha512 sk 1 E.defaultParam msg)
  pyCheck mtime pkFile (Py.serializePk E pk)
  let skBuf ← SM.lift (Py.serializeSk E sk)
  pyCheck mtime (fun dir => skFile dir 1) skBuf
  let sigBuf ← SM.lift (Py.serializeSig E sig)
  pyCheck mtime (fun dir => sigFile dir 1) sigBuf
  let _ ← pyLoop E mtime rngseed msg sequential (List.range' 2 (n - 2)) sk
  let _ ← pyLoop E mtime rngseed msg fastForward (List.range' 2 (n - 2)) sk
  pure ()

/-! ## `/repo/c_wrapper/test.c` -/

/-- `snprintf` into a buffer of the given size: what does not fit is cut off, one byte is for the
terminating zero -/
def snprintf (size : Nat) (s : Bytes) : Bytes := s.take (size - 1)

/-- `fileSpec1`, `/repo/c_wrapper/test.c` 113-119 and 137 -/
def cSigName (i : Nat) : Bytes :=
  let a := ascii "test_buf/sig_bin_"
  let extension := ascii ".txt"
  snprintf (a.length + extension.length + 3) (a ++ padded 2 i ++ extension)

/-- `fileSpec2`, `/repo/c_wrapper/test.c` 114-125 and 143 -/
def cSkName (i : Nat) : Bytes :=
  let b := ascii "test_buf/sk_bin_"
  let extension := ascii ".txt"
  snprintf (b.length + extension.length + 3) (b ++ padded 2 i ++ extension)

/-- The loop of `test`, `/repo/c_wrapper/test.c` 63-82: the lists of public keys and signatures. -/
def cTestLoop [DecidableEq GT] (E : Ext G1 G2 GT) (pf : Profile) (seed msg : Bytes) :
    List Nat → Res (List (Bytes × Bytes))
  | [] => .ok []
  | i :: is => do
    let key ← Ffi.cKeygen E (seed.take (32 + i))
    let sig ← Ffi.cSignPresent E pf key.sk msg 1
    assertRes ((← Ffi.cVerify E pf key.pk msg sig) = true)
    let l ← cTestLoop E pf seed msg is
    .ok ((key.pk, sig) :: l)

/-- Models `test`, `/repo/c_wrapper/test.c` 13-91. -/
def cTest [DecidableEq GT] (E : Ext G1 G2 GT) (pf : Profile) (seed rngseed msg : Bytes) :
    Res Unit := do
  let key ← Ffi.cKeygen E seed
  assertRes ((← Ffi.cVerifyPop E key.pk key.pop) = true)
  let sig ← Ffi.cSignPresent E pf key.sk msg 1
  assertRes ((← Ffi.cVerify E pf key.pk msg sig) = true)
  let sk2 ← Ffi.cSkUpdate E pf key.sk rngseed 2
  let sig ← Ffi.cSignPresent E pf sk2 msg 2
  assertRes ((← Ffi.cVerify E pf key.pk msg sig) = true)
  let l ← cTestLoop E pf seed msg (List.range 5)
  let aggSig ← Ffi.cAggregation E (l.map (·.2))
  assertRes ((← Ffi.cVerifyAgg E pf (l.map (·.1)) msg aggSig) = true)

/-- The loop of `test_vector`, `/repo/c_wrapper/test.c` 131-147. -/
def cLoop (E : Ext G1 G2 GT) (pf : Profile) (rngseed msg : Bytes) : List Nat → Bytes → SM Disk Unit
  | [], _ => pure ()
  | i :: is, sk => do
    let sk2 ← SM.lift (Ffi.cSkUpdate E pf sk rngseed i)
    let sig ← SM.lift (Ffi.cSignPresent E pf sk2 msg i)
    writeFile (cSigName i) sig
    writeFile (cSkName i) sk2
    cLoop E pf rngseed msg is sk2

/-- Models `test_vector`, `/repo/c_wrapper/test.c` 94-150. -/
def cTestVector [DecidableEq GT] (E : Ext G1 G2 GT) (pf : Profile) (seed rngseed msg : Bytes)
    (n : Nat) : SM Disk Unit := do
  let key ← SM.lift (Ffi.cKeygen E seed)
  let sig ← SM.lift (Ffi.cSignPresent E pf key.sk msg 1)
  let ok ← SM.lift (Ffi.cVerifyPop E key.pk key.pop)
  assertM ok
  writeFile (cSigName 1) sig
  writeFile (cSkName 1) key.sk
  cLoop E pf rngseed msg (List.range' 2 (n - 2)) key.sk

/-- Models `main`, `/repo/c_wrapper/test.c` 153-158. -/
def cMain [DecidableEq GT] (E : Ext G1 G2 GT) (pf : Profile) (seed rngseed msg : Bytes)
    (n : Nat) : SM Disk Unit := do
  SM.lift (cTest E pf seed rngseed msg)
  cTestVector E pf seed rngseed msg n

/-! ## `/repo/test_buf/test_vector.py` -/

/-- The loop `/repo/test_buf/test_vector.py` 4-12. -/
def compareLoop (mtime : Bytes → Bytes → Bool) : List Nat → SM Disk Unit
  | [] => pure ()
  | i :: is => do
    let ok ← fileCmp mtime (sigFile rustDir i) (sigFile cDir i)
    assertM ok
    let ok ← fileCmp mtime (skFile rustDir i) (skFile cDir i)
    assertM ok
    compareLoop mtime is

/-- Models `test_vector`, `/repo/test_buf/test_vector.py` 3-12. -/
def compareMain (mtime : Bytes → Bytes → Bool) (n : Nat) : SM Disk Unit :=
  compareLoop mtime (List.range' 1 (n - 1))

end Pixel.Vectors
