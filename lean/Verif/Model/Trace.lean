import Verif.Model.Sig
import Verif.Model.Serdes

/-!
# The functions that handle secrets, with a record of what they do

A fourth look at the code (besides the values, `Model/*.lean`, the local variables,
`Model/Memory.lean`, and the pointers of the C interface, `Model/CHeap.lean`): what can be seen of a
run without looking at the values.  Every condition is recorded with its outcome, every access to a
vector with the position, every call of an external function with the lengths of its arguments, and
every operation on points by name.  The functions of `/repo/src/time.rs` work on time stamps and the
depth only; a call is recorded with its arguments, not in its details.  The point arithmetic, the hash
functions and the reduction modulo `r` are external: what *they* do with their arguments is not
recorded.  What a build with `debug_assertions` prints is recorded as well.  (The one line that only
test builds print, `/repo/src/secret_key.rs` 244-251, is left out; it shows three time stamps.)
-/

namespace Pixel.Trace

open Pixel

/-- What is recorded. -/
inductive Ev where
  /-- a condition and its outcome -/
  | branch (b : Bool)
  /-- access to an element of a vector -/
  | index (i : Nat)
  /-- an operation, with lengths or time stamps as arguments -/
  | call (f : String) (args : List Nat)
  /-- the comparison of two PRNG states stopped after this many equal bytes -/
  | compare (k : Nat)
  /-- `println!`, with the text and the numbers put into it; only builds with `debug_assertions`
  print, the others leave these entries out -/
  | print (text : String) (args : List Nat)
deriving DecidableEq, Repr

/-- A function with its record. -/
structure TR (α : Type) where
  out : Res α
  trace : List Ev

namespace TR

/-- one after the other -/
def bind {α β : Type} (x : TR α) (f : α → TR β) : TR β :=
  match x.out with
  | .ok a => ⟨(f a).out, x.trace ++ (f a).trace⟩
  | .err e => ⟨.err e, x.trace⟩
  | .panic p => ⟨.panic p, x.trace⟩

instance : Monad TR where
  pure a := ⟨.ok a, []⟩
  bind := bind

/-- record something -/
def tick (e : Ev) : TR Unit := ⟨.ok (), [e]⟩

/-- nothing to record -/
def res {α : Type} (x : Res α) : TR α := ⟨x, []⟩

/-- `println!(text, args); return Err(e)` -/
def fail {α : Type} (e : Err) (text : String) (args : List Nat) : TR α := ⟨.err e, [.print text args]⟩

end TR

/-- A method on `&mut self` with its record. -/
structure TS (σ α : Type) where
  run : σ → (Res α × σ) × List Ev

instance {σ α : Type} : CoeFun (TS σ α) (fun _ => σ → (Res α × σ) × List Ev) := ⟨TS.run⟩

namespace TS

/-- one after the other -/
def bind {σ α β : Type} (x : TS σ α) (f : α → TS σ β) : TS σ β where
  run s := match x s with
    | ((.ok a, s'), t) => ((f a s').1, t ++ (f a s').2)
    | ((.err e, s'), t) => ((.err e, s'), t)
    | ((.panic p, s'), t) => ((.panic p, s'), t)

instance {σ : Type} : Monad (TS σ) where
  pure a := ⟨fun s => ((.ok a, s), [])⟩
  bind := bind

/-- the current state -/
def get {σ : Type} : TS σ σ := ⟨fun s => ((.ok s, s), [])⟩

/-- `*self = s'` -/
def set {σ : Type} (s' : σ) : TS σ Unit := ⟨fun _ => ((.ok (), s'), [])⟩

/-- a call that does not touch the state -/
def lift {σ α : Type} (x : TR α) : TS σ α := ⟨fun s => ((x.out, s), x.trace)⟩

/-- `return Err(e)` -/
def err {σ α : Type} (e : Err) : TS σ α := ⟨fun s => ((.err e, s), [])⟩

/-- a method called on a local variable -/
def exec {σ α : Type} (x : TS σ α) (s : σ) : TR (α × σ) where
  out := match (x s).1 with
    | (.ok a, s') => .ok (a, s')
    | (.err e, _) => .err e
    | (.panic p, _) => .panic p
  trace := (x s).2

end TS

open TR

variable {G1 G2 GT : Type} [AddCommGroup G1] [AddCommGroup G2] [CommGroup GT]

/-! ## what is recorded for single operations -/

/-- the condition of an `if` -/
def branch (b : Bool) : TR Bool := do
  tick (.branch b)
  pure b

/-- `assert!` -/
def check (b : Bool) : TR Unit := do
  tick (.branch b)
  res (assertRes b)

/-- `v[i]` -/
def idx {α : Type} (l : List α) (i : Nat) : TR α := do
  tick (.index i)
  res (Pixel.idx l i)

/-- `v.insert(i, x)` -/
def vecInsert {α : Type} (l : List α) (i : Nat) (x : α) : TR (List α) := do
  tick (.call "insert" [l.length, i])
  res (Pixel.vecInsert l i x)

/-- `v.remove(0)` -/
def removeFirst {α : Type} (l : List α) : TR (List α) := do
  tick (.call "remove" [l.length])
  res (Pixel.removeFirst l)

/-- `P.mul_assign(r)` -/
def mul {G : Type} [AddMonoid G] (r : Fr) (p : G) : TR G := do
  tick (.call "mul" [])
  pure (mulFr r p)

/-- `P.add_assign(&Q)` -/
def add {G : Type} [Add G] (p q : G) : TR G := do
  tick (.call "add" [])
  pure (p + q)

/-- what the functions of `/repo/src/time.rs` print when they fail: the error (107, 113, 165) -/
def sayErr {α : Type} (text : String) : Res α → TR α
  | .ok a => pure a
  | .err e => fail e text []
  | .panic p => res (.panic p)

/-- `TimeVec::init` -/
def timeVec (pf : Profile) (t depth : Nat) : TR TimeVec := do
  tick (.call "time_to_vec" [t, depth])
  sayErr "Error in time_to_vec" (TimeVec.init pf t depth)

/-- `Hkdf::extract` -/
def extract (sha512 : Bytes → Bytes) (salt ikm : Bytes) : TR Bytes := do
  tick (.call "extract" [salt.length, ikm.length])
  pure (hkdfExtract sha512 salt ikm)

/-- `assert!(hk.expand(..).is_ok())` -/
def expand (sha512 : Bytes → Bytes) (prk info : Bytes) (len : Nat) : TR Bytes := do
  tick (.call "expand" [prk.length, info.length, len])
  res (expandAsserted sha512 prk info len)

/-- `b[i..j]`, with `copy_from_slice` where it follows -/
def slice (b : Bytes) (i j : Nat) : TR Bytes := do
  tick (.call "slice" [b.length, i, j])
  res (Pixel.slice b i j)

/-! ## `/repo/src/prng.rs` -/

/-- `match Fr::from_repr(..)`, `/repo/src/prng.rs` 247-250. -/
def matchRepr : Option Fr → TR Fr
  | none => do
    tick (.branch false)
    res (.panic .explicit)
  | some x => do
    tick (.branch true)
    pure x

/-- The second half of `os2ip_mod_p`, `/repo/src/prng.rs` 212-251: from the 64 bytes of the remainder
to a field element. -/
def fromBytes64 (bytes : Bytes) : TR Fr := do
  let top ← slice bytes 0 32
  check (top == List.replicate 32 0)
  let b0 ← slice bytes 56 64
  let b1 ← slice bytes 48 56
  let b2 ← slice bytes 40 48
  let b3 ← slice bytes 32 40
  matchRepr (frFromRepr (beNat b0) (beNat b1) (beNat b2) (beNat b3))

/-- Models `os2ip_mod_p`, `/repo/src/prng.rs` 182-251, with its record. -/
def os2ipModP (octStr : Bytes) : TR Fr := do
  check (octStr.length ≤ 64)
  let r := beNat octStr
  let p := beNat ([0, 0, 0, 0, 0, 0, 0, 0, 0, 0, 0, 0, 0, 0, 0, 0, 0, 0, 0, 0, 0, 0, 0, 0, 0, 0, 0, 0,
    0, 0, 0, 0, 0x73, 0xED, 0xA7, 0x53, 0x29, 0x9D, 0x7D, 0x48, 0x33, 0x39, 0xD8, 0x08, 0x09, 0xA1,
    0xD8, 0x05, 0x53, 0xBD, 0xA4, 0x02, 0xFF, 0xFE, 0x5B, 0xFE, 0xFF, 0xFF, 0xFF, 0xFF, 0x00,
    0x00, 0x00, 0x01])
  tick (.call "mod" [octStr.length])
  let t := r % p
  fromBytes64 (natToBE 64 t)

/-- Models `PRNG::init`, `/repo/src/prng.rs` 71-79, with its record. -/
def prngInit (sha512 : Bytes → Bytes) (seed salt : Bytes) : TR Prng := do
  let prk ← extract sha512 salt seed
  let s ← slice prk 0 64
  let s ← res (copy64 s)
  pure { seed := s }

/-- Models `PRNG::sample_then_update`, `/repo/src/prng.rs` 83-119, with its record. -/
def sampleThenUpdate (sha512 : Bytes → Bytes) (info : Bytes) : TS Prng Fr := do
  let self ← TS.get
  let output ← TS.lift (expand sha512 self.seed info 128)
  let o1 ← TS.lift (slice output 0 64)
  let r ← TS.lift (os2ipModP o1)
  let o2 ← TS.lift (slice output 64 128)
  let newSeed ← TS.lift (res (copy64 o2))
  TS.set { seed := newSeed }
  pure r

/-- Models `PRNG::sample`, `/repo/src/prng.rs` 123-145, with its record. -/
def sample (sha512 : Bytes → Bytes) (info : Bytes) : TS Prng Fr := do
  let self ← TS.get
  let output ← TS.lift (expand sha512 self.seed info 64)
  TS.lift (os2ipModP output)

/-- Models `PRNG::rerandomize`, `/repo/src/prng.rs` 148-175, with its record. -/
def rerandomize (sha512 : Bytes → Bytes) (seed info : Bytes) : TS Prng Unit := do
  let self ← TS.get
  let m ← TS.lift (expand sha512 self.seed info 128)
  let m1 ← TS.lift (slice m 0 64)
  let m2 ← TS.lift (slice m 64 128)
  let tmp := m1 ++ seed
  let prk ← TS.lift (extract sha512 m2 tmp)
  let s ← TS.lift (slice prk 0 64)
  let s ← TS.lift (res (copy64 s))
  TS.set { seed := s }

/-- how many bytes the loop of `PartialEq for PRNG` finds equal before it returns -/
def equalBytes (a b : Prng) : Nat :=
  ((List.range 64).takeWhile (fun i => a.seed[i]? == b.seed[i]?)).length

/-- Models `PartialEq for PRNG`, `/repo/src/prng.rs` 46-55, with its record: the loop returns at the
first difference. -/
def prngEq (a b : Prng) : TR Bool := do
  tick (.compare (equalBytes a b))
  pure (a.eq b)

/-! ## `/repo/src/subkeys.rs` -/

/-- `if tv[i] == 2 { tmp.add_assign(&tmp) }` -/
def doubleIf {G : Type} [Add G] (two : Bool) (x : G) : TR G := if two then add x x else pure x

/-- The sum over the time vector, `/repo/src/subkeys.rs` 147-156 and `/repo/src/sig.rs` 250-262. -/
def nodeSum (hlist : List G1) (tv : List Nat) (h0 : G1) : TR G1 :=
  (List.range tv.length).foldlM (fun tmp3 i => do
    let tmp2 ← idx hlist (i + 1)
    let ti ← idx tv i
    let two ← branch (ti = 2)
    let tmp2 ← doubleIf two tmp2
    add tmp3 tmp2) h0

/-- Models `SubSecretKey::init`, `/repo/src/subkeys.rs` 96-126, with its record. -/
def sskInit (pp : PubParam G1 G2) (alpha : G1) (r : Fr) : TR (SubSecretKey G1 G2) := do
  let g2r ← mul r pp.g2
  let h0 ← idx pp.hlist 0
  let hpoly ← mul r h0
  let hpoly ← add hpoly alpha
  let hvector ← ((pp.hlist.take (pp.depth + 1)).drop 1).mapM (fun e => mul r e)
  pure { time := 1, g2r := g2r, hpoly := hpoly, hvector := hvector }

/-- Models `SubSecretKey::randomization`, `/repo/src/subkeys.rs` 133-172, with its record. -/
def randomization (pf : Profile) (pp : PubParam G1 G2) (r : Fr) : TS (SubSecretKey G1 G2) Unit := do
  let depth := pp.depth
  let tmp ← TS.lift (mul r pp.g2)
  let self ← TS.get
  let g ← TS.lift (add self.g2r tmp)
  TS.set { self with g2r := g }
  let hlist := pp.hlist
  let self ← TS.get
  let timevec ← TS.lift (timeVec pf self.time depth)
  let tlen := timevec.vec.length
  let tv := timevec.vec
  let h0 ← TS.lift (idx hlist 0)
  let tmp3 ← TS.lift (nodeSum hlist tv h0)
  let tmp3 ← TS.lift (mul r tmp3)
  let self ← TS.get
  let h ← TS.lift (add self.hpoly tmp3)
  TS.set { self with hpoly := h }
  let self ← TS.get
  (List.range self.hvector.length).forM (fun i => do
    let tmp ← TS.lift (idx hlist (tlen + i + 1))
    let tmp ← TS.lift (mul r tmp)
    let self ← TS.get
    let hi ← TS.lift (idx self.hvector i)
    let s ← TS.lift (add hi tmp)
    TS.set { self with hvector := self.hvector.set i s })

/-- Models `SubSecretKey::delegate`, `/repo/src/subkeys.rs` 181-223, with its record. -/
def delegate (pf : Profile) (tarTime : Nat) (depth : Nat) : TS (SubSecretKey G1 G2) Unit := do
  let self ← TS.get
  let curTimeVec ← TS.lift (timeVec pf self.time depth)
  let tarTimeVec ← TS.lift (timeVec pf tarTime depth)
  let c ← TS.lift (branch (!curTimeVec.isPrefix tarTimeVec))
  if c then
    TS.lift (fail .timeNonePrefix "The current time vector is"
      (curTimeVec.time :: curTimeVec.vec ++ tarTimeVec.time :: tarTimeVec.vec))
  else do
    let tv := tarTimeVec.vec
    let curVecLength := curTimeVec.vec.length
    let tarVecLength := tarTimeVec.vec.length
    (List.range (tarVecLength - curVecLength)).forM (fun i => do
      let self ← TS.get
      let tmp ← TS.lift (idx self.hvector i)
      let ti ← TS.lift (idx tv (i + curVecLength))
      let two ← TS.lift (branch (ti = 2))
      let tmp ← TS.lift (doubleIf two tmp)
      let h ← TS.lift (add self.hpoly tmp)
      TS.set { self with hpoly := h })
    (List.range (tarVecLength - curVecLength)).forM (fun _ => do
      let self ← TS.get
      let hv ← TS.lift (removeFirst self.hvector)
      TS.set { self with hvector := hv })
    let self ← TS.get
    TS.set { self with time := tarTime }

/-! ## `/repo/src/secret_key.rs` -/

/-- Models `SecretKey::init`, `/repo/src/secret_key.rs` 46-75, with its record. -/
def skInit (sha512 : Bytes → Bytes) (pp : PubParam G1 G2) (alpha : G1) (prng : Prng) :
    TR (SecretKey G1 G2) := do
  let c ← branch (!validCiphersuite.contains pp.ciphersuite)
  if c then
    fail .ciphersuite "Incorrect ciphersuite id" [pp.ciphersuite.toNat]
  else do
    let info := DOM_SEP_SK_INIT ++ [0, 0, 0, 1]
    let (r, prng) ← (sampleThenUpdate sha512 info).exec prng
    let ssk ← sskInit pp alpha r
    pure { ciphersuite := pp.ciphersuite, time := 1, ssk := [ssk], prng := prng }

/-- Models `SecretKey::find_ancestor`, `/repo/src/secret_key.rs` 449-477, with its record. -/
def findAncestor (self : SecretKey G1 G2) (tarTime : Nat) : TR Nat := do
  let c ← branch self.ssk.isEmpty
  if c then
    fail .sskEmpty "Error in finding ancestor" []
  else do
    let first ← idx self.ssk 0
    let c ← branch (decide (first.time ≥ tarTime))
    if c then
      fail .timeStamp "Error in finding ancestor: the target time is invalid for current time"
        [tarTime, first.time]
    else do
      let last ← (List.range (self.ssk.length - 1)).foldlM (fun last i => do
        let s ← idx self.ssk (i + 1)
        let c ← branch (decide (s.time ≤ tarTime))
        if c then pure s else pure last) first
      pure last.time

/-- Models the loop `while new_sk.ssk[0].time() != delegator_time { new_sk.ssk.remove(0); }`,
`/repo/src/secret_key.rs` 262-266, with its record. -/
def dropUntil (delegatorTime : Nat) : List (SubSecretKey G1 G2) → TR (List (SubSecretKey G1 G2))
  | [] => do
    tick (.index 0)
    res (.panic .index)
  | s :: rest => do
    tick (.index 0)
    let c ← branch (decide (s.time ≠ delegatorTime))
    if c then do
      tick (.call "remove" [rest.length + 1])
      dropUntil delegatorTime rest
    else
      pure (s :: rest)

/-- Models the duplicate scan, `/repo/src/secret_key.rs` 347-360, with its record. -/
def scanDup (pf : Profile) (depth : Nat) (tmptime : TimeVec) (ssk : List (SubSecretKey G1 G2)) :
    List Nat → TR Bool
  | [] => pure false
  | j :: js => do
    let s ← idx ssk j
    let tmpTimeVec ← timeVec pf s.time depth
    let c ← branch (decide (tmptime = tmpTimeVec))
    if c then pure true else scanDup pf depth tmptime ssk js

/-- The re-randomisation inside the loop of `update`, `/repo/src/secret_key.rs` 372-397, with its
record. -/
def rerandStep (sha512 : Bytes → Bytes) (pf : Profile) (pp : PubParam G1 G2) (selfPrng : Prng)
    (newSk : SecretKey G1 G2) (newSsk : SubSecretKey G1 G2) :
    TR (SecretKey G1 G2 × SubSecretKey G1 G2) := do
  let info := DOM_SEP_SK_UPDATE
  let (r, prng) ← (sampleThenUpdate sha512 info).exec newSk.prng
  let newSk := { newSk with prng := prng }
  let same ← prngEq newSk.prng selfPrng
  res (assertRes (!same))
  let (_, newSsk) ← (randomization pf pp r).exec newSsk
  pure (newSk, newSsk)

/-- Models the loop of `update`, `/repo/src/secret_key.rs` 337-411, with its record. -/
def updateLoop (sha512 : Bytes → Bytes) (pf : Profile) (pp : PubParam G1 G2) (selfPrng : Prng) :
    Nat → List TimeVec → SecretKey G1 G2 → TR (SecretKey G1 G2)
  | _, [], newSk => pure newSk
  | i, tmptime :: rest, newSk => do
    let depth := pp.depth
    let found ← scanDup pf depth tmptime newSk.ssk
      (List.range' (i + 1) (newSk.ssk.length - (i + 1)))
    if found then
      pure newSk
    else do
      let newSsk ← idx newSk.ssk 0
      let (_, newSsk) ← (delegate pf tmptime.time depth).exec newSsk
      let c ← branch (decide (i ≠ 0))
      let (newSk, newSsk) ←
        (if c then rerandStep sha512 pf pp selfPrng newSk newSsk else pure (newSk, newSsk))
      let ssk ← vecInsert newSk.ssk (i + 1) newSsk
      updateLoop sha512 pf pp selfPrng (i + 1) rest { newSk with ssk := ssk }

/-- `TimeVec::gamma_list` -/
def gammaList (pf : Profile) (v : TimeVec) (depth : Nat) : TR (List TimeVec) := do
  tick (.call "gamma_list" [v.time, depth])
  sayErr "Error in vec_to_time" (v.gammaList pf depth)

/-- Models `SecretKey::update`, `/repo/src/secret_key.rs` 151-430, with its record. -/
def update (sha512 : Bytes → Bytes) (pf : Profile) (pp : PubParam G1 G2) (tarTime : Nat)
    (seed : Bytes) : TS (SecretKey G1 G2) Unit := do
  let self ← TS.get
  let c ← TS.lift (branch (decide (self.ciphersuite ≠ pp.ciphersuite)))
  if c then
    TS.err .ciphersuite
  else do
    let depth := pp.depth
    let sh ← TS.lift (res (shl1 pf depth))
    let maxTime ← TS.lift (res (sub64 pf sh 1))
    let curTime := self.time
    let c ← TS.lift (branch (decide (curTime ≥ tarTime ∨ tarTime > maxTime)))
    if c then
      TS.lift (fail .timeStamp "the input time is invalid" [tarTime])
    else do
      let delegatorTime ← TS.lift (findAncestor self tarTime)
      let newSk := self
      let info := DOM_SEP_SK_RERANDOMIZE_INFO ++ timeBytes curTime
      let (_, prng) ← TS.lift ((rerandomize sha512 seed info).exec newSk.prng)
      let newSk := { newSk with prng := prng }
      let newSk := { newSk with time := delegatorTime }
      let ssk ← TS.lift (dropUntil delegatorTime newSk.ssk)
      let newSk := { newSk with ssk := ssk }
      let c ← TS.lift (branch newSk.ssk.isEmpty)
      if c then
        TS.lift (fail .sskEmpty "Error in key unpdating" [])
      else do
        let c ← TS.lift (branch (decide (delegatorTime = tarTime)))
        if c then do
          TS.set newSk
          pure ()
        else do
          let targetTimeVec ← TS.lift (timeVec pf tarTime depth)
          let gammaList ← TS.lift (gammaList pf targetTimeVec depth)
          let newSk ← TS.lift (updateLoop sha512 pf pp self.prng 0 gammaList newSk)
          let ssk ← TS.lift (removeFirst newSk.ssk)
          let newSk := { newSk with ssk := ssk }
          let first ← TS.lift (idx newSk.ssk 0)
          let newSk := { newSk with time := first.time }
          TS.set newSk
          pure ()

/-! ## `/repo/src/key_pair.rs` -/

/-- Models `master_key_gen`, `/repo/src/key_pair.rs` 88-143, and `proof_of_possession`, 149-158, with
their record. -/
def masterKeyGen (E : Ext G1 G2 GT) (seed : Bytes) (pp : PubParam G1 G2) :
    TR (G2 × G1 × G1 × Prng) := do
  let c ← branch (decide (seed.length < 32))
  if c then
    fail .seedTooShort "the seed length is not long enough" [seed.length]
  else do
    let ciphersuite := pp.ciphersuite
    let c ← branch (!validCiphersuite.contains ciphersuite)
    if c then
      fail .ciphersuite "Incorrect ciphersuite id" [pp.ciphersuite.toNat]
    else do
      let salt := DOM_SEP_MASTER_KEY ++ [ciphersuite]
      let prng ← prngInit E.sha512 seed salt
      let info := ascii "key initialization"
      let (x, prng) ← (sampleThenUpdate E.sha512 info).exec prng
      let pk ← mul x pp.g2
      let buf := DOM_SEP_POP ++ E.encG2 true pk
      tick (.call "hash_to_curve" [buf.length, 1])
      let pop ← mul x (E.hashToG1 buf [pp.ciphersuite])
      let sk ← mul x pp.h
      pure (pk, sk, pop, prng)

/-- Models `KeyPair::keygen`, `/repo/src/key_pair.rs` 24-73, with its record. -/
def keygen (E : Ext G1 G2 GT) (seed : Bytes) (pp : PubParam G1 G2) :
    TR (PublicKey G2 × SecretKey G1 G2 × ProofOfPossession G1) := do
  let c ← branch (decide (seed.length < 32))
  if c then
    fail .seedTooShort "the seed length is not long enough" [seed.length]
  else do
    let (pk, msk, pop, prng) ← masterKeyGen E seed pp
    let c ← branch (!validCiphersuite.contains pp.ciphersuite)
    if c then
      fail .ciphersuite "Incorrect ciphersuite id" [pp.ciphersuite.toNat]
    else do
      let sk ← skInit E.sha512 pp msk prng
      pure ({ ciphersuite := pp.ciphersuite, pk := pk }, sk,
        { ciphersuite := pp.ciphersuite, pop := pop })

/-! ## `/repo/src/sig.rs` -/

/-- Models `SecretKey::first_ssk`, `/repo/src/secret_key.rs` 103-111, with its record. -/
def firstSsk (self : SecretKey G1 G2) : TR (SubSecretKey G1 G2) := do
  let c ← branch self.ssk.isEmpty
  if c then fail .sskEmpty "Error to find the first key" [] else idx self.ssk 0

/-- Models `SubSecretKey::last_hvector_coeff`, `/repo/src/subkeys.rs` 85-90, with its record. -/
def lastHvectorCoeff (self : SubSecretKey G1 G2) : TR G1 := do
  let c ← branch self.hvector.isEmpty
  if c then res (.err .sskEmpty) else idx self.hvector (self.hvector.length - 1)

/-- Models `Signature::sign_fr`, `/repo/src/sig.rs` 220-300, with its record. -/
def signFr (pf : Profile) (sk : SecretKey G1 G2) (tarTime : Nat) (pp : PubParam G1 G2) (msg r : Fr) :
    TR (Signature G1 G2) := do
  check (decide (sk.time = tarTime))
  let ssk ← firstSsk sk
  let depth := pp.depth
  let hlist := pp.hlist
  let timevec ← timeVec pf ssk.time depth
  let tv := timevec.vec
  let sig1 := ssk.g2r
  let tmp ← mul r pp.g2
  let sig1 ← add sig1 tmp
  let h0 ← idx hlist 0
  let tmp3 ← nodeSum hlist tv h0
  let hd ← idx hlist depth
  let tmp2 ← mul msg hd
  let tmp3 ← add tmp3 tmp2
  let tmp3 ← mul r tmp3
  let sig2 := ssk.hpoly
  let hvLast ← lastHvectorCoeff ssk
  let hvLast ← mul msg hvLast
  let sig2 ← add sig2 hvLast
  let sig2 ← add sig2 tmp3
  pure { ciphersuite := pp.ciphersuite, time := tarTime, sigma1 := sig1, sigma2 := sig2 }

/-- Models `Signature::sign_bytes`, `/repo/src/sig.rs` 164-216, and `hash_msg_into_fr`, 469-480, with
their record. -/
def signBytes (sha512 : Bytes → Bytes) (pf : Profile) (sk : SecretKey G1 G2) (tarTime : Nat)
    (pp : PubParam G1 G2) (msg : Bytes) : TR (Signature G1 G2) := do
  let ciphersuite := pp.ciphersuite
  let c ← branch (!validCiphersuite.contains ciphersuite)
  if c then
    fail .ciphersuite "Incorrect ciphersuite id" [pp.ciphersuite.toNat]
  else do
    let c ← branch (decide (sk.ciphersuite ≠ ciphersuite))
    if c then
      fail .ciphersuite "Inconsistant ciphersuite ids"
        [ciphersuite.toNat, sk.ciphersuite.toNat]
    else do
      check (decide (sk.time = tarTime))
      let info := signInfo msg tarTime
      let (r, _) ← (sample sha512 info).exec sk.prng
      let m := DOM_SEP_HASH_TO_MSG ++ [ciphersuite] ++ msg
      tick (.call "sha512" [m.length])
      let m ← os2ipModP (sha512 m)
      signFr pf sk tarTime pp m r

/-- Models `Signature::sign`, `/repo/src/sig.rs` 70-96, with its record. -/
def sign (sha512 : Bytes → Bytes) (pf : Profile) (tarTime : Nat) (pp : PubParam G1 G2)
    (msg seed : Bytes) : TS (SecretKey G1 G2) (Signature G1 G2) := do
  let sk ← TS.get
  let curTime := sk.time
  let c ← TS.lift (branch (decide (curTime > tarTime)))
  if c then
    TS.lift (fail .timeStamp "Cannot sign for a previous time stamp" [curTime, tarTime])
  else do
    let c ← TS.lift (branch (decide (curTime < tarTime)))
    if c then
      update sha512 pf pp tarTime seed
    else
      pure ()
    let sk ← TS.get
    TS.lift (signBytes sha512 pf sk tarTime pp msg)

/-- Models `Signature::sign_present`, `/repo/src/sig.rs` 102-123, with its record. -/
def signPresent (sha512 : Bytes → Bytes) (pf : Profile) (tarTime : Nat) (pp : PubParam G1 G2)
    (msg : Bytes) : TS (SecretKey G1 G2) (Signature G1 G2) := do
  let sk ← TS.get
  let curTime := sk.time
  let c ← TS.lift (branch (decide (curTime ≠ tarTime)))
  if c then
    TS.lift (fail .timeStamp "Cannot sign for a non-current time stamp" [curTime, tarTime])
  else
    TS.lift (signBytes sha512 pf sk tarTime pp msg)

/-- Models `Signature::sign_then_update`, `/repo/src/sig.rs` 130-160, with its record. -/
def signThenUpdate (sha512 : Bytes → Bytes) (pf : Profile) (tarTime : Nat) (pp : PubParam G1 G2)
    (msg seed : Bytes) : TS (SecretKey G1 G2) (Signature G1 G2) := do
  let sk ← TS.get
  let curTime := sk.time
  let c ← TS.lift (branch (decide (curTime ≠ tarTime)))
  if c then
    TS.lift (fail .timeStamp "Cannot sign for a previous time stamp" [curTime, tarTime])
  else do
    let p ← TS.lift (signBytes sha512 pf sk tarTime pp msg)
    let next ← TS.lift (res (add64 pf tarTime 1))
    update sha512 pf pp next seed
    pure p

/-! ## `/repo/src/serdes.rs` -/

/-- Models `SubSecretKey::serialize`, `/repo/src/serdes.rs` 291-329, with its record; the encoding of a
point is external. -/
def sskSerialize (E : Ext G1 G2 GT) (compressed : Bool) (self : SubSecretKey G1 G2) : TR Bytes := do
  let c ← branch (decide (self.time > 2 ^ 32))
  if c then
    res (.err .serial)
  else do
    let buf := timeBytes self.time ++ [UInt8.ofNat self.hvector.length]
    tick (.call "serialize_g2" [])
    let buf := buf ++ E.encG2 compressed self.g2r
    tick (.call "serialize_g1" [])
    let buf := buf ++ E.encG1 compressed self.hpoly
    let parts ← self.hvector.mapM (fun e => do
      tick (.call "serialize_g1" [])
      pure (E.encG1 compressed e))
    let buf := buf ++ parts.flatten
    tick (.call "write" [buf.length])
    pure buf

/-- The loop `/repo/src/serdes.rs` 226-228, with its record. -/
def serializeSsks (E : Ext G1 G2 GT) (compressed : Bool) :
    List (SubSecretKey G1 G2) → Bytes → TR Bytes
  | [], buf => pure buf
  | e :: es, buf => do
    let b ← sskSerialize E compressed e
    serializeSsks E compressed es (buf ++ b)

/-- Models `SecretKey::serialize`, `/repo/src/serdes.rs` 211-236, with its record. -/
def skSerialize (E : Ext G1 G2 GT) (compressed : Bool) (self : SecretKey G1 G2) : TR Bytes := do
  let c ← branch (!validCiphersuite.contains self.ciphersuite)
  if c then
    res (.err .ciphersuite)
  else do
    let buf ← serializeSsks E compressed self.ssk
      ([self.ciphersuite] ++ [UInt8.ofNat self.ssk.length] ++ self.prng.seed)
    tick (.call "write" [buf.length])
    pure buf

end Pixel.Trace
