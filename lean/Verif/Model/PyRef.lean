import Verif.Model.Serdes

/-!
# Model of the Python reference implementation, `/repo/pixel-python/*.py`

The repository carries a second implementation, used to cross-check the test vectors of the Rust
crate.  It has no ciphersuite argument (the byte is hard-coded to 0), no checks on seeds, times or
prefixes, and unbounded integers.  Python exceptions are `Res.panic`.  Group elements, point
encodings, SHA-512 and HKDF are the same external functions as for the Rust crate (both use
RFC 5869 HKDF with SHA-512); `d` is `pp.depth`, `default_param` is `pp`.
-/

namespace Pixel.Py

open Pixel

variable {G1 G2 GT : Type} [AddCommGroup G1] [AddCommGroup G2] [CommGroup GT]

/-- The Python secret key is the pair `(prng, [ssk])`, `/repo/pixel-python/keygen.py` 53-54; a sub
key is the tuple `(time, g2r, hpoly, hvector)`. -/
structure Key (G1 G2 : Type) where
  prng : Bytes
  ssk : List (SubSecretKey G1 G2)

/-- `I2OSP(x, 4)` and `x.to_bytes(4, 'big')`: big-endian bytes, an exception when too large. -/
def i2osp4 (x : Nat) : Res Bytes :=
  if x < 2 ^ 32 then .ok (natToBE 4 x) else .panic .overflow

/-! ## `/repo/pixel-python/prng.py` -/

/-- `hkdf.hkdf_expand(prk, info, len)` for `len ≤ 255·64`. -/
def expand (sha512 : Bytes → Bytes) (prk info : Bytes) (len : Nat) : Bytes :=
  (hkdfBlocks sha512 prk info ((len + 63) / 64) 1 []).take len

/-- Models `prng_init`, `/repo/pixel-python/prng.py` 12-14. -/
def prngInit (sha512 : Bytes → Bytes) (seed salt : Bytes) : Bytes := hkdfExtract sha512 salt seed

/-- Models `prng_sample_then_update`, `/repo/pixel-python/prng.py` 17-33. -/
def sampleThenUpdate (sha512 : Bytes → Bytes) (seed info : Bytes) : Nat × Bytes :=
  let key := expand sha512 seed info 128
  (beNat (key.take 64) % rOrder, key.drop 64)

/-- Models `prng_sample`, `/repo/pixel-python/prng.py` 36-48. -/
def sample (sha512 : Bytes → Bytes) (seed info : Bytes) : Nat :=
  beNat (expand sha512 seed info 64) % rOrder

/-- Models `prng_rerandomize`, `/repo/pixel-python/prng.py` 50-52. -/
def rerandomize (sha512 : Bytes → Bytes) (seed newseed info : Bytes) : Bytes :=
  let m1 := expand sha512 seed info 128
  hkdfExtract sha512 (m1.drop 64) (m1.take 64 ++ newseed)

/-! ## times, `/repo/pixel-python/keyupdate.py` 152-176 -/

/-- Models `vec_to_time`, `/repo/pixel-python/keyupdate.py` 152-157.  For `depth = 0` and a
non-empty vector the Python code leaves the integers (`pow(2, -1)` is a float); that is modelled as
an exception.  (`pop` consumes the argument list, which no caller uses again.) -/
def vecToTime : List Nat → Nat → Res Nat
  | [], _ => .ok 1
  | _ :: _, 0 => .panic .explicit
  | ti :: rest, d + 1 => do
    let t ← vecToTime rest d
    .ok (1 + (ti - 1) * (2 ^ d - 1) + t)

/-- Models `time_to_vec`, `/repo/pixel-python/keyupdate.py` 159-165.  Time 0 recurses for ever
(`RecursionError`); there is no upper bound on the time, and a depth that has reached 0 stays at
"not positive". -/
def timeToVec (time depth : Nat) : Res (List Nat) :=
  if _h : time = 0 then
    .panic .explicit
  else if time = 1 then
    .ok []
  else if depth > 0 ∧ time > 2 ^ (depth - 1) then do
    let v ← timeToVec (time - 2 ^ (depth - 1)) (depth - 1)
    .ok (2 :: v)
  else do
    let v ← timeToVec (time - 1) (depth - 1)
    .ok (1 :: v)
termination_by time
decreasing_by
  · have : 0 < 2 ^ (depth - 1) := Nat.two_pow_pos _
    omega
  · omega

/-- Models `gammat`, `/repo/pixel-python/keyupdate.py` 168-176. -/
def gammat (tvec : List Nat) : List (List Nat) :=
  (List.range tvec.length).foldl (fun ans i =>
    if tvec[i]? = some 1 then ans.take 1 ++ (tvec.take i ++ [2]) :: ans.drop 1 else ans) [tvec]

/-! ## sub keys -/

/-- The loop `for i in range(len(time_vec)): tmp += time_vec[i] * hlist[i+1]`,
`/repo/pixel-python/keyupdate.py` 107-111 and `/repo/pixel-python/sig.py` 47-50. -/
def nodeSum (hlist : List G1) (tv : List Nat) : Res G1 := do
  let h0 ← idx hlist 0
  (List.range tv.length).foldlM (fun tmp i => do
    let t ← idx tv i
    let h ← idx hlist (i + 1)
    .ok (tmp + t • h)) h0

/-- Models `randomization`, `/repo/pixel-python/keyupdate.py` 99-124. -/
def randomization (ssk : SubSecretKey G1 G2) (pp : PubParam G1 G2) (r : Nat) :
    Res (SubSecretKey G1 G2) := do
  let g2r := ssk.g2r + r • pp.g2
  let tv ← timeToVec ssk.time pp.depth
  let tmp ← nodeSum pp.hlist tv
  let hpoly := ssk.hpoly + r • tmp
  let hvector ← (List.range ssk.hvector.length).foldlM (fun new i => do
    let h ← idx pp.hlist (i + 1 + tv.length)
    let a ← idx ssk.hvector i
    .ok (new ++ [r • h + a])) []
  .ok { time := ssk.time, g2r := g2r, hpoly := hpoly, hvector := hvector }

/-- Models `delegate`, `/repo/pixel-python/keyupdate.py` 132-148: no prefix check. -/
def delegate (ssk : SubSecretKey G1 G2) (tarTime depth : Nat) : Res (SubSecretKey G1 G2) := do
  let cur ← timeToVec ssk.time depth
  let tar ← timeToVec tarTime depth
  let hpoly ← (List.range (tar.length - cur.length)).foldlM (fun hpoly i => do
    let t ← idx tar (i + cur.length)
    let h ← idx ssk.hvector i
    .ok (hpoly + t • h)) ssk.hpoly
  let hvector ← (List.range (tar.length - cur.length)).foldlM (fun hv _ => removeFirst hv)
    ssk.hvector
  .ok { time := tarTime, g2r := ssk.g2r, hpoly := hpoly, hvector := hvector }

/-! ## keys -/

/-- Models `find_ancestor`, `/repo/pixel-python/keyupdate.py` 88-94. -/
def findAncestor (sk : Key G1 G2) (tarTime : Nat) : Res (SubSecretKey G1 G2) := do
  let first ← idx sk.ssk 0
  .ok (sk.ssk.foldl (fun ssk e => if e.time ≤ tarTime then e else ssk) first)

/-- The loop collecting the delegated sub keys, `/repo/pixel-python/keyupdate.py` 41-53. -/
def collect (depth : Nat) (skVec : List (SubSecretKey G1 G2)) (delegator : SubSecretKey G1 G2) :
    List (List Nat) → Res (List (SubSecretKey G1 G2))
  | [] => .ok []
  | e :: es => do
    let time ← vecToTime e depth
    if skVec.any (fun ssk => decide (ssk.time = time)) then
      collect depth skVec delegator es
    else do
      let ssk ← delegate delegator time depth
      let rest ← collect depth skVec delegator es
      .ok (ssk :: rest)

/-- The loop re-randomising the new sub keys, `/repo/pixel-python/keyupdate.py` 58-60, on the
elements from index 1 on. -/
def rerandomizeAll (sha512 : Bytes → Bytes) (pp : PubParam G1 G2) :
    List (SubSecretKey G1 G2) → Bytes → Res (List (SubSecretKey G1 G2) × Bytes)
  | [], seed => .ok ([], seed)
  | s :: ss, seed => do
    let (r, seed) := sampleThenUpdate sha512 seed (ascii "Pixel secret key update")
    let s ← randomization s pp r
    let (ss, seed) ← rerandomizeAll sha512 pp ss seed
    .ok (s :: ss, seed)

/-- Models `sk_update`, `/repo/pixel-python/keyupdate.py` 15-68. -/
def skUpdate (sha512 : Bytes → Bytes) (sk : Key G1 G2) (pp : PubParam G1 G2) (tarTime : Nat)
    (seed : Bytes) : Res (Key G1 G2) := do
  let first ← idx sk.ssk 0
  let tb ← i2osp4 first.time
  let info := ascii "Pixel secret key rerandomize expand" ++ tb
  let newSeed := rerandomize sha512 sk.prng seed info
  let delegator ← findAncestor sk tarTime
  let skVec := sk.ssk.filter (fun x => decide (x.time ≥ delegator.time))
  let first ← idx skVec 0
  if first.time = tarTime then
    .ok { prng := newSeed, ssk := skVec }
  else do
    let tvec ← timeToVec tarTime pp.depth
    let newSsk ← collect pp.depth skVec delegator (gammat tvec)
    let (rest, newSeed) ← rerandomizeAll sha512 pp (newSsk.drop 1) newSeed
    let skVec ← removeFirst skVec
    .ok { prng := newSeed, ssk := (newSsk.take 1 ++ rest) ++ skVec }

/-- Models `key_gen`, `/repo/pixel-python/keygen.py` 20-55: `(pk, sk)`. -/
def keyGen (sha512 : Bytes → Bytes) (pp : PubParam G1 G2) (seed : Bytes) :
    Res (G2 × Key G1 G2) := do
  let salt := ascii "Pixel master key" ++ [0]
  let info := ascii "key initialization"
  let prng := prngInit sha512 seed salt
  let (x, prng) := sampleThenUpdate sha512 prng info
  let pk := x • pp.g2
  let msk := x • pp.h
  let info := ascii "Pixel secret key init" ++ [0, 0, 0, 1]
  let (r, prng) := sampleThenUpdate sha512 prng info
  let g2r := r • pp.g2
  let h0 ← idx pp.hlist 0
  let hpoly := r • h0 + msk
  let hvector ← (List.range (pp.hlist.length - 1)).foldlM (fun hv i => do
    let h ← idx pp.hlist (i + 1)
    .ok (hv ++ [r • h])) []
  .ok (pk, { prng := prng, ssk := [{ time := 1, g2r := g2r, hpoly := hpoly, hvector := hvector }] })

/-! ## signatures -/

/-- Models `hash_msg_into_fr`, `/repo/pixel-python/sig.py` 22-24. -/
def hashMsg (sha512 : Bytes → Bytes) (msg : Bytes) : Nat :=
  beNat (sha512 (ascii "Pixel hash to message" ++ [0] ++ msg)) % rOrder

/-- Models `sign_present`, `/repo/pixel-python/sig.py` 26-64: `(tar_time, sig1, sig2)`. -/
def signPresent (sha512 : Bytes → Bytes) (sk : Key G1 G2) (tarTime : Nat) (pp : PubParam G1 G2)
    (msg : Bytes) : Res (Nat × G2 × G1) := do
  let ssk ← idx sk.ssk 0
  assertRes (ssk.time = tarTime)
  let tv ← timeToVec tarTime pp.depth
  let tb ← i2osp4 tarTime
  let r := sample sha512 sk.prng (ascii "Pixel randomness for signing" ++ msg ++ tb)
  let m := hashMsg sha512 msg
  let sig1 := ssk.g2r + r • pp.g2
  let tmp ← nodeSum pp.hlist tv
  let hd ← idx pp.hlist pp.depth
  let tmp := tmp + m • hd
  let last ← idx ssk.hvector (ssk.hvector.length - 1)
  let sig2 := ssk.hpoly + m • last
  let sig2 := sig2 + r • tmp
  .ok (tarTime, sig1, sig2)

/-! ## byte formats -/

/-- `b"%c" % n`: one byte, an exception above 255. -/
def oneByte (n : Nat) : Res Bytes :=
  if n < 256 then .ok [UInt8.ofNat n] else .panic .overflow

/-- Models `serialize_ssk`, `/repo/pixel-python/keygen.py` 59-67. -/
def serializeSsk (E : Ext G1 G2 GT) (ssk : SubSecretKey G1 G2) : Res Bytes := do
  let tb ← i2osp4 ssk.time
  let lb ← oneByte ssk.hvector.length
  .ok (ssk.hvector.foldl (fun buf e => buf ++ E.encG1 true e)
    (tb ++ lb ++ E.encG2 true ssk.g2r ++ E.encG1 true ssk.hpoly))

/-- The loop of `serialize_sk`, `/repo/pixel-python/keygen.py` 75-76. -/
def serializeSsks (E : Ext G1 G2 GT) : List (SubSecretKey G1 G2) → Bytes → Res Bytes
  | [], buf => .ok buf
  | e :: es, buf => do
    let b ← serializeSsk E e
    serializeSsks E es (buf ++ b)

/-- Models `serialize_sk`, `/repo/pixel-python/keygen.py` 70-77. -/
def serializeSk (E : Ext G1 G2 GT) (sk : Key G1 G2) : Res Bytes := do
  let nb ← oneByte sk.ssk.length
  serializeSsks E sk.ssk ([0] ++ nb ++ sk.prng)

/-- Models the public-key bytes of the test-vector generator, `/repo/pixel-python/keygen.py` 85. -/
def serializePk (E : Ext G1 G2 GT) (pk : G2) : Bytes := [0] ++ E.encG2 true pk

/-- Models `serialize_sig`, `/repo/pixel-python/sig.py` 67-68. -/
def serializeSig (E : Ext G1 G2 GT) (sig : Nat × G2 × G1) : Res Bytes := do
  let tb ← i2osp4 sig.1
  .ok ([0] ++ tb ++ E.encG2 true sig.2.1 ++ E.encG1 true sig.2.2)

end Pixel.Py
