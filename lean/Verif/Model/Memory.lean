import Verif.Model.Serdes

/-!
# What the functions leave in memory

The functions that handle secrets are modelled a second time, now with their local variables.
`Verif/Proof/Memory.lean` shows that the results are those of the first model.

The rules are the ones the authors use in `/repo/src/prng.rs` 107-111 ("there are two copies in the
memory, one in `new_seed` and the other in `*self`. Therefore, we also need to clear new_seed"):

* a local variable, or a parameter taken by value, of a plain type (`[u8; n]`, `U512`, `FrRepr`,
  `Fr`, `PixelG1`, `PixelG2`, or a `Vec` of such) keeps its contents when it goes out of scope,
  unless it has been cleared or overwritten.  `Fr` and the two point types are `Copy` (the code
  uses a value again after passing it on: `/repo/src/key_pair.rs` 129, 130, 139;
  `/repo/src/secret_key.rs` 394, 402; `/repo/src/subkeys.rs` 108), and a `Copy` type has no
  destructor in Rust; passing such a value to a function of the crate copies it;
* a local variable of type `PRNG`, `SubSecretKey` or `SecretKey` is cleared when it goes out of
  scope: `#[zeroize(drop)]`, `/repo/src/prng.rs` 21, `/repo/src/subkeys.rs` 20,
  `/repo/src/secret_key.rs` 19;
* the variable a function returns is handed over to the caller, who owns it from then on.

Not modelled: copies made by the compiler or inside external crates, memory of a `Vec` beyond its
length or given up when it grows, and variables that only ever hold public data.
-/

namespace Pixel

/-- The contents of a variable of a plain type. -/
inductive Cell (G1 G2 : Type) where
  /-- `[u8; n]`, `Vec<u8>`, the `prk` of an `Hkdf` -/
  | bytes (b : Bytes)
  /-- `U512`, `FrRepr` -/
  | num (n : Nat)
  /-- `Fr` -/
  | fr (x : Fr)
  /-- `PixelG1` -/
  | g1 (p : G1)
  /-- `PixelG2` -/
  | g2 (p : G2)
  /-- `Vec<PixelG1>` -/
  | g1s (l : List G1)

/-- The variables in scope, and the contents of those that went out of scope uncleared. -/
structure Mem (G1 G2 : Type) where
  frame : List (String × Cell G1 G2)
  left : List (Cell G1 G2)

/-- A computation with local variables. -/
abbrev MM (G1 G2 : Type) := SM (Mem G1 G2)

namespace MM

variable {G1 G2 : Type}

/-- `let mut x = c;` -/
def letv (x : String) (c : Cell G1 G2) : MM G1 G2 Unit :=
  ⟨fun m => (.ok (), { m with frame := (x, c) :: m.frame })⟩

/-- the contents of `x` are overwritten with `c` -/
def setv (x : String) (c : Cell G1 G2) : MM G1 G2 Unit :=
  ⟨fun m => (.ok (), { m with frame := m.frame.map (fun p => if p.1 = x then (x, c) else p) })⟩

/-- `x.zeroize();` nothing of the contents of `x` remains -/
def zeroize (x : String) : MM G1 G2 Unit :=
  ⟨fun m => (.ok (), { m with frame := m.frame.filter (fun p => p.1 ≠ x) })⟩

/-- A function body or block: it starts without variables of its own; whichever way it is left,
the contents of its variables stay behind. -/
def scope {α : Type} (body : MM G1 G2 α) : MM G1 G2 α :=
  ⟨fun m =>
    let (r, m') := body { frame := [], left := m.left }
    (r, { frame := m.frame, left := m'.left ++ m'.frame.map Prod.snd })⟩

end MM

open MM

variable {G1 G2 GT : Type} [AddCommGroup G1] [AddCommGroup G2] [CommGroup GT]

/-- Models `os2ip_mod_p` with its variables, `/repo/src/prng.rs` 182-251: `r_sec` 202, 238; `t_sec`
212, 239; `tslide` 215-217, overwritten 242-244; `s` 222-235. -/
def os2ipModPM (octStr : Bytes) : MM G1 G2 Fr := scope do
  SM.lift (assertRes (octStr.length ≤ 64))
  let r := beNat octStr
  letv "r_sec" (.num r)
  let p := beNat ([0, 0, 0, 0, 0, 0, 0, 0, 0, 0, 0, 0, 0, 0, 0, 0, 0, 0, 0, 0, 0, 0, 0, 0, 0, 0, 0, 0,
    0, 0, 0, 0, 0x73, 0xED, 0xA7, 0x53, 0x29, 0x9D, 0x7D, 0x48, 0x33, 0x39, 0xD8, 0x08, 0x09, 0xA1,
    0xD8, 0x05, 0x53, 0xBD, 0xA4, 0x02, 0xFF, 0xFE, 0x5B, 0xFE, 0xFF, 0xFF, 0xFF, 0xFF, 0x00,
    0x00, 0x00, 0x01])
  let t := r % p
  letv "t_sec" (.num t)
  let bytes := natToBE 64 t
  letv "tslide" (.bytes bytes)
  let top ← SM.lift (slice bytes 0 32)
  SM.lift (assertRes (top == List.replicate 32 0))
  let b0 ← SM.lift (slice bytes 56 64)
  let b1 ← SM.lift (slice bytes 48 56)
  let b2 ← SM.lift (slice bytes 40 48)
  let b3 ← SM.lift (slice bytes 32 40)
  letv "s" (.num (beNat b0 + beNat b1 * 2 ^ 64 + beNat b2 * 2 ^ 128 + beNat b3 * 2 ^ 192))
  zeroize "r_sec"
  zeroize "t_sec"
  setv "tslide" (.bytes ((List.range 64).map UInt8.ofNat))
  SM.lift (match frFromRepr (beNat b0) (beNat b1) (beNat b2) (beNat b3) with
    | none => .panic .explicit
    | some x => .ok x)

namespace Prng

/-- Models `PRNG::init` with its variables, `/repo/src/prng.rs` 71-79: `hk_sec` 73, 77; `rng_seed`
74-75. -/
def initM (sha512 : Bytes → Bytes) (seed salt : Bytes) : MM G1 G2 Prng := scope do
  let prk := hkdfExtract sha512 salt seed
  letv "hk_sec" (.bytes prk)
  letv "rng_seed" (.bytes (List.replicate 64 0))
  let s ← SM.lift (slice prk 0 64)
  let s ← SM.lift (copy64 s)
  setv "rng_seed" (.bytes s)
  zeroize "hk_sec"
  pure { seed := s }

/-- Models `PRNG::sample_then_update` with its variables, `/repo/src/prng.rs` 83-119: `hk_sec` 85,
114; `output_sec` 90, 115; `new_seed` 103, 111.  The old seed in `*self` is cleared and overwritten
(100, 105).  The result carries the new `*self`. -/
def sampleThenUpdateM (sha512 : Bytes → Bytes) (info : Bytes) (self : Prng) :
    MM G1 G2 (Fr × Prng) := scope do
  letv "hk_sec" (.bytes self.seed)
  letv "output_sec" (.bytes (List.replicate 128 0))
  let output ← SM.lift (expandAsserted sha512 self.seed info 128)
  setv "output_sec" (.bytes output)
  let o1 ← SM.lift (slice output 0 64)
  let r ← os2ipModPM o1
  letv "new_seed" (.bytes (List.replicate 64 0))
  let o2 ← SM.lift (slice output 64 128)
  let newSeed ← SM.lift (copy64 o2)
  setv "new_seed" (.bytes newSeed)
  zeroize "new_seed"
  zeroize "hk_sec"
  zeroize "output_sec"
  pure (r, { seed := newSeed })

/-- Models `PRNG::sample` with its variables, `/repo/src/prng.rs` 123-145: `hk_sec` 125, 141;
`output_sec` 130, 142. -/
def sampleM (sha512 : Bytes → Bytes) (info : Bytes) (self : Prng) : MM G1 G2 Fr := scope do
  letv "hk_sec" (.bytes self.seed)
  letv "output_sec" (.bytes (List.replicate 64 0))
  let output ← SM.lift (expandAsserted sha512 self.seed info 64)
  setv "output_sec" (.bytes output)
  let t ← os2ipModPM output
  zeroize "hk_sec"
  zeroize "output_sec"
  pure t

/-- Models `PRNG::rerandomize` with its variables, `/repo/src/prng.rs` 148-175: `hk1_sec` 152, 172;
`m_sec` 156, 171; `tmp_sec` 164, 173; `hk2_sec` 165, 174. -/
def rerandomizeM (sha512 : Bytes → Bytes) (seed info : Bytes) (self : Prng) :
    MM G1 G2 Prng := scope do
  letv "hk1_sec" (.bytes self.seed)
  letv "m_sec" (.bytes (List.replicate 128 0))
  let m ← SM.lift (expandAsserted sha512 self.seed info 128)
  setv "m_sec" (.bytes m)
  let m1 ← SM.lift (slice m 0 64)
  let tmp := m1 ++ seed
  letv "tmp_sec" (.bytes tmp)
  let m2 ← SM.lift (slice m 64 128)
  let prk := hkdfExtract sha512 m2 tmp
  letv "hk2_sec" (.bytes prk)
  let s ← SM.lift (slice prk 0 64)
  let s ← SM.lift (copy64 s)
  zeroize "m_sec"
  zeroize "hk1_sec"
  zeroize "tmp_sec"
  zeroize "hk2_sec"
  pure { seed := s }

end Prng

namespace SubSecretKey

/-- Models `SubSecretKey::init` with its variables, `/repo/src/subkeys.rs` 96-126: the parameters
`alpha` and `r`; `hlist` 100, multiplied in place 114-117; `g2r` 104; `hpoly` 108. -/
def initM (pp : PubParam G1 G2) (alpha : G1) (r : Fr) : MM G1 G2 (SubSecretKey G1 G2) := scope do
  letv "alpha" (.g1 alpha)
  letv "r" (.fr r)
  letv "hlist" (.g1s pp.hlist)
  let g2r := mulFr r pp.g2
  letv "g2r" (.g2 g2r)
  let h0 ← SM.lift (idx pp.hlist 0)
  let hpoly := mulFr r h0
  let hpoly := hpoly + alpha
  letv "hpoly" (.g1 hpoly)
  let hvector := ((pp.hlist.take (pp.depth + 1)).drop 1).map (fun e => mulFr r e)
  setv "hlist" (.g1s (pp.hlist.take 1 ++ hvector ++ pp.hlist.drop (pp.depth + 1)))
  pure { time := 1, g2r := g2r, hpoly := hpoly, hvector := hvector }

/-- Models `SubSecretKey::randomization` with its variables, `/repo/src/subkeys.rs` 133-172: the
parameter `r`; `tmp_sec` 137, 161; `tmp3_sec` 146, 162; `tmp_sec` of the loop body 166, 169. -/
def randomizationM (pf : Profile) (pp : PubParam G1 G2) (r : Fr) (self : SubSecretKey G1 G2) :
    MM G1 G2 (SubSecretKey G1 G2) := scope do
  letv "r" (.fr r)
  let depth := pp.depth
  let tmp := mulFr r pp.g2
  letv "tmp_sec" (.g2 tmp)
  let self := { self with g2r := self.g2r + tmp }
  let hlist := pp.hlist
  let timevec ← SM.lift (self.timeVec pf depth)
  let tlen := timevec.vec.length
  let tv := timevec.vec
  let h0 ← SM.lift (idx hlist 0)
  letv "tmp3_sec" (.g1 h0)
  let tmp3 ← SM.lift ((List.range tlen).foldlM (fun tmp3 i => do
    let tmp2 ← idx hlist (i + 1)
    let ti ← idx tv i
    let tmp2 := if ti = 2 then tmp2 + tmp2 else tmp2
    .ok (tmp3 + tmp2)) h0)
  let tmp3 := mulFr r tmp3
  setv "tmp3_sec" (.g1 tmp3)
  let self := { self with hpoly := self.hpoly + tmp3 }
  zeroize "tmp_sec"
  zeroize "tmp3_sec"
  (List.range self.hvector.length).foldlM (fun self i => scope do
    let tmp ← SM.lift (idx hlist (tlen + i + 1))
    let tmp := mulFr r tmp
    letv "tmp_sec" (.g1 tmp)
    let hi ← SM.lift (idx self.hvector i)
    zeroize "tmp_sec"
    pure { self with hvector := self.hvector.set i (hi + tmp) }) self

/-- Models `SubSecretKey::delegate` with its variables, `/repo/src/subkeys.rs` 181-223: `tmp_sec` of
the loop body 205, 210; the removed elements of `hvector` are cleared in place (217). -/
def delegateM (pf : Profile) (tarTime : Nat) (depth : Nat) (self : SubSecretKey G1 G2) :
    MM G1 G2 (SubSecretKey G1 G2) := scope do
  let curTimeVec ← SM.lift (TimeVec.init pf self.time depth)
  let tarTimeVec ← SM.lift (TimeVec.init pf tarTime depth)
  if !curTimeVec.isPrefix tarTimeVec then
    SM.err .timeNonePrefix
  else do
    let tv := tarTimeVec.vec
    let curVecLength := curTimeVec.vec.length
    let tarVecLength := tarTimeVec.vec.length
    let self ← (List.range (tarVecLength - curVecLength)).foldlM (fun self i => scope do
      let tmp ← SM.lift (idx self.hvector i)
      letv "tmp_sec" (.g1 tmp)
      let ti ← SM.lift (idx tv (i + curVecLength))
      let tmp := if ti = 2 then tmp + tmp else tmp
      setv "tmp_sec" (.g1 tmp)
      zeroize "tmp_sec"
      pure { self with hpoly := self.hpoly + tmp }) self
    let self ← (List.range (tarVecLength - curVecLength)).foldlM (fun self _ => do
      let hv ← SM.lift (removeFirst self.hvector)
      pure { self with hvector := hv }) self
    pure { self with time := tarTime }

/-- Models `SubSecretKey::serialize` with its variables, `/repo/src/serdes.rs` 291-329, for a writer
that accepts everything (`wr = true`) or fails in `write_all` (`wr = false`): `hvector` 292 is a
copy (`/repo/src/subkeys.rs` 69-75); `buf` 302-323, cleared 325. -/
def serializeM (E : Ext G1 G2 GT) (compressed wr : Bool) (self : SubSecretKey G1 G2) :
    MM G1 G2 Bytes := scope do
  letv "hvector" (.g1s self.hvector)
  if self.time > 2 ^ 32 then SM.err .serial
  else do
    let buf := timeBytes self.time ++ [UInt8.ofNat self.hvector.length] ++
      E.encG2 compressed self.g2r ++ E.encG1 compressed self.hpoly ++
      (self.hvector.map (E.encG1 compressed)).flatten
    letv "buf" (.bytes buf)
    if !wr then SM.err .codec
    else do
      zeroize "buf"
      pure buf

/-- Models `SubSecretKey::deserialize` with its variables, `/repo/src/serdes.rs` 334-365: `g2r` 353;
`hpoly` 356, both copied into the result.  The result carries the rest of the input.  (What a failed
loop 360-363 leaves of `tmp` and `hv` is not recorded.) -/
def deserializeM (E : Ext G1 G2 GT) (compressed : Bool) (input : Bytes) :
    MM G1 G2 (SubSecretKey G1 G2 × Bytes) := scope do
  let (time, input) ← SM.lift ((readExact 4).exec input)
  let time := beNat time
  if time = 0 then SM.err .timeStamp
  else do
    let (hvlen, input) ← SM.lift (readByteLax.exec input)
    let (g2r, input) ← SM.lift ((E.decG2 compressed).exec input)
    letv "g2r" (.g2 g2r)
    let (hpoly, input) ← SM.lift ((E.decG1 compressed).exec input)
    letv "hpoly" (.g1 hpoly)
    let (hv, input) ← SM.lift ((readMany (E.decG1 compressed) hvlen.toNat).exec input)
    pure ({ time := time, g2r := g2r, hpoly := hpoly, hvector := hv }, input)

end SubSecretKey

namespace SecretKey

/-- The loop of `SecretKey::deserialize`, `/repo/src/serdes.rs` 270-274, with its variables. -/
def deserializeSsksM (E : Ext G1 G2 GT) (compressed : Bool) :
    Nat → Bytes → MM G1 G2 (List (SubSecretKey G1 G2) × Bytes)
  | 0, input => pure ([], input)
  | n + 1, input => do
    let (s, input) ← SubSecretKey.deserializeM E compressed input
    let (l, input) ← deserializeSsksM E compressed n input
    pure (s :: l, input)

/-- Models `SecretKey::deserialize` with its variables, `/repo/src/serdes.rs` 250-284: `rngseed` 253,
copied into the new PRNG 282. -/
def deserializeM (E : Ext G1 G2 GT) (compressed : Bool) (input : Bytes) :
    MM G1 G2 (SecretKey G1 G2 × Bytes) := scope do
  let (constants, input) ← SM.lift ((readExact 2).exec input)
  letv "rngseed" (.bytes (List.replicate 64 0))
  let (rngseed, input) ← SM.lift ((readExact 64).exec input)
  setv "rngseed" (.bytes rngseed)
  let c0 ← SM.lift (idx constants 0)
  if !validCiphersuite.contains c0 then SM.err .ciphersuite
  else do
    let c1 ← SM.lift (idx constants 1)
    if c1 = 0 then SM.err .deserial
    else do
      let (ssk, input) ← SubSecretKey.deserializeM E compressed input
      let (rest, input) ← deserializeSsksM E compressed (c1.toNat - 1) input
      let sskVec := ssk :: rest
      let first ← SM.lift (idx sskVec 0)
      pure ({ ciphersuite := c0, time := first.time, ssk := sskVec, prng := { seed := rngseed } },
        input)

/-- Models `SecretKey::serialize` with its variables, `/repo/src/serdes.rs` 211-236, for a writer
that accepts everything or fails: `buf` 217-231, cleared 233.  The sub keys are written into `buf`,
which accepts everything; the copies made by `self.prng()` and `self.ssk_vec()` are cleared
automatically. -/
def serializeM (E : Ext G1 G2 GT) (compressed wr : Bool) (self : SecretKey G1 G2) :
    MM G1 G2 Bytes := scope do
  if !validCiphersuite.contains self.ciphersuite then SM.err .ciphersuite
  else do
    let buf := [self.ciphersuite] ++ [UInt8.ofNat self.ssk.length] ++ self.prng.seed
    letv "buf" (.bytes buf)
    let buf ← self.ssk.foldlM (fun buf e => do
      let b ← e.serializeM E compressed true
      setv "buf" (.bytes (buf ++ b))
      pure (buf ++ b)) buf
    if !wr then SM.err .codec
    else do
      zeroize "buf"
      pure buf

/-- Models `SecretKey::init` with its variables, `/repo/src/secret_key.rs` 46-75: the parameter
`alpha`; `r_sec` 61, 67. -/
def initM (sha512 : Bytes → Bytes) (pp : PubParam G1 G2) (alpha : G1) (prng : Prng) :
    MM G1 G2 (SecretKey G1 G2) := scope do
  letv "alpha" (.g1 alpha)
  if !validCiphersuite.contains pp.ciphersuite then
    SM.err .ciphersuite
  else do
    let info := DOM_SEP_SK_INIT ++ [0, 0, 0, 1]
    let (r, prng) ← Prng.sampleThenUpdateM sha512 info prng
    letv "r_sec" (.fr r)
    let ssk ← SubSecretKey.initM pp alpha r
    zeroize "r_sec"
    pure { ciphersuite := pp.ciphersuite, time := 1, ssk := [ssk], prng := prng }

/-- Models the re-randomisation step of the loop with its variables, `/repo/src/secret_key.rs`
389-402: `r_sec` 390, cleared on both paths 396, 402.  The result carries the working copy and the
new sub key. -/
def rerandStepM (sha512 : Bytes → Bytes) (pf : Profile) (pp : PubParam G1 G2) (selfPrng : Prng)
    (newSk : SecretKey G1 G2) (newSsk : SubSecretKey G1 G2) :
    MM G1 G2 (SecretKey G1 G2 × SubSecretKey G1 G2) := scope do
  let info := DOM_SEP_SK_UPDATE
  let (r, prng) ← Prng.sampleThenUpdateM sha512 info newSk.prng
  letv "r_sec" (.fr r)
  let newSk := { newSk with prng := prng }
  SM.lift (assertRes (!(newSk.prng.eq selfPrng)))
  let newSsk ← (⟨fun m => match SubSecretKey.randomizationM pf pp r newSsk m with
    | (.err e, m') => (do zeroize "r_sec"; SM.err e : MM G1 G2 (SubSecretKey G1 G2)) m'
    | out => out⟩ : MM G1 G2 (SubSecretKey G1 G2))
  zeroize "r_sec"
  pure (newSk, newSsk)

/-- Models the loop of `SecretKey::update`, `/repo/src/secret_key.rs` 337-411. -/
def updateLoopM (sha512 : Bytes → Bytes) (pf : Profile) (pp : PubParam G1 G2) (selfPrng : Prng) :
    Nat → List TimeVec → SecretKey G1 G2 → MM G1 G2 (SecretKey G1 G2)
  | _, [], newSk => pure newSk
  | i, tmptime :: rest, newSk => do
    let depth := pp.depth
    let found ← SM.lift (scanDup pf depth tmptime newSk.ssk
      (List.range' (i + 1) (newSk.ssk.length - (i + 1))))
    if found then
      pure newSk
    else do
      let newSsk ← SM.lift (idx newSk.ssk 0)
      let newSsk ← SubSecretKey.delegateM pf tmptime.time depth newSsk
      let (newSk, newSsk) ←
        (if i ≠ 0 then
          rerandStepM sha512 pf pp selfPrng newSk newSsk
        else
          pure (newSk, newSsk))
      let ssk ← SM.lift (vecInsert newSk.ssk (i + 1) newSsk)
      updateLoopM sha512 pf pp selfPrng (i + 1) rest { newSk with ssk := ssk }

/-- Models `SecretKey::update`, `/repo/src/secret_key.rs` 151-430.  Its variables of a plain type
are those of the loop; the working copy `new_sk` and the old key are cleared automatically.  The
result is the new `*self`. -/
def updateM (sha512 : Bytes → Bytes) (pf : Profile) (pp : PubParam G1 G2) (tarTime : Nat)
    (seed : Bytes) (self : SecretKey G1 G2) : MM G1 G2 (SecretKey G1 G2) := scope do
  if self.ciphersuite ≠ pp.ciphersuite then
    SM.err .ciphersuite
  else do
    let depth := pp.depth
    let sh ← SM.lift (shl1 pf depth)
    let maxTime ← SM.lift (sub64 pf sh 1)
    let curTime := self.time
    if curTime ≥ tarTime ∨ tarTime > maxTime then
      SM.err .timeStamp
    else do
      let delegatorTime ← SM.lift (self.findAncestor tarTime)
      let newSk := self
      let info := DOM_SEP_SK_RERANDOMIZE_INFO ++ timeBytes curTime
      let prng ← Prng.rerandomizeM sha512 seed info newSk.prng
      let newSk := { newSk with prng := prng }
      let newSk := { newSk with time := delegatorTime }
      let ssk ← SM.lift (dropUntil delegatorTime newSk.ssk)
      let newSk := { newSk with ssk := ssk }
      if newSk.ssk.isEmpty then
        SM.err .sskEmpty
      else if delegatorTime = tarTime then
        pure newSk
      else do
        let targetTimeVec ← SM.lift (TimeVec.init pf tarTime depth)
        let gammaList ← SM.lift (targetTimeVec.gammaList pf depth)
        let newSk ← updateLoopM sha512 pf pp self.prng 0 gammaList newSk
        let ssk ← SM.lift (removeFirst newSk.ssk)
        let newSk := { newSk with ssk := ssk }
        let first ← SM.lift (idx newSk.ssk 0)
        pure { newSk with time := first.time }

end SecretKey

/-- Models `proof_of_possession` with its variables, `/repo/src/key_pair.rs` 149-158: the parameter
`msk`. -/
def proofOfPossessionM (E : Ext G1 G2 GT) (msk : Fr) (pk : G2) (ciphersuite : UInt8) :
    MM G1 G2 G1 := scope do
  letv "msk" (.fr msk)
  let buf := DOM_SEP_POP ++ E.encG2 true pk
  pure (blsCoreSign E msk buf [ciphersuite])

/-- Models `master_key_gen` with its variables, `/repo/src/key_pair.rs` 88-143: `x_sec` 124 (the
comment in 132, 140 claims a destructor, but `Fr` is `Copy`); `sk` 138 is copied into the result;
`pk` and `pop` are public. -/
def masterKeyGenM (E : Ext G1 G2 GT) (seed : Bytes) (pp : PubParam G1 G2) :
    MM G1 G2 (G2 × G1 × G1 × Prng) := scope do
  if seed.length < 32 then
    SM.err .seedTooShort
  else do
    let ciphersuite := pp.ciphersuite
    if !validCiphersuite.contains ciphersuite then
      SM.err .ciphersuite
    else do
      let salt := DOM_SEP_MASTER_KEY ++ [ciphersuite]
      let prng ← Prng.initM E.sha512 seed salt
      let info := ascii "key initialization"
      let (x, prng) ← Prng.sampleThenUpdateM E.sha512 info prng
      letv "x_sec" (.fr x)
      let pk := mulFr x pp.g2
      let pop ← proofOfPossessionM E x pk pp.ciphersuite
      let sk := mulFr x pp.h
      letv "sk" (.g1 sk)
      pure (pk, sk, pop, prng)

/-- Models `KeyPair::keygen` with its variables, `/repo/src/key_pair.rs` 24-73: `msk_sec` 52 (the
comment in 62, 69 claims a destructor, but `PixelG1` is `Copy`). -/
def keygenM (E : Ext G1 G2 GT) (seed : Bytes) (pp : PubParam G1 G2) :
    MM G1 G2 (PublicKey G2 × SecretKey G1 G2 × ProofOfPossession G1) := scope do
  if seed.length < 32 then
    SM.err .seedTooShort
  else do
    let (pk, msk, pop, prng) ← masterKeyGenM E seed pp
    letv "msk_sec" (.g1 msk)
    let pk ← SM.lift (PublicKey.init pp pk)
    let sk ← SecretKey.initM E.sha512 pp msk prng
    pure (pk, sk, { ciphersuite := pp.ciphersuite, pop := pop })

namespace Signature

/-- Models `Signature::sign_fr` with its variables, `/repo/src/sig.rs` 220-300: the parameter `r`;
`sig1` 251; `tmp_sec` 252, 255; `tmp3_sec` 258, 280, 291; `sig2` 276; `hv_last_sec` 277, 290. -/
def signFrM (pf : Profile) (sk : SecretKey G1 G2) (tarTime : Nat) (pp : PubParam G1 G2)
    (msg r : Fr) : MM G1 G2 (Signature G1 G2) := scope do
  letv "r" (.fr r)
  SM.lift (assertRes (sk.time = tarTime))
  let ssk ← SM.lift sk.firstSsk
  let depth := pp.depth
  let hlist := pp.hlist
  let timevec ← SM.lift (ssk.timeVec pf depth)
  let tlen := timevec.vec.length
  let tv := timevec.vec
  let sig1 := ssk.g2r
  letv "sig1" (.g2 sig1)
  let tmp := mulFr r pp.g2
  letv "tmp_sec" (.g2 tmp)
  let sig1 := sig1 + tmp
  setv "sig1" (.g2 sig1)
  zeroize "tmp_sec"
  let h0 ← SM.lift (idx hlist 0)
  letv "tmp3_sec" (.g1 h0)
  let tmp3 ← SM.lift ((List.range tlen).foldlM (fun tmp3 i => do
    let tmp2 ← idx hlist (i + 1)
    let ti ← idx tv i
    let tmp2 := if ti = 2 then tmp2 + tmp2 else tmp2
    .ok (tmp3 + tmp2)) h0)
  let hd ← SM.lift (idx hlist depth)
  let tmp2 := mulFr msg hd
  let tmp3 := tmp3 + tmp2
  let tmp3 := mulFr r tmp3
  setv "tmp3_sec" (.g1 tmp3)
  let sig2 := ssk.hpoly
  letv "sig2" (.g1 sig2)
  let hvLast ← (match ssk.lastHvectorCoeff with
    | .err e => do
      zeroize "tmp3_sec"
      SM.err e
    | out => SM.lift out : MM G1 G2 G1)
  let hvLast := mulFr msg hvLast
  letv "hv_last_sec" (.g1 hvLast)
  let sig2 := sig2 + hvLast
  let sig2 := sig2 + tmp3
  setv "sig2" (.g1 sig2)
  zeroize "hv_last_sec"
  zeroize "tmp3_sec"
  pure { ciphersuite := pp.ciphersuite, time := tarTime, sigma1 := sig1, sigma2 := sig2 }

/-- Models `Signature::sign_bytes` with its variables, `/repo/src/sig.rs` 164-216: `r_sec` 205, 213
(the result of `sign_fr` is kept in `sig` 210 and returned afterwards, so `r_sec` is cleared
whether or not it is an error).  Hashing the message (208) handles public data only. -/
def signBytesM (sha512 : Bytes → Bytes) (pf : Profile) (sk : SecretKey G1 G2) (tarTime : Nat)
    (pp : PubParam G1 G2) (msg : Bytes) : MM G1 G2 (Signature G1 G2) := scope do
  let ciphersuite := pp.ciphersuite
  if !validCiphersuite.contains ciphersuite then
    SM.err .ciphersuite
  else if sk.ciphersuite ≠ ciphersuite then
    SM.err .ciphersuite
  else do
    SM.lift (assertRes (sk.time = tarTime))
    let info := signInfo msg tarTime
    let r ← Prng.sampleM sha512 info sk.prng
    letv "r_sec" (.fr r)
    let m ← SM.lift (hashMsgIntoFr sha512 msg pp.ciphersuite)
    (⟨fun mem => match signFrM pf sk tarTime pp m r mem with
      | (.panic p, mem') => (.panic p, mem')
      | (out, mem') => (do zeroize "r_sec"; SM.lift out : MM G1 G2 (Signature G1 G2)) mem'⟩ :
      MM G1 G2 (Signature G1 G2))

end Signature

end Pixel
