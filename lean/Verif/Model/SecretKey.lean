import Verif.Model.SubKey

/-! # Model of `/repo/src/secret_key.rs` (`digest` is in `Verif/Model/Serdes.lean`) -/

namespace Pixel

variable {G1 G2 GT : Type} [AddCommGroup G1] [AddCommGroup G2] [CommGroup GT]

/-- Models `SecretKey`, `/repo/src/secret_key.rs` 20-29. -/
structure SecretKey (G1 G2 : Type) where
  ciphersuite : UInt8
  time : Nat
  ssk : List (SubSecretKey G1 G2)
  prng : Prng

namespace SecretKey

/-- Models `SecretKey::init`, `/repo/src/secret_key.rs` 46-75 (`prng` is taken by value). -/
def init (sha512 : Bytes → Bytes) (pp : PubParam G1 G2) (alpha : G1) (prng : Prng) :
    Res (SecretKey G1 G2) :=
  if !validCiphersuite.contains pp.ciphersuite then
    .err .ciphersuite
  else do
    let info := DOM_SEP_SK_INIT ++ [0, 0, 0, 1]
    let (r, prng) ← (Prng.sampleThenUpdate sha512 info).exec prng
    let ssk ← SubSecretKey.init pp alpha r
    .ok { ciphersuite := pp.ciphersuite, time := 1, ssk := [ssk], prng := prng }

/-- Models `SecretKey::first_ssk`, `/repo/src/secret_key.rs` 103-111. -/
def firstSsk (self : SecretKey G1 G2) : Res (SubSecretKey G1 G2) :=
  if self.ssk.isEmpty then .err .sskEmpty else idx self.ssk 0

/-- Models `SecretKey::find_ancestor`, `/repo/src/secret_key.rs` 449-477. -/
def findAncestor (self : SecretKey G1 G2) (tarTime : Nat) : Res Nat :=
  if self.ssk.isEmpty then
    .err .sskEmpty
  else do
    let res ← idx self.ssk 0
    if res.time ≥ tarTime then
      .err .timeStamp
    else do
      let res ← (List.range (self.ssk.length - 1)).foldlM (fun res i => do
        let s ← idx self.ssk (i + 1)
        if s.time ≤ tarTime then .ok s else .ok res) res
      .ok res.time

/-- Models the loop `while new_sk.ssk[0].time() != delegator_time { new_sk.ssk.remove(0); }`,
`/repo/src/secret_key.rs` 262-266. -/
def dropUntil (delegatorTime : Nat) : List (SubSecretKey G1 G2) → Res (List (SubSecretKey G1 G2))
  | [] => .panic .index
  | s :: rest => if s.time ≠ delegatorTime then dropUntil delegatorTime rest else .ok (s :: rest)

/-- Models the duplicate scan `for j in i + 1..new_sk.ssk.len()`, `/repo/src/secret_key.rs`
347-360; `true` means `break 'out`. -/
def scanDup (pf : Profile) (depth : Nat) (tmptime : TimeVec) (ssk : List (SubSecretKey G1 G2)) :
    List Nat → Res Bool
  | [] => .ok false
  | j :: js => do
    let s ← idx ssk j
    let tmpTimeVec ← s.timeVec pf depth
    if tmptime = tmpTimeVec then .ok true else scanDup pf depth tmptime ssk js

/-- Models the loop `'out: for (i, tmptime) in gamma_list.iter().enumerate()`,
`/repo/src/secret_key.rs` 337-411.  `selfPrng` is the PRNG of the not yet overwritten `self`,
`newSk` the working copy. -/
def updateLoop (sha512 : Bytes → Bytes) (pf : Profile) (pp : PubParam G1 G2) (selfPrng : Prng) :
    Nat → List TimeVec → SecretKey G1 G2 → Res (SecretKey G1 G2)
  | _, [], newSk => .ok newSk
  | i, tmptime :: rest, newSk => do
    let depth := pp.depth
    let found ← scanDup pf depth tmptime newSk.ssk
      (List.range' (i + 1) (newSk.ssk.length - (i + 1)))
    if found then
      .ok newSk
    else do
      let newSsk ← idx newSk.ssk 0
      let (_, newSsk) ← (SubSecretKey.delegate pf tmptime.time depth).exec newSsk
      let (newSk, newSsk) ←
        (if i ≠ 0 then do
          let info := DOM_SEP_SK_UPDATE
          let (r, prng) ← (Prng.sampleThenUpdate sha512 info).exec newSk.prng
          let newSk := { newSk with prng := prng }
          assertRes (!(newSk.prng.eq selfPrng))
          let (_, newSsk) ← (SubSecretKey.randomization pf pp r).exec newSsk
          .ok (newSk, newSsk)
        else
          .ok (newSk, newSsk))
      let ssk ← vecInsert newSk.ssk (i + 1) newSsk
      updateLoop sha512 pf pp selfPrng (i + 1) rest { newSk with ssk := ssk }

/-- Models `SecretKey::update`, `/repo/src/secret_key.rs` 151-430. -/
def update (sha512 : Bytes → Bytes) (pf : Profile) (pp : PubParam G1 G2) (tarTime : Nat)
    (seed : Bytes) : SM (SecretKey G1 G2) Unit := do
  let self ← SM.get
  if self.ciphersuite ≠ pp.ciphersuite then
    SM.err .ciphersuite
  else do
    let depth := pp.depth
    let sh ← SM.lift (shl1 pf depth)
    let maxTime ← SM.lift (sub64 pf sh 1)
    let curTime := self.time
    if curTime ≥ tarTime ∨ tarTime > maxTime then
      SM.err .timeStamp
    else do
      let delegatorTime ← SM.lift (self.findAncestor tarTime)
      let newSk := self
      let info := DOM_SEP_SK_RERANDOMIZE_INFO ++ timeBytes curTime
      let (_, prng) ← SM.lift ((Prng.rerandomize sha512 seed info).exec newSk.prng)
      let newSk := { newSk with prng := prng }
      let newSk := { newSk with time := delegatorTime }
      let ssk ← SM.lift (dropUntil delegatorTime newSk.ssk)
      let newSk := { newSk with ssk := ssk }
      if newSk.ssk.isEmpty then
        SM.err .sskEmpty
      else if delegatorTime = tarTime then do
        SM.set newSk
        pure ()
      else do
        let targetTimeVec ← SM.lift (TimeVec.init pf tarTime depth)
        let gammaList ← SM.lift (targetTimeVec.gammaList pf depth)
        let newSk ← SM.lift (updateLoop sha512 pf pp self.prng 0 gammaList newSk)
        let ssk ← SM.lift (removeFirst newSk.ssk)
        let newSk := { newSk with ssk := ssk }
        let first ← SM.lift (idx newSk.ssk 0)
        let newSk := { newSk with time := first.time }
        SM.set newSk
        pure ()

/-- Models the loop of `SecretKey::validate`, `/repo/src/secret_key.rs` 524-546, over the indices
`i..`; note that there is no check that the two lists have the same length. -/
def validateLoop [DecidableEq GT] (E : Ext G1 G2 GT) (pf : Profile) (pk : PublicKey G2)
    (pp : PubParam G1 G2) (gammaList : List TimeVec) (ssk : List (SubSecretKey G1 G2)) :
    List Nat → Res Bool
  | [] => .ok true
  | i :: is => do
    let s ← idx ssk i
    let v ← s.validate E pf pk pp
    if !v then
      .ok false
    else do
      let g ← idx gammaList i
      if s.time ≠ g.time then
        .ok false
      else
        validateLoop E pf pk pp gammaList ssk is

/-- Models `SecretKey::validate`, `/repo/src/secret_key.rs` 484-549. -/
def validate [DecidableEq GT] (E : Ext G1 G2 GT) (pf : Profile) (self : SecretKey G1 G2)
    (pk : PublicKey G2) (pp : PubParam G1 G2) : Res Bool :=
  if self.ciphersuite ≠ pk.ciphersuite ∨ self.ciphersuite ≠ pp.ciphersuite then
    .ok false
  else
    let depth := pp.depth
    match TimeVec.init pf self.time depth with
    | .err _ => .ok false
    | .panic p => .panic p
    | .ok timeVec =>
      match timeVec.gammaList pf depth with
      | .err _ => .ok false
      | .panic p => .panic p
      | .ok gammaList =>
        validateLoop E pf pk pp gammaList self.ssk (List.range self.ssk.length)

/-- Models `SecretKey::size`, `/repo/src/secret_key.rs` 565-572. -/
def size (self : SecretKey G1 G2) : Nat :=
  self.ssk.foldl (fun len e => len + e.size) 66

/-- Models `SecretKey::estimate_size`, `/repo/src/secret_key.rs` 588-608.  `usize` subtraction
`depth - e.vector_len()` is checked like `u64` subtraction. -/
def estimateSize (pf : Profile) (time depth : Nat) : Res Nat := do
  let timeVec ← TimeVec.init pf time depth
  let gammaList ← timeVec.gammaList pf depth
  gammaList.foldlM (fun res e => do
    let k ← sub64 pf depth e.vec.length
    .ok (res + 149 + k * 96)) 66

/-- Models the derived `PartialEq for SubSecretKey`, `/repo/src/subkeys.rs` 19. -/
def sskEq [DecidableEq G1] [DecidableEq G2] (a b : SubSecretKey G1 G2) : Bool :=
  decide (a.time = b.time) && decide (a.g2r = b.g2r) && decide (a.hpoly = b.hpoly) &&
    decide (a.hvector = b.hvector)

/-- Models `PartialEq for SecretKey`, `/repo/src/secret_key.rs` 628-642 (`self.ssk[i] !=
other.ssk[i]` is in bounds because the lengths were compared). -/
def eq [DecidableEq G1] [DecidableEq G2] (self other : SecretKey G1 G2) : Bool :=
  if self.ssk.length ≠ other.ssk.length then
    false
  else if (self.ssk.zip other.ssk).any (fun p => !sskEq p.1 p.2) then
    false
  else
    decide (self.ciphersuite = other.ciphersuite) && decide (self.time = other.time) &&
      self.prng.eq other.prng

end SecretKey

end Pixel
