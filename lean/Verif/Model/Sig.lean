import Verif.Model.KeyPair

/-! # Model of `/repo/src/sig.rs` -/

namespace Pixel

variable {G1 G2 GT : Type} [AddCommGroup G1] [AddCommGroup G2] [CommGroup GT]

/-- Models `Signature`, `/repo/src/sig.rs` 23-28. -/
structure Signature (G1 G2 : Type) where
  ciphersuite : UInt8
  time : Nat
  sigma1 : G2
  sigma2 : G1

/-- Models `hash_msg_into_fr`, `/repo/src/sig.rs` 469-480. -/
def hashMsgIntoFr (sha512 : Bytes → Bytes) (msg : Bytes) (ciphersuite : UInt8) : Res Fr :=
  let m := DOM_SEP_HASH_TO_MSG ++ [ciphersuite] ++ msg
  os2ipModP (sha512 m)

/-- The PRNG info string of `sign_bytes`, `/repo/src/sig.rs` 193-204. -/
def signInfo (msg : Bytes) (tarTime : Nat) : Bytes := DOM_SEP_SIG ++ msg ++ timeBytes tarTime

namespace Signature

/-- Models `Signature::sign_fr`, `/repo/src/sig.rs` 220-300. -/
def signFr (pf : Profile) (sk : SecretKey G1 G2) (tarTime : Nat) (pp : PubParam G1 G2) (msg r : Fr) :
    Res (Signature G1 G2) := do
  assertRes (sk.time = tarTime)
  let ssk ← sk.firstSsk
  let depth := pp.depth
  let hlist := pp.hlist
  let timevec ← ssk.timeVec pf depth
  let tlen := timevec.vec.length
  let tv := timevec.vec
  let sig1 := ssk.g2r
  let tmp := mulFr r pp.g2
  let sig1 := sig1 + tmp
  let h0 ← idx hlist 0
  let tmp3 ← (List.range tlen).foldlM (fun tmp3 i => do
    let tmp2 ← idx hlist (i + 1)
    let ti ← idx tv i
    let tmp2 := if ti = 2 then tmp2 + tmp2 else tmp2
    .ok (tmp3 + tmp2)) h0
  let hd ← idx hlist depth
  let tmp2 := mulFr msg hd
  let tmp3 := tmp3 + tmp2
  let tmp3 := mulFr r tmp3
  let sig2 := ssk.hpoly
  let hvLast ← ssk.lastHvectorCoeff
  let hvLast := mulFr msg hvLast
  let sig2 := sig2 + hvLast
  let sig2 := sig2 + tmp3
  .ok { ciphersuite := pp.ciphersuite, time := tarTime, sigma1 := sig1, sigma2 := sig2 }

/-- Models `Signature::sign_bytes`, `/repo/src/sig.rs` 164-216.  `sk.prng()` is a clone, so the
key's PRNG is not advanced. -/
def signBytes (sha512 : Bytes → Bytes) (pf : Profile) (sk : SecretKey G1 G2) (tarTime : Nat)
    (pp : PubParam G1 G2) (msg : Bytes) : Res (Signature G1 G2) :=
  let ciphersuite := pp.ciphersuite
  if !validCiphersuite.contains ciphersuite then
    .err .ciphersuite
  else if sk.ciphersuite ≠ ciphersuite then
    .err .ciphersuite
  else do
    assertRes (sk.time = tarTime)
    let info := signInfo msg tarTime
    let (r, _) ← (Prng.sample sha512 info).exec sk.prng
    let m ← hashMsgIntoFr sha512 msg pp.ciphersuite
    signFr pf sk tarTime pp m r

/-- Models `Signature::sign`, `/repo/src/sig.rs` 70-96, and `sign` of `/repo/src/lib.rs`
138-146. -/
def sign (sha512 : Bytes → Bytes) (pf : Profile) (tarTime : Nat) (pp : PubParam G1 G2)
    (msg seed : Bytes) : SM (SecretKey G1 G2) (Signature G1 G2) := do
  let sk ← SM.get
  let curTime := sk.time
  if curTime > tarTime then
    SM.err .timeStamp
  else do
    if curTime < tarTime then
      SecretKey.update sha512 pf pp tarTime seed
    else
      pure ()
    let sk ← SM.get
    SM.lift (signBytes sha512 pf sk tarTime pp msg)

/-- Models `Signature::sign_present`, `/repo/src/sig.rs` 102-123, and `/repo/src/lib.rs`
152-159. -/
def signPresent (sha512 : Bytes → Bytes) (pf : Profile) (tarTime : Nat) (pp : PubParam G1 G2)
    (msg : Bytes) : SM (SecretKey G1 G2) (Signature G1 G2) := do
  let sk ← SM.get
  let curTime := sk.time
  if curTime ≠ tarTime then
    SM.err .timeStamp
  else
    SM.lift (signBytes sha512 pf sk tarTime pp msg)

/-- Models `Signature::sign_then_update`, `/repo/src/sig.rs` 130-160, and `/repo/src/lib.rs`
168-176. -/
def signThenUpdate (sha512 : Bytes → Bytes) (pf : Profile) (tarTime : Nat) (pp : PubParam G1 G2)
    (msg seed : Bytes) : SM (SecretKey G1 G2) (Signature G1 G2) := do
  let sk ← SM.get
  let curTime := sk.time
  if curTime ≠ tarTime then
    SM.err .timeStamp
  else do
    let p ← SM.lift (signBytes sha512 pf sk tarTime pp msg)
    let next ← SM.lift (add64 pf tarTime 1)
    SecretKey.update sha512 pf pp next seed
    pure p

/-- Models `Signature::verify_fr`, `/repo/src/sig.rs` 330-403. -/
def verifyFr [DecidableEq GT] (E : Ext G1 G2 GT) (pf : Profile) (self : Signature G1 G2)
    (pk : PublicKey G2) (pp : PubParam G1 G2) (msg : Fr) : Res Bool :=
  if !E.inSub2 self.sigma1 || !E.inSub1 self.sigma2 then
    .ok false
  else do
    let depth := pp.depth
    let pke := pk.pk
    let tarTime := self.time
    let list := pp.hlist
    let hfx ← idx list 0
    match TimeVec.init pf tarTime depth with
    | .err _ => .ok false
    | .panic p => .panic p
    | .ok t =>
      let timevec := t.vec
      let hfx ← (List.range timevec.length).foldlM (fun hfx i => do
        let tmp ← idx list (i + 1)
        let ti ← idx timevec i
        let tmp := if ti = 2 then tmp + tmp else tmp
        .ok (hfx + tmp)) hfx
      let hd ← idx list depth
      let tmp := mulFr msg hd
      let hfx := hfx + tmp
      match E.pairing [(-pp.g2, self.sigma2), (self.sigma1, hfx), (pke, pp.h)] with
      | none => .ok false
      | some pairingproduct => .ok (decide (pairingproduct = 1))

/-- Models `Signature::verify_bytes`, `/repo/src/sig.rs` 306-324, and `verify` of
`/repo/src/lib.rs` 180-187. -/
def verifyBytes [DecidableEq GT] (E : Ext G1 G2 GT) (pf : Profile) (self : Signature G1 G2)
    (pk : PublicKey G2) (pp : PubParam G1 G2) (msg : Bytes) : Res Bool :=
  if !validCiphersuite.contains pp.ciphersuite then
    .ok false
  else if self.ciphersuite ≠ pp.ciphersuite then
    .ok false
  else do
    let m ← hashMsgIntoFr E.sha512 msg pp.ciphersuite
    verifyFr E pf self pk pp m

/-- The check loop of `aggregate_without_validate`, `/repo/src/sig.rs` 411-422. -/
def aggCheck (res : Signature G1 G2) : List (Signature G1 G2) → Res Unit
  | [] => .ok ()
  | e :: es =>
    if res.ciphersuite ≠ e.ciphersuite then .err .ciphersuite
    else if res.time ≠ e.time then .err .timeStamp
    else aggCheck res es

/-- Models `Signature::aggregate_without_validate`, `/repo/src/sig.rs` 408-430 (and
`/repo/src/lib.rs` 192-194). -/
def aggregateWithoutValidate (sigList : List (Signature G1 G2)) : Res (Signature G1 G2) := do
  let res ← idx sigList 0
  aggCheck res (sigList.drop 1)
  .ok ((sigList.drop 1).foldl (fun res e =>
    { res with sigma1 := res.sigma1 + e.sigma1, sigma2 := res.sigma2 + e.sigma2 }) res)

/-- Models `Signature::verify_bytes_aggregated`, `/repo/src/sig.rs` 437-464 (and
`verify_aggregated` of `/repo/src/lib.rs` 201-208). -/
def verifyBytesAggregated [DecidableEq GT] (E : Ext G1 G2 GT) (pf : Profile)
    (self : Signature G1 G2) (pkList : List (PublicKey G2)) (pp : PubParam G1 G2) (msg : Bytes) :
    Res Bool :=
  let ciphersuite := pp.ciphersuite
  if pkList.any (fun e => decide (ciphersuite ≠ e.ciphersuite)) then
    .ok false
  else if self.ciphersuite ≠ ciphersuite then
    .ok false
  else do
    let first ← idx pkList 0
    let aggPke := (pkList.drop 1).foldl (fun acc e => acc + e.pk) first.pk
    let pk : PublicKey G2 := { ciphersuite := ciphersuite, pk := aggPke }
    verifyBytes E pf self pk pp msg

/-- Models `PartialEq for Signature`, `/repo/src/sig.rs` 498-502. -/
def eq [DecidableEq G1] [DecidableEq G2] (self other : Signature G1 G2) : Bool :=
  decide (self.sigma1 = other.sigma1) && decide (self.sigma2 = other.sigma2)

end Signature

end Pixel
