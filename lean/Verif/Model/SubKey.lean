import Verif.Model.Prng
import Verif.Model.Time

/-! # Model of `/repo/src/subkeys.rs` and of the data types of `public_key.rs` -/

namespace Pixel

variable {G1 G2 GT : Type} [AddCommGroup G1] [AddCommGroup G2] [CommGroup GT]

/-- Models `PublicKey`, `/repo/src/public_key.rs` 10-15. -/
structure PublicKey (G2 : Type) where
  ciphersuite : UInt8
  pk : G2

/-- Models `SubSecretKey`, `/repo/src/subkeys.rs` 21-32. -/
structure SubSecretKey (G1 G2 : Type) where
  time : Nat
  g2r : G2
  hpoly : G1
  hvector : List G1

namespace SubSecretKey

/-- Models `SubSecretKey::time_vec`, `/repo/src/subkeys.rs` 54-56. -/
def timeVec (pf : Profile) (self : SubSecretKey G1 G2) (depth : Nat) : Res TimeVec :=
  TimeVec.init pf self.time depth

/-- Models `SubSecretKey::last_hvector_coeff`, `/repo/src/subkeys.rs` 85-90. -/
def lastHvectorCoeff (self : SubSecretKey G1 G2) : Res G1 :=
  if self.hvector.isEmpty then .err .sskEmpty
  else idx self.hvector (self.hvector.length - 1)

/-- Models `SubSecretKey::init`, `/repo/src/subkeys.rs` 96-126.  (`hlist[0]` on an empty parameter
list would panic; the Rust array is never empty.) -/
def init (pp : PubParam G1 G2) (alpha : G1) (r : Fr) : Res (SubSecretKey G1 G2) := do
  let g2r := mulFr r pp.g2
  let h0 ← idx pp.hlist 0
  let hpoly := mulFr r h0
  let hpoly := hpoly + alpha
  let hvector := ((pp.hlist.take (pp.depth + 1)).drop 1).map (fun e => mulFr r e)
  .ok { time := 1, g2r := g2r, hpoly := hpoly, hvector := hvector }

/-- Models `SubSecretKey::randomization`, `/repo/src/subkeys.rs` 133-172.  The writes to `self`
happen in the order of the code: `g2r` (139) before the fallible `time_vec` (143), then `hpoly`
(159), then the entries of `hvector` one by one (165-170). -/
def randomization (pf : Profile) (pp : PubParam G1 G2) (r : Fr) : SM (SubSecretKey G1 G2) Unit := do
  let depth := pp.depth
  let tmp := mulFr r pp.g2
  let self ← SM.get
  SM.set { self with g2r := self.g2r + tmp }
  let hlist := pp.hlist
  let self ← SM.get
  let timevec ← SM.lift (self.timeVec pf depth)
  let tlen := timevec.vec.length
  let tv := timevec.vec
  let h0 ← SM.lift (idx hlist 0)
  let tmp3 ← SM.lift ((List.range tlen).foldlM (fun tmp3 i => do
    let tmp2 ← idx hlist (i + 1)
    let ti ← idx tv i
    let tmp2 := if ti = 2 then tmp2 + tmp2 else tmp2
    .ok (tmp3 + tmp2)) h0)
  let tmp3 := mulFr r tmp3
  let self ← SM.get
  SM.set { self with hpoly := self.hpoly + tmp3 }
  let self ← SM.get
  (List.range self.hvector.length).forM (fun i => do
    let tmp ← SM.lift (idx hlist (tlen + i + 1))
    let tmp := mulFr r tmp
    let self ← SM.get
    let hi ← SM.lift (idx self.hvector i)
    SM.set { self with hvector := self.hvector.set i (hi + tmp) })

/-- Models `SubSecretKey::delegate`, `/repo/src/subkeys.rs` 181-223. -/
def delegate (pf : Profile) (tarTime : Nat) (depth : Nat) : SM (SubSecretKey G1 G2) Unit := do
  let self ← SM.get
  let curTimeVec ← SM.lift (TimeVec.init pf self.time depth)
  let tarTimeVec ← SM.lift (TimeVec.init pf tarTime depth)
  if !curTimeVec.isPrefix tarTimeVec then
    SM.err .timeNonePrefix
  else do
    let tv := tarTimeVec.vec
    let curVecLength := curTimeVec.vec.length
    let tarVecLength := tarTimeVec.vec.length
    (List.range (tarVecLength - curVecLength)).forM (fun i => do
      let self ← SM.get
      let tmp ← SM.lift (idx self.hvector i)
      let ti ← SM.lift (idx tv (i + curVecLength))
      let tmp := if ti = 2 then tmp + tmp else tmp
      SM.set { self with hpoly := self.hpoly + tmp })
    (List.range (tarVecLength - curVecLength)).forM (fun _ => do
      let self ← SM.get
      let hv ← SM.lift (removeFirst self.hvector)
      SM.set { self with hvector := hv })
    let self ← SM.get
    SM.set { self with time := tarTime }

/-- Models `SubSecretKey::validate`, `/repo/src/subkeys.rs` 227-281. -/
def validate [DecidableEq GT] (E : Ext G1 G2 GT) (pf : Profile) (self : SubSecretKey G1 G2)
    (pk : PublicKey G2) (pp : PubParam G1 G2) : Res Bool := do
  let pke := pk.pk
  let depth := pp.depth
  let list := pp.hlist
  match TimeVec.init pf self.time depth with
  | .err _ => .ok false
  | .panic p => .panic p
  | .ok t =>
    let timevec := t.vec
    let h0 ← idx list 0
    let h2fx ← (List.range t.vec.length).foldlM (fun h2fx i => do
      let tmp ← idx list (i + 1)
      let ti ← idx timevec i
      .ok (h2fx + ti • tmp)) h0
    match E.pairing [(-pp.g2, self.hpoly), (self.g2r, h2fx), (pke, pp.h)] with
    | none => .ok false
    | some pairingproduct => .ok (decide (pairingproduct = 1))

/-- Models `SubSecretKey::size`, `/repo/src/subkeys.rs` 290-303. -/
def size (self : SubSecretKey G1 G2) : Nat :=
  5 + 144 + self.hvector.length * 96

/-- Models the test-only `SubSecretKey::init_from_randomization`, `/repo/src/subkeys.rs`
334-346. -/
def initFromRandomization (pf : Profile) (pp : PubParam G1 G2) (alpha : G1) (r : Fr) :
    Res (SubSecretKey G1 G2) := do
  let s : SubSecretKey G1 G2 :=
    { time := 1, g2r := 0, hpoly := alpha, hvector := List.replicate pp.depth 0 }
  let (_, s) ← (randomization pf pp r).exec s
  .ok s

end SubSecretKey

end Pixel
