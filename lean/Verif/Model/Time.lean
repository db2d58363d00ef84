import Verif.Basic

/-! # Model of `/repo/src/time.rs` -/

namespace Pixel

/-- Models `TimeVec`, `/repo/src/time.rs` 15-18.  `TimeStamp = u64` (line 9) is a natural number;
theorems that depend on the 64-bit range say so. -/
structure TimeVec where
  time : Nat
  vec : List Nat
deriving DecidableEq, Repr

/-- Models `time_to_vec`, `/repo/src/time.rs` 103-150.  The subtractions in lines 142 and 145 are
guarded by `time > threshold` resp. `time ≥ 2`, so they are plain subtractions. -/
def timeToVec (pf : Profile) (time : Nat) : Nat → Res (List Nat)
  | 0 => .err .timeDepth
  | d + 1 => do
    let maxT ← shl1 pf (d + 1)
    if time > maxT ∨ time = 0 then
      .err .timeStamp
    else if time = 1 then
      .ok []
    else do
      let threshold ← shl1 pf d
      if time > threshold then do
        let tmp ← timeToVec pf (time - threshold) d
        .ok (2 :: tmp)
      else do
        let tmp ← timeToVec pf (time - 1) d
        .ok (1 :: tmp)

/-- Models `vec_to_time`, `/repo/src/time.rs` 154-178.  The arithmetic of line 176 is evaluated
left to right: `tmp[0]-1`, the shift and its `-1`, the product, `1 + ..`, the recursive call with
`?`, and the final sum. -/
def vecToTime (pf : Profile) : List Nat → Nat → Res Nat
  | _, 0 => .err .timeDepth
  | [], _ + 1 => .ok 1
  | v0 :: rest, d + 1 => do
    let a ← sub64 pf v0 1
    let s ← shl1 pf d
    let b ← sub64 pf s 1
    let c ← mul64 pf a b
    let e ← add64 pf 1 c
    let f ← vecToTime pf rest d
    add64 pf e f

/-- Models `TimeVec::init`, `/repo/src/time.rs` 46-49. -/
def TimeVec.init (pf : Profile) (time : Nat) (depth : Nat) : Res TimeVec := do
  let vec ← timeToVec pf time depth
  .ok { time := time, vec := vec }

/-- Models `TimeVec::is_prefix`, `/repo/src/time.rs` 57-63. -/
def TimeVec.isPrefix (self other : TimeVec) : Bool :=
  if self.time ≥ other.time then
    false
  else
    self.vec.isPrefixOf other.vec

/-- One iteration of the loop of `gamma_list`, `/repo/src/time.rs` 84-96. -/
def TimeVec.gammaStep (pf : Profile) (self : TimeVec) (depth : Nat) (res : List TimeVec) (i : Nat) :
    Res (List TimeVec) := do
  let vi ← idx self.vec i
  if vi = 1 then do
    let pre ← slice self.vec 0 i
    let tmp := pre ++ [2]
    let t ← vecToTime pf tmp depth
    vecInsert res 1 { time := t, vec := tmp }
  else
    .ok res

/-- Models `TimeVec::gamma_list`, `/repo/src/time.rs` 73-98. -/
def TimeVec.gammaList (pf : Profile) (self : TimeVec) (depth : Nat) : Res (List TimeVec) :=
  (List.range self.vec.length).foldlM (TimeVec.gammaStep pf self depth) [self]

end Pixel
