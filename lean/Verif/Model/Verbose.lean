import Verif.Model.Sig
import Verif.Model.Debug

/-!
# The verifying side, with the text it prints

The functions that check keys, proofs of possession and signatures once more, with what they write to
standard output.  `println!` is compiled only with `debug_assertions`, which the profile `debug` has and
`release` has not.  The lines for `feature = "verbose"` (`/repo/src/secret_key.rs` 489-498) are left
out: `Cargo.toml` (49) declares no such feature, so that they can not be compiled.
-/

namespace Pixel.Verbose

open Pixel Debug

/-- The outcome of a function and the text it has printed. -/
structure Say (α : Type) where
  out : Res α
  text : Bytes

namespace Say

/-- one after the other -/
def bind {α β : Type} (x : Say α) (f : α → Say β) : Say β :=
  match x.out with
  | .ok a => ⟨(f a).out, x.text ++ (f a).text⟩
  | .err e => ⟨.err e, x.text⟩
  | .panic p => ⟨.panic p, x.text⟩

instance : Monad Say where
  pure a := ⟨.ok a, []⟩
  bind := bind

/-- nothing is printed -/
def quiet {α : Type} (x : Res α) : Say α := ⟨x, []⟩

end Say

open Say

/-- `println!` under `#[cfg(debug_assertions)]` -/
def line (pf : Profile) (text : Bytes) : Say Unit :=
  ⟨.ok (), match pf with
    | .debug => text ++ newline
    | .release => []⟩

/-- The error messages, `/repo/src/pixel_err.rs` 3-12.  The functions below do not see the errors of
readers and of the encodings, whose text is not modelled. -/
def errText : Err → Bytes
  | .seedTooShort => ascii "The seed length is too short"
  | .ciphersuite => ascii "Invalid ciphersuite ID"
  | .compress => ascii "Compressness does not match"
  | .timeStamp => ascii "Invalid Time Stamp"
  | .timeNonePrefix => ascii "Current time vector is not a prefix of target vector"
  | .sskEmpty => ascii "The sub secret key list is empty"
  | .timeDepth => ascii "Invalid Time Depth"
  | .serial => ascii "Fail to convert the element to a blob"
  | .deserial => ascii "Fail to convert a blob to the element"
  | .eof => []
  | .codec => []
  | .io => []

/-- `{}` of a `bool` -/
def boolText (b : Bool) : Bytes := if b then ascii "true" else ascii "false"

variable {G1 G2 GT : Type} [AddCommGroup G1] [AddCommGroup G2] [CommGroup GT]

/-! ## `/repo/src/time.rs` -/

/-- Models `time_to_vec`, `/repo/src/time.rs` 103-150. -/
def timeToVec (pf : Profile) (time : Nat) : Nat → Say (List Nat)
  | 0 => do
    line pf (ascii "Error in time_to_vec: " ++ errText .timeDepth)
    quiet (.err .timeDepth)
  | d + 1 => do
    let maxT ← quiet (shl1 pf (d + 1))
    if time > maxT ∨ time = 0 then do
      line pf (ascii "Error in time_to_vec: " ++ errText .timeStamp)
      quiet (.err .timeStamp)
    else if time = 1 then
      pure []
    else do
      let threshold ← quiet (shl1 pf d)
      if time > threshold then do
        let tmp ← timeToVec pf (time - threshold) d
        pure (2 :: tmp)
      else do
        let tmp ← timeToVec pf (time - 1) d
        pure (1 :: tmp)

/-- Models `TimeVec::init`, `/repo/src/time.rs` 46-49. -/
def timeVec (pf : Profile) (time depth : Nat) : Say TimeVec := do
  let vec ← timeToVec pf time depth
  pure { time := time, vec := vec }

/-- Models `vec_to_time`, `/repo/src/time.rs` 154-178. -/
def vecToTime (pf : Profile) : List Nat → Nat → Say Nat
  | _, 0 => do
    line pf (ascii "Error in vec_to_time: " ++ errText .timeDepth)
    quiet (.err .timeDepth)
  | [], _ + 1 => pure 1
  | v0 :: rest, d + 1 => do
    let a ← quiet (sub64 pf v0 1)
    let s ← quiet (shl1 pf d)
    let b ← quiet (sub64 pf s 1)
    let c ← quiet (mul64 pf a b)
    let e ← quiet (add64 pf 1 c)
    let f ← vecToTime pf rest d
    quiet (add64 pf e f)

/-- One iteration of the loop of `gamma_list`, `/repo/src/time.rs` 84-96. -/
def gammaStep (pf : Profile) (self : TimeVec) (depth : Nat) (res : List TimeVec) (i : Nat) :
    Say (List TimeVec) := do
  let vi ← quiet (idx self.vec i)
  if vi = 1 then do
    let pre ← quiet (slice self.vec 0 i)
    let tmp := pre ++ [2]
    let t ← vecToTime pf tmp depth
    quiet (vecInsert res 1 { time := t, vec := tmp })
  else
    pure res

/-- the loop of `gamma_list` -/
def gammaLoop (pf : Profile) (self : TimeVec) (depth : Nat) :
    List Nat → List TimeVec → Say (List TimeVec)
  | [], res => pure res
  | i :: is, res => do
    let res ← gammaStep pf self depth res i
    gammaLoop pf self depth is res

/-- Models `TimeVec::gamma_list`, `/repo/src/time.rs` 73-98. -/
def gammaList (pf : Profile) (self : TimeVec) (depth : Nat) : Say (List TimeVec) :=
  gammaLoop pf self depth (List.range self.vec.length) [self]

/-- `match x { Err(_e) => { println!("…: {}", _e); return false; } Ok(p) => p }` followed by the rest of
the function -/
def orFalse {α : Type} (pf : Profile) (text : Bytes) (x : Say α) (rest : α → Say Bool) : Say Bool :=
  match x.out with
  | .ok a => ⟨(rest a).out, x.text ++ (rest a).text⟩
  | .err e => ⟨.ok false, x.text ++ (line pf (text ++ errText e)).text⟩
  | .panic p => ⟨.panic p, x.text⟩

/-! ## keys and proofs of possession -/

/-- Models `SubSecretKey::validate`, `/repo/src/subkeys.rs` 227-281. -/
def sskValidate [DecidableEq GT] (E : Ext G1 G2 GT) (pf : Profile) (self : SubSecretKey G1 G2)
    (pk : PublicKey G2) (pp : PubParam G1 G2) : Say Bool :=
  orFalse pf (ascii "Error in ssk validation: ") (timeVec pf self.time pp.depth) fun t => do
    let h0 ← quiet (idx pp.hlist 0)
    let h2fx ← quiet ((List.range t.vec.length).foldlM (fun h2fx i => do
      let tmp ← idx pp.hlist (i + 1)
      let ti ← idx t.vec i
      .ok (h2fx + ti • tmp)) h0)
    match E.pairing [(-pp.g2, self.hpoly), (self.g2r, h2fx), (pk.pk, pp.h)] with
    | none => pure false
    | some pairingproduct => pure (decide (pairingproduct = 1))

/-- The loop of `SecretKey::validate`, `/repo/src/secret_key.rs` 523-546. -/
def validateLoop [DecidableEq GT] (E : Ext G1 G2 GT) (pf : Profile) (pk : PublicKey G2)
    (pp : PubParam G1 G2) (gammaList : List TimeVec) (ssk : List (SubSecretKey G1 G2)) :
    List Nat → Say Bool
  | [] => pure true
  | i :: is => do
    let s ← quiet (idx ssk i)
    let v ← sskValidate E pf s pk pp
    if !v then do
      line pf (ascii "Validation failed for " ++ decimal i ++ ascii "th SubSecretKey")
      pure false
    else do
      let g ← quiet (idx gammaList i)
      if s.time ≠ g.time then do
        line pf (ascii "Validation failed: time does not match the gamma_list")
        line pf (ascii "Current time: " ++ decimal s.time ++ newline ++
          ascii "time from gamma list: " ++ decimal g.time)
        pure false
      else
        validateLoop E pf pk pp gammaList ssk is

/-- Models `SecretKey::validate`, `/repo/src/secret_key.rs` 484-549. -/
def skValidate [DecidableEq GT] (E : Ext G1 G2 GT) (pf : Profile) (self : SecretKey G1 G2)
    (pk : PublicKey G2) (pp : PubParam G1 G2) : Say Bool :=
  if self.ciphersuite ≠ pk.ciphersuite ∨ self.ciphersuite ≠ pp.ciphersuite then do
    line pf (ascii "Ciphersuite does not match")
    pure false
  else
    orFalse pf (ascii "Error in sk validation: ") (timeVec pf self.time pp.depth) fun timeVec =>
      orFalse pf (ascii "Error in sk validation: ") (gammaList pf timeVec pp.depth) fun gammaList =>
        validateLoop E pf pk pp gammaList self.ssk (List.range self.ssk.length)

/-- Models `PublicKey::init`, `/repo/src/public_key.rs` 20-31. -/
def pkInit (pf : Profile) (pp : PubParam G1 G2) (pk : G2) : Say (PublicKey G2) :=
  if !validCiphersuite.contains pp.ciphersuite then do
    line pf (ascii "Incorrect ciphersuite id: " ++ decimal pp.ciphersuite.toNat)
    quiet (.err .ciphersuite)
  else pure { ciphersuite := pp.ciphersuite, pk := pk }

/-- Models `PublicKey::validate`, `/repo/src/public_key.rs` 55-77.  Serialising a point into a `Vec`
cannot fail, so that line 72 is never printed. -/
def pkValidate [DecidableEq GT] (E : Ext G1 G2 GT) (pf : Profile) (self : PublicKey G2)
    (pop : ProofOfPossession G1) : Say Bool :=
  if !validCiphersuite.contains self.ciphersuite then do
    line pf (ascii "Incorrect ciphersuite id: " ++ decimal self.ciphersuite.toNat)
    pure false
  else if self.ciphersuite ≠ pop.ciphersuite then do
    line pf (ascii "Incorrect ciphersuite id: " ++ decimal self.ciphersuite.toNat)
    pure false
  else
    let buf := DOM_SEP_POP ++ E.encG2 true self.pk
    pure (blsCoreVerify E self.pk pop.pop buf [self.ciphersuite])

/-! ## signatures -/

/-- Models `Signature::verify_fr`, `/repo/src/sig.rs` 330-402. -/
def verifyFr [DecidableEq GT] (E : Ext G1 G2 GT) (pf : Profile) (self : Signature G1 G2)
    (pk : PublicKey G2) (pp : PubParam G1 G2) (msg : Fr) : Say Bool :=
  if !E.inSub2 self.sigma1 || !E.inSub1 self.sigma2 then do
    line pf (ascii "Signature not it the correct subgroup" ++ newline ++ ascii "sigma1: " ++
      boolText (E.inSub2 self.sigma1) ++ ascii ", sigma2: " ++ boolText (E.inSub1 self.sigma2))
    pure false
  else do
    let hfx ← quiet (idx pp.hlist 0)
    orFalse pf (ascii "Error in verification: ") (timeVec pf self.time pp.depth) fun t => do
      let hfx ← quiet ((List.range t.vec.length).foldlM (fun hfx i => do
        let tmp ← idx pp.hlist (i + 1)
        let ti ← idx t.vec i
        let tmp := if ti = 2 then tmp + tmp else tmp
        .ok (hfx + tmp)) hfx)
      let hd ← quiet (idx pp.hlist pp.depth)
      match E.pairing [(-pp.g2, self.sigma2), (self.sigma1, hfx + mulFr msg hd), (pk.pk, pp.h)] with
      | none => pure false
      | some pairingproduct => pure (decide (pairingproduct = 1))

/-- Models `Signature::verify_bytes`, `/repo/src/sig.rs` 306-324. -/
def verifyBytes [DecidableEq GT] (E : Ext G1 G2 GT) (pf : Profile) (self : Signature G1 G2)
    (pk : PublicKey G2) (pp : PubParam G1 G2) (msg : Bytes) : Say Bool :=
  if !validCiphersuite.contains pp.ciphersuite then do
    line pf (ascii "Incorrect ciphersuite id: " ++ decimal pp.ciphersuite.toNat)
    pure false
  else if self.ciphersuite ≠ pp.ciphersuite then do
    line pf (ascii "Incorrect ciphersuite id: " ++ decimal pp.ciphersuite.toNat)
    pure false
  else do
    let m ← quiet (hashMsgIntoFr E.sha512 msg pp.ciphersuite)
    verifyFr E pf self pk pp m

/-- The check loop of `aggregate_without_validate`, `/repo/src/sig.rs` 411-422. -/
def aggCheck (pf : Profile) (res : Signature G1 G2) : List (Signature G1 G2) → Say Unit
  | [] => pure ()
  | e :: es =>
    if res.ciphersuite ≠ e.ciphersuite then do
      line pf (ascii "ciphersuite do not match")
      quiet (.err .ciphersuite)
    else if res.time ≠ e.time then do
      line pf (ascii "ciphersuite do not match")
      quiet (.err .timeStamp)
    else aggCheck pf res es

/-- Models `Signature::aggregate_without_validate`, `/repo/src/sig.rs` 408-430. -/
def aggregate (pf : Profile) (sigList : List (Signature G1 G2)) : Say (Signature G1 G2) := do
  let res ← quiet (idx sigList 0)
  aggCheck pf res (sigList.drop 1)
  pure ((sigList.drop 1).foldl (fun res e =>
    { res with sigma1 := res.sigma1 + e.sigma1, sigma2 := res.sigma2 + e.sigma2 }) res)

/-- Models `Signature::verify_bytes_aggregated`, `/repo/src/sig.rs` 437-464. -/
def verifyBytesAggregated [DecidableEq GT] (E : Ext G1 G2 GT) (pf : Profile)
    (self : Signature G1 G2) (pkList : List (PublicKey G2)) (pp : PubParam G1 G2) (msg : Bytes) :
    Say Bool :=
  if pkList.any (fun e => decide (pp.ciphersuite ≠ e.ciphersuite)) then do
    line pf (ascii "ciphersuite do not match")
    pure false
  else if self.ciphersuite ≠ pp.ciphersuite then do
    line pf (ascii "ciphersuite do not match")
    pure false
  else do
    let first ← quiet (idx pkList 0)
    let aggPke := (pkList.drop 1).foldl (fun acc e => acc + e.pk) first.pk
    verifyBytes E pf self { ciphersuite := pp.ciphersuite, pk := aggPke } pp msg

end Pixel.Verbose
