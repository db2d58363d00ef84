import Verif.Model.Trace

/-!
# What two runs on different secrets have in common

Independent of the helpers of the model: when two keys look alike from outside, when two requests do,
and what an observer sees of a run.
-/

namespace Pixel.Spec

open Pixel.Trace

variable {G1 G2 : Type}

/-- Everything but the comparisons of PRNG states. -/
def seen (l : List Ev) : List Ev :=
  l.filter (fun e => match e with
    | .compare _ => false
    | _ => true)

/-- Two runs ended the same way: both with a result, or with the same error, or with the same
panic. -/
def SameKind {α β : Type} : Res α → Res β → Prop
  | .ok _, .ok _ => True
  | .err e, .err e' => e = e'
  | .panic p, .panic p' => p = p'
  | _, _ => False

/-- Two secret keys look alike: same ciphersuite, same time, sub keys for the same times with
vectors of the same lengths.  Nothing is said about points and PRNG states. -/
structure SameShape (a b : SecretKey G1 G2) : Prop where
  suite : a.ciphersuite = b.ciphersuite
  time : a.time = b.time
  ssk : a.ssk.map (fun s => (s.time, s.hvector.length)) =
    b.ssk.map (fun s => (s.time, s.hvector.length))
  wfa : a.prng.WF
  wfb : b.prng.WF

/-- What is asked of a key. -/
inductive Request where
  | update (time : Nat) (seed : Bytes)
  | sign (time : Nat) (msg seed : Bytes)
  | signPresent (time : Nat) (msg : Bytes)
  | signThenUpdate (time : Nat) (msg seed : Bytes)

/-- Two requests for the same thing at the same time, with messages and seeds of the same lengths. -/
inductive SameRequest : Request → Request → Prop
  | update {t : Nat} {s s' : Bytes} (h : s.length = s'.length) :
    SameRequest (.update t s) (.update t s')
  | sign {t : Nat} {m m' s s' : Bytes} (hm : m.length = m'.length) (h : s.length = s'.length) :
    SameRequest (.sign t m s) (.sign t m' s')
  | signPresent {t : Nat} {m m' : Bytes} (hm : m.length = m'.length) :
    SameRequest (.signPresent t m) (.signPresent t m')
  | signThenUpdate {t : Nat} {m m' s s' : Bytes} (hm : m.length = m'.length)
    (h : s.length = s'.length) : SameRequest (.signThenUpdate t m s) (.signThenUpdate t m' s')

variable [AddCommGroup G1] [AddCommGroup G2]

/-- The run that serves a request (the signature itself is not looked at). -/
def Request.run (sha512 : Bytes → Bytes) (pf : Profile) (pp : PubParam G1 G2) :
    Request → SecretKey G1 G2 → (Res Unit × SecretKey G1 G2) × List Ev
  | .update t s, sk => Trace.update sha512 pf pp t s sk
  | .sign t m s, sk => (do let _ ← Trace.sign sha512 pf t pp m s; pure () : TS _ Unit) sk
  | .signPresent t m, sk => (do let _ ← Trace.signPresent sha512 pf t pp m; pure () : TS _ Unit) sk
  | .signThenUpdate t m s, sk =>
    (do let _ ← Trace.signThenUpdate sha512 pf t pp m s; pure () : TS _ Unit) sk

/-- Requests one after the other, whatever becomes of them: the outcomes, the key at the end, and all
that was recorded.  After a panic nothing more happens. -/
def serve (sha512 : Bytes → Bytes) (pf : Profile) (pp : PubParam G1 G2) :
    List Request → SecretKey G1 G2 → List (Res Unit) × SecretKey G1 G2 × List Ev
  | [], sk => ([], sk, [])
  | r :: rs, sk =>
    match r.run sha512 pf pp sk with
    | ((.panic p, sk'), l) => ([.panic p], sk', l)
    | ((x, sk'), l) =>
      let rest := serve sha512 pf pp rs sk'
      (x :: rest.1, rest.2.1, l ++ rest.2.2)

end Pixel.Spec
