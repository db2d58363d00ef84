import Verif.Spec.Wire
import Verif.Spec.Tree

/-!
# Which error a reader of the wire formats reports

Written from the layouts of `Verif/Spec/Wire.lean`: what is the first thing wrong with the input.
The point decoders `E.decG1`, `E.decG2` are the external ones, and their errors are passed on.
-/

namespace Pixel.Spec

open Pixel

variable {G1 G2 GT : Type} [AddCommGroup G1] [AddCommGroup G2] [CommGroup GT]

/-- Of `n` elements in a row some element is the first that its reader refuses. -/
inductive ManyRefused {α : Type} (p : Bytes → Res α × Bytes) : Nat → Bytes → Err → Prop where
  | here {n inp e r} : p inp = (.err e, r) → ManyRefused p (n + 1) inp e
  | later {n inp x r e} : p inp = (.ok x, r) → ManyRefused p n r e → ManyRefused p (n + 1) inp e

/-- `|ciphersuite id| pk |` -/
inductive PkRefused (E : Ext G1 G2 GT) (c : Bool) : Bytes → Err → Prop where
  | short : PkRefused E c [] .eof
  | suite {b inp} : ¬ Supported b → PkRefused E c (b :: inp) .ciphersuite
  | point {b inp e r} : Supported b → E.decG2 c inp = (.err e, r) → PkRefused E c (b :: inp) e

/-- `|ciphersuite id| pop |` -/
inductive PopRefused (E : Ext G1 G2 GT) (c : Bool) : Bytes → Err → Prop where
  | short : PopRefused E c [] .eof
  | suite {b inp} : ¬ Supported b → PopRefused E c (b :: inp) .ciphersuite
  | point {b inp e r} : Supported b → E.decG1 c inp = (.err e, r) → PopRefused E c (b :: inp) e

/-- `|ciphersuite id| time | sigma1 | sigma2 |`: the time comes before the ciphersuite, and the
uncompressed mode is refused only after the first point has been read. -/
inductive SigRefused (E : Ext G1 G2 GT) (c : Bool) : Bytes → Err → Prop where
  | short {inp} : inp.length < 5 → SigRefused E c inp .eof
  | time {b inp} : SigRefused E c (b :: 0 :: 0 :: 0 :: 0 :: inp) .timeStamp
  | suite {b t0 t1 t2 t3 inp} : [t0, t1, t2, t3] ≠ [0, 0, 0, 0] → ¬ Supported b →
      SigRefused E c (b :: t0 :: t1 :: t2 :: t3 :: inp) .ciphersuite
  | sigma1 {b t0 t1 t2 t3 inp e r} : [t0, t1, t2, t3] ≠ [0, 0, 0, 0] → Supported b →
      E.decG2 c inp = (.err e, r) → SigRefused E c (b :: t0 :: t1 :: t2 :: t3 :: inp) e
  | mode {b t0 t1 t2 t3 inp x r} : [t0, t1, t2, t3] ≠ [0, 0, 0, 0] → Supported b →
      E.decG2 c inp = (.ok x, r) → c = false →
      SigRefused E c (b :: t0 :: t1 :: t2 :: t3 :: inp) .compress
  | sigma2 {b t0 t1 t2 t3 inp x r e r'} : [t0, t1, t2, t3] ≠ [0, 0, 0, 0] → Supported b →
      E.decG2 c inp = (.ok x, r) → c = true → E.decG1 c r = (.err e, r') →
      SigRefused E c (b :: t0 :: t1 :: t2 :: t3 :: inp) e

/-- `| time stamp | hv_length | g2r | hpoly | h_1 | … |`; a missing length is taken for 0. -/
inductive SubRefused (E : Ext G1 G2 GT) (c : Bool) : Bytes → Err → Prop where
  | short {inp} : inp.length < 4 → SubRefused E c inp .eof
  | time {inp} : SubRefused E c (0 :: 0 :: 0 :: 0 :: inp) .timeStamp
  | g2r {t0 t1 t2 t3 inp e r} : [t0, t1, t2, t3] ≠ [0, 0, 0, 0] →
      E.decG2 c (inp.drop 1) = (.err e, r) → SubRefused E c (t0 :: t1 :: t2 :: t3 :: inp) e
  | hpoly {t0 t1 t2 t3 inp x r e r'} : [t0, t1, t2, t3] ≠ [0, 0, 0, 0] →
      E.decG2 c (inp.drop 1) = (.ok x, r) → E.decG1 c r = (.err e, r') →
      SubRefused E c (t0 :: t1 :: t2 :: t3 :: inp) e
  | hvector {t0 t1 t2 t3 inp x r y r' e} : [t0, t1, t2, t3] ≠ [0, 0, 0, 0] →
      E.decG2 c (inp.drop 1) = (.ok x, r) → E.decG1 c r = (.ok y, r') →
      ManyRefused (fun i => E.decG1 c i) (inp.headD 0).toNat r' e →
      SubRefused E c (t0 :: t1 :: t2 :: t3 :: inp) e

/-- `|ciphersuite id| number_of_ssk-s | seed | first ssk | second ssk | …`, with a reader `p` for
the sub keys -/
inductive SkRefused {α : Type} (p : Bytes → Res α × Bytes) : Bytes → Err → Prop where
  | short {inp} : inp.length < 66 → SkRefused p inp .eof
  | suite {b n seed inp} : seed.length = 64 → ¬ Supported b →
      SkRefused p (b :: n :: (seed ++ inp)) .ciphersuite
  | none {b seed inp} : seed.length = 64 → Supported b →
      SkRefused p (b :: 0 :: (seed ++ inp)) .deserial
  | sub {b n seed inp e} : seed.length = 64 → Supported b → ManyRefused p n.toNat inp e →
      SkRefused p (b :: n :: (seed ++ inp)) e

/-- What is wrong, for a signer with the secret key `sk` (any value of that type, not only keys that
the crate makes) and the parameters `pp`, in the order of the checks. -/
inductive SignRefused (pp : PubParam G1 G2) (sk : SecretKey G1 G2) : Err → Prop where
  | suite : ¬ (Supported pp.ciphersuite ∧ sk.ciphersuite = pp.ciphersuite) →
      SignRefused pp sk .ciphersuite
  | noKey : Supported pp.ciphersuite → sk.ciphersuite = pp.ciphersuite → sk.ssk = [] →
      SignRefused pp sk .sskEmpty
  | time {s rest} : Supported pp.ciphersuite → sk.ciphersuite = pp.ciphersuite →
      sk.ssk = s :: rest → s.time = 0 ∨ 2 ^ pp.depth < s.time → SignRefused pp sk .timeStamp
  | last {s rest} : Supported pp.ciphersuite → sk.ciphersuite = pp.ciphersuite →
      sk.ssk = s :: rest → s.time = 2 ^ pp.depth → SignRefused pp sk .timeDepth
  | noCoeff {s rest} : Supported pp.ciphersuite → sk.ciphersuite = pp.ciphersuite →
      sk.ssk = s :: rest → ValidTime pp.depth s.time → s.hvector = [] →
      SignRefused pp sk .sskEmpty

end Pixel.Spec
