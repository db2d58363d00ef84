import Verif.Model.Ffi
import Verif.Spec.Key
import Verif.Spec.Wire

/-!
# Histories of the C interface, on bytes
-/

namespace Pixel.Spec

open Pixel

variable {G1 G2 GT : Type} [AddCommGroup G1] [AddCommGroup G2] [CommGroup GT]

/-- A C program calling `c_sk_update` repeatedly, each time on the blob returned last. -/
def cUpdates (E : Ext G1 G2 GT) (pf : Profile) (blob : Bytes) : List (Nat × Bytes) → Res Bytes
  | [] => .ok blob
  | (tar, seed) :: us => match Ffi.cSkUpdate E pf blob seed tar with
    | .ok blob' => cUpdates E pf blob' us
    | .err e => .err e
    | .panic p => .panic p

/-- the time of the key after such a program -/
def lastTime (t : Nat) : List (Nat × Bytes) → Nat
  | [] => t
  | (tar, _) :: us => lastTime tar us

/-- times increase strictly from `t` on, up to `max` -/
def Increasing (max t : Nat) : List (Nat × Bytes) → Prop
  | [] => True
  | (tar, _) :: us => t < tar ∧ tar ≤ max ∧ Increasing max tar us

/-- `b` is the blob of an honest secret key for time `t` and master secret `alpha`, under the
default parameters. -/
def BlobFor (E : Ext G1 G2 GT) (alpha : G1) (t : Nat) (b : Bytes) : Prop :=
  ∃ sk : SecretKey G1 G2, KeyFor E.defaultParam alpha t sk ∧ b = skLayout E true sk

end Pixel.Spec
