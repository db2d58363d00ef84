import Verif.Model.Memory
import Verif.Spec.Sig
import Mathlib.Data.ZMod.Basic

/-!
# Vocabulary for what stays in memory, and what can be made of it

The second half contains programs for someone who reads the memory: they use the public parameter,
group operations and the values found there, nothing else.
-/

namespace Pixel.Spec

open Pixel

variable {G1 G2 GT : Type} [AddCommGroup G1] [AddCommGroup G2] [CommGroup GT]

/-- `f` leaves the caller's variables alone and leaves exactly the contents `l` behind in memory,
whichever way it ends. -/
def Leaves {α : Type} (f : MM G1 G2 α) (l : List (Cell G1 G2)) : Prop :=
  ∀ m, (f m).2.frame = m.frame ∧ (f m).2.left = m.left ++ l

/-- `f` leaves nothing behind. -/
def Clean {α : Type} (f : MM G1 G2 α) : Prop := Leaves f []

/-- Everything `f` leaves behind is of the kind `P`. -/
def LeavesOnly {α : Type} (f : MM G1 G2 α) (P : Cell G1 G2 → Prop) : Prop :=
  ∃ l, Leaves f l ∧ ∀ c ∈ l, P c

/-- `f` leaves the contents `c` behind (among others). -/
def LeavesBehind {α : Type} (f : MM G1 G2 α) (c : Cell G1 G2) : Prop := ∃ l, Leaves f l ∧ c ∈ l

/-- The result of a `&mut self` method as seen by the caller: the new value of the object. -/
def after {σ : Type} (f : SM σ Unit) (s : σ) : Res σ := (f.exec s) >>= fun p => .ok p.2

/-- The 64 bytes `0, 1, …, 63` that `os2ip_mod_p` writes over its buffer. -/
def filler : Bytes := (List.range 64).map UInt8.ofNat

/-- `c` shows the scalar `r`, or the filler. -/
def ShowsOnly (r : Fr) (c : Cell G1 G2) : Prop := c = .fr r ∨ c = .num r.val ∨ c = .bytes filler

/-! ### What can be made of it -/

/-- Undo a re-randomisation of the sub key of node `v` with the scalar `r`. -/
def unrandomise (pp : PubParam G1 G2) (v : List Nat) (r : Fr) (s : SubSecretKey G1 G2) :
    SubSecretKey G1 G2 :=
  { time := s.time
    g2r := s.g2r - r.val • pp.g2
    hpoly := s.hpoly - r.val • nodePoint pp v
    hvector := List.zipWith (fun a h => a - r.val • h) s.hvector (pp.hlist.drop (v.length + 1)) }

/-- The sub key of node `v` (time `t`), computed from the sub key `first` of the node `v ++ 1 :: w`,
the re-randomised sub key `sib` of the right child `v ++ [2]`, and the scalar `r` used for it. -/
def undo (pp : PubParam G1 G2) (t : Nat) (v w : List Nat) (r : Fr)
    (first sib : SubSecretKey G1 G2) : SubSecretKey G1 G2 :=
  let right := unrandomise pp (v ++ [2]) r sib
  let left := first.hpoly - (List.zipWith (fun t h => t • h) w right.hvector).sum
  let x := right.hpoly - left
  { time := t, g2r := first.g2r, hpoly := left - x, hvector := x :: right.hvector }

/-- A signature on the hashed message `M`, computed from two signatures of the same time on the
hashed messages `M1` and `M2` and the scalars `r1`, `r2` used for them. -/
def mixSignatures (pp : PubParam G1 G2) (v : List Nat) (M1 r1 : Fr)
    (s1 : Signature G1 G2) (M2 r2 : Fr) (s2 : Signature G1 G2) (M : Fr) : Signature G1 G2 :=
  let u1 := s1.sigma2 - r1.val • sigPoint pp v M1
  let u2 := s2.sigma2 - r2.val • sigPoint pp v M2
  let c : Fr := (M - M1) * (M2 - M1)⁻¹
  { ciphersuite := s1.ciphersuite, time := s1.time
    sigma1 := s1.sigma1 - r1.val • pp.g2
    sigma2 := u1 + c.val • (u2 - u1) }

end Pixel.Spec
