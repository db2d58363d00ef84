import Verif.Model.CHeap

/-!
# What a C program may expect of the heap

Independent of the way the model reads: a region is a piece cut out of a live block.
-/

namespace Pixel.Spec

open Pixel Pixel.CHeap

variable {G1 G2 GT : Type} [AddCommGroup G1] [AddCommGroup G2] [CommGroup GT]

/-- At pointer `p` the heap holds the bytes `bs`, inside one live block. -/
def Region (h : Heap) (p : Option Ptr) (bs : Bytes) : Prop :=
  ∃ (q : Ptr) (pre post : Bytes), p = some q ∧ pre.length = q.off ∧
    h.blocks[q.block]? = some (some (pre ++ bs ++ post))

/-- A range that may be read. -/
def Readable (h : Heap) (p : Option Ptr) (n : Nat) : Prop :=
  ∃ bs, bs.length = n ∧ Region h p bs

/-- The step is a call into the library. -/
def IsCall : Step → Prop
  | .malloc _ => False
  | .write _ _ => False
  | .free _ => False
  | _ => True

/-- The program itself writes to block `n` or frees it. -/
def Touches (n : Nat) : Step → Prop
  | .write p _ => p.block = n
  | .free p => p.block = n
  | _ => False

/-- the secret key handed out with a reply -/
def issued : Reply → Option Sk
  | .keys k => some k.sk
  | .sk k => some k
  | _ => none

/-- A C program that updates a key again and again, each time the one it got last: the updates
`(time, seed pointer, seed length)`, the keys it has seen, and the heap in the end. -/
inductive Follows (E : Ext G1 G2 GT) (pf : Profile) :
    Heap → Sk → List (Nat × Option Ptr × Nat) → List Sk → Heap → Prop
  | done (h : Heap) (k : Sk) : Follows E pf h k [] [k] h
  | update {h h₁ h₂ : Heap} {k k' : Sk} {t n : Nat} {p : Option Ptr}
      {us : List (Nat × Option Ptr × Nat)} {ks : List Sk}
      (h1 : CHeap.cSkUpdate E pf k p n t h = (.ret k', h₁)) (h2 : Follows E pf h₁ k' us ks h₂) :
      Follows E pf h k ((t, p, n) :: us) (k :: ks) h₂

/-- The same with a program that overwrites the old key with zeros after each update. -/
inductive FollowsWiping (E : Ext G1 G2 GT) (pf : Profile) :
    Heap → Sk → List (Nat × Option Ptr × Nat) → List Sk → Heap → Prop
  | done (h : Heap) (k : Sk) : FollowsWiping E pf h k [] [k] h
  | update {h h₁ h₂ h₃ : Heap} {k k' : Sk} {q : Ptr} {t n : Nat} {p : Option Ptr}
      {us : List (Nat × Option Ptr × Nat)} {ks : List Sk}
      (h1 : CHeap.cSkUpdate E pf k p n t h = (.ret k', h₁)) (hq : k.data = some q)
      (h2 : clientWrite q (List.replicate k.len 0) h₁ = (.ret (), h₂))
      (h3 : FollowsWiping E pf h₂ k' us ks h₃) :
      FollowsWiping E pf h k ((t, p, n) :: us) (k :: ks) h₃

end Pixel.Spec
