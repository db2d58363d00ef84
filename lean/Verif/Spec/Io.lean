import Verif.Model.Io
import Verif.Spec.Wire

/-!
# Vocabulary for readers and writers that are not byte slices
-/

namespace Pixel.Spec

open Pixel

/-- The bytes a reader delivers before it fails, or first answers `Ok(0)`. -/
def delivered : Reader → Bytes
  | [] => []
  | .data [] :: _ => []
  | .data (b :: bs) :: r => b :: bs ++ delivered r
  | .interrupted :: r => delivered r
  | .fail :: _ => []

/-- All bytes of the script of a reader. -/
def allBytes : Reader → Bytes
  | [] => []
  | .data b :: r => b ++ allBytes r
  | .interrupted :: r => allBytes r
  | .fail :: r => allBytes r

/-- The reader never answers `Ok(0)` before its end. -/
def NeverEmpty (r : Reader) : Prop := ∀ s ∈ r, s ≠ .data []

/-- The reader is never interrupted. -/
def Uninterrupted (r : Reader) : Prop := ∀ s ∈ r, s ≠ .interrupted

/-- The reader is not interrupted just when it has delivered `n` bytes and not more. -/
def QuietAt : Nat → Reader → Prop
  | _, [] => True
  | n, .data b :: r => n < b.length ∨ QuietAt (n - b.length) r
  | n, .interrupted :: r => n ≠ 0 ∧ QuietAt n r
  | _, .fail :: _ => True

/-- The reader only ever answers with some bytes. -/
def Plain (r : Reader) : Prop := ∀ s ∈ r, ∃ b : Bytes, b ≠ [] ∧ s = .data b

/-- Whatever `p` reads from a reader, `q` reads from the bytes it delivers. -/
def NeverMisreads {α : Type} (P : Reader → Prop) (p : SM Reader α) (q : SM Bytes α) : Prop :=
  ∀ r, P r → ∀ a r', p r = (.ok a, r') → q (delivered r) = (.ok a, delivered r')

/-- What `q` reads from the bytes a reader delivers, `p` reads from the reader. -/
def ReadsAll {α : Type} (P : Reader → Prop) (p : SM Reader α) (q : SM Bytes α) : Prop :=
  ∀ r, P r → ∀ a rest, q (delivered r) = (.ok a, rest) →
    ∃ r', p r = (.ok a, r') ∧ delivered r' = rest

/-- The writer takes some bytes at every call, or is interrupted. -/
def Willing (w : Writer) : Prop := ∀ s ∈ w.script, s ≠ .fail ∧ s ≠ .take 0

/-- Writing ends in one of three ways: the whole encoding `b` is written; or the writer failed and a
proper beginning of the encoding is written; or there is no encoding and nothing is written. -/
def WritesWhole (w : Writer) (out : Res Unit × Writer) (x : Res Bytes) : Prop :=
  (∀ b, x = .ok b → (∃ s, out = (.ok (), ⟨s, w.written ++ b⟩)) ∨
    (¬ Willing w ∧ ∃ s n, n < b.length ∧ out = (.err .io, ⟨s, w.written ++ b.take n⟩))) ∧
  (∀ e, x = .err e → out = (.err e, w))

end Pixel.Spec
