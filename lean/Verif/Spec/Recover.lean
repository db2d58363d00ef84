import Verif.Spec.Heal
import Verif.Spec.Random

/-!
# Leaks of the generator, with a random function in the place of SHA-512

The adversary of `Spec/Heal.lean` may evaluate the hash function besides.
-/

namespace Pixel.Spec

open Pixel

/-- An adversary that uses the generator, looks at its state, has seeds mixed in that it does not see,
and evaluates the hash function. -/
inductive HealProber where
  | toss (n : Nat) (hn : 0 < n) (next : Fin n → HealProber)
  | hash (m : Bytes) (next : Bytes → HealProber)
  | sample (info : Bytes) (next : Fr → HealProber)
  | draw (info : Bytes) (next : Fr → HealProber)
  /-- mix in a seed of its own -/
  | mix (seed info : Bytes) (next : HealProber)
  /-- have a uniform seed mixed in, unseen -/
  | refresh (info : Bytes) (next : HealProber)
  /-- look at the state -/
  | leak (next : Bytes → HealProber)
  | stop (v : ℚ)

/-- with the hash function `sha`, as an adversary of `Spec/Heal.lean` -/
def HealProber.using (sha : Bytes → Bytes) : HealProber → HealPlayer
  | .toss k hk n => .toss k hk fun c => (n c).using sha
  | .hash m n => (n (sha m)).using sha
  | .sample info n => .sample info fun r => (n r).using sha
  | .draw info n => .draw info fun r => (n r).using sha
  | .mix seed info n => .mix seed info (n.using sha)
  | .refresh info n => .refresh info (n.using sha)
  | .leak n => .leak fun p => (n p.seed).using sha
  | .stop v => .stop v

namespace HealProber

/-- the output is between 0 and 1 -/
def Bounded : HealProber → Prop
  | .toss _ _ n => ∀ c, (n c).Bounded
  | .hash _ n => ∀ b, (n b).Bounded
  | .sample _ n => ∀ r, (n r).Bounded
  | .draw _ n => ∀ r, (n r).Bounded
  | .mix _ _ n => n.Bounded
  | .refresh _ n => n.Bounded
  | .leak n => ∀ b, (n b).Bounded
  | .stop v => 0 ≤ v ∧ v ≤ 1

/-- the opposite verdict -/
def flip : HealProber → HealProber
  | .toss k hk n => .toss k hk fun c => (n c).flip
  | .hash m n => .hash m fun b => (n b).flip
  | .sample info n => .sample info fun r => (n r).flip
  | .draw info n => .draw info fun r => (n r).flip
  | .mix seed info n => .mix seed info n.flip
  | .refresh info n => .refresh info n.flip
  | .leak n => .leak fun b => (n b).flip
  | .stop v => .stop (1 - v)

/-- as `HealPlayer.Careful` -/
def Careful : HealProber → Mark → Prop
  | .toss _ _ n, u => ∀ c, (n c).Careful u
  | .hash _ n, u => ∀ b, (n b).Careful u
  | .sample _ n, u => ∀ r, (n r).Careful u.sampled
  | .draw _ n, u => ∀ r, (n r).Careful u.replaced
  | .mix _ _ n, u => n.Careful u.replaced
  | .refresh _ n, _ => n.Careful .unused
  | .leak n, u => u ≠ .used ∧ ∀ b, (n b).Careful .known
  | .stop _, _ => True

/-- At most `q` evaluations of the hash function and `u` uses of the generator, `c` of them with unseen
seeds; strings that are hashed have at most `B` octets, the others at most `B - 193`. -/
def Within (B : Nat) : HealProber → Nat → Nat → Nat → Prop
  | .toss _ _ n, q, u, c => ∀ i, (n i).Within B q u c
  | .hash m n, q, u, c =>
    m.length ≤ B ∧ 0 < q ∧ ∀ b : Bytes, b.length = 64 → (n b).Within B (q - 1) u c
  | .sample info n, q, u, c => info.length + 193 ≤ B ∧ 0 < u ∧ ∀ r, (n r).Within B q (u - 1) c
  | .draw info n, q, u, c => info.length + 193 ≤ B ∧ 0 < u ∧ ∀ r, (n r).Within B q (u - 1) c
  | .mix seed info n, q, u, c =>
    seed.length + 193 ≤ B ∧ info.length + 193 ≤ B ∧ 0 < u ∧ n.Within B q (u - 1) c
  | .refresh info n, q, u, c => info.length + 193 ≤ B ∧ 0 < u ∧ 0 < c ∧ n.Within B q (u - 1) (c - 1)
  | .leak n, q, u, c => ∀ b : Bytes, b.length = 64 → (n b).Within B q u c
  | .stop _, _, _, _ => True

end HealProber

end Pixel.Spec
