import Verif.Spec.Code
import Verif.Spec.Seed

/-!
# Leaks of the generator, and recovery by fresh seeds

As in `Spec/Prf.lean` an adversary uses the generator.  Now it may look at the state as often as it
likes and go on, and besides mixing in seeds of its own it may have uniform seeds of `n` bytes mixed in
that it does not see.  In the ideal game nothing is promised for a state it knows; but from the next
unseen seed on, all scalars come from uniform strings again, until it looks again.
-/

namespace Pixel.Spec

open Pixel

/-- An adversary that uses the generator.  It is an arbitrary function of what it has seen. -/
inductive HealPlayer where
  | toss (n : Nat) (hn : 0 < n) (next : Fin n → HealPlayer)
  | sample (info : Bytes) (next : Fr → HealPlayer)
  | draw (info : Bytes) (next : Fr → HealPlayer)
  /-- mix in a seed of its own -/
  | mix (seed info : Bytes) (next : HealPlayer)
  /-- have a uniform seed mixed in, unseen -/
  | refresh (info : Bytes) (next : HealPlayer)
  /-- look at the state -/
  | leak (next : Prng → HealPlayer)
  | stop (out : ℚ)

/-- What the adversary knows about the state: all, nothing, or samples of it. -/
inductive Mark where
  | known
  | unused
  | used
deriving DecidableEq

/-- after the state was replaced -/
def Mark.replaced : Mark → Mark
  | .known => .known
  | _ => .unused

/-- after a sample -/
def Mark.sampled : Mark → Mark
  | .known => .known
  | _ => .used

/-- The adversary does not look at an unknown state after a sample was taken from it. -/
def HealPlayer.Careful : HealPlayer → Mark → Prop
  | .toss _ _ n, u => ∀ c, (n c).Careful u
  | .sample _ n, u => ∀ r, (n r).Careful u.sampled
  | .draw _ n, u => ∀ r, (n r).Careful u.replaced
  | .mix _ _ n, u => n.Careful u.replaced
  | .refresh _ n, _ => n.Careful .unused
  | .leak n, u => u ≠ .used ∧ ∀ p, (n p).Careful .known
  | .stop _, _ => True

/-- at most `k` keys of HMAC come after the current state: one for a draw, two for a mix -/
def HealPlayer.Keys : HealPlayer → Nat → Prop
  | .toss _ _ n, k => ∀ c, (n c).Keys k
  | .sample _ n, k => ∀ r, (n r).Keys k
  | .draw _ n, k => 0 < k ∧ ∀ r, (n r).Keys (k - 1)
  | .mix _ _ n, k => 1 < k ∧ n.Keys (k - 2)
  | .refresh _ n, k => 1 < k ∧ n.Keys (k - 2)
  | .leak n, k => ∀ p, (n p).Keys k
  | .stop _, _ => True

/-- unseen seeds are mixed in at most `c` times -/
def HealPlayer.Refreshes : HealPlayer → Nat → Prop
  | .toss _ _ n, c => ∀ i, (n i).Refreshes c
  | .sample _ n, c => ∀ r, (n r).Refreshes c
  | .draw _ n, c => ∀ r, (n r).Refreshes c
  | .mix _ _ n, c => n.Refreshes c
  | .refresh _ n, c => 0 < c ∧ n.Refreshes (c - 1)
  | .leak n, c => ∀ p, (n p).Refreshes c
  | .stop _, _ => True

/-- The expected output with the functions of the model, with unseen seeds of `n` bytes; a panic would
count as 0. -/
noncomputable def HealPlayer.real (sha : Bytes → Bytes) (n : Nat) : HealPlayer → Prng → ℚ
  | .toss _ _ nx, p => avg fun c => (nx c).real sha n p
  | .sample info nx, p =>
    match Prng.sample sha info p with
    | (.ok r, p') => (nx r).real sha n p'
    | _ => 0
  | .draw info nx, p =>
    match Prng.sampleThenUpdate sha info p with
    | (.ok r, p') => (nx r).real sha n p'
    | _ => 0
  | .mix seed info nx, p =>
    match Prng.rerandomize sha seed info p with
    | (.ok (), p') => nx.real sha n p'
    | _ => 0
  | .refresh info nx, p => avg fun s : Seed n =>
    match Prng.rerandomize sha s.bytes info p with
    | (.ok (), p') => nx.real sha n p'
    | _ => 0
  | .leak nx, p => (nx p).real sha n p
  | .stop v, _ => v

/-- The state in the ideal game: known to the adversary, or a uniform string it has not seen, of which
the strings in the table were taken. -/
inductive HealState where
  | known (p : Prng)
  | fresh (tab : Table)

/-- The expected output in the ideal game. -/
noncomputable def HealPlayer.ideal (sha : Bytes → Bytes) : HealPlayer → HealState → ℚ
  | .toss _ _ nx, S => avg fun c => (nx c).ideal sha S
  | .sample info nx, .known p =>
    match Prng.sample sha info p with
    | (.ok r, p') => (nx r).ideal sha (.known p')
    | _ => 0
  | .sample info nx, .fresh tab => oracle tab info fun D tab' => (nx D.field).ideal sha (.fresh tab')
  | .draw info nx, .known p =>
    match Prng.sampleThenUpdate sha info p with
    | (.ok r, p') => (nx r).ideal sha (.known p')
    | _ => 0
  | .draw info nx, .fresh tab => oracle tab info fun D _ => (nx D.field).ideal sha (.fresh [])
  | .mix seed info nx, .known p =>
    match Prng.rerandomize sha seed info p with
    | (.ok (), p') => nx.ideal sha (.known p')
    | _ => 0
  | .mix _ _ nx, .fresh _ => nx.ideal sha (.fresh [])
  | .refresh _ nx, _ => nx.ideal sha (.fresh [])
  | .leak nx, .known p => (nx p).ideal sha (.known p)
  | .leak nx, .fresh _ => avg fun K : Digest => (nx ⟨K.bytes⟩).ideal sha (.known ⟨K.bytes⟩)
  | .stop v, _ => v

/-! ## HKDF-extract as an extractor, with salt and first part of the input known -/

/-- An adversary that chooses the salt, the first part of the input, and a function of the result. -/
inductive ExtractPlayer where
  | toss (n : Nat) (hn : 0 < n) (next : Fin n → ExtractPlayer)
  | test (salt first : Bytes) (f : Prng → ℚ)
  | pass

/-- How far it tells HKDF-extract of an input that ends with a uniform seed of `n` bytes from a uniform
string. -/
noncomputable def ExtractPlayer.gain (sha : Bytes → Bytes) (n : Nat) : ExtractPlayer → ℚ
  | .toss _ _ nx => avg fun c => (nx c).gain sha n
  | .test salt first f =>
      (avg fun s : Seed n => f ⟨hmac sha salt (first ++ s.bytes)⟩) - avg fun K : Digest => f ⟨K.bytes⟩
  | .pass => 0

/-! ## How the adversary is used

A period begins when an unseen seed is mixed into a known state, and ends when the adversary looks at
the state.  In hybrid number `i` the first `i` periods are ideal. -/

/-- a period, with the generator of `Spec/Prf.lean`; what comes after it is as in the code -/
noncomputable def HealPlayer.live (sha : Bytes → Bytes) (n : Nat) : HealPlayer → PrngPlayer
  | .toss m hm nx => .toss m hm fun c => (nx c).live sha n
  | .sample info nx => .sample info fun r => (nx r).live sha n
  | .draw info nx => .draw info fun r => (nx r).live sha n
  | .mix seed info nx => .mix seed info (nx.live sha n)
  | .refresh info nx => .toss (256 ^ n) (Nat.pow_pos (by decide)) fun s =>
      .mix (Seed.bytes s) info (nx.live sha n)
  | .leak nx => .reveal fun p => (nx p).real sha n p
  | .stop v => .stop v

/-- The user of the generator whose life is period number `i`; the periods before are simulated with
uniform strings. -/
noncomputable def HealPlayer.period (sha : Bytes → Bytes) (n : Nat) :
    HealPlayer → Nat → HealState → PrngPlayer
  | .toss m hm nx, i, S => .toss m hm fun c => (nx c).period sha n i S
  | .sample info nx, i, .known p =>
    match Prng.sample sha info p with
    | (.ok r, p') => (nx r).period sha n i (.known p')
    | _ => .stop 0
  | .sample info nx, i, .fresh tab => .table tab info fun D tab' =>
      (nx D.field).period sha n i (.fresh tab')
  | .draw info nx, i, .known p =>
    match Prng.sampleThenUpdate sha info p with
    | (.ok r, p') => (nx r).period sha n i (.known p')
    | _ => .stop 0
  | .draw info nx, i, .fresh tab => .table tab info fun D _ =>
      (nx D.field).period sha n i (.fresh [])
  | .mix seed info nx, i, .known p =>
    match Prng.rerandomize sha seed info p with
    | (.ok (), p') => nx.period sha n i (.known p')
    | _ => .stop 0
  | .mix _ _ nx, i, .fresh _ => nx.period sha n i (.fresh [])
  | .refresh _ nx, 0, .known _ => nx.live sha n
  | .refresh _ nx, i + 1, .known _ => nx.period sha n i (.fresh [])
  | .refresh _ nx, i, .fresh _ => nx.period sha n i (.fresh [])
  | .leak nx, i, .known p => (nx p).period sha n i (.known p)
  | .leak nx, i, .fresh _ => .toss (256 ^ 64) digests_pos fun K =>
      (nx ⟨Digest.bytes K⟩).period sha n i (.known ⟨Digest.bytes K⟩)
  | .stop v, _, _ => .stop v

/-- The adversary against HKDF-extract at the beginning of period number `i`. -/
noncomputable def HealPlayer.entry (sha : Bytes → Bytes) (n : Nat) :
    HealPlayer → Nat → HealState → ExtractPlayer
  | .toss m hm nx, i, S => .toss m hm fun c => (nx c).entry sha n i S
  | .sample info nx, i, .known p =>
    match Prng.sample sha info p with
    | (.ok r, p') => (nx r).entry sha n i (.known p')
    | _ => .pass
  | .sample info nx, i, .fresh tab =>
    match tab.lookup info with
    | some D => (nx D.field).entry sha n i (.fresh tab)
    | none => .toss (256 ^ 64) digests_pos fun D =>
        (nx (Digest.field D)).entry sha n i (.fresh (tab ++ [(info, D)]))
  | .draw info nx, i, .known p =>
    match Prng.sampleThenUpdate sha info p with
    | (.ok r, p') => (nx r).entry sha n i (.known p')
    | _ => .pass
  | .draw info nx, i, .fresh tab =>
    match tab.lookup info with
    | some D => (nx D.field).entry sha n i (.fresh [])
    | none => .toss (256 ^ 64) digests_pos fun D => (nx (Digest.field D)).entry sha n i (.fresh [])
  | .mix seed info nx, i, .known p =>
    match Prng.rerandomize sha seed info p with
    | (.ok (), p') => nx.entry sha n i (.known p')
    | _ => .pass
  | .mix _ _ nx, i, .fresh _ => nx.entry sha n i (.fresh [])
  | .refresh info nx, 0, .known p =>
      let t1 := hmac sha p.seed (info ++ [1])
      .test (hmac sha p.seed (t1 ++ info ++ [2])) t1 fun q => nx.real sha n q
  | .refresh _ nx, i + 1, .known _ => nx.entry sha n i (.fresh [])
  | .refresh _ nx, i, .fresh _ => nx.entry sha n i (.fresh [])
  | .leak nx, i, .known p => (nx p).entry sha n i (.known p)
  | .leak nx, i, .fresh _ => .toss (256 ^ 64) digests_pos fun K =>
      (nx ⟨Digest.bytes K⟩).entry sha n i (.known ⟨Digest.bytes K⟩)
  | .stop _, _, _ => .pass

end Pixel.Spec
