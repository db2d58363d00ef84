import Verif.Proof.Heal
import Verif.Props.Prf

/-!
# Property C85: unseen seeds repair a generator whose state has leaked

Vocabulary: `Verif/Spec/Heal.lean`.
-/

namespace Pixel.Props

open Pixel Spec

set_option linter.unusedSectionVars false

variable {sha : Bytes → Bytes}

/-- C85: an adversary starts with a state `p` that it knows (or has chosen), uses the generator, looks at
the state as often as it likes, mixes in seeds of its own, and has unseen seeds mixed in at most `c`
times.  Its output differs from that of the ideal game, in which an unseen seed makes everything uniform
until the next look, by exactly the gains of `c` adversaries against HKDF-extract and of `c (k + 1)`
adversaries against HMAC. -/
theorem C85_recovers (h : ∀ m, (sha m).length = 64) (n : Nat) (P : HealPlayer) (p : Prng)
    (hP : P.Careful .known) {k : Nat} (hk : P.Keys k) {c : Nat} (hc : P.Refreshes c) :
    P.real sha n p - P.ideal sha (.known p) = ∑ i ∈ Finset.range c,
      ((P.entry sha n i (.known p)).gain sha n +
        ∑ j ∈ Finset.range (k + 1), prfGain sha (prfAttack sha (P.period sha n i (.known p)) j)) := by
  rw [← hybrid_zero h P p]
  exact hybrid_sum h P (S := .known p) (u := .known) rfl hP hk hc

/-- C85: the same for a generator that starts with a uniform state; the first period is one more. -/
theorem C85_from_uniform (h : ∀ m, (sha m).length = 64) (n : Nat) (P : HealPlayer)
    (hP : P.Careful .unused) {k : Nat} (hk : P.Keys k) {c : Nat} (hc : P.Refreshes c) :
    (avg fun K : Digest => P.real sha n ⟨K.bytes⟩) - P.ideal sha (.fresh []) =
      ∑ j ∈ Finset.range (k + 1), prfGain sha (prfAttack sha (P.live sha n) j) +
      ∑ i ∈ Finset.range c, ((P.entry sha n i (.fresh [])).gain sha n +
        ∑ j ∈ Finset.range (k + 1), prfGain sha (prfAttack sha (P.period sha n i (.fresh [])) j)) := by
  rw [← hybrid_sum (n := n) h P (S := .fresh []) (u := .unused) (by simp [markOf]) hP hk hc,
    ← real_sub_ideal h _ (live_careful P (u := false) hP) (live_keys P hk), live_ideal h]
  unfold realOutput
  rw [avg_congr fun K : Digest => live_real h P ⟨K.bytes⟩]
  ring

/-- C85: so the two games are as close as HMAC is hard to tell from a random function, and HKDF-extract of
a uniform seed (behind a known string, with a known salt) from a uniform string. -/
theorem C85_close (h : ∀ m, (sha m).length = 64) (n : Nat) (P : HealPlayer) (p : Prng)
    (hP : P.Careful .known) {k : Nat} (hk : P.Keys k) {c : Nat} (hc : P.Refreshes c) {ε δ : ℚ}
    (hε : ∀ i < c, ∀ j ≤ k, |prfGain sha (prfAttack sha (P.period sha n i (.known p)) j)| ≤ ε)
    (hδ : ∀ i < c, |(P.entry sha n i (.known p)).gain sha n| ≤ δ) :
    |P.real sha n p - P.ideal sha (.known p)| ≤ c * (δ + (k + 1) * ε) := by
  rw [C85_recovers h n P p hP hk hc]
  refine (Finset.abs_sum_le_sum_abs _ _).trans ?_
  refine (Finset.sum_le_card_nsmul _ _ (δ + (k + 1) * ε) fun i hi => ?_).trans ?_
  · have hi' := Finset.mem_range.mp hi
    refine (abs_add_le _ _).trans (add_le_add (hδ i hi') ?_)
    refine (Finset.abs_sum_le_sum_abs _ _).trans ?_
    refine (Finset.sum_le_card_nsmul _ _ ε fun j hj => hε i hi' j ?_).trans ?_
    · have := Finset.mem_range.mp hj; omega
    · rw [Finset.card_range, nsmul_eq_mul, Nat.cast_add, Nat.cast_one]
  · rw [Finset.card_range, nsmul_eq_mul]

/-- C85: nothing is gained by mixing in seeds that the adversary knows: from a known state on, and as long
as no unseen seed is mixed in, the ideal game promises no more than what the code does. -/
theorem C85_own_seeds (h : ∀ m, (sha m).length = 64) (n : Nat) (P : HealPlayer) (p : Prng)
    (hc : P.Refreshes 0) : P.real sha n p = P.ideal sha (.known p) := by
  rw [← hybrid_zero h, hybrid_all h P hc]

/-! ## Guessing a scalar -/

/-- guesses the scalar after an unseen seed -/
noncomputable def guesser (info info' : Bytes) (r : Fr) : HealPlayer :=
  .refresh info (.sample info' fun r' => .stop (if r' = r then 1 else 0))

/-- C85: whoever knows the state before an unseen seed is mixed in does not know the scalars afterwards: any
guess is right with a chance of at most `2^-254`, up to the gain of one adversary against HKDF-extract
and three against HMAC. -/
theorem C85_guess (h : ∀ m, (sha m).length = 64) (n : Nat) (p : Prng) (info info' : Bytes) (r : Fr) :
    (avg fun s : Seed n =>
      if (Prng.sample sha info' (Prng.rerandomize sha s.bytes info p).2).1 = .ok r then (1 : ℚ) else 0) ≤
      1 / 2 ^ 254 + (((guesser info info' r).entry sha n 0 (.known p)).gain sha n +
        ∑ j ∈ Finset.range 3,
          prfGain sha (prfAttack sha ((guesser info info' r).period sha n 0 (.known p)) j)) := by
  have h1 := C85_recovers h n (guesser info info' r) p
    (fun _ => trivial) (k := 2) ⟨by omega, fun _ => trivial⟩ (c := 1) ⟨by omega, fun _ => trivial⟩
  rw [Finset.sum_range_one] at h1
  have h2 : (guesser info info' r).real sha n p = avg fun s : Seed n =>
      if (Prng.sample sha info' (Prng.rerandomize sha s.bytes info p).2).1 = .ok r
        then (1 : ℚ) else 0 := by
    simp only [guesser, HealPlayer.real]
    refine avg_congr fun s => ?_
    rw [rerandomize_eq h]
    simp only [sample_eq h, Res.ok.injEq]
  have h3 : (guesser info info' r).ideal sha (.known p) ≤ 1 / 2 ^ 254 := by
    simp only [guesser, HealPlayer.ideal, oracle_new]
    exact digest_share r
  rw [h2] at h1
  linarith

/-- looks at the state, mixes in a seed of its own, and predicts the next scalar -/
noncomputable def predictor (sha : Bytes → Bytes) (seed info info' : Bytes) : HealPlayer :=
  .leak fun p => .mix seed info (.sample info' fun r => .stop
    (if (Prng.sample sha info' (Prng.rerandomize sha seed info p).2).1 = .ok r then 1 else 0))

/-- C85: with a seed that the adversary knows the prediction is always right; so it is the seed that
repairs the generator, not the update as such. -/
theorem C85_known_seed (h : ∀ m, (sha m).length = 64) (n : Nat) (p : Prng) (seed info info' : Bytes) :
    (predictor sha seed info info').real sha n p = 1 := by
  simp only [predictor, HealPlayer.real, rerandomize_eq h, sample_eq h, if_true]

/-- C85: short seeds do not help.  Some guess is right with a chance of `256^-n`; so with seeds of `n`
bytes one of the adversaries gains at least a quarter of `256^-n - 2^-254`. -/
theorem C85_short_seeds (h : ∀ m, (sha m).length = 64) (n : Nat) (p : Prng) (info info' : Bytes) :
    ∃ r : Fr, 1 / 256 ^ n - 1 / 2 ^ 254 ≤
      ((guesser info info' r).entry sha n 0 (.known p)).gain sha n +
        ∑ j ∈ Finset.range 3,
          prfGain sha (prfAttack sha ((guesser info info' r).period sha n 0 (.known p)) j) := by
  have hpos : 0 < 256 ^ n := Nat.pow_pos (by decide)
  obtain ⟨r, hr⟩ : ∃ r : Fr, (Prng.sample sha info'
      (Prng.rerandomize sha (Seed.bytes (⟨0, hpos⟩ : Seed n)) info p).2).1 = .ok r := by
    rw [rerandomize_eq h]
    exact ⟨_, by rw [sample_eq h]⟩
  refine ⟨r, ?_⟩
  have h1 := C85_guess h n p info info' r
  have h2 : (1 : ℚ) / 256 ^ n ≤ avg fun s : Seed n =>
      if (Prng.sample sha info' (Prng.rerandomize sha s.bytes info p).2).1 = .ok r
        then (1 : ℚ) else 0 := by
    unfold avg
    rw [Fintype.card_fin]
    push_cast
    refine div_le_div_of_nonneg_right ?_ (by positivity)
    refine le_trans ?_ (Finset.single_le_sum (f := fun s : Seed n =>
      if (Prng.sample sha info' (Prng.rerandomize sha s.bytes info p).2).1 = .ok r
        then (1 : ℚ) else 0) (fun s _ => by split_ifs <;> norm_num) (Finset.mem_univ ⟨0, hpos⟩))
    rw [if_pos hr]
  linarith

/-! ## The calls of the signer -/

/-- The state leaks, twice; then the signer updates with an unseen seed, draws a scalar, signs, updates
again, and the state leaks again. -/
noncomputable def spy (m : Bytes) (out : Prng → Prng → Fr → Fr → Prng → ℚ) : HealPlayer :=
  .leak fun p => .mix [1, 2] DOM_SEP_SK_RERANDOMIZE_INFO <| .leak fun p' =>
    .refresh DOM_SEP_SK_RERANDOMIZE_INFO <| .draw DOM_SEP_SK_UPDATE fun r =>
      .sample (DOM_SEP_SIG ++ m) fun r' => .refresh DOM_SEP_SK_RERANDOMIZE_INFO <|
        .leak fun p'' => .stop (out p p' r r' p'')

example (m : Bytes) (out : Prng → Prng → Fr → Fr → Prng → ℚ) :
    (spy m out).Careful .known ∧ (spy m out).Keys 7 ∧ (spy m out).Refreshes 2 := by
  simp [spy, HealPlayer.Careful, HealPlayer.Keys, HealPlayer.Refreshes, Mark.replaced]

/-- after the unseen seeds everything is uniform, whatever was known before -/
example (h : ∀ m, (sha m).length = 64) (m : Bytes) (out : Prng → Prng → Fr → Fr → Prng → ℚ) (p : Prng) :
    (spy m out).ideal sha (.known p) = avg fun D1 : Digest => avg fun D2 : Digest =>
      avg fun K : Digest => out p (Prng.rerandomize sha [1, 2] DOM_SEP_SK_RERANDOMIZE_INFO p).2
        D1.field D2.field ⟨K.bytes⟩ := by
  simp only [spy, HealPlayer.ideal, rerandomize_eq h, oracle_new]

end Pixel.Props
