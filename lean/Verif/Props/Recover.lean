import Verif.Proof.Recover
import Verif.Props.Heal
import Verif.Props.Random

/-!
# Property C99: unseen seeds heal the generator, with a random function for SHA-512

Vocabulary: `Verif/Spec/Recover.lean`.
-/

namespace Pixel.Props

open Pixel Pixel.Spec

set_option linter.unusedSectionVars false

/-! ## C99 -/

/-- What one period between two leaks costs: seeds of `n` octets, `q` evaluations of the hash function,
`u` uses of the generator. -/
noncomputable def lostPerPeriod (n q u : Nat) : ℚ :=
  (2 * u + 1) * ((2 * (q + 12 * u) + (u + 1) ^ 2) / 2 ^ 512) +
    (q + 12 * u) * (1 / 256 ^ n + 1 / 2 ^ 512)

theorem periodLoss_eq (n q u : Nat) : periodLoss n q u = lostPerPeriod n q u := by
  unfold periodLoss lostPerPeriod macLoss seedLoss
  push_cast
  ring

/-- C99: with a random hash function, an adversary that knows the state of the generator, evaluates the
hash function up to `q` times, uses the generator up to `u` times, has up to `c` seeds of `n` octets mixed
in that it does not see, and looks at the state as often as it likes (but not between a sample and the
next change of the state), has an expected output that exceeds the one of the ideal game by at most
`c * lostPerPeriod n q u`: after each unseen seed the scalars come from uniform strings again.  Nothing
is assumed of HMAC or HKDF. -/
theorem C99_at_most {B n : Nat} (hB : n + 193 ≤ B) (P : HealProber) (hb : P.Bounded)
    (hm : P.Careful .known) {q u c : Nat} (hP : P.Within B q u c) {p : Prng}
    (hp : p.seed.length = 64) :
    (avg fun ω : HashFun B => (P.using ω.sha).real ω.sha n p) ≤
      (avg fun ω : HashFun B => (P.using ω.sha).ideal ω.sha (.known p)) +
        c * lostPerPeriod n q u := by
  rw [← periodLoss_eq]
  exact recover_random hB P hb hm hP hp

/-- C99: and it falls short of it by at most as much. -/
theorem C99_at_least {B n : Nat} (hB : n + 193 ≤ B) (P : HealProber) (hb : P.Bounded)
    (hm : P.Careful .known) {q u c : Nat} (hP : P.Within B q u c) {p : Prng}
    (hp : p.seed.length = 64) :
    (avg fun ω : HashFun B => (P.using ω.sha).ideal ω.sha (.known p)) ≤
      (avg fun ω : HashFun B => (P.using ω.sha).real ω.sha n p) + c * lostPerPeriod n q u := by
  have h := C99_at_most hB P.flip (healFlip_bounded P hb) (healFlip_careful P hm)
    (healFlip_within P hP) hp
  have hS : ∀ p', HealState.known p = .known p' → p'.seed.length = 64 := fun p' h => by cases h; exact hp
  have h1 : ∀ ω : HashFun B, (P.flip.using ω.sha).real ω.sha n p =
      1 - (P.using ω.sha).real ω.sha n p := fun ω => by
    rw [← hybrid_zero (HashFun.sha_length ω), ← hybrid_zero (HashFun.sha_length ω),
      flip_hybrid (HashFun.sha_length ω)]
  have h2 : ∀ ω : HashFun B, (P.flip.using ω.sha).ideal ω.sha (.known p) =
      1 - (P.using ω.sha).ideal ω.sha (.known p) := fun ω => by
    rw [← using_hybrid (n := n) (HashFun.sha_length ω) _ (healFlip_within P hP) _ hS,
      ← using_hybrid (n := n) (HashFun.sha_length ω) P hP _ hS, flip_hybrid (HashFun.sha_length ω)]
  simp only [h1, h2, avg_flip] at h
  linarith

/-- C99: the whole life of a generator that starts with a uniform seed of `k` octets, as in `keygen`:
one period more. -/
theorem C99_from_seed {B n k : Nat} (hB : n + 193 ≤ B) (hk : 128 + k ≤ B) {salt : Bytes}
    (hs : salt ≠ []) (hl : salt.length ≤ 128) (P : HealProber) (hb : P.Bounded)
    (hm : P.Careful .unused) {q u c : Nat} (hP : P.Within B q u c) :
    (avg fun ω : HashFun B => avg fun s : Seed k =>
      match Prng.init ω.sha s.bytes salt with
      | .ok p => (P.using ω.sha).real ω.sha n p
      | _ => 0) ≤
      (avg fun ω : HashFun B => (P.using ω.sha).ideal ω.sha (.fresh [])) +
        (lostPerPeriod k q u + c * lostPerPeriod n q u) := by
  rw [← periodLoss_eq, ← periodLoss_eq]
  have h := seeded_recover_random hB hk hs hl P hb hm hP
  have h1 : ∀ (ω : HashFun B) (s : Seed k), (match Prng.init ω.sha s.bytes salt with
      | .ok p => (P.using ω.sha).real ω.sha n p
      | _ => 0) = (P.using ω.sha).real ω.sha n ⟨hmac ω.sha salt s.bytes⟩ := fun ω s => by
    rw [init_prng_eq (HashFun.sha_length ω)]
  simp only [h1]
  exact h

set_option exponentiation.threshold 600 in
/-- C99: with seeds of at least 32 octets, and at most `2^60` evaluations, uses and unseen seeds, less than
`1/2^132` is lost in a whole life. -/
theorem C99_numbers {n k q u c : Nat} (hn : 32 ≤ n) (hk : 32 ≤ k) (hq : q ≤ 2 ^ 60)
    (hu : u ≤ 2 ^ 60) (hc : c ≤ 2 ^ 60) :
    lostPerPeriod k q u + c * lostPerPeriod n q u < 1 / 2 ^ 132 := by
  have hq' : (q : ℚ) ≤ 2 ^ 60 := by exact_mod_cast hq
  have hu' : (u : ℚ) ≤ 2 ^ 60 := by exact_mod_cast hu
  have hc' : (c : ℚ) ≤ 2 ^ 60 := by exact_mod_cast hc
  have h1 : (0 : ℚ) ≤ q := Nat.cast_nonneg _
  have h2 : (0 : ℚ) ≤ u := Nat.cast_nonneg _
  have h3 : (0 : ℚ) ≤ c := Nat.cast_nonneg _
  have key : ∀ n : Nat, 32 ≤ n → lostPerPeriod n q u ≤
      (2 * 2 ^ 60 + 1) * ((2 * (2 ^ 60 + 12 * 2 ^ 60) + (2 ^ 60 + 1) ^ 2) / 2 ^ 512) +
        (2 ^ 60 + 12 * 2 ^ 60) * (1 / 2 ^ 256 + 1 / 2 ^ 512) := fun n hn => by
    have hn' : (1 : ℚ) / 256 ^ n ≤ 1 / 2 ^ 256 := by
      refine one_div_le_one_div_of_le (by positivity) ?_
      calc (2 : ℚ) ^ 256 = 256 ^ 32 := by norm_num
        _ ≤ 256 ^ n := pow_le_pow_right₀ (by norm_num) hn
    unfold lostPerPeriod
    refine add_le_add ?_ ?_
    · refine mul_le_mul (by linarith) (div_le_div_of_nonneg_right ?_ (by positivity)) (by positivity)
        (by positivity)
      have : ((u : ℚ) + 1) ^ 2 ≤ (2 ^ 60 + 1) ^ 2 := pow_le_pow_left₀ (by linarith) (by linarith) 2
      linarith
    · exact mul_le_mul (by linarith) (by linarith) (by positivity) (by positivity)
  have a1 := key k hk
  have a2 := mul_le_mul hc' (key n hn)
    (by unfold lostPerPeriod; positivity) (by positivity : (0 : ℚ) ≤ 2 ^ 60)
  have a3 : ((2 * 2 ^ 60 + 1 : ℚ) * ((2 * (2 ^ 60 + 12 * 2 ^ 60) + (2 ^ 60 + 1) ^ 2) / 2 ^ 512) +
        (2 ^ 60 + 12 * 2 ^ 60) * (1 / 2 ^ 256 + 1 / 2 ^ 512)) +
      2 ^ 60 * ((2 * 2 ^ 60 + 1) * ((2 * (2 ^ 60 + 12 * 2 ^ 60) + (2 ^ 60 + 1) ^ 2) / 2 ^ 512) +
        (2 ^ 60 + 12 * 2 ^ 60) * (1 / 2 ^ 256 + 1 / 2 ^ 512)) < 1 / 2 ^ 132 := by
    norm_num
  linarith

/-! ## Guessing a scalar -/

/-- somebody who evaluates the hash function and names a scalar -/
inductive Guess where
  | toss (n : Nat) (hn : 0 < n) (next : Fin n → Guess)
  | hash (m : Bytes) (next : Bytes → Guess)
  | name (r : Fr)

namespace Guess

/-- the chance that they name `x` -/
noncomputable def names (sha : Bytes → Bytes) (x : Fr) : Guess → ℚ
  | .toss _ _ n => avg fun c => (n c).names sha x
  | .hash m n => (n (sha m)).names sha x
  | .name r => if x = r then 1 else 0

/-- at most `q` evaluations, of strings of at most `B` octets -/
def Within (B : Nat) : Guess → Nat → Prop
  | .toss _ _ n, q => ∀ c, (n c).Within B q
  | .hash m n, q => m.length ≤ B ∧ 0 < q ∧ ∀ b : Bytes, b.length = 64 → (n b).Within B (q - 1)
  | .name _, _ => True

/-- as an adversary -/
noncomputable def heal (info info' : Bytes) : Guess → HealProber
  | .toss k hk n => .toss k hk fun c => (n c).heal info info'
  | .hash m n => .hash m fun b => (n b).heal info info'
  | .name r => .refresh info (.sample info' fun x => .stop (if x = r then 1 else 0))

variable {info info' : Bytes}

theorem heal_bounded (G : Guess) : (G.heal info info').Bounded := by
  induction G with
  | toss n hn next ih => exact fun c => ih c
  | hash m next ih => exact fun b => ih b
  | name r =>
    intro x
    show (0 : ℚ) ≤ (if x = r then (1 : ℚ) else 0) ∧ (if x = r then (1 : ℚ) else 0) ≤ 1
    split_ifs <;> norm_num

theorem heal_careful (G : Guess) : (G.heal info info').Careful .known := by
  induction G with
  | toss n hn next ih => exact fun c => ih c
  | hash m next ih => exact fun b => ih b
  | name r => exact fun x => trivial

theorem heal_within {B : Nat} (h : info.length + 193 ≤ B) (h' : info'.length + 193 ≤ B) (G : Guess)
    {q : Nat} (hq : G.Within B q) : (G.heal info info').Within B q 2 1 := by
  induction G generalizing q with
  | toss n hn next ih => exact fun c => ih c (hq c)
  | hash m next ih => exact ⟨hq.1, hq.2.1, fun b hb => ih b (hq.2.2 b hb)⟩
  | name r => exact ⟨h, by omega, by omega, h', by omega, fun x => trivial⟩

theorem heal_real {sha : Bytes → Bytes} (hs : ∀ m, (sha m).length = 64) (n : Nat) (G : Guess)
    (p : Prng) : ((G.heal info info').using sha).real sha n p =
      avg fun s : Seed n => G.names sha (drawVal sha (mixed sha p s.bytes info) info') := by
  induction G with
  | toss k hk next ih =>
    have : Nonempty (Fin k) := ⟨⟨0, hk⟩⟩
    refine (avg_congr fun c => ih c).trans ?_
    rw [avg_comm]
    rfl
  | hash m next ih => exact ih _
  | name r =>
    simp only [heal, HealProber.using, HealPlayer.real, rerandomize_eq hs, sample_eq hs, names]

theorem heal_ideal {sha : Bytes → Bytes} (G : Guess) (p : Prng) :
    ((G.heal info info').using sha).ideal sha (.known p) ≤ 1 / 2 ^ 254 := by
  induction G with
  | toss k hk next ih =>
    have : Nonempty (Fin k) := ⟨⟨0, hk⟩⟩
    refine (avg_mono fun c => ih c).trans (le_of_eq (avg_const _))
  | hash m next ih => exact ih _
  | name r =>
    simp only [heal, HealProber.using, HealPlayer.ideal, oracle_new]
    exact digest_share r

end Guess

/-- C99: whoever knows the state before a seed of `n` octets is mixed in that they do not know, and
evaluates the random hash function up to `q` times, names the next scalar with a chance of at most
`1/2^254 + lostPerPeriod n q 2`. -/
theorem C99_guess {B n : Nat} (hB : n + 193 ≤ B) {info info' : Bytes} (h : info.length + 193 ≤ B)
    (h' : info'.length + 193 ≤ B) (G : Guess) {q : Nat} (hq : G.Within B q) {p : Prng}
    (hp : p.seed.length = 64) :
    (avg fun ω : HashFun B => avg fun s : Seed n =>
      match (Prng.sample ω.sha info' (Prng.rerandomize ω.sha s.bytes info p).2).1 with
      | .ok x => G.names ω.sha x
      | _ => 0) ≤ 1 / 2 ^ 254 + lostPerPeriod n q 2 := by
  have h1 := C99_at_most hB (G.heal info info') G.heal_bounded G.heal_careful
    (G.heal_within h h' hq) hp
  have h2 : (avg fun ω : HashFun B =>
      ((G.heal info info').using ω.sha).ideal ω.sha (.known p)) ≤ 1 / 2 ^ 254 :=
    (avg_mono fun ω => G.heal_ideal p).trans (le_of_eq (avg_const _))
  have h3 : ∀ (ω : HashFun B) (s : Seed n),
      (match (Prng.sample ω.sha info' (Prng.rerandomize ω.sha s.bytes info p).2).1 with
      | .ok x => G.names ω.sha x
      | _ => 0) = G.names ω.sha (drawVal ω.sha (mixed ω.sha p s.bytes info) info') := fun ω s => by
    rw [rerandomize_eq (HashFun.sha_length ω), sample_eq (HashFun.sha_length ω)]
  simp only [h3]
  rw [avg_congr fun ω : HashFun B => G.heal_real (HashFun.sha_length ω) n p] at h1
  rw [Nat.cast_one, one_mul] at h1
  linarith

/-- HMAC with a key of at most 128 octets -/
def guessMac (K m : Bytes) (k : Bytes → Guess) : Guess :=
  .hash (keyPad 0x36 K ++ m) fun e => .hash (keyPad 0x5c K ++ e) k

/-- They suppose a seed and compute the scalar. -/
def supposeSeed (p : Prng) (seed info info' : Bytes) : Guess :=
  guessMac p.seed (info ++ [1]) fun t1 => guessMac p.seed (t1 ++ info ++ [2]) fun t2 =>
    guessMac t2 (t1 ++ seed) fun s => guessMac s (info' ++ [1]) fun y => .name (natOfBytes y : Nat)

theorem guessMac_names {sha : Bytes → Bytes} {K : Bytes} (hK : K.length ≤ 128) (m : Bytes)
    (k : Bytes → Guess) (x : Fr) :
    (guessMac K m k).names sha x = (k (hmac sha K m)).names sha x := by
  rw [hmac_pads sha hK]
  rfl

/-- C99: seeds that the adversary knows do not help: with eight evaluations it names the scalar. -/
theorem C99_known_seed {sha : Bytes → Bytes} (h : ∀ m, (sha m).length = 64) {p : Prng}
    (hp : p.seed.length = 64) (seed info info' : Bytes) :
    (match (Prng.sample sha info' (Prng.rerandomize sha seed info p).2).1 with
      | .ok x => (supposeSeed p seed info info').names sha x
      | _ => 0) = 1 := by
  rw [rerandomize_eq h, sample_eq h]
  simp only []
  unfold supposeSeed
  rw [guessMac_names (by omega), guessMac_names (by omega),
    guessMac_names (by rw [hmac_length h]; omega), guessMac_names (by rw [hmac_length h]; omega)]
  simp only [Guess.names]
  rw [show drawVal sha (mixed sha p seed info) info' = _ from drawVal_eq _ _]
  exact if_pos rfl

theorem names_nonneg {sha : Bytes → Bytes} (x : Fr) (G : Guess) : 0 ≤ G.names sha x := by
  induction G with
  | toss n hn next ih => exact avg_nonneg fun c => ih c
  | hash m next ih => exact ih _
  | name r =>
    show (0 : ℚ) ≤ if x = r then (1 : ℚ) else 0
    split_ifs <;> norm_num

theorem one_seed {n : Nat} {f : Seed n → ℚ} (h : ∀ s, 0 ≤ f s) (s : Seed n) (hs : f s = 1) :
    1 / 256 ^ n ≤ avg f := by
  unfold avg
  rw [Fintype.card_fin]
  push_cast
  refine div_le_div_of_nonneg_right ?_ (by positivity)
  exact le_trans hs.symm.le (Finset.single_le_sum (fun s _ => h s) (Finset.mem_univ s))

/-- C99: nor do short ones: whoever supposes some seed names the scalar with a chance of at least
`256^-n`; so the term `q / 256^n` of the loss cannot be dropped. -/
theorem C99_short_seeds {B n : Nat} {p : Prng} (hp : p.seed.length = 64) (info info' : Bytes)
    (seed : Seed n) :
    1 / 256 ^ n ≤ avg fun ω : HashFun B => avg fun s : Seed n =>
      match (Prng.sample ω.sha info' (Prng.rerandomize ω.sha s.bytes info p).2).1 with
      | .ok x => (supposeSeed p seed.bytes info info').names ω.sha x
      | _ => 0 := by
  have h1 : ∀ ω : HashFun B, (1 : ℚ) / 256 ^ n ≤ avg fun s : Seed n =>
      match (Prng.sample ω.sha info' (Prng.rerandomize ω.sha s.bytes info p).2).1 with
      | .ok x => (supposeSeed p seed.bytes info info').names ω.sha x
      | _ => 0 := fun ω => by
    refine one_seed (fun s => ?_) seed (C99_known_seed (HashFun.sha_length ω) hp seed.bytes info info')
    rcases (Prng.sample ω.sha info' (Prng.rerandomize ω.sha s.bytes info p).2).1 with x | e | e
    · exact names_nonneg x _
    · exact le_rfl
    · exact le_rfl
  calc (1 : ℚ) / 256 ^ n = avg fun _ : HashFun B => (1 : ℚ) / 256 ^ n := (avg_const _).symm
    _ ≤ _ := avg_mono h1

/-! ### Concrete cases -/

section Examples

/-- hashes nine octets and names the value -/
def hashNine : Guess := .hash (List.replicate 9 1) fun b => .name (natOfBytes b : Nat)

/-- C99: a guess of somebody who knows that the state is 64 zeros, when a seed of
32 octets is mixed in -/
example : (avg fun ω : HashFun 300 => avg fun s : Seed 32 =>
      match (Prng.sample ω.sha [7] (Prng.rerandomize ω.sha s.bytes [5] ⟨List.replicate 64 0⟩).2).1 with
      | .ok x => hashNine.names ω.sha x
      | _ => 0) ≤ 1 / 2 ^ 254 + lostPerPeriod 32 1 2 :=
  C99_guess (B := 300) (n := 32) (by norm_num) (info := [5]) (info' := [7]) (by simp) (by simp)
    hashNine (q := 1) ⟨by simp, by norm_num, fun b _ => trivial⟩ (p := ⟨List.replicate 64 0⟩) (by simp)

/-- two leaks, each healed by an unseen seed; the output says whether the two scalars are equal -/
noncomputable def twice : HealProber :=
  .leak fun b => .hash b fun _ => .refresh [1] (.draw [2] fun r => .leak fun b' => .hash b' fun _ =>
    .refresh [1] (.draw [2] fun r' => .stop (if r = r' then 1 else 0)))

/-- C99: the two scalars are equal with a chance of next to nothing more than in the ideal game -/
example : (avg fun ω : HashFun 300 => avg fun s : Seed 32 =>
      match Prng.init ω.sha s.bytes [9] with
      | .ok p => (twice.using ω.sha).real ω.sha 32 p
      | _ => 0) <
      (avg fun ω : HashFun 300 => (twice.using ω.sha).ideal ω.sha (.fresh [])) + 1 / 2 ^ 132 := by
  have h := C99_from_seed (B := 300) (n := 32) (k := 32) (by norm_num) (by norm_num) (salt := [9])
    (by simp) (by simp) twice
    (fun b b1 r b2 b3 r' => by
      show (0 : ℚ) ≤ (if r = r' then (1 : ℚ) else 0) ∧ (if r = r' then (1 : ℚ) else 0) ≤ 1
      split_ifs <;> norm_num)
    ⟨by simp, fun b b1 r => ⟨by simp [Mark.replaced], fun b2 b3 r' => trivial⟩⟩
    (q := 2) (u := 4) (c := 2)
    (fun b hb => ⟨by omega, by norm_num, fun b1 _ => ⟨by simp, by norm_num, by norm_num, by simp,
      by norm_num, fun r b2 hb2 => ⟨by omega, by norm_num, fun b3 _ => ⟨by simp, by norm_num,
        by norm_num, by simp, by norm_num, fun r' => trivial⟩⟩⟩⟩)
  have h2 := C99_numbers (n := 32) (k := 32) (q := 2) (u := 4) (c := 2) le_rfl le_rfl
    (by norm_num) (by norm_num) (by norm_num)
  exact lt_of_le_of_lt h (by linarith)

end Examples

end Pixel.Props
