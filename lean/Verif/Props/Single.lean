import Verif.Proof.SingleLift
import Verif.Props.Seed

/-!
# Property C94: forging, when one random function serves for SHA-512 everywhere

Vocabulary: `Verif/Spec/Single.lean`.
-/

namespace Pixel.Props

open Pixel Pixel.Spec

set_option linter.unusedSectionVars false

variable {G1 G2 GT : Type} [AddCommGroup G1] [AddCommGroup G2] [CommGroup GT]

/-! ## C94 -/

/-- evaluations of the hash function, by the adversary, for the signer and to check the claim: `d` the
depth, `q` evaluations by the adversary, `s` signatures, `u` updates -/
def evaluations (d q s u : Nat) : Nat := q + 3 * s + u * (4 * d + 6) + 1

/-- how much is lost because scalars are drawn with HMAC, from a seed of `n` octets, and are reduced
modulo the order of the group -/
noncomputable def drawingLost (d n q s u : Nat) : ℚ :=
  let e : ℚ := q + 3 * s + u * (4 * d + 6) + 1
  let w : ℚ := s + u * (d + 1) + 2
  (2 * w + 1) * ((2 * (e + 6 * w) + (w + 1) ^ 2) / 2 ^ 512) +
    (e + 6 * w) * (1 / 256 ^ n + 1 / 2 ^ 512) + (s + u * d + 2) * (1 / 2 ^ 257)

theorem hashLoss_eq (d n q s u : Nat) : hashLoss d n q s u = drawingLost d n q s u := by
  unfold hashLoss drawingLost macLoss seedLoss hashUses prngUses
  push_cast
  rfl

/-- C94: with a random function for SHA-512, which the signer, the verifier and the adversary evaluate,
and `keygen` called on a uniform seed of at least 32 octets, the chance of any adversary is at most the
sum, over the times and the evaluations, of the chances that an explicit algorithm solves the problem
that forgeries are reduced to, and numbers.  Nothing is assumed of HMAC, of HKDF, or of the hash of
messages. -/
theorem C94_forger_solves [DecidableEq GT] {E : Ext G1 G2 GT} (L : GroupLaws E)
    (pf : Profile) {g : G1} (hsub : E.inSub1 g = true) {d : Nat} (hd : 1 ≤ d) (hd' : d ≤ 63)
    {cs : UInt8} (hsup : Supported cs) {n B : Nat} (hn : 32 ≤ n) (hB : 300 ≤ B) (hnB : 128 + n ≤ B)
    (A : World G1 G2 → HashPlayer G1 G2) (hA : ∀ W, (A W).Legal) {m : Nat}
    (hm : ∀ W, (A W).Points m) {q s u : Nat} (hw : ∀ W, (A W).Within B q s u) :
    randomForgeChance E pf g d cs n B A ≤
      ∑ t ∈ Finset.Icc 1 (2 ^ d - 1), (∑ i ∈ Finset.range (evaluations d q s u),
        (solveChance E g d (roReduction E cs d (path d t) i (apiBet pf d t (hashLift pf d t A))) +
          ((m + 1) / rOrder + (evaluations d q s u : ℕ) / 2 ^ 254)) + drawingLost d n q s u) := by
  rw [← hashLoss_eq]
  exact randomForgeChance_le L hsup hsub hd hd' pf hn hB hnB A hA hm hw

/-- C94: so if none of these algorithms solves the problem with a chance of more than `ε`, forging has a
chance of at most `(2^d - 1)(Q (ε + (m + 1)/r + Q/2^254) + drawingLost)`, `Q` the number of
evaluations. -/
theorem C94_hard_then_secure [DecidableEq GT] {E : Ext G1 G2 GT} (L : GroupLaws E)
    (pf : Profile) {g : G1} (hsub : E.inSub1 g = true) {d : Nat} (hd : 1 ≤ d) (hd' : d ≤ 63)
    {cs : UInt8} (hsup : Supported cs) {n B : Nat} (hn : 32 ≤ n) (hB : 300 ≤ B) (hnB : 128 + n ≤ B)
    (A : World G1 G2 → HashPlayer G1 G2) (hA : ∀ W, (A W).Legal) {m : Nat}
    (hm : ∀ W, (A W).Points m) {q s u : Nat} (hw : ∀ W, (A W).Within B q s u) {ε : ℚ}
    (hε : ∀ t i, ValidTime d t → i < evaluations d q s u → solveChance E g d
      (roReduction E cs d (path d t) i (apiBet pf d t (hashLift pf d t A))) ≤ ε) :
    randomForgeChance E pf g d cs n B A ≤
      (2 ^ d - 1) * (evaluations d q s u * (ε + ((m + 1) / rOrder + evaluations d q s u / 2 ^ 254)) +
        drawingLost d n q s u) := by
  refine (C94_forger_solves L pf hsub hd hd' hsup hn hB hnB A hA hm hw).trans ?_
  refine (Finset.sum_le_card_nsmul _ _ (evaluations d q s u * (ε + ((m + 1) / rOrder +
    evaluations d q s u / 2 ^ 254)) + drawingLost d n q s u) fun t ht => ?_).trans (le_of_eq ?_)
  · refine add_le_add_left ?_ _
    refine (Finset.sum_le_card_nsmul _ _ (ε + ((m + 1) / rOrder + evaluations d q s u / 2 ^ 254))
      fun i hi => add_le_add_left (hε t i (Finset.mem_Icc.1 ht) (Finset.mem_range.1 hi)) _).trans
      (le_of_eq ?_)
    rw [Finset.card_range, nsmul_eq_mul]
  · rw [Nat.card_Icc, Nat.add_sub_cancel, nsmul_eq_mul, Nat.cast_sub Nat.one_le_two_pow]
    push_cast
    rfl

set_option exponentiation.threshold 600 in
/-- C94: what does not depend on the problem is less than `1/2^100`, for up to `2^32 - 1` times, `2^60`
evaluations by the adversary, `2^40` signatures and updates and `2^40` hash points. -/
theorem C94_numbers {d n m q s u : Nat} (hd : d ≤ 32) (hn : 32 ≤ n) (hm : m + 1 ≤ 2 ^ 40)
    (hq : q ≤ 2 ^ 60) (hs : s ≤ 2 ^ 40) (hu : u ≤ 2 ^ 40) :
    (2 ^ d - 1) * (evaluations d q s u * (0 + ((m + 1) / rOrder + evaluations d q s u / 2 ^ 254)) +
      drawingLost d n q s u) < (1 / 2 ^ 100 : ℚ) := by
  have hd' : (d : ℚ) ≤ 32 := by exact_mod_cast hd
  have hm' : (m : ℚ) + 1 ≤ 2 ^ 40 := by exact_mod_cast hm
  have hq' : (q : ℚ) ≤ 2 ^ 60 := by exact_mod_cast hq
  have hs' : (s : ℚ) ≤ 2 ^ 40 := by exact_mod_cast hs
  have hu' : (u : ℚ) ≤ 2 ^ 40 := by exact_mod_cast hu
  have h0 : (0 : ℚ) ≤ d := Nat.cast_nonneg _
  have h1 : (0 : ℚ) ≤ q := Nat.cast_nonneg _
  have h2 : (0 : ℚ) ≤ u := Nat.cast_nonneg _
  have h3 : (0 : ℚ) ≤ s := Nat.cast_nonneg _
  have h4 : (0 : ℚ) ≤ m := Nat.cast_nonneg _
  have hn' : (1 : ℚ) / 256 ^ n ≤ 1 / 2 ^ 256 := by
    refine one_div_le_one_div_of_le (by positivity) ?_
    calc (2 : ℚ) ^ 256 = 256 ^ 32 := by norm_num
      _ ≤ 256 ^ n := pow_le_pow_right₀ (by norm_num) hn
  have hr : ((m : ℚ) + 1) / rOrder ≤ 2 ^ 40 / 2 ^ 254 := by
    have h5 : (2 : ℚ) ^ 254 ≤ rOrder := by
      have : 2 ^ 254 ≤ rOrder := by decide +kernel
      exact_mod_cast this
    exact div_le_div₀ (by positivity) hm' (by positivity) h5
  have hud : (u : ℚ) * (4 * d + 6) ≤ 2 ^ 40 * (4 * 32 + 6) :=
    mul_le_mul hu' (by linarith) (by linarith) (by norm_num)
  have hud' : (u : ℚ) * (d + 1) ≤ 2 ^ 40 * (32 + 1) :=
    mul_le_mul hu' (by linarith) (by linarith) (by norm_num)
  have hud'' : (u : ℚ) * d ≤ 2 ^ 40 * 32 := mul_le_mul hu' (by linarith) (by linarith) (by norm_num)
  have hp : (2 : ℚ) ^ d - 1 ≤ 2 ^ 32 := by
    have : (2 : ℚ) ^ d ≤ 2 ^ 32 := pow_le_pow_right₀ (by norm_num) hd
    linarith
  have he : ((evaluations d q s u : ℕ) : ℚ) = q + 3 * s + u * (4 * d + 6) + 1 := by
    unfold evaluations
    push_cast
    rfl
  have hE : (q : ℚ) + 3 * s + u * (4 * d + 6) + 1 ≤ 2 ^ 60 + 2 ^ 48 := by
    linarith [show (3 : ℚ) * 2 ^ 40 + 2 ^ 40 * (4 * 32 + 6) + 1 ≤ 2 ^ 48 by norm_num]
  have hE0 : (0 : ℚ) ≤ q + 3 * s + u * (4 * d + 6) + 1 := by positivity
  have hw : (s : ℚ) + u * (d + 1) + 2 ≤ 2 ^ 46 := by
    linarith [show (2 : ℚ) ^ 40 + 2 ^ 40 * (32 + 1) + 2 ≤ 2 ^ 46 by norm_num]
  have hw0 : (0 : ℚ) ≤ s + u * (d + 1) + 2 := by positivity
  have hk : (s : ℚ) + u * d + 2 ≤ 2 ^ 46 := by
    linarith [show (2 : ℚ) ^ 40 + 2 ^ 40 * 32 + 2 ≤ 2 ^ 46 by norm_num]
  have hk0 : (0 : ℚ) ≤ s + u * d + 2 := by positivity
  rw [he]
  unfold drawingLost
  simp only []
  generalize (q : ℚ) + 3 * s + u * (4 * d + 6) + 1 = e at *
  generalize (s : ℚ) + u * (d + 1) + 2 = w at *
  generalize (s : ℚ) + u * d + 2 = k at *
  have a0 : e * (0 + (((m : ℚ) + 1) / rOrder + e / 2 ^ 254)) ≤
      (2 ^ 60 + 2 ^ 48) * (0 + (2 ^ 40 / 2 ^ 254 + (2 ^ 60 + 2 ^ 48) / 2 ^ 254)) := by
    refine mul_le_mul hE (add_le_add le_rfl (add_le_add hr (div_le_div_of_nonneg_right hE
      (by positivity)))) (by positivity) (by positivity)
  have a1 : (2 * w + 1) * ((2 * (e + 6 * w) + (w + 1) ^ 2) / 2 ^ 512) ≤
      (2 * 2 ^ 46 + 1) * ((2 * (2 ^ 60 + 2 ^ 48 + 6 * 2 ^ 46) + (2 ^ 46 + 1) ^ 2) / 2 ^ 512) := by
    refine mul_le_mul (by linarith) (div_le_div_of_nonneg_right ?_ (by positivity)) (by positivity)
      (by positivity)
    have : (w + 1) ^ 2 ≤ (2 ^ 46 + 1) ^ 2 := pow_le_pow_left₀ (by linarith) (by linarith) 2
    linarith
  have a2 : (e + 6 * w) * (1 / 256 ^ n + 1 / 2 ^ 512) ≤
      (2 ^ 60 + 2 ^ 48 + 6 * 2 ^ 46) * (1 / 2 ^ 256 + 1 / 2 ^ 512) :=
    mul_le_mul (by linarith) (by linarith) (by positivity) (by positivity)
  have a3 : k * (1 / 2 ^ 257) ≤ 2 ^ 46 * (1 / 2 ^ 257 : ℚ) :=
    mul_le_mul_of_nonneg_right hk (by positivity)
  have b : (2 : ℚ) ^ 32 * ((2 ^ 60 + 2 ^ 48) * (0 + (2 ^ 40 / 2 ^ 254 + (2 ^ 60 + 2 ^ 48) / 2 ^ 254)) +
      ((2 * 2 ^ 46 + 1) * ((2 * (2 ^ 60 + 2 ^ 48 + 6 * 2 ^ 46) + (2 ^ 46 + 1) ^ 2) / 2 ^ 512) +
      (2 ^ 60 + 2 ^ 48 + 6 * 2 ^ 46) * (1 / 2 ^ 256 + 1 / 2 ^ 512) + 2 ^ 46 * (1 / 2 ^ 257))) <
      1 / 2 ^ 100 := by
    norm_num
  refine lt_of_le_of_lt (mul_le_mul hp (add_le_add a0 (add_le_add (add_le_add a1 a2) a3)) ?_
    (by positivity)) b
  positivity

/-- C94: `keygen` refuses seeds of less than 32 octets, and ciphersuites other than 0 and 1: there is no
such game. -/
theorem C94_no_game [DecidableEq GT] (E : Ext G1 G2 GT) (pf : Profile) (g : G1) (d : Nat) (cs : UInt8)
    (A : World G1 G2 → HashPlayer G1 G2) {n B : Nat} (h : n < 32 ∨ ¬ Supported cs) :
    randomForgeChance E pf g d cs n B A = 0 := by
  unfold randomForgeChance hashForgeChance
  refine (avg_congr fun ω => (avg_congr fun a => (avg_congr fun s => ?_).trans
    (avg_const (α := Seed n) (0 : ℚ))).trans (avg_const 0)).trans (avg_const (α := HashFun B) 0)
  rcases h' : keygen { withHash E (HashFun.sha ω) with hashToG1 := fun _ _ => (a .q).val • g } s.bytes
    (gameParam (withHash E (HashFun.sha ω)) g cs a) with ⟨pk, sk, pop⟩ | e | e
  · exfalso
    rcases h with h | h
    · rw [keygen_short (by unfold Seed.bytes; rw [natToBE_length]; exact h)] at h'
      cases h'
    · exact h (keygen_supported h')
  · rfl
  · rfl

/-- an adversary that takes logarithms, has the signer go on to `tar`, breaks in, and makes a claim for
the time `t` -/
def hashLogForger (log : G2 → Fr) (t tar : Nat) (seed msg : Bytes) (W : World G1 G2) :
    HashPlayer G1 G2 :=
  .update tar seed (.breakIn fun _ => .forge
    { time := t, msg := msg, sigma1 := 0, sigma2 := (log W.pk.pk).val • W.pp.h, cosigners := [] })

/-- whoever plays like that wins -/
theorem randomForge_logarithms [DecidableEq GT] {E : Ext G1 G2 GT} (L : GroupLaws E)
    (pf : Profile) {g : G1} (hsub : E.inSub1 g = true) {d : Nat} (hd : 1 ≤ d) (hd' : d ≤ 63)
    {cs : UInt8} (hsup : Supported cs) {t tar : Nat} (h1 : 1 ≤ t) (h2 : t < tar)
    (h3 : tar ≤ 2 ^ d - 1) (h4 : drawsNeeded d 1 tar = 0) (seed msg : Bytes)
    (log : G2 → Fr) (hlog : ∀ x : Fr, log (x.val • E.gen2) = x) {n : Nat} (hn : 32 ≤ n) (B : Nat)
    {A : World G1 G2 → HashPlayer G1 G2} (hA : ∀ (sha : Bytes → Bytes) (a : Secret d 0 → Fr),
      A (worldOf (withHash E sha) g cs a []) =
        hashLogForger log t tar seed msg (worldOf (withHash E sha) g cs a [])) :
    randomForgeChance E pf g d cs n B A = 1 := by
  unfold randomForgeChance
  refine (avg_congr fun ω => ?_).trans (avg_const (α := HashFun B) (1 : ℚ))
  have h := HashFun.sha_length ω
  generalize HashFun.sha ω = sha at h
  have H : HashLaws (withHash E sha) := ⟨h⟩
  have L' := withHash_laws L sha
  unfold hashForgeChance
  refine (avg_congr fun a => (avg_congr fun s => ?_).trans (avg_const (α := Seed n) (1 : ℚ))).trans
    (avg_const 1)
  refine (seed_start (E := withHash E sha) H hsup (fun W sk => (A W).chance (withHash E sha) pf g ⟨sk, [], []⟩ W) a
    (viewOf_wf (E := E) (cs := cs) L hsub hd hd' (toVar a)).toParamShape
    (by unfold Seed.bytes; rw [natToBE_length]; exact hn)).trans ?_
  generalize (⟨hmac (withHash E sha).sha512 (text "Pixel master key" ++ [cs]) s.bytes⟩ : Prng) = p
  rw [sampleThenUpdate_eq H.sha_len]
  simp only []
  generalize drawVal (withHash E sha).sha512 p (ascii "key initialization") = x
  have hacc := logClaim_accepted H L' pf (g := g) hsub hd hd' hsup
    (nodeAt_iff.2 ⟨⟨h1, by omega⟩, rfl⟩ : NodeAt d t (path d t)) msg log hlog (Function.update a .x x)
  have WF : ParamWF (withHash E sha) (worldOf (withHash E sha) g cs (Function.update a .x x) []).pp :=
    viewOf_wf (E := withHash E sha) (cs := cs) L' hsub hd hd' (toVar (Function.update a .x x))
  have hdep : (worldOf (withHash E sha) g cs (Function.update a .x x) []).pp.depth = d := rfl
  have hcs : Supported (worldOf (withHash E sha) g cs (Function.update a .x x) []).pp.ciphersuite := hsup
  have hA' := hA sha (Function.update a .x x)
  generalize worldOf (withHash E sha) g cs (Function.update a .x x) [] = W at *
  obtain ⟨sk, e1, e2, e3⟩ := init_keyAs H L' WF hcs x
    (drawNext (withHash E sha).sha512 p (ascii "key initialization"))
  rw [e1]
  simp only []
  rw [hA']
  simp only [hashLogForger, HashPlayer.chance]
  have hup := update_exact H.sha_len pf WF.toParamShape e2.keyFor
    (show 1 < tar by omega) (by rw [hdep]; exact h3) seed
  rcases hup with ⟨⟨j, hj, _⟩, _⟩ | ⟨_, s, e4, e5, _⟩
  · rw [hdep, h4] at *
    omega
  · rw [e4]
    simp only []
    rw [if_pos]
    refine ⟨hacc, ?_, by simp⟩
    intro b hb
    simp only [List.nil_append, List.mem_singleton] at hb
    rw [hb, e5.time]
    exact h2

/-- C94: the game can be won, by whoever can take discrete logarithms in `G2`, with any hash function:
the bound is not about a game that cannot be played. -/
theorem C94_logarithms_forge [DecidableEq GT] {E : Ext G1 G2 GT} (L : GroupLaws E)
    (pf : Profile) {g : G1} (hsub : E.inSub1 g = true) {d : Nat} (hd : 1 ≤ d) (hd' : d ≤ 63)
    {cs : UInt8} (hsup : Supported cs) {t tar : Nat} (h1 : 1 ≤ t) (h2 : t < tar)
    (h3 : tar ≤ 2 ^ d - 1) (h4 : drawsNeeded d 1 tar = 0) (seed msg : Bytes)
    (log : G2 → Fr) (hlog : ∀ x : Fr, log (x.val • E.gen2) = x) {n : Nat} (hn : 32 ≤ n) (B : Nat) :
    randomForgeChance E pf g d cs n B (hashLogForger log t tar seed msg) = 1 :=
  randomForge_logarithms L pf hsub hd hd' hsup h1 h2 h3 h4 seed msg log hlog hn B fun _ _ => rfl

/-! ### Concrete cases -/

section Examples
open Pixel.Toy

/-- an adversary that hashes a string, has what begins the hash signed, hashes what the signer hashes for
a message and has that message signed, lets the signer go on to time 9, breaks in, lets it sign and go
on, computes with HMAC from the state that it saw, and makes a claim with a co-signer -/
def toyHashPlayer (W : World G G) : HashPlayer G G :=
  .toss 6 (by omega) fun c => .eval [1, 2] fun b => .sign (b.take (1 + c.val)) fun s1 =>
    .eval (msgTag 1 ++ [3]) fun b' => .update 4 [7] (.sign [3] fun s2 => .point fun p => .update 9 [8]
      (.breakIn fun sk => .eval (keyPad 0x36 (sk.prng.seed.take 128) ++ [1]) fun e =>
        .sign [4, 5] fun s3 => .forge
        { time := 1 + (b.length + sk.ssk.length + e.length) % 8
          msg := b'.take 60
          sigma1 := s1.sigma1 + s2.sigma1 - s3.sigma1
          sigma2 := s1.sigma2 + (sk.ssk.map SubSecretKey.hpoly).sum + W.pp.h
          cosigners := [{ key := (1, 0), point := some 0, pop := p }] }))

theorem toyHash_within (W : World G G) : (toyHashPlayer W).Within 400 3 3 2 := by
  intro c
  refine ⟨by simp, by omega, fun b => ⟨?_, by omega, fun s1 => ⟨?_, by omega, fun b' =>
    ⟨by simp, by omega, by simp, by omega, fun s2 p => ⟨by simp, by omega, fun sk =>
    ⟨?_, by omega, fun e => ⟨by simp, by omega, fun s3 => ?_⟩⟩⟩⟩⟩⟩⟩
  · have := List.length_take_le (1 + c.val) b
    omega
  · rw [msgTag_length]
    simp
  · rw [List.length_append, keyPad_length (List.length_take_le _ _)]
    simp
  · show (List.take 60 b').length + 300 ≤ 400
    have := List.length_take_le 60 b'
    omega

/-- C94: the hypotheses are met by this adversary: one hash point, three evaluations, three signatures,
two updates -/
example : randomForgeChance (ext sha0) .debug ((1, 0) : G) 5 1 32 400 toyHashPlayer ≤
    ∑ t ∈ Finset.Icc 1 (2 ^ 5 - 1), (∑ i ∈ Finset.range (evaluations 5 3 3 2),
      (solveChance (ext sha0) ((1, 0) : G) 5 (roReduction (ext sha0) 1 5 (path 5 t) i
          (apiBet .debug 5 t (hashLift .debug 5 t toyHashPlayer))) +
        (((1 : Nat) + 1) / rOrder + (evaluations 5 3 3 2 : ℕ) / 2 ^ 254)) + drawingLost 5 32 3 3 2) :=
  C94_forger_solves (groupLaws sha0) .debug (g := ((1, 0) : G)) (by decide) (d := 5)
    (by omega) (by omega) (cs := 1) (Or.inr rfl) (by omega) (by omega) (by omega) toyHashPlayer
    (fun W => fun _ _ _ _ _ _ _ _ _ => (by decide +kernel : (1 : Nat) + 1 < rOrder)) (m := 1)
    (fun W => fun _ _ _ _ _ => ⟨by omega, fun _ _ _ _ => trivial⟩) toyHash_within

/-- C94: 65 evaluations -/
example : evaluations 5 3 3 2 = 65 := rfl

/-- C94: with logarithms, which are easy in the toy groups, the game is won -/
example : randomForgeChance (ext sha0) .debug ((1, 0) : G) 5 1 40 400
    (hashLogForger (fun p : G => p.1) 4 17 [9] [1]) = 1 :=
  C94_logarithms_forge (groupLaws sha0) .debug (g := ((1, 0) : G)) (by decide) (d := 5)
    (by omega) (by omega) (cs := 1) (Or.inr rfl) (by omega) (by omega) (by omega)
    (by decide +kernel) [9] [1] (fun p : G => p.1) (by
      intro x
      simp [ext]) (by omega) 400

/-- C94: with 31 octets, or ciphersuite 2, there is no game -/
example : randomForgeChance (ext sha0) .debug ((1, 0) : G) 5 1 31 400 toyHashPlayer = 0 ∧
    randomForgeChance (ext sha0) .debug ((1, 0) : G) 5 2 32 400 toyHashPlayer = 0 :=
  ⟨C94_no_game _ _ _ _ _ _ (Or.inl (by omega)), C94_no_game _ _ _ _ _ _ (Or.inr (by unfold Supported; decide))⟩

/-- C94: the string that is hashed for a message is told from the others -/
example : msgOf 1 (msgTag 1 ++ [3, 4]) = some [3, 4] ∧ msgOf 1 (msgTag 0 ++ [3, 4]) = none ∧
    msgOf 1 [1, 2] = none := by decide +kernel

end Examples

end Pixel.Props
