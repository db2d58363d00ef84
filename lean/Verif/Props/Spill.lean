import Verif.Proof.Spill
import Verif.Props.Recover
import Verif.Props.Single

/-!
# Property C100: forging with leaks of the generator, when one random function serves for SHA-512

Vocabulary: `Verif/Spec/Spill.lean`.
-/

namespace Pixel.Props

open Pixel Pixel.Spec

set_option linter.unusedSectionVars false

variable {G1 G2 GT : Type} [AddCommGroup G1] [AddCommGroup G2] [CommGroup GT]

/-! ## C100 -/

/-- how much is lost because scalars are drawn with HMAC, from a seed of `k` octets and, after leaks, from
`c` unseen seeds of `n` octets, and are reduced modulo the order of the group: `w` uses of the generator,
`e` evaluations of the hash function -/
noncomputable def leakingLost (d k n q s u c : Nat) : ℚ :=
  let e : ℚ := q + 3 * s + u * (4 * d + 6) + 1
  let w : ℚ := s + u * (d + 1) + 2
  (1 + c) * ((2 * w + 1) * ((2 * (e + 12 * w) + (w + 1) ^ 2) / 2 ^ 512)) +
    (e + 12 * w) * ((1 / 256 ^ k + 1 / 2 ^ 512) + c * (1 / 256 ^ n + 1 / 2 ^ 512)) +
    (s + u * d + 2) * (1 / 2 ^ 257)

theorem spillLoss_eq (d k n q s u c : Nat) :
    spillLoss d k n q s u c = leakingLost d k n q s u c := by
  unfold spillLoss leakingLost
  rw [periodLoss_eq, periodLoss_eq]
  unfold lostPerPeriod hashUses prngUses
  push_cast
  ring

/-- C100: forward security with leaks, with a random function for SHA-512 that the signer, the verifier
and the adversary evaluate, and `keygen` called on a uniform seed of at least 32 octets.  The adversary
directs the signer, breaks in, and looks at the PRNG state as often as it likes; `c` of the updates are
made with uniform seeds of `n` octets that it does not see.  A look counts as a break-in only if the state
is used for a signature, or if the next update is made with a seed of the adversary's choice.  The chance
that it forges for a time before the first break-in is at most the sum, over the times and the
evaluations, of the chances that an explicit algorithm solves the problem that forgeries are reduced to,
and numbers.  Nothing is assumed of HMAC, of HKDF, or of the hash of messages. -/
theorem C100_forger_solves [DecidableEq GT] {E : Ext G1 G2 GT} (L : GroupLaws E)
    (pf : Profile) {g : G1} (hsub : E.inSub1 g = true) {d : Nat} (hd : 1 ≤ d) (hd' : d ≤ 63)
    {cs : UInt8} (hsup : Supported cs) {k n B : Nat} (hk : 32 ≤ k) (hkB : 128 + k ≤ B)
    (hn : n + 300 ≤ B)
    (A : World G1 G2 → SpillPlayer G1 G2) (hA : ∀ W, (A W).Legal) {m : Nat}
    (hm : ∀ W, (A W).Points m) {q s u c : Nat} (hw : ∀ W, (A W).Within B q s u c) :
    randomSpillChance E pf g d cs k n B A ≤
      ∑ t ∈ Finset.Icc 1 (2 ^ d - 1), (∑ i ∈ Finset.range (evaluations d q s u),
        (solveChance E g d (roReduction E cs d (path d t) i
            (apiBet pf d t (hashLift pf d t (spillShield n t A)))) +
          ((m + 1) / rOrder + (evaluations d q s u : ℕ) / 2 ^ 254)) + leakingLost d k n q s u c) := by
  rw [← spillLoss_eq]
  exact randomSpillChance_le L hsup hsub hd hd' pf hk hkB hn A hA hm hw

/-- C100: so if none of these algorithms solves the problem with a chance of more than `ε`, forging has a
chance of at most `(2^d - 1)(Q (ε + (m + 1)/r + Q/2^254) + leakingLost)`, `Q` the number of
evaluations. -/
theorem C100_hard_then_secure [DecidableEq GT] {E : Ext G1 G2 GT} (L : GroupLaws E)
    (pf : Profile) {g : G1} (hsub : E.inSub1 g = true) {d : Nat} (hd : 1 ≤ d) (hd' : d ≤ 63)
    {cs : UInt8} (hsup : Supported cs) {k n B : Nat} (hk : 32 ≤ k) (hkB : 128 + k ≤ B)
    (hn : n + 300 ≤ B)
    (A : World G1 G2 → SpillPlayer G1 G2) (hA : ∀ W, (A W).Legal) {m : Nat}
    (hm : ∀ W, (A W).Points m) {q s u c : Nat} (hw : ∀ W, (A W).Within B q s u c) {ε : ℚ}
    (hε : ∀ t i, ValidTime d t → i < evaluations d q s u → solveChance E g d
      (roReduction E cs d (path d t) i (apiBet pf d t (hashLift pf d t (spillShield n t A)))) ≤ ε) :
    randomSpillChance E pf g d cs k n B A ≤
      (2 ^ d - 1) * (evaluations d q s u * (ε + ((m + 1) / rOrder + evaluations d q s u / 2 ^ 254)) +
        leakingLost d k n q s u c) := by
  refine (C100_forger_solves L pf hsub hd hd' hsup hk hkB hn A hA hm hw).trans ?_
  refine (Finset.sum_le_card_nsmul _ _ (evaluations d q s u * (ε + ((m + 1) / rOrder +
    evaluations d q s u / 2 ^ 254)) + leakingLost d k n q s u c) fun t ht => ?_).trans (le_of_eq ?_)
  · refine add_le_add_left ?_ _
    refine (Finset.sum_le_card_nsmul _ _ (ε + ((m + 1) / rOrder + evaluations d q s u / 2 ^ 254))
      fun i hi => add_le_add_left (hε t i (Finset.mem_Icc.1 ht) (Finset.mem_range.1 hi)) _).trans
      (le_of_eq ?_)
    rw [Finset.card_range, nsmul_eq_mul]
  · rw [Nat.card_Icc, Nat.add_sub_cancel, nsmul_eq_mul, Nat.cast_sub Nat.one_le_two_pow]
    push_cast
    rfl

set_option exponentiation.threshold 600 in
/-- C100: what does not depend on the problem is less than `1/2^100`, for up to `2^32 - 1` times, `2^60`
evaluations by the adversary, `2^40` signatures, updates, unseen seeds and hash points, and seeds of at
least 32 octets. -/
theorem C100_numbers {d k n m q s u c : Nat} (hd : d ≤ 32) (hk : 32 ≤ k) (hn : 32 ≤ n)
    (hm : m + 1 ≤ 2 ^ 40) (hq : q ≤ 2 ^ 60) (hs : s ≤ 2 ^ 40) (hu : u ≤ 2 ^ 40) (hc : c ≤ 2 ^ 40) :
    (2 ^ d - 1) * (evaluations d q s u * (0 + ((m + 1) / rOrder + evaluations d q s u / 2 ^ 254)) +
      leakingLost d k n q s u c) < (1 / 2 ^ 100 : ℚ) := by
  have hd' : (d : ℚ) ≤ 32 := by exact_mod_cast hd
  have hm' : (m : ℚ) + 1 ≤ 2 ^ 40 := by exact_mod_cast hm
  have hq' : (q : ℚ) ≤ 2 ^ 60 := by exact_mod_cast hq
  have hs' : (s : ℚ) ≤ 2 ^ 40 := by exact_mod_cast hs
  have hu' : (u : ℚ) ≤ 2 ^ 40 := by exact_mod_cast hu
  have hc' : (c : ℚ) ≤ 2 ^ 40 := by exact_mod_cast hc
  have h0 : (0 : ℚ) ≤ d := Nat.cast_nonneg _
  have h1 : (0 : ℚ) ≤ q := Nat.cast_nonneg _
  have h2 : (0 : ℚ) ≤ u := Nat.cast_nonneg _
  have h3 : (0 : ℚ) ≤ s := Nat.cast_nonneg _
  have h4 : (0 : ℚ) ≤ m := Nat.cast_nonneg _
  have h5 : (0 : ℚ) ≤ c := Nat.cast_nonneg _
  have hseed : ∀ n : Nat, 32 ≤ n → (1 : ℚ) / 256 ^ n ≤ 1 / 2 ^ 256 := fun n hn => by
    refine one_div_le_one_div_of_le (by positivity) ?_
    calc (2 : ℚ) ^ 256 = 256 ^ 32 := by norm_num
      _ ≤ 256 ^ n := pow_le_pow_right₀ (by norm_num) hn
  have hk' := hseed k hk
  have hn' := hseed n hn
  have hr : ((m : ℚ) + 1) / rOrder ≤ 2 ^ 40 / 2 ^ 254 := by
    have h5 : (2 : ℚ) ^ 254 ≤ rOrder := by
      have : 2 ^ 254 ≤ rOrder := by decide +kernel
      exact_mod_cast this
    exact div_le_div₀ (by positivity) hm' (by positivity) h5
  have hud : (u : ℚ) * (4 * d + 6) ≤ 2 ^ 40 * (4 * 32 + 6) :=
    mul_le_mul hu' (by linarith) (by linarith) (by norm_num)
  have hud' : (u : ℚ) * (d + 1) ≤ 2 ^ 40 * (32 + 1) :=
    mul_le_mul hu' (by linarith) (by linarith) (by norm_num)
  have hud'' : (u : ℚ) * d ≤ 2 ^ 40 * 32 := mul_le_mul hu' (by linarith) (by linarith) (by norm_num)
  have hp : (2 : ℚ) ^ d - 1 ≤ 2 ^ 32 := by
    have : (2 : ℚ) ^ d ≤ 2 ^ 32 := pow_le_pow_right₀ (by norm_num) hd
    linarith
  have he : ((evaluations d q s u : ℕ) : ℚ) = q + 3 * s + u * (4 * d + 6) + 1 := by
    unfold evaluations
    push_cast
    rfl
  have hE : (q : ℚ) + 3 * s + u * (4 * d + 6) + 1 ≤ 2 ^ 60 + 2 ^ 48 := by
    linarith [show (3 : ℚ) * 2 ^ 40 + 2 ^ 40 * (4 * 32 + 6) + 1 ≤ 2 ^ 48 by norm_num]
  have hE0 : (0 : ℚ) ≤ q + 3 * s + u * (4 * d + 6) + 1 := by positivity
  have hw : (s : ℚ) + u * (d + 1) + 2 ≤ 2 ^ 46 := by
    linarith [show (2 : ℚ) ^ 40 + 2 ^ 40 * (32 + 1) + 2 ≤ 2 ^ 46 by norm_num]
  have hw0 : (0 : ℚ) ≤ s + u * (d + 1) + 2 := by positivity
  have hk2 : (s : ℚ) + u * d + 2 ≤ 2 ^ 46 := by
    linarith [show (2 : ℚ) ^ 40 + 2 ^ 40 * 32 + 2 ≤ 2 ^ 46 by norm_num]
  have hk0 : (0 : ℚ) ≤ s + u * d + 2 := by positivity
  rw [he]
  unfold leakingLost
  simp only []
  generalize (q : ℚ) + 3 * s + u * (4 * d + 6) + 1 = e at *
  generalize (s : ℚ) + u * (d + 1) + 2 = w at *
  generalize (s : ℚ) + u * d + 2 = z at *
  have a0 : e * (0 + (((m : ℚ) + 1) / rOrder + e / 2 ^ 254)) ≤
      (2 ^ 60 + 2 ^ 48) * (0 + (2 ^ 40 / 2 ^ 254 + (2 ^ 60 + 2 ^ 48) / 2 ^ 254)) := by
    refine mul_le_mul hE (add_le_add le_rfl (add_le_add hr (div_le_div_of_nonneg_right hE
      (by positivity)))) (by positivity) (by positivity)
  have a1 : (2 * w + 1) * ((2 * (e + 12 * w) + (w + 1) ^ 2) / 2 ^ 512) ≤
      (2 * 2 ^ 46 + 1) * ((2 * (2 ^ 60 + 2 ^ 48 + 12 * 2 ^ 46) + (2 ^ 46 + 1) ^ 2) / 2 ^ 512) := by
    refine mul_le_mul (by linarith) (div_le_div_of_nonneg_right ?_ (by positivity)) (by positivity)
      (by positivity)
    have : (w + 1) ^ 2 ≤ (2 ^ 46 + 1) ^ 2 := pow_le_pow_left₀ (by linarith) (by linarith) 2
    linarith
  have a1' : (1 + (c : ℚ)) * ((2 * w + 1) * ((2 * (e + 12 * w) + (w + 1) ^ 2) / 2 ^ 512)) ≤
      (1 + 2 ^ 40) * ((2 * 2 ^ 46 + 1) *
        ((2 * (2 ^ 60 + 2 ^ 48 + 12 * 2 ^ 46) + (2 ^ 46 + 1) ^ 2) / 2 ^ 512)) :=
    mul_le_mul (by linarith) a1 (by positivity) (by positivity)
  have a2 : (e + 12 * w) * ((1 / 256 ^ k + 1 / 2 ^ 512) + c * (1 / 256 ^ n + 1 / 2 ^ 512)) ≤
      (2 ^ 60 + 2 ^ 48 + 12 * 2 ^ 46) *
        ((1 / 2 ^ 256 + 1 / 2 ^ 512) + 2 ^ 40 * (1 / 2 ^ 256 + 1 / 2 ^ 512)) := by
    refine mul_le_mul (by linarith) (add_le_add (by linarith) ?_) (by positivity) (by positivity)
    exact mul_le_mul hc' (by linarith) (by positivity) (by positivity)
  have a3 : z * (1 / 2 ^ 257) ≤ 2 ^ 46 * (1 / 2 ^ 257 : ℚ) :=
    mul_le_mul_of_nonneg_right hk2 (by positivity)
  have b : (2 : ℚ) ^ 32 * ((2 ^ 60 + 2 ^ 48) * (0 + (2 ^ 40 / 2 ^ 254 + (2 ^ 60 + 2 ^ 48) / 2 ^ 254)) +
      ((1 + 2 ^ 40) * ((2 * 2 ^ 46 + 1) *
        ((2 * (2 ^ 60 + 2 ^ 48 + 12 * 2 ^ 46) + (2 ^ 46 + 1) ^ 2) / 2 ^ 512)) +
      (2 ^ 60 + 2 ^ 48 + 12 * 2 ^ 46) *
        ((1 / 2 ^ 256 + 1 / 2 ^ 512) + 2 ^ 40 * (1 / 2 ^ 256 + 1 / 2 ^ 512)) +
      2 ^ 46 * (1 / 2 ^ 257))) < 1 / 2 ^ 100 := by
    norm_num
  refine lt_of_le_of_lt (mul_le_mul hp (add_le_add a0 (add_le_add (add_le_add a1' a2) a3)) ?_
    (by positivity)) b
  positivity

/-! ## The game without leaks -/

/-- an adversary of C94, in the game with leaks -/
def dry : HashPlayer G1 G2 → SpillPlayer G1 G2
  | .toss m hm n => .toss m hm fun c => dry (n c)
  | .eval m n => .eval m fun b => dry (n b)
  | .point n => .point fun p => dry (n p)
  | .sign msg n => .sign msg fun s => dry (n s)
  | .update tar seed n => .update tar seed (dry n)
  | .breakIn n => .breakIn fun sk => dry (n sk)
  | .forge F => .forge F

theorem dry_chance [DecidableEq GT] {E : Ext G1 G2 GT} (pf : Profile) (g : G1) (n : Nat)
    (P : HashPlayer G1 G2) (sk : SecretKey G1 G2) (sg : List (Nat × Bytes)) (br : List Nat) (us : Bool)
    (W : World G1 G2) :
    (dry P).chance E pf g n ⟨sk, sg, br, false, us⟩ W = P.chance E pf g ⟨sk, sg, br⟩ W := by
  induction P generalizing sk sg br us W with
  | toss m hm nx ih => exact avg_congr fun c => ih c _ _ _ _ _
  | eval m nx ih => exact ih _ _ _ _ _ _
  | point nx ih => exact avg_congr fun r => ih _ _ _ _ _ _
  | sign msg nx ih =>
    simp only [dry, SpillPlayer.chance, HashPlayer.chance]
    rcases Signature.signPresent E.sha512 pf sk.time W.pp msg sk with ⟨s | e | e, sk'⟩
    · exact ih _ _ _ _ _ _
    · rfl
    · rfl
  | update tar seed nx ih =>
    simp only [dry, SpillPlayer.chance, HashPlayer.chance]
    rcases SecretKey.update E.sha512 pf W.pp tar seed sk with ⟨_ | e | e, sk'⟩
    · exact ih _ _ _ _ _
    · exact ih _ _ _ _ _
    · rfl
  | breakIn nx ih =>
    simp only [dry, SpillPlayer.chance, HashPlayer.chance]
    exact ih _ _ _ _ _ _
  | forge F => rfl

/-- C100: for an adversary that never looks and never asks for an unseen seed the game is that of C94. -/
theorem C100_extends [DecidableEq GT] (E : Ext G1 G2 GT) (pf : Profile) (g : G1) (d : Nat) (cs : UInt8)
    (k n B : Nat) (A : World G1 G2 → HashPlayer G1 G2) :
    randomSpillChance E pf g d cs k n B (fun W => dry (A W)) = randomForgeChance E pf g d cs k B A := by
  unfold randomSpillChance randomForgeChance spillForgeChance hashForgeChance
  refine avg_congr fun ω => avg_congr fun a => avg_congr fun s => ?_
  rcases keygen { withHash E (HashFun.sha ω) with hashToG1 := fun _ _ => (a .q).val • g } s.bytes
    (gameParam (withHash E (HashFun.sha ω)) g cs a) with ⟨pk, sk, pop⟩ | e | e
  · exact dry_chance pf g n _ _ _ _ _ _
  · rfl
  · rfl

/-- C100: `keygen` refuses seeds of less than 32 octets, and ciphersuites other than 0 and 1: there is no
such game. -/
theorem C100_no_game [DecidableEq GT] (E : Ext G1 G2 GT) (pf : Profile) (g : G1) (d : Nat) (cs : UInt8)
    (A : World G1 G2 → SpillPlayer G1 G2) {k n B : Nat} (h : k < 32 ∨ ¬ Supported cs) :
    randomSpillChance E pf g d cs k n B A = 0 := by
  unfold randomSpillChance spillForgeChance
  refine (avg_congr fun ω => (avg_congr fun a => (avg_congr fun s => ?_).trans
    (avg_const (α := Seed k) (0 : ℚ))).trans (avg_const 0)).trans (avg_const (α := HashFun B) 0)
  rcases h' : keygen { withHash E (HashFun.sha ω) with hashToG1 := fun _ _ => (a .q).val • g } s.bytes
    (gameParam (withHash E (HashFun.sha ω)) g cs a) with ⟨pk, sk, pop⟩ | e | e
  · exfalso
    rcases h with h | h
    · rw [keygen_short (by unfold Seed.bytes; rw [natToBE_length]; exact h)] at h'
      cases h'
    · exact h (keygen_supported h')
  · rfl
  · rfl

/-! ## The game can be won -/

/-- the adversary that looks, lets the signer go on to time `tar` with an unseen seed, looks again and
breaks in, and then makes a claim for time `t` with the discrete logarithm of the public key -/
def spillLogForger (log : G2 → Fr) (t tar : Nat) (msg : Bytes) (W : World G1 G2) :
    SpillPlayer G1 G2 :=
  .look fun _ => .refresh tar (.look fun _ => .breakIn fun _ => .forge
    { time := t, msg := msg, sigma1 := 0, sigma2 := (log W.pk.pk).val • W.pp.h, cosigners := [] })

theorem randomSpill_logarithms [DecidableEq GT] {E : Ext G1 G2 GT} (L : GroupLaws E)
    (pf : Profile) {g : G1} (hsub : E.inSub1 g = true) {d : Nat} (hd : 1 ≤ d) (hd' : d ≤ 63)
    {cs : UInt8} (hsup : Supported cs) {t tar : Nat} (h1 : 1 ≤ t) (h2 : t < tar)
    (h3 : tar ≤ 2 ^ d - 1) (h4 : drawsNeeded d 1 tar = 0) (msg : Bytes)
    (log : G2 → Fr) (hlog : ∀ x : Fr, log (x.val • E.gen2) = x) {k : Nat} (hk : 32 ≤ k) (n B : Nat)
    {A : World G1 G2 → SpillPlayer G1 G2} (hA : ∀ (sha : Bytes → Bytes) (a : Secret d 0 → Fr),
      A (worldOf (withHash E sha) g cs a []) =
        spillLogForger log t tar msg (worldOf (withHash E sha) g cs a [])) :
    randomSpillChance E pf g d cs k n B A = 1 := by
  unfold randomSpillChance
  refine (avg_congr fun ω => ?_).trans (avg_const (α := HashFun B) (1 : ℚ))
  have h := HashFun.sha_length ω
  generalize HashFun.sha ω = sha at h
  have H : HashLaws (withHash E sha) := ⟨h⟩
  have L' := withHash_laws L sha
  unfold spillForgeChance
  refine (avg_congr fun a => (avg_congr fun s => ?_).trans (avg_const (α := Seed k) (1 : ℚ))).trans
    (avg_const 1)
  refine (seed_start (E := withHash E sha) H hsup (fun W sk => (A W).chance
    (withHash E sha) pf g n ⟨sk, [], [], false, false⟩ W) a
    (viewOf_wf (E := E) (cs := cs) L hsub hd hd' (toVar a)).toParamShape
    (by unfold Seed.bytes; rw [natToBE_length]; exact hk)).trans ?_
  generalize (⟨hmac (withHash E sha).sha512 (text "Pixel master key" ++ [cs]) s.bytes⟩ : Prng) = p
  rw [sampleThenUpdate_eq H.sha_len]
  simp only []
  generalize drawVal (withHash E sha).sha512 p (ascii "key initialization") = x
  have hacc := logClaim_accepted H L' pf (g := g) hsub hd hd' hsup
    (nodeAt_iff.2 ⟨⟨h1, by omega⟩, rfl⟩ : NodeAt d t (path d t)) msg log hlog (Function.update a .x x)
  have WF : ParamWF (withHash E sha) (worldOf (withHash E sha) g cs (Function.update a .x x) []).pp :=
    viewOf_wf (E := withHash E sha) (cs := cs) L' hsub hd hd' (toVar (Function.update a .x x))
  have hdep : (worldOf (withHash E sha) g cs (Function.update a .x x) []).pp.depth = d := rfl
  have hcs : Supported (worldOf (withHash E sha) g cs (Function.update a .x x) []).pp.ciphersuite := hsup
  have hA' := hA sha (Function.update a .x x)
  generalize worldOf (withHash E sha) g cs (Function.update a .x x) [] = W at *
  obtain ⟨sk, e1, e2, e3⟩ := init_keyAs H L' WF hcs x
    (drawNext (withHash E sha).sha512 p (ascii "key initialization"))
  rw [e1]
  simp only []
  rw [hA']
  simp only [spillLogForger, SpillPlayer.chance]
  refine (avg_congr fun s => ?_).trans (avg_const (α := Seed n) (1 : ℚ))
  have hup := update_exact H.sha_len pf WF.toParamShape e2.keyFor
    (show 1 < tar by omega) (by rw [hdep]; exact h3) s.bytes
  rcases hup with ⟨⟨j, hj, _⟩, _⟩ | ⟨_, s, e4, e5, _⟩
  · rw [hdep, h4] at *
    omega
  · rw [e4]
    simp only []
    rw [if_pos]
    refine ⟨hacc, ?_, by simp⟩
    intro b hb
    simp [LeakSigner.spoiled] at hb
    rw [hb, e5.time]
    exact h2

/-- C100: the game can be won, by whoever can take discrete logarithms in `G2`, with a claim for a time
before a break-in and, here, not before the first look: the bound is not about a game that cannot be
played. -/
theorem C100_logarithms_forge [DecidableEq GT] {E : Ext G1 G2 GT} (L : GroupLaws E)
    (pf : Profile) {g : G1} (hsub : E.inSub1 g = true) {d : Nat} (hd : 1 ≤ d) (hd' : d ≤ 63)
    {cs : UInt8} (hsup : Supported cs) {t tar : Nat} (h1 : 1 ≤ t) (h2 : t < tar)
    (h3 : tar ≤ 2 ^ d - 1) (h4 : drawsNeeded d 1 tar = 0) (msg : Bytes)
    (log : G2 → Fr) (hlog : ∀ x : Fr, log (x.val • E.gen2) = x) {k : Nat} (hk : 32 ≤ k) (n B : Nat) :
    randomSpillChance E pf g d cs k n B (spillLogForger log t tar msg) = 1 :=
  randomSpill_logarithms L pf hsub hd hd' hsup h1 h2 h3 h4 msg log hlog hk n B fun _ _ => rfl

/-! ### Concrete cases -/

section Examples
open Pixel.Toy

-- the group structure of `Verif/Toy.lean`: without this the one of the field `Z/3` is found
attribute [-instance] ZMod.instField

/-- an adversary that looks at the state twice, lets the signer go on to time 4 with an unseen seed, has
messages signed there, lets it go on to time 6 with a seed of its choice, looks, computes HMAC of the
state that it saw, lets the signer go on to time 9 with an unseen seed and breaks in, and makes a claim
for a time up to 8 that depends on all it got -/
def toySpillPlayer (W : World G G) : SpillPlayer G G :=
  .toss 6 (by omega) fun c => .look fun p => .look fun _ => .refresh 4 (.eval [1, 2] fun b =>
    .sign (b.take (1 + c.val)) fun s1 => .sign [3] fun s2 => .point fun z => .update 6 (p.seed.take 64)
      (.look fun p' => .eval (keyPad 0x36 (p'.seed.take 128) ++ [1]) fun e =>
        .refresh 9 (.breakIn fun sk => .forge
        { time := 1 + (b.length + sk.ssk.length + e.length) % 8
          msg := e.take 60
          sigma1 := s1.sigma1 + s2.sigma1
          sigma2 := s1.sigma2 + (sk.ssk.map SubSecretKey.hpoly).sum + W.pp.h
          cosigners := [{ key := (1, 0), point := some 0, pop := z }] })))

theorem toySpill_within (W : World G G) : (toySpillPlayer W).Within 400 2 2 3 2 := by
  intro c p _
  refine ⟨by omega, by omega, by simp, by omega, fun b => ⟨?_, by omega, fun s1 => ⟨by simp, by omega,
    fun s2 z => ⟨?_, by omega, fun p' => ⟨?_, by omega, fun e => ⟨by omega, by omega, fun sk => ?_⟩⟩⟩⟩⟩⟩
  · have := List.length_take_le (1 + c.val) b
    omega
  · have := List.length_take_le 64 p.seed
    omega
  · rw [List.length_append, keyPad_length (List.length_take_le _ _)]
    simp
  · show (List.take 60 e).length + 300 ≤ 400
    have := List.length_take_le 60 e
    omega

/-- C100: the hypotheses are met by this adversary: one hash point, two evaluations, two signatures, three
updates, two of them with unseen seeds -/
example : randomSpillChance (ext sha0) .debug ((1, 0) : G) 5 1 40 32 400 toySpillPlayer ≤
    ∑ t ∈ Finset.Icc 1 (2 ^ 5 - 1), (∑ i ∈ Finset.range (evaluations 5 2 2 3),
      (solveChance (ext sha0) ((1, 0) : G) 5 (roReduction (ext sha0) 1 5 (path 5 t) i
          (apiBet .debug 5 t (hashLift .debug 5 t (spillShield 32 t toySpillPlayer)))) +
        (((1 : Nat) + 1) / rOrder + (evaluations 5 2 2 3 : ℕ) / 2 ^ 254)) +
      leakingLost 5 40 32 2 2 3 2) :=
  C100_forger_solves (groupLaws sha0) .debug (g := ((1, 0) : G)) (by decide) (d := 5)
    (by omega) (by omega) (cs := 1) (Or.inr rfl) (by omega) (by omega) (by omega) toySpillPlayer
    (fun W => fun _ _ _ _ _ _ _ _ _ _ => (by decide +kernel : (1 : Nat) + 1 < rOrder)) (m := 1)
    (fun W => fun _ _ _ _ _ _ => ⟨by omega, fun _ _ _ _ => trivial⟩) toySpill_within

/-- C100: with logarithms, which are easy in the toy groups, the game is won -/
example : randomSpillChance (ext sha0) .debug ((1, 0) : G) 5 1 40 32 400
    (spillLogForger (fun p : G => p.1) 4 17 [1]) = 1 :=
  C100_logarithms_forge (groupLaws sha0) .debug (g := ((1, 0) : G)) (by decide) (d := 5)
    (by omega) (by omega) (cs := 1) (Or.inr rfl) (by omega) (by omega) (by omega)
    (by decide +kernel) [1] (fun p : G => p.1) (by
      intro x
      simp [ext]) (by omega) 32 400

/-- C100: with 31 octets, or ciphersuite 2, there is no game -/
example : randomSpillChance (ext sha0) .debug ((1, 0) : G) 5 1 31 32 400 toySpillPlayer = 0 ∧
    randomSpillChance (ext sha0) .debug ((1, 0) : G) 5 2 32 32 400 toySpillPlayer = 0 :=
  ⟨C100_no_game _ _ _ _ _ _ (Or.inl (by omega)),
    C100_no_game _ _ _ _ _ _ (Or.inr (by unfold Supported; decide))⟩

/-- C100: without leaks, as in C94 -/
example : randomSpillChance (ext sha0) .debug ((1, 0) : G) 5 1 32 32 400
    (fun W => dry (toyHashPlayer W)) =
      randomForgeChance (ext sha0) .debug ((1, 0) : G) 5 1 32 400 toyHashPlayer :=
  C100_extends _ _ _ _ _ _ _ _ _

end Examples

end Pixel.Props
