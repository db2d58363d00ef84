import Verif.Proof.RandomView
import Verif.Proof.Tests
import Verif.Props.View

/-!
# Property C93: with a random function for SHA-512 nothing is assumed of HMAC

Vocabulary: `Verif/Spec/Random.lean`.
-/

namespace Pixel.Props

open Pixel Pixel.Spec

set_option linter.unusedSectionVars false

variable {G1 G2 GT : Type} [AddCommGroup G1] [AddCommGroup G2] [CommGroup GT]

/-! ## C93 -/

/-- C93: with a random hash function, an adversary that evaluates the hash function at most `q` times
and asks for at most `k` values tells HMAC with a uniform key of 64 octets from a random function with
an expected gain of at most `(2 q + k²) / 2^512`. -/
theorem C93_hmac {B : Nat} (hB : 192 ≤ B) (Q : Prober) (hb : Q.Bounded) {q k : Nat}
    (hw : Q.Within B q k) :
    (avg fun ω : HashFun B => prfGain ω.sha (Q.using ω.sha)) ≤ (2 * q + k ^ 2) / 2 ^ 512 :=
  hmac_random hB Q hb hw

/-- C93: the generator, from a uniform state: whoever uses it (and perhaps looks at the state, but not
after `sample` has used it) `u` times and evaluates the hash function
`q` times sees uniform strings, up to `(2 u + 1) (2 (q + 6 u) + (u + 1)²) / 2^512`. -/
theorem C93_generator {B : Nat} (hB : 192 ≤ B) (P : PrngProber) (hb : P.Bounded)
    (hc : P.Careful false) {q u : Nat} (hw : P.Within B q u) :
    (avg fun ω : HashFun B => realOutput ω.sha (P.using ω.sha)) ≤
      (avg fun ω : HashFun B => (P.using ω.sha).ideal []) +
        (2 * u + 1) * ((2 * (q + 6 * u) + (u + 1) ^ 2) / 2 ^ 512) :=
  generator_random hB P hb hc hw

/-- C93: the generator, from a uniform seed of `n` octets with a salt: another
`(q + 6 u) (1/256^n + 1/2^512)`. -/
theorem C93_seed {B n : Nat} (hB : 192 ≤ B) (hn : 128 + n ≤ B) {salt : Bytes} (hs : salt ≠ [])
    (hl : salt.length ≤ 128) (P : PrngProber) (hb : P.Bounded) (hc : P.Careful false) {q u : Nat}
    (hw : P.Within B q u) :
    (avg fun ω : HashFun B => avg fun s : Seed n =>
      (P.using ω.sha).real ω.sha ⟨hmac ω.sha salt s.bytes⟩) ≤
      (avg fun ω : HashFun B => (P.using ω.sha).ideal []) +
        (2 * u + 1) * ((2 * (q + 6 * u) + (u + 1) ^ 2) / 2 ^ 512) +
        ((q + 6 * u : ℕ) : ℚ) * (1 / 256 ^ n + 1 / 2 ^ 512) :=
  seeded_random hB hn hs hl P hb hc hw

/-- how much can be lost: `d` the depth, `n` the length of the seed, `q` evaluations of the hash
function, `u` calls -/
noncomputable def lost (d n q u : Nat) : ℚ :=
  let w : ℚ := u * (2 * d + 3) + 2
  (2 * w + 1) * ((2 * (q + u + 6 * w) + (w + 1) ^ 2) / 2 ^ 512) +
    (q + u + 6 * w) * (1 / 256 ^ n + 1 / 2 ^ 512) +
    (1 / 2 ^ 257 + u * (1 / 2 ^ 257 + d * (1 / rOrder + 1 / 2 ^ 512)))

theorem randomLoss_eq (d n q u : Nat) : randomLoss d n q u = lost d n q u := by
  unfold randomLoss lost macLoss seedLoss viewLoss
  push_cast
  rfl

/-- C93: with a random hash function, someone who is given a public key with its proof of possession,
from `keygen` with a uniform seed of at least 32 octets, makes up to `u` calls of the API, evaluates the
hash function up to `q` times and outputs a number between 0 and 1, has an expected number that exceeds
the one with the ideal signer by at most `lost d n q u`.  No assumption on HMAC is left. -/
theorem C93_at_most {E : Ext G1 G2 GT} (L : GroupLaws E) (pf : Profile) {pp : PubParam G1 G2}
    (W : ParamWF E pp) (hc : Supported pp.ciphersuite) {B n : Nat} (hB : 300 ≤ B) (hn : 32 ≤ n)
    (hnB : 128 + n ≤ B) (U : PublicKey G2 → ProofOfPossession G1 → Observer G1 G2)
    (hb : ∀ pk pop, (U pk pop).Bounded) {q u : Nat} (hu : ∀ pk pop, (U pk pop).Within B q u) :
    (avg fun ω : HashFun B => seesFromSeed (withHash E ω.sha) pf pp n
      fun pk pop => (U pk pop).using ω.sha) ≤
      (avg fun ω : HashFun B => imaginesAtAll (withHash E ω.sha) pp
        fun pk pop => (U pk pop).using ω.sha) + lost pp.depth n q u := by
  rw [← randomLoss_eq]
  exact view_random L pf W hc hB hn hnB U hb hu

/-- C93: and it falls short of it by at most as much. -/
theorem C93_at_least {E : Ext G1 G2 GT} (L : GroupLaws E) (pf : Profile) {pp : PubParam G1 G2}
    (W : ParamWF E pp) (hc : Supported pp.ciphersuite) {B n : Nat} (hB : 300 ≤ B) (hn : 32 ≤ n)
    (hnB : 128 + n ≤ B) (U : PublicKey G2 → ProofOfPossession G1 → Observer G1 G2)
    (hb : ∀ pk pop, (U pk pop).Bounded) {q u : Nat} (hu : ∀ pk pop, (U pk pop).Within B q u) :
    (avg fun ω : HashFun B => imaginesAtAll (withHash E ω.sha) pp
      fun pk pop => (U pk pop).using ω.sha) ≤
      (avg fun ω : HashFun B => seesFromSeed (withHash E ω.sha) pf pp n
        fun pk pop => (U pk pop).using ω.sha) + lost pp.depth n q u := by
  have h := C93_at_most L pf W hc hB hn hnB (fun pk pop => (U pk pop).flip)
    (fun pk pop => observer_flip_bounded _ (hb pk pop))
    (fun pk pop => observer_flip_within _ (hu pk pop))
  have h1 : ∀ ω : HashFun B, (imaginesAtAll (withHash E ω.sha) pp
      fun pk pop => (U pk pop).flip.using ω.sha) =
      1 - imaginesAtAll (withHash E ω.sha) pp fun pk pop => (U pk pop).using ω.sha := fun ω => by
    unfold imaginesAtAll
    simp only [observer_flip, flip_imagines]
    exact avg_flip _
  have h2 : ∀ ω : HashFun B, (seesFromSeed (withHash E ω.sha) pf pp n
      fun pk pop => (U pk pop).flip.using ω.sha) =
      1 - seesFromSeed (withHash E ω.sha) pf pp n fun pk pop => (U pk pop).using ω.sha := fun ω => by
    have H : HashLaws (withHash E ω.sha) := ⟨HashFun.sha_length ω⟩
    unfold seesFromSeed
    simp only [observer_flip]
    refine Eq.trans (avg_congr fun s => ?_) (avg_flip _)
    have hs : 32 ≤ s.bytes.length := by unfold Seed.bytes; rw [natToBE_length]; exact hn
    exact (seesFromSeed_eq H pf W.toParamShape hc
      (fun pk pop => ((U pk pop).using ω.sha).flip) hs).trans
      ((seesFrom_flip H (withHash_laws L _) pf (withHash_wf W _) hc _ _).trans
        (congrArg _ (seesFromSeed_eq H pf W.toParamShape hc
          (fun pk pop => (U pk pop).using ω.sha) hs).symm))
  simp only [h1, h2, avg_flip] at h
  linarith

/-- C93: with a random hash function, the chance that one of the calls panics is at most
`lost d n q u`. -/
theorem C93_panics {E : Ext G1 G2 GT} (L : GroupLaws E) (pf : Profile) {pp : PubParam G1 G2}
    (W : ParamWF E pp) (hc : Supported pp.ciphersuite) {B n : Nat} (hB : 300 ≤ B) (hn : 32 ≤ n)
    (hnB : 128 + n ≤ B) (U : PublicKey G2 → ProofOfPossession G1 → Observer G1 G2) {q u : Nat}
    (hu : ∀ pk pop, (U pk pop).Within B q u) :
    (avg fun ω : HashFun B => panicChance (withHash E ω.sha) pf pp n
      fun pk pop => (U pk pop).user ω.sha) ≤ lost pp.depth n q u := by
  have h := C93_at_most L pf W hc hB hn hnB (fun pk pop => (U pk pop).onPanic)
    (fun pk pop => onPanic_bounded _) (fun pk pop => onPanic_within _ (hu pk pop))
  have h1 : ∀ ω : HashFun B, (imaginesAtAll (withHash E ω.sha) pp
      fun pk pop => (U pk pop).onPanic.using ω.sha) = 0 := fun ω =>
    (avg_congr fun x => onPanic_imagines _ _ _).trans (avg_const 0)
  simp only [h1] at h
  rw [avg_const, zero_add] at h
  refine le_of_eq_of_le (avg_congr fun ω => avg_congr fun s => ?_) h
  rcases keygen (withHash E ω.sha) s.bytes pp with ⟨pk, sk, pop⟩ | e | p
  · exact (onPanic_sees pf _ _).symm
  · rfl
  · rfl

set_option exponentiation.threshold 600 in
/-- C93: with at most `2^60` calls and `2^60` evaluations, less than `1/2^180` is lost. -/
theorem C93_numbers {d n q u : Nat} (hd : d ≤ 63) (hn : 32 ≤ n) (hq : q ≤ 2 ^ 60) (hu : u ≤ 2 ^ 60) :
    lost d n q u < 1 / 2 ^ 180 := by
  have hd' : (d : ℚ) ≤ 63 := by exact_mod_cast hd
  have hq' : (q : ℚ) ≤ 2 ^ 60 := by exact_mod_cast hq
  have hu' : (u : ℚ) ≤ 2 ^ 60 := by exact_mod_cast hu
  have h0 : (0 : ℚ) ≤ d := Nat.cast_nonneg _
  have h1 : (0 : ℚ) ≤ q := Nat.cast_nonneg _
  have h2 : (0 : ℚ) ≤ u := Nat.cast_nonneg _
  have hn' : (1 : ℚ) / 256 ^ n ≤ 1 / 2 ^ 256 := by
    refine one_div_le_one_div_of_le (by positivity) ?_
    calc (2 : ℚ) ^ 256 = 256 ^ 32 := by norm_num
      _ ≤ 256 ^ n := pow_le_pow_right₀ (by norm_num) hn
  have hr : (1 : ℚ) / rOrder ≤ 1 / 2 ^ 254 := by
    refine one_div_le_one_div_of_le (by positivity) ?_
    have : 2 ^ 254 ≤ rOrder := by decide +kernel
    exact_mod_cast this
  have hw : (u : ℚ) * (2 * d + 3) + 2 ≤ 2 ^ 68 := by
    have : (u : ℚ) * (2 * d + 3) ≤ 2 ^ 60 * (2 * 63 + 3) :=
      mul_le_mul hu' (by linarith) (by linarith) (by norm_num)
    linarith [show (2 : ℚ) ^ 60 * (2 * 63 + 3) + 2 ≤ 2 ^ 68 by norm_num]
  have hw0 : (0 : ℚ) ≤ u * (2 * d + 3) + 2 := by positivity
  unfold lost
  simp only []
  generalize (u : ℚ) * (2 * d + 3) + 2 = w at *
  have a1 : (2 * w + 1) * ((2 * (q + u + 6 * w) + (w + 1) ^ 2) / 2 ^ 512) ≤
      (2 * 2 ^ 68 + 1) * ((2 * (2 ^ 60 + 2 ^ 60 + 6 * 2 ^ 68) + (2 ^ 68 + 1) ^ 2) / 2 ^ 512) := by
    refine mul_le_mul (by linarith) (div_le_div_of_nonneg_right ?_ (by positivity)) (by positivity)
      (by positivity)
    have : (w + 1) ^ 2 ≤ (2 ^ 68 + 1) ^ 2 := pow_le_pow_left₀ (by linarith) (by linarith) 2
    linarith
  have a2 : (q + u + 6 * w) * (1 / 256 ^ n + 1 / 2 ^ 512) ≤
      (2 ^ 60 + 2 ^ 60 + 6 * 2 ^ 68) * (1 / 2 ^ 256 + 1 / 2 ^ 512) :=
    mul_le_mul (by linarith) (by linarith) (by positivity) (by positivity)
  have a3 : (u : ℚ) * (1 / 2 ^ 257 + d * (1 / rOrder + 1 / 2 ^ 512)) ≤
      2 ^ 60 * (1 / 2 ^ 257 + 63 * (1 / 2 ^ 254 + 1 / 2 ^ 512)) := by
    refine mul_le_mul hu' (add_le_add le_rfl (mul_le_mul hd' (by linarith) (by positivity)
      (by norm_num))) (by positivity) (by norm_num)
  have a4 : (2 * 2 ^ 68 + 1 : ℚ) * ((2 * (2 ^ 60 + 2 ^ 60 + 6 * 2 ^ 68) + (2 ^ 68 + 1) ^ 2) / 2 ^ 512) +
      (2 ^ 60 + 2 ^ 60 + 6 * 2 ^ 68) * (1 / 2 ^ 256 + 1 / 2 ^ 512) +
      (1 / 2 ^ 257 + 2 ^ 60 * (1 / 2 ^ 257 + 63 * (1 / 2 ^ 254 + 1 / 2 ^ 512))) < 1 / 2 ^ 180 := by
    norm_num
  linarith

/-! ### Concrete cases -/

section Examples
open Pixel.Toy

/-- somebody who has a message signed and hashes the message -/
def signAndHash (m : Bytes) : Observer G1 G2 :=
  .call (.sign 1 m []) fun o => .hash m fun b => .stop <| match o with
    | .ok (some _) => if b.headD 0 = 0 then 1 else 0
    | _ => 0

/-- an adversary who compares a value with the one that they compute with the key of zeros -/
def guessZeros : Prober :=
  .ask [7] fun b => .hash (List.replicate 128 0x36 ++ [7]) fun e =>
    .hash (List.replicate 128 0x5c ++ e) fun b' => .stop (if b = b' then 1 else 0)

/-- C93: they gain next to nothing -/
example : (avg fun ω : HashFun 200 => prfGain ω.sha (guessZeros.using ω.sha)) ≤
    (2 * (2 : ℕ) + (1 : ℕ) ^ 2) / 2 ^ 512 := by
  refine C93_hmac (by norm_num) guessZeros (fun b e b' => ?_) ⟨by simp, by norm_num, fun b _ =>
    ⟨by simp, by norm_num, fun e he => ⟨by simp [he], by norm_num, fun b' _ => trivial⟩⟩⟩
  show 0 ≤ (if b = b' then (1 : ℚ) else 0) ∧ (if b = b' then (1 : ℚ) else 0) ≤ 1
  split_ifs <;> norm_num

/-- C93: in the toy group: a message of 100 octets -/
example (d : Nat) (h1 : 1 ≤ d) (h2 : d ≤ 63) (pf : Profile) :
    (avg fun ω : HashFun 400 => seesFromSeed (withHash (ext sha0) ω.sha) pf (param d 1) 32
      fun _ _ => (signAndHash (List.replicate 100 9)).using ω.sha) <
    (avg fun ω : HashFun 400 => imaginesAtAll (withHash (ext sha0) ω.sha) (param d 1)
      fun _ _ => (signAndHash (List.replicate 100 9)).using ω.sha) + 1 / 2 ^ 180 := by
  have h := C93_at_most (groupLaws sha0) pf (param_wf sha0 h1 h2 1) (Or.inr rfl) (B := 400) (n := 32)
    (by norm_num) le_rfl (by norm_num) (fun _ _ => signAndHash (List.replicate 100 9))
    (fun _ _ o b => by
      show 0 ≤ _ ∧ _ ≤ _
      rcases o with (_ | s) | e | p <;> simp only [] <;> try exact ⟨le_rfl, zero_le_one⟩
      split_ifs <;> norm_num)
    (q := 1) (u := 1)
    (fun _ _ => ⟨⟨by simp, by simp⟩, by norm_num, fun o => ⟨by simp, by norm_num, fun b _ => trivial⟩⟩)
  have h3 := C93_numbers (d := (param d 1).depth) (n := 32) (q := 1) (u := 1) h2 le_rfl
    (by norm_num) (by norm_num)
  linarith

end Examples

end Pixel.Props
