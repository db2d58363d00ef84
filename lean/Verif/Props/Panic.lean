import Verif.Proof.Panic
import Verif.Props.Seed

/-!
# Property C83: how likely it is that a call panics

Vocabulary: `Verif/Spec/Panic.lean`, `Verif/Spec/Prf.lean`.
-/

namespace Pixel.Props

open Pixel Pixel.Spec

set_option linter.unusedSectionVars false

variable {G1 G2 GT : Type} [AddCommGroup G1] [AddCommGroup G2] [CommGroup GT]

/-! ## C83 -/

/-- C83: someone makes a key pair with `keygen` from a uniform seed of at least 32 bytes and then makes
up to `u` calls of the API, with arguments of their choice that may depend on all outcomes.  The chance
that one of the calls panics is at most the sum of the gains of `u (d + 2) + 3` adversaries against
HMAC, and of what HKDF-extract differs from a uniform state for one function, up to
`u d (1/r + 1/2^512)`. -/
theorem C83_panic {E : Ext G1 G2 GT} (H : HashLaws E) (L : GroupLaws E) (pf : Profile)
    {pp : PubParam G1 G2} (W : ParamWF E pp) (hc : Supported pp.ciphersuite) {n : Nat} (hn : 32 ≤ n)
    (U : PublicKey G2 → ProofOfPossession G1 → User G1 G2) {u : Nat}
    (hu : ∀ pk pop, (U pk pop).Calls u) :
    panicChance E pf pp n U ≤
      ∑ j ∈ Finset.range (u * (pp.depth + 2) + 3),
        prfGain E.sha512 (prfAttack E.sha512 (panicGame E pp U) j) +
      extractGain E.sha512 (text "Pixel master key" ++ [pp.ciphersuite]) n (panicFrom E pf pp U) +
      u * (pp.depth * (1 / rOrder + 1 / 2 ^ 512)) := by
  have h1 : panicChance E pf pp n U =
      avg (fun K : Digest => panicFrom E pf pp U ⟨K.bytes⟩) +
        extractGain E.sha512 (text "Pixel master key" ++ [pp.ciphersuite]) n (panicFrom E pf pp U) := by
    rw [extractGain, add_sub_cancel]
    refine avg_congr fun s => seed_panics H pf W.toParamShape hc U ?_
    unfold Seed.bytes
    rw [natToBE_length]
    exact hn
  have h2 : avg (fun K : Digest => panicFrom E pf pp U ⟨K.bytes⟩) ≤
      realOutput E.sha512 (panicGame E pp U) := avg_mono fun K => panicFrom_le H L pf W hc U _
  have h3 := real_sub_ideal H.sha_len (panicGame E pp U) (panicGame_careful U) (panicGame_keys U hu)
  have h4 := panicGame_ideal (E := E) (pp := pp) U hu
  rw [h1, ← h3]
  linarith

/-- C83: each of these adversaries asks for at most `u (2 d + 3) + 3` values. -/
theorem C83_questions {E : Ext G1 G2 GT} (H : HashLaws E) {pp : PubParam G1 G2}
    (U : PublicKey G2 → ProofOfPossession G1 → User G1 G2) {u : Nat}
    (hu : ∀ pk pop, (U pk pop).Calls u) (j : Nat) :
    (prfAttack E.sha512 (panicGame E pp U) j).Asks (u * (2 * pp.depth + 3) + 3) :=
  attack_asks H.sha_len _ (panicGame_uses U hu) _

/-- C83: so if none of the adversaries tells HMAC from a random function with a gain above `ε`, and
HKDF-extract is worth at most `δ`, panics are rare. -/
theorem C83_rare {E : Ext G1 G2 GT} (H : HashLaws E) (L : GroupLaws E) (pf : Profile)
    {pp : PubParam G1 G2} (W : ParamWF E pp) (hc : Supported pp.ciphersuite) {n : Nat} (hn : 32 ≤ n)
    (U : PublicKey G2 → ProofOfPossession G1 → User G1 G2) {u : Nat}
    (hu : ∀ pk pop, (U pk pop).Calls u) {ε δ : ℚ}
    (hε : ∀ j < u * (pp.depth + 2) + 3,
      prfGain E.sha512 (prfAttack E.sha512 (panicGame E pp U) j) ≤ ε)
    (hδ : extractGain E.sha512 (text "Pixel master key" ++ [pp.ciphersuite]) n
      (panicFrom E pf pp U) ≤ δ) :
    panicChance E pf pp n U ≤ (u * (pp.depth + 2) + 3) * ε + δ + u * (pp.depth * (1 / 2 ^ 254)) := by
  refine (C83_panic H L pf W hc hn U hu).trans (add_le_add (add_le_add ?_ hδ) ?_)
  · refine (Finset.sum_le_card_nsmul _ _ ε fun j hj => hε j (Finset.mem_range.1 hj)).trans ?_
    rw [Finset.card_range, nsmul_eq_mul]
    push_cast
    exact le_rfl
  · have h1 : (1 : ℚ) / rOrder + 1 / 2 ^ 512 ≤ 1 / 2 ^ 254 := by
      rw [show (512 : Nat) = 256 + 256 from rfl, pow_add]
      unfold rOrder
      norm_num
    exact mul_le_mul_of_nonneg_left (mul_le_mul_of_nonneg_left h1 (Nat.cast_nonneg _))
      (Nat.cast_nonneg _)

/-- C83: without a condition on the hash function there is no such bound: with a hash function whose
values are all the same, every update that draws a scalar panics. -/
theorem C83_weak_hash {E : Ext G1 G2 GT} (H : HashLaws E) (L : GroupLaws E) (pf : Profile)
    {pp : PubParam G1 G2} (W : ParamWF E pp) (hc : Supported pp.ciphersuite) {n : Nat} (hn : 32 ≤ n)
    (hw : ∀ a b, E.sha512 a = E.sha512 b) {tar : Nat} (h1 : 1 < tar) (h2 : tar ≤ 2 ^ pp.depth - 1)
    (h3 : 0 < drawsNeeded pp.depth 1 tar) (seed : Bytes) :
    panicChance E pf pp n (fun _ _ => .call (.update tar seed) fun _ => .done) = 1 := by
  unfold panicChance
  refine (avg_congr fun s => ?_).trans (avg_const (α := Seed n) (1 : ℚ))
  obtain ⟨sk, k1, k2⟩ := keygen_init H W.toParamShape (seed := s.bytes)
    (by unfold Seed.bytes; rw [natToBE_length]; exact hn) hc
  obtain ⟨sk', e1, e2, e3⟩ := init_keyAs H L W hc (kgSecret E.sha512 s.bytes pp.ciphersuite)
    (kgNext E.sha512 s.bytes pp.ciphersuite)
  rw [k1] at e1
  cases e1
  rw [k2]
  simp only [User.panics, Call.run]
  rcases update_exact H.sha_len pf W.toParamShape e2.keyFor h1 h2 seed with ⟨_, e⟩ | ⟨hne, _⟩
  · rw [e]
    rfl
  · refine absurd ⟨1, le_rfl, h3, ?_⟩ hne
    rw [afterDraws, afterDraws, afterDraw_eq H.sha_len, e3]
    unfold drawNext okm2
    simp only [hmac]
    congr 1
    exact hw _ _

/-! ### Concrete cases -/

section Examples
open Pixel.Toy

/-- somebody who signs at time 1, goes on to a time that depends on the signature, signs there twice and
goes on, signs for a later time, tosses a coin, and asks for an update back to time 2 -/
def toyUser (pk : PublicKey G) (_ : ProofOfPossession G) : User G G :=
  .call (.signPresent 1 [1, 2]) fun o =>
    .call (.update (match o with
      | .ok (some s) => if s.sigma1 = pk.pk then 3 else 4
      | _ => 9) [7]) fun _ =>
    .call (.signThenUpdate 4 [3] [8]) fun _ => .call (.signPresent 5 [3]) fun _ =>
    .toss 2 (by omega) fun c => .call (.sign (9 + c.val) [] [9]) fun _ =>
    .call (.update 2 []) fun _ => .done

/-- C83: the hypotheses are met by this user, with 6 calls and a seed of 32 bytes -/
example : panicChance (ext sha0) .debug (param 5 1) 32 toyUser ≤
    ∑ j ∈ Finset.range (6 * (5 + 2) + 3), prfGain (ext sha0).sha512
      (prfAttack (ext sha0).sha512 (panicGame (ext sha0) (param 5 1) toyUser) j) +
    extractGain (ext sha0).sha512 (text "Pixel master key" ++ [1]) 32
      (panicFrom (ext sha0) .debug (param 5 1) toyUser) +
    (6 : Nat) * ((5 : Nat) * (1 / rOrder + 1 / 2 ^ 512)) :=
  C83_panic hashLaws (groupLaws sha0) .debug (param_wf sha0 (d := 5) (by omega) (by omega) 1)
    (Or.inr rfl) (by omega) toyUser (u := 6)
    (fun _ _ => ⟨by omega, fun _ => ⟨by omega, fun _ => ⟨by omega, fun _ => ⟨by omega, fun _ _ =>
      ⟨by omega, fun _ => ⟨by omega, fun _ => trivial⟩⟩⟩⟩⟩⟩)

/-- C83: the constant hash, and the update from time 1 to time 2, which draws one scalar -/
example : panicChance (ext fun _ => List.replicate 64 0) .release (param 5 1) 40
    (fun _ _ => .call (.update 2 [1]) fun _ => .done) = 1 :=
  C83_weak_hash (E := ext fun _ => List.replicate 64 0) ⟨fun _ => by simp [ext]⟩ (groupLaws _) .release
    (param_wf _ (d := 5) (by omega) (by omega) 1) (Or.inr rfl) (by omega) (fun _ _ => rfl)
    (by omega) (by decide) (by decide +kernel) [1]

end Examples

end Pixel.Props
