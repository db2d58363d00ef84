import Verif.Proof.Meet
import Verif.Props.Random
import Mathlib.Data.Nat.Choose.Cast

/-!
# Property C97: keys are not foreseen, and do not meet

Vocabulary: `Verif/Spec/Meet.lean`; `lost` is the bound of C93.
-/

namespace Pixel.Props

open Pixel Pixel.Spec

set_option linter.unusedSectionVars false

variable {G1 G2 GT : Type} [AddCommGroup G1] [AddCommGroup G2] [CommGroup GT]

/-! ## C97 -/

/-- C97: with a random hash function, the public key that `keygen` makes from a uniform seed of at least
32 octets is among `k` points somebody names after `q` evaluations of the hash function with chance at
most `k / r`, and the loss of C93. -/
theorem C97_foreseen {E : Ext G1 G2 GT} (L : GroupLaws E) (h0 : E.gen2 ≠ 0) {pp : PubParam G1 G2}
    (W : ParamWF E pp) (hc : Supported pp.ciphersuite) {B n : Nat} (hB : 300 ≤ B) (hn : 32 ≤ n)
    (hnB : 128 + n ≤ B) (A : Namer G2) {k q : Nat} (hA : A.Within B k q) :
    (avg fun ω : HashFun B => foreseen (withHash E ω.sha) pp n A) ≤
      k / rOrder + lost pp.depth n q 0 := by
  have h := C93_at_most L .release W hc hB hn hnB (fun pk _ => A.observer pk.pk)
    (fun _ _ => namer_bounded _ _) (fun _ _ => namer_within _ _ hA 0)
  refine le_trans (le_of_eq ?_) (h.trans (add_le_add ?_ le_rfl))
  · refine avg_congr fun ω => avg_congr fun s => ?_
    rcases keygen (withHash E ω.sha) s.bytes pp with ⟨pk, sk, pop⟩ | e | p
    · exact (observer_sees _ _ _ _ _).symm
    · rfl
    · rfl
  · refine (avg_mono fun ω => ?_).trans (avg_const _).le
    refine le_trans (le_of_eq (avg_congr fun x => observer_imagines _ _ _ _ _ _)) ?_
    refine hits_uniform (HashFun.sha_length ω) (f := fun x => x.val • pp.g2) ?_ A hA
    rw [W.g2_gen]
    exact multiples_inj L h0

open Classical in
/-- C97: so the key is the neutral element with chance at most `1 / r`, and the loss. -/
theorem C97_neutral {E : Ext G1 G2 GT} (L : GroupLaws E) (h0 : E.gen2 ≠ 0) {pp : PubParam G1 G2}
    (W : ParamWF E pp) (hc : Supported pp.ciphersuite) {B n : Nat} (hB : 300 ≤ B) (hn : 32 ≤ n)
    (hnB : 128 + n ≤ B) :
    (avg fun ω : HashFun B => avg fun s : Seed n =>
      if ∃ a, keygen (withHash E ω.sha) s.bytes pp = .ok a ∧ a.1.pk = 0 then (1 : ℚ) else 0) ≤
      1 / rOrder + lost pp.depth n 0 0 := by
  have h := C97_foreseen L h0 W hc hB hn hnB (.names [0]) (k := 1) (q := 0) le_rfl
  rw [Nat.cast_one] at h
  refine le_trans (le_of_eq ?_) h
  refine avg_congr fun ω => avg_congr fun s => ?_
  rcases keygen (withHash E ω.sha) s.bytes pp with ⟨pk, sk, pop⟩ | e | p
  · simp only [Namer.hits, List.mem_singleton]
    exact if_congr ⟨fun ⟨a, h1, h2⟩ => by rw [← Res.ok.inj h1] at h2; exact h2,
      fun h => ⟨_, rfl, h⟩⟩ rfl rfl
  · exact if_neg fun ⟨a, h1, _⟩ => nomatch h1
  · exact if_neg fun ⟨a, h1, _⟩ => nomatch h1

/-- C97: whoever knows the seed names the key with four evaluations. -/
theorem C97_known_seed {E : Ext G1 G2 GT} (H : HashLaws E) {pp : PubParam G1 G2} (S : ParamShape pp)
    {seed : Bytes} {pk : PublicKey G2} {sk : SecretKey G1 G2} {pop : ProofOfPossession G1}
    (h : keygen E seed pp = .ok (pk, sk, pop)) {B : Nat} (hB : 300 ≤ B) (hs : 128 + seed.length ≤ B) :
    (keyOf pp.ciphersuite pp.g2 seed).hits E.sha512 pk.pk = 1 ∧
      (keyOf pp.ciphersuite pp.g2 seed).Within B 1 4 := by
  have hk : 32 ≤ seed.length ∧ Supported pp.ciphersuite := by
    refine ⟨?_, keygen_supported h⟩
    by_contra hk
    rw [keygen_short (by omega)] at h
    cases h
  refine ⟨?_, keyOf_within hB hs _ _ rfl⟩
  rw [keyOf_hits E H S hk.2 hk.1 h]
  simp [Namer.hits]

/-- C97: with a random hash function, two of `m` signers with independent uniform seeds of at least 32
octets have the same public key with chance at most `m (m - 1) / 2` times `1 / r` and the loss for four
evaluations. -/
theorem C97_meet {E : Ext G1 G2 GT} (L : GroupLaws E) (h0 : E.gen2 ≠ 0) {pp : PubParam G1 G2}
    (W : ParamWF E pp) (hc : Supported pp.ciphersuite) {B n : Nat} (hB : 300 ≤ B) (hn : 32 ≤ n)
    (hnB : 128 + n ≤ B) (m : Nat) :
    (avg fun ω : HashFun B => meetChance (withHash E ω.sha) pp n m) ≤
      m * (m - 1) / 2 * (1 / rOrder + lost pp.depth n 4 0) := by
  classical
  have hl : ∀ s : Seed n, s.bytes.length = n := fun s => natToBE_length n s.val
  set c : ℚ := 1 / rOrder + lost pp.depth n 4 0 with hcdef
  let P : Finset (Fin m × Fin m) := Finset.univ.filter fun p => p.1 < p.2
  let f : HashFun B → Seed n → Seed n → ℚ := fun ω s v =>
    match keygen (withHash E ω.sha) v.bytes pp with
    | .ok (pk, _, _) => (keyOf pp.ciphersuite pp.g2 s.bytes).hits ω.sha pk.pk
    | _ => 0
  have hf0 : ∀ ω s v, 0 ≤ f ω s v := fun ω s v => by
    simp only [f]
    rcases keygen (withHash E ω.sha) v.bytes pp with ⟨pk, sk, pop⟩ | e | p
    · simp only [keyOf, Namer.hits]
      split_ifs <;> norm_num
    · exact le_rfl
    · exact le_rfl
  have h1 : ∀ (ω : HashFun B) (s : Fin m → Seed n), (if Meet (withHash E ω.sha) pp s then (1 : ℚ) else 0) ≤
      ∑ p ∈ P, f ω (s p.1) (s p.2) := fun ω s => by
    have H : HashLaws (withHash E ω.sha) := ⟨HashFun.sha_length ω⟩
    split_ifs with hM
    · obtain ⟨i, j, hij, hk⟩ := hM
      obtain ⟨i, j, hij, a, b, ha, hb, hab⟩ : ∃ i j, i < j ∧ ∃ a b,
          keygen (withHash E ω.sha) (s i).bytes pp = .ok a ∧
          keygen (withHash E ω.sha) (s j).bytes pp = .ok b ∧ a.1.pk = b.1.pk := by
        obtain ⟨a, b, ha, hb, hab⟩ := hk
        rcases lt_or_gt_of_ne hij with h | h
        · exact ⟨i, j, h, a, b, ha, hb, hab⟩
        · exact ⟨j, i, h, b, a, hb, ha, hab.symm⟩
      have hv : f ω (s i) (s j) = 1 := by
        simp only [f]
        rw [hb]
        have := keyOf_hits (withHash E ω.sha) H W.toParamShape hc (by rw [hl]; exact hn) ha b.1.pk
        exact this.trans (if_pos (by rw [hab]; exact List.mem_singleton.2 rfl))
      rw [← hv]
      exact Finset.single_le_sum (f := fun p : Fin m × Fin m => f ω (s p.1) (s p.2))
        (fun p _ => hf0 _ _ _) (show (i, j) ∈ P from Finset.mem_filter.2 ⟨Finset.mem_univ _, hij⟩)
    · exact Finset.sum_nonneg fun p _ => hf0 _ _ _
  have h2 : ∀ p ∈ P, (avg fun ω : HashFun B => avg fun s : Fin m → Seed n => f ω (s p.1) (s p.2)) ≤ c :=
      fun p hp => by
    have hne : p.1 ≠ p.2 := ne_of_lt (Finset.mem_filter.1 hp).2
    have : Nonempty (Seed n) := ⟨⟨0, seed_pos n⟩⟩
    have h3 : ∀ ω : HashFun B, (avg fun s : Fin m → Seed n => f ω (s p.1) (s p.2)) =
        avg fun s : Fin m → Seed n => avg fun v => f ω (s p.1) v := fun ω => by
      rw [← avg_replace p.2]
      refine avg_congr fun s => avg_congr fun v => ?_
      rw [Function.update_of_ne hne, Function.update_self]
    simp only [h3]
    rw [avg_comm]
    refine (avg_mono fun s => ?_).trans (avg_const c).le
    have h4 := C97_foreseen L h0 W hc hB hn hnB (keyOf pp.ciphersuite pp.g2 (s p.1).bytes)
      (keyOf_within hB hnB _ _ (hl _))
    rw [Nat.cast_one] at h4
    exact h4
  have h5 : (P.card : ℚ) = m * (m - 1) / 2 := by
    have h6 : P.card = m.choose 2 := by
      have := Finset.card_product_filter_lt (s := (Finset.univ : Finset (Fin m)))
      rwa [Finset.card_univ, Fintype.card_fin, Finset.univ_product_univ] at this
    rw [h6, Nat.cast_choose_two]
  calc (avg fun ω : HashFun B => meetChance (withHash E ω.sha) pp n m)
      ≤ avg fun ω : HashFun B => avg fun s : Fin m → Seed n => ∑ p ∈ P, f ω (s p.1) (s p.2) :=
        avg_mono fun ω => avg_mono fun s => h1 ω s
    _ = ∑ p ∈ P, avg fun ω : HashFun B => avg fun s : Fin m → Seed n => f ω (s p.1) (s p.2) := by
        simp only [avg_sum]
    _ ≤ ∑ p ∈ P, c := Finset.sum_le_sum h2
    _ = m * (m - 1) / 2 * c := by rw [Finset.sum_const, nsmul_eq_mul, h5]

set_option exponentiation.threshold 600 in
/-- C97: among `2^40` signers the chance is below `1/2^170`. -/
theorem C97_numbers {d n m : Nat} (hn : 32 ≤ n) (hm : m ≤ 2 ^ 40) :
    m * (m - 1) / 2 * (1 / rOrder + lost d n 4 0) < (1 / 2 ^ 170 : ℚ) := by
  have hn' : (1 : ℚ) / 256 ^ n ≤ 1 / 2 ^ 256 := by
    refine one_div_le_one_div_of_le (by positivity) ?_
    calc (2 : ℚ) ^ 256 = 256 ^ 32 := by norm_num
      _ ≤ 256 ^ n := pow_le_pow_right₀ (by norm_num) hn
  have hr : (1 : ℚ) / rOrder ≤ 1 / 2 ^ 254 := by
    refine one_div_le_one_div_of_le (by positivity) ?_
    have : 2 ^ 254 ≤ rOrder := by decide +kernel
    exact_mod_cast this
  have hl : lost d n 4 0 ≤ 1 / 2 ^ 251 := by
    unfold lost
    simp only [Nat.cast_zero, zero_mul, zero_add, add_zero]
    norm_num at hn' ⊢
    linarith
  have h0 : (0 : ℚ) ≤ lost d n 4 0 := by
    unfold lost
    positivity
  have h1 : (m : ℚ) * (m - 1) / 2 ≤ 2 ^ 79 := by
    have hm' : (m : ℚ) ≤ 2 ^ 40 := by exact_mod_cast hm
    have : (0 : ℚ) ≤ m := Nat.cast_nonneg _
    nlinarith
  have h2 : (0 : ℚ) ≤ 1 / rOrder + lost d n 4 0 := by positivity
  calc (m : ℚ) * (m - 1) / 2 * (1 / rOrder + lost d n 4 0)
      ≤ 2 ^ 79 * (1 / 2 ^ 254 + 1 / 2 ^ 251) :=
        mul_le_mul h1 (add_le_add hr hl) h2 (by norm_num)
    _ < 1 / 2 ^ 170 := by norm_num

section Examples
open Toy

/-- C97: in the toy group: three signers -/
example (d : Nat) (h1 : 1 ≤ d) (h2 : d ≤ 63) :
    (avg fun ω : HashFun 400 => meetChance (withHash (ext sha0) ω.sha) (param d 1) 32 3) <
      1 / 2 ^ 170 :=
  (C97_meet (groupLaws sha0) (by decide) (param_wf sha0 h1 h2 1) (Or.inr rfl) (by norm_num) le_rfl
    (by norm_num) 3).trans_lt (C97_numbers le_rfl (by norm_num))

end Examples

end Pixel.Props
