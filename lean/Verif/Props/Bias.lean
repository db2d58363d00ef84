import Verif.Props.Prng
import Mathlib.Data.Int.CardIntervalMod
import Mathlib.Data.Set.Card
import Mathlib.Algebra.Order.Field.Rat
import Mathlib.Tactic.Linarith
import Mathlib.Tactic.FieldSimp
import Mathlib.Tactic.Positivity

/-!
# Property C58: how far the drawn scalars are from uniform

`os2ip_mod_p` reduces 64 octets modulo the group order.  On uniform octets the result is not quite
uniform; the theorems count how far.
-/

namespace Pixel.Props

open Pixel

/-- 64 octets, read as numbers, are the numbers below `2 ^ 512` -/
theorem octets_card (P : Nat → Prop) [DecidablePred P] :
    {b : Bytes | b.length = 64 ∧ P (beNat b)}.ncard =
      ((Finset.range (256 ^ 64)).filter P).card := by
  rw [← Set.ncard_coe_finset]
  refine Set.ncard_congr (fun b _ => beNat b) ?_ ?_ ?_
  · rintro b ⟨h1, h2⟩
    have := beNat_lt b
    rw [h1] at this
    exact Finset.mem_coe.2 (Finset.mem_filter.2 ⟨Finset.mem_range.2 this, h2⟩)
  · rintro a b ⟨h1, _⟩ ⟨h2, _⟩ he
    have inj : ∀ (a b : Bytes), a.length = b.length → beNat a = beNat b → a = b := by
      intro a
      induction a using List.reverseRecOn with
      | nil =>
        intro b hl _
        exact (List.length_eq_zero_iff.1 hl.symm).symm
      | append_singleton a x ih =>
        intro b hl he
        rcases List.eq_nil_or_concat b with rfl | ⟨b, y, rfl⟩
        · simp at hl
        · rw [List.concat_eq_append] at hl he ⊢
          rw [beNat_append, beNat_append] at he
          simp only [List.length_singleton, pow_one, beNat_single] at he
          have hx := x.toNat_lt
          have hy := y.toNat_lt
          have e1 : beNat a = beNat b := by omega
          have e2 : x.toNat = y.toNat := by omega
          rw [ih b (by simpa using hl) e1, UInt8.toNat_inj.1 e2]
    exact inj a b (h1.trans h2.symm) he
  · intro n hn
    obtain ⟨h1, h2⟩ := Finset.mem_filter.1 (Finset.mem_coe.1 hn)
    have h3 := beNat_natToBE 64 n
    rw [Nat.mod_eq_of_lt (Finset.mem_range.1 h1)] at h3
    exact ⟨natToBE 64 n, ⟨natToBE_length 64 n, by rw [h3]; exact h2⟩, h3⟩

/-- the octet strings that give a scalar -/
def octetsFor (c : Fr) : Set Bytes := {b | b.length = 64 ∧ os2ipModP b = .ok c}

theorem os2ip_iff {b : Bytes} (h : b.length = 64) (c : Fr) :
    os2ipModP b = .ok c ↔ beNat b ≡ c.val [MOD rOrder] := by
  rw [os2ipModP_eq (by omega), Res.ok.injEq]
  constructor
  · intro e
    rw [← e]
    unfold Nat.ModEq
    rw [ZMod.val_natCast, Nat.mod_mod]
  · intro e
    rw [← ZMod.natCast_zmod_val c]
    exact (ZMod.natCast_eq_natCast_iff _ _ _).2 e

theorem octetsFor_card (c : Fr) : (octetsFor c).ncard =
    2 ^ 512 / rOrder + if c.val < 2 ^ 512 % rOrder then 1 else 0 := by
  have e : octetsFor c = {b : Bytes | b.length = 64 ∧ beNat b ≡ c.val [MOD rOrder]} := by
    ext b
    exact ⟨fun h => ⟨h.1, (os2ip_iff h.1 c).1 h.2⟩, fun h => ⟨h.1, (os2ip_iff h.1 c).2 h.2⟩⟩
  rw [e, octets_card (fun n => n ≡ c.val [MOD rOrder]), ← Nat.count_eq_card_filter_range,
    Nat.count_modEq_card _ (Nat.pos_of_ne_zero (NeZero.ne rOrder)),
    Nat.mod_eq_of_lt (ZMod.val_lt c), show (256 : ℕ) ^ 64 = 2 ^ 512 from by
      rw [show (256 : ℕ) = 2 ^ 8 from rfl, ← pow_mul]]

/-- C58: every scalar is the result for `⌊2^512 / r⌋` of the `2^512` octet strings, or for one more;
both occur, so that the result is not exactly uniform. -/
theorem C58_counts :
    (∀ c : Fr, (octetsFor c).ncard = 2 ^ 512 / rOrder ∨
      (octetsFor c).ncard = 2 ^ 512 / rOrder + 1) ∧
    (octetsFor 0).ncard = 2 ^ 512 / rOrder + 1 ∧ (octetsFor (-1)).ncard = 2 ^ 512 / rOrder := by
  refine ⟨fun c => ?_, ?_, ?_⟩
  · rw [octetsFor_card]
    split
    · exact Or.inr rfl
    · exact Or.inl (Nat.add_zero _)
  · rw [octetsFor_card, if_pos]
    rw [ZMod.val_zero]
    decide +kernel
  · rw [octetsFor_card, if_neg, Nat.add_zero]
    have : (-1 : Fr).val = rOrder - 1 := by
      rw [ZMod.neg_val, if_neg (by
        intro h
        have := congrArg ZMod.val h
        rw [ZMod.val_one'' (by decide +kernel), ZMod.val_zero] at this
        omega), ZMod.val_one'' (by decide +kernel)]
    rw [this]
    have := Nat.mod_lt (2 ^ 512) (Nat.pos_of_ne_zero (NeZero.ne rOrder))
    omega

/-- counts between `s q` and `s (q + 1)` out of `N = r q + d` are close to the share `s / r` -/
theorem share_close {A s q d r N : ℕ} (hpos : 0 < r) (hNp : 0 < N) (hN : N = r * q + d) (hd : d ≤ r)
    (hlo : s * q ≤ A) (hhi : A ≤ s * (q + 1)) (hs : s ≤ r) (M : ℚ) (hM : (N : ℚ) = M) :
    |(A : ℚ) / M - s / r| ≤ r / M := by
  subst hM
  have hlo' : (s : ℚ) * q ≤ A := by exact_mod_cast hlo
  have hhi' : (A : ℚ) ≤ s * (q + 1) := by exact_mod_cast hhi
  have hS' : (s : ℚ) ≤ r := by exact_mod_cast hs
  have hd' : (d : ℚ) ≤ r := by exact_mod_cast hd
  have hd0 : (0 : ℚ) ≤ d := by positivity
  have hs0 : (0 : ℚ) ≤ s := by positivity
  have hp : (0 : ℚ) < r := by exact_mod_cast hpos
  have hNq : (0 : ℚ) < N := by exact_mod_cast hNp
  have hN' : (N : ℚ) = r * q + d := by exact_mod_cast hN
  have key : |(A : ℚ) * r - s * N| ≤ r * r := by
    rw [hN', abs_le]
    constructor
    · nlinarith
    · nlinarith
  have e : (A : ℚ) / N - s / r = (A * r - s * N) / (N * r) := by
    field_simp
  rw [e, abs_div, abs_of_pos (a := (N : ℚ) * r) (by positivity),
    div_le_div_iff₀ (by positivity) hNq]
  calc |(A : ℚ) * r - s * N| * N ≤ r * r * N := by gcongr
    _ = r * (N * r) := by ring

/-- C58: statistical distance: for every set of scalars, the share of the `2^512` octet strings
that give a scalar in the set differs from the share of the set among all scalars by at most
`2 ^ (-257)`. -/
theorem C58_nearly_uniform (S : Finset Fr) :
    |(({b : Bytes | b.length = 64 ∧ ∃ c ∈ S, os2ipModP b = .ok c}.ncard : ℚ) / 2 ^ 512) -
      (S.card : ℚ) / rOrder| ≤ 1 / 2 ^ 257 := by
  have hsum : {b : Bytes | b.length = 64 ∧ ∃ c ∈ S, os2ipModP b = .ok c}.ncard =
      ∑ c ∈ S, (octetsFor c).ncard := by
    induction S using Finset.induction_on with
    | empty =>
      rw [Finset.sum_empty, Set.ncard_eq_zero (by simp)]
      ext b; simp
    | insert c S hc ih =>
      rw [Finset.sum_insert hc, ← ih]
      have fin : ∀ T : Set Bytes, (∀ b ∈ T, b.length = 64) → T.Finite := by
        intro T hT
        have hf : {b : Bytes | b.length = 64 ∧ True}.Finite := by
          apply Set.finite_of_ncard_ne_zero
          rw [octets_card (fun _ => True)]
          simp
        exact hf.subset (fun b hb => ⟨hT b hb, trivial⟩)
      rw [← Set.ncard_union_eq ?_ (fin _ (fun b hb => hb.1)) (fin _ (fun b hb => hb.1))]
      · congr 1
        ext b
        simp only [octetsFor, Set.mem_ofPred_eq, Set.mem_union, Finset.mem_insert]
        constructor
        · rintro ⟨h1, d, rfl | hd, h2⟩
          · exact Or.inl ⟨h1, h2⟩
          · exact Or.inr ⟨h1, d, hd, h2⟩
        · rintro (⟨h1, h2⟩ | ⟨h1, d, hd, h2⟩)
          · exact ⟨h1, c, Or.inl rfl, h2⟩
          · exact ⟨h1, d, Or.inr hd, h2⟩
      · rw [Set.disjoint_left]
        rintro b ⟨_, h2⟩ ⟨_, d, hd, h3⟩
        rw [h2] at h3
        exact hc (Res.ok.inj h3 ▸ hd)
  have hlo : S.card * (2 ^ 512 / rOrder) ≤ ∑ c ∈ S, (octetsFor c).ncard := by
    rw [← smul_eq_mul]
    exact Finset.card_nsmul_le_sum S _ _ (fun c _ => by rw [octetsFor_card]; omega)
  have hhi : ∑ c ∈ S, (octetsFor c).ncard ≤ S.card * (2 ^ 512 / rOrder + 1) := by
    rw [← smul_eq_mul]
    exact Finset.sum_le_card_nsmul S _ _ (fun c _ => by
      rw [octetsFor_card]; split <;> omega)
  have hS : S.card ≤ rOrder := by
    calc S.card ≤ Fintype.card Fr := Finset.card_le_univ S
      _ = rOrder := ZMod.card rOrder
  rw [hsum]
  have hr : rOrder ≤ 2 ^ 255 := by decide +kernel
  have hpos : 0 < rOrder := Nat.pos_of_ne_zero (NeZero.ne rOrder)
  have hdiv := Nat.div_add_mod (2 ^ 512) rOrder
  have hmod := Nat.mod_lt (2 ^ 512) hpos
  have hN : ((2 : ℕ) ^ 512 : ℕ) = rOrder * (2 ^ 512 / rOrder) + 2 ^ 512 % rOrder := hdiv.symm
  refine (share_close hpos (by positivity) hN hmod.le hlo hhi hS (2 ^ 512)
    (by rw [Nat.cast_pow, Nat.cast_ofNat])).trans ?_
  rw [div_le_div_iff₀ (by positivity) (by positivity), one_mul]
  have hr' : (rOrder : ℚ) ≤ 2 ^ 255 := by exact_mod_cast hr
  calc (rOrder : ℚ) * 2 ^ 257 ≤ 2 ^ 255 * 2 ^ 257 := by gcongr
    _ = 2 ^ 512 := by rw [← pow_add]

/-- C58: no single scalar is drawn with a share of more than `2 ^ (-254)` of the octet strings. -/
theorem C58_guess (c : Fr) : ((octetsFor c).ncard : ℚ) / 2 ^ 512 ≤ 1 / 2 ^ 254 := by
  rw [div_le_div_iff₀ (by positivity) (by positivity), one_mul]
  have h1 : (octetsFor c).ncard ≤ 2 ^ 512 / rOrder + 1 := by
    rw [octetsFor_card]
    split
    · exact le_rfl
    · exact Nat.add_le_add_left (Nat.zero_le 1) _
  have h2 : (2 ^ 512 / rOrder + 1) * 2 ^ 254 ≤ 2 ^ 512 := by decide +kernel
  have h3 := (Nat.mul_le_mul_right (2 ^ 254) h1).trans h2
  exact_mod_cast h3

/-- C58: a draw that changes the state splits 128 octets of HKDF output: the scalar comes from the
first half, the new state is the second half, and `sample` returns what the first half gives. -/
theorem C58_draw {sha : Bytes → Bytes} (h : ∀ m, (sha m).length = 64) (info : Bytes) (p : Prng) :
    ∃ o1 o2 x, o1 ∈ octetsFor x ∧ o2.length = 64 ∧
      hkdfExpand sha p.seed info 128 = some (o1 ++ o2) ∧
      Prng.sampleThenUpdate sha info p = (.ok x, { seed := o2 }) ∧
      Prng.sample sha info p = (.ok x, p) := by
  refine ⟨okm1 sha p.seed info, okm2 sha p.seed info, drawVal sha p info,
    ⟨okm1_length h _ _, os2ipModP_eq (by rw [okm1_length h])⟩, okm2_length h _ _, ?_,
    sampleThenUpdate_eq h info p, sample_eq h info p⟩
  have e := expandAsserted_128 h p.seed info
  unfold expandAsserted at e
  split at e
  · cases e
  · rename_i o ho
    rw [ho, Res.ok.inj e]

/-- C58: on 128 uniform octets the scalar and the new state are independent: for every scalar and
every state, as many strings give both as there are first halves that give the scalar. -/
theorem C58_independent (c : Fr) (s : Bytes) (hs : s.length = 64) :
    {o : Bytes | o.length = 128 ∧ os2ipModP (o.take 64) = .ok c ∧ o.drop 64 = s}.ncard =
      (octetsFor c).ncard := by
  have e : {o : Bytes | o.length = 128 ∧ os2ipModP (o.take 64) = .ok c ∧ o.drop 64 = s} =
      (fun o1 => o1 ++ s) '' octetsFor c := by
    ext o
    constructor
    · rintro ⟨h1, h2, rfl⟩
      exact ⟨o.take 64, ⟨by rw [List.length_take]; omega, h2⟩, List.take_append_drop 64 o⟩
    · rintro ⟨o1, ⟨h1, h2⟩, rfl⟩
      exact ⟨by simp [h1, hs], by rw [List.take_left' h1]; exact h2, List.drop_left' h1⟩
  rw [e]
  exact Set.ncard_image_of_injective _ (fun a b hab => List.append_cancel_right hab)

/-- the sets of C58 are not empty: 64 zero octets give the scalar 0 -/
example : List.replicate 64 (0 : UInt8) ∈ octetsFor 0 := by
  refine ⟨by simp, (os2ip_iff (by simp) 0).2 ?_⟩
  have : beNat (List.replicate 64 (0 : UInt8)) = 0 := by decide +kernel
  rw [this, ZMod.val_zero]

/-- so do the octets of the group order itself, after 32 zero octets -/
example : natToBE 64 rOrder ∈ octetsFor 0 := by
  refine ⟨natToBE_length _ _, (os2ip_iff (natToBE_length _ _) 0).2 ?_⟩
  rw [beNat_natToBE, ZMod.val_zero]
  decide +kernel

end Pixel.Props
