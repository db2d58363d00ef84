import Verif.Spec.Reduce
import Verif.Proof.GameCount
import Mathlib.Tactic.FieldSimp

/-!
# The reduction: averages, the simulated answers, and the solution from a forgery
-/

namespace Pixel

open Spec

set_option linter.unusedSectionVars false

/-! ## Averages -/

section Avg

variable {α β : Type} [Fintype α] [Fintype β]

theorem card_pos' [Nonempty α] : (0 : ℚ) < Fintype.card α := by
  exact_mod_cast Fintype.card_pos

theorem avg_mono {f f' : α → ℚ} (h : ∀ a, f a ≤ f' a) : avg f ≤ avg f' := by
  unfold avg
  exact div_le_div_of_nonneg_right (Finset.sum_le_sum fun a _ => h a) (Nat.cast_nonneg _)

theorem avg_congr {f f' : α → ℚ} (h : ∀ a, f a = f' a) : avg f = avg f' :=
  congrArg avg (funext h)

theorem avg_nonneg {f : α → ℚ} (h : ∀ a, 0 ≤ f a) : 0 ≤ avg f :=
  div_nonneg (Finset.sum_nonneg fun a _ => h a) (Nat.cast_nonneg _)

theorem avg_const [Nonempty α] (c : ℚ) : avg (fun _ : α => c) = c := by
  unfold avg
  rw [Finset.sum_const, Finset.card_univ, nsmul_eq_mul, mul_comm,
    mul_div_assoc, div_self card_pos'.ne', mul_one]

theorem avg_add (f f' : α → ℚ) : avg (fun a => f a + f' a) = avg f + avg f' := by
  unfold avg
  rw [Finset.sum_add_distrib, add_div]

theorem avg_add_const [Nonempty α] (f : α → ℚ) (c : ℚ) :
    avg (fun a => f a + c) = avg f + c := by
  rw [avg_add, avg_const]

theorem avg_equiv (e : α ≃ β) (f : β → ℚ) : avg (fun a => f (e a)) = avg f := by
  unfold avg
  rw [Equiv.sum_comp, Fintype.card_congr e]

theorem avg_prod (f : α → β → ℚ) : avg (fun p : α × β => f p.1 p.2) = avg fun a => avg (f a) := by
  unfold avg
  rw [Fintype.sum_prod_type, Fintype.card_prod, ← Finset.sum_div, div_div, Nat.cast_mul, mul_comm]

theorem avg_le_one [Nonempty α] {f : α → ℚ} (h : ∀ a, f a ≤ 1) : avg f ≤ 1 :=
  (avg_mono h).trans (avg_const (α := α) 1).le

theorem avg_sum {ι : Type} (s : Finset ι) (f : ι → α → ℚ) :
    avg (fun a => ∑ i ∈ s, f i a) = ∑ i ∈ s, avg (f i) := by
  unfold avg
  rw [Finset.sum_comm, Finset.sum_div]

theorem avg_single [DecidableEq α] (a0 : α) :
    avg (fun a => if a = a0 then (1 : ℚ) else 0) = 1 / Fintype.card α := by
  unfold avg
  rw [Finset.sum_ite_eq' Finset.univ a0, if_pos (Finset.mem_univ _)]

/-- averaging over a function is averaging over one value and then the rest; only one value counts -/
theorem avg_apply {ι : Type} [Fintype ι] [DecidableEq ι] [Nonempty α] (i : ι) (f : α → ℚ) :
    avg (fun k : ι → α => f (k i)) = avg f := by
  rw [← avg_equiv (Equiv.funSplitAt i α).symm]
  have : ∀ p : α × ({ j // j ≠ i } → α), f ((Equiv.funSplitAt i α).symm p i) = f p.1 := by
    intro p
    simp [Equiv.funSplitAt]
  rw [avg_congr this, avg_prod (fun a (_ : { j // j ≠ i } → α) => f a)]
  exact avg_congr fun a => avg_const _

end Avg

/-! ## The exponents behind the simulation -/

section Exponents

variable {d : Nat}

/-- what is added to the coin for `h_i` -/
def shift (d : Nat) (w : List Nat) (M γ : Fr) (i : Nat) : Fr :=
  if i = 0 then ∑ j ∈ Finset.Icc 1 d, coefs d w M j * γ ^ (d + 1 - j) else - γ ^ (d + 1 - i)

/-- exponents of the simulated parameters and key -/
def simExp (d : Nat) (w : List Nat) (M γ : Fr) (k : Coin d → Fr) : Secret d 0 → Fr
  | .x => γ
  | .h => k .h + γ ^ d
  | .q => k .q
  | .gen i => k (.gen i) + shift d w M γ i
  | .fresh k => k.elim0

/-- every choice of exponents is simulated exactly once -/
def simEquiv (d : Nat) (w : List Nat) (M : Fr) : Fr × (Coin d → Fr) ≃ (Secret d 0 → Fr) where
  toFun p := simExp d w M p.1 p.2
  invFun a := (a .x, fun
    | .h => a .h - a .x ^ d
    | .q => a .q
    | .gen i => a (.gen i) - shift d w M (a .x) i)
  left_inv p := by
    refine Prod.ext rfl (funext fun c => ?_)
    cases c <;> simp [simExp]
  right_inv a := by
    funext s
    cases s with
    | fresh k => exact k.elim0
    | _ => simp [simExp]

theorem coefs_eq {d : Nat} (hd : 0 < d) (v : List Nat) (M : Fr) (i : Nat) :
    coefs d v M i = coefM d v M i := by
  unfold coefs coefM coefN
  by_cases h0 : i = 0
  · rw [if_pos h0, if_neg (by omega), if_pos h0, Nat.cast_one]
  · rw [if_neg h0, if_neg h0]

theorem firstDiff_spec {d : Nat} {w : List Nat} {M : Fr} {c : Nat → Fr} {j : Nat} (hj : j ≤ d)
    (h : c j ≠ coefs d w M j) :
    firstDiff d w M c ≤ j ∧ c (firstDiff d w M c) ≠ coefs d w M (firstDiff d w M c) ∧
      ∀ i < firstDiff d w M c, c i = coefs d w M i := by
  unfold firstDiff
  rcases hf : (List.range (d + 1)).find? (fun j => decide (c j ≠ coefs d w M j)) with _ | i
  · rw [List.find?_range_eq_none] at hf
    exact absurd (hf j (by omega)) (by simp [h])
  · rw [List.find?_range_eq_some] at hf
    obtain ⟨h1, h2, h3⟩ := hf
    rw [Option.getD_some]
    refine ⟨?_, of_decide_eq_true h1, fun i' hi' => ?_⟩
    · by_contra hlt
      have := h3 j (by omega)
      simp [h] at this
    · have := h3 i' hi'
      simpa using this

/-- the central computation: the exponent of a simulated second component -/
theorem second_exp {d : Nat} {w : List Nat} {M γ : Fr} {v : List Nat} {M' : Fr} {j0 : Nat}
    (hj0 : j0 ≤ d) (h : coefs d v M' j0 ≠ coefs d w M j0) (k : Coin d → Fr) (r : Fr) :
    γ * (k .h + γ ^ d) + (r + factor d w M (coefs d v M') * γ ^ firstDiff d w M (coefs d v M')) *
        ∑ i : Fin (d + 1), coefs d v M' i * simExp d w M γ k (.gen i) =
      k .h * γ + r * ∑ i : Fin (d + 1), coefs d v M' i * simExp d w M γ k (.gen i) +
        (∑ i : Fin (d + 1), factor d w M (coefs d v M') * coefs d v M' i * k (.gen i) *
          γ ^ firstDiff d w M (coefs d v M')) +
        ∑ i ∈ Finset.Ioc (firstDiff d w M (coefs d v M')) d,
          factor d w M (coefs d v M') * (coefs d w M i - coefs d v M' i) *
            γ ^ (d + 1 - i + firstDiff d w M (coefs d v M')) := by
  obtain ⟨h1, h2, h3⟩ := firstDiff_spec hj0 h
  have hk : factor d w M (coefs d v M') *
      (coefs d v M' (firstDiff d w M (coefs d v M')) -
        coefs d w M (firstDiff d w M (coefs d v M'))) = 1 := by
    unfold factor
    exact inv_mul_cancel₀ (sub_ne_zero.2 h2)
  generalize firstDiff d w M (coefs d v M') = j at *
  generalize factor d w M (coefs d v M') = κ at *
  have hj1 : 1 ≤ j := by
    rcases Nat.eq_zero_or_pos j with rfl | h
    · exact absurd (by simp [coefs]) h2
    · exact h
  have hjd : j ≤ d := by omega
  have hsum : ∑ i : Fin (d + 1), coefs d v M' i * shift d w M γ i =
      ∑ i ∈ Finset.Icc 1 d, (coefs d w M i - coefs d v M' i) * γ ^ (d + 1 - i) := by
    rw [Fin.sum_univ_eq_sum_range (fun i => coefs d v M' i * shift d w M γ i) (d + 1),
      Finset.range_eq_Ico, Finset.sum_eq_sum_Ico_succ_bot (by omega)]
    have e0 : coefs d v M' 0 = 1 := by simp [coefs]
    have e1 : shift d w M γ 0 = ∑ j ∈ Finset.Icc 1 d, coefs d w M j * γ ^ (d + 1 - j) := by
      simp [shift]
    have e2 : Finset.Ico (0 + 1) (d + 1) = Finset.Icc 1 d := by
      ext i; simp
    rw [e0, e1, e2, one_mul, ← Finset.sum_add_distrib]
    refine Finset.sum_congr rfl fun i hi => ?_
    rw [Finset.mem_Icc] at hi
    rw [shift, if_neg (by omega)]
    ring
  have hsplit : ∑ i ∈ Finset.Icc 1 d, (coefs d w M i - coefs d v M' i) * γ ^ (d + 1 - i) =
      (coefs d w M j - coefs d v M' j) * γ ^ (d + 1 - j) +
        ∑ i ∈ Finset.Ioc j d, (coefs d w M i - coefs d v M' i) * γ ^ (d + 1 - i) := by
    have e1 : Finset.Icc 1 d = Finset.Ico 1 j ∪ (insert j (Finset.Ioc j d)) := by
      ext i; simp; omega
    rw [e1, Finset.sum_union, Finset.sum_insert (by simp), Finset.sum_eq_zero, zero_add]
    · intro i hi
      rw [Finset.mem_Ico] at hi
      rw [h3 i hi.2, sub_self, zero_mul]
    · rw [Finset.disjoint_left]
      intro i hi
      rw [Finset.mem_Ico] at hi
      simp; omega
  have hF : ∑ i : Fin (d + 1), coefs d v M' i * simExp d w M γ k (.gen i) =
      ∑ i : Fin (d + 1), coefs d v M' i * k (.gen i) +
        ((coefs d w M j - coefs d v M' j) * γ ^ (d + 1 - j) +
        ∑ i ∈ Finset.Ioc j d, (coefs d w M i - coefs d v M' i) * γ ^ (d + 1 - i)) := by
    rw [← hsplit, ← hsum, ← Finset.sum_add_distrib]
    refine Finset.sum_congr rfl fun i _ => ?_
    simp only [simExp]
    ring
  have hA : (∑ i : Fin (d + 1), κ * coefs d v M' i * k (.gen i) * γ ^ j) =
      κ * γ ^ j * ∑ i : Fin (d + 1), coefs d v M' i * k (.gen i) := by
    rw [Finset.mul_sum]
    exact Finset.sum_congr rfl fun i _ => by ring
  have hB : ∑ i ∈ Finset.Ioc j d, κ * (coefs d w M i - coefs d v M' i) * γ ^ (d + 1 - i + j) =
      κ * γ ^ j * ∑ i ∈ Finset.Ioc j d, (coefs d w M i - coefs d v M' i) * γ ^ (d + 1 - i) := by
    rw [Finset.mul_sum]
    exact Finset.sum_congr rfl fun i _ => by rw [pow_add]; ring
  have hpow : γ ^ j * γ ^ (d + 1 - j) = γ * γ ^ d := by
    rw [← pow_add, ← pow_succ']
    congr 1
    omega
  rw [hA, hB]
  conv_lhs => rw [add_mul]
  conv_lhs => enter [2, 2]; rw [hF]
  linear_combination (-(γ * γ ^ d)) * hk + κ * (coefs d w M j - coefs d v M' j) * hpow

end Exponents

/-! ## The simulated world is the real one -/

section World

variable {G1 G2 GT : Type} [AddCommGroup G1] [AddCommGroup G2] [CommGroup GT]
  {E : Ext G1 G2 GT} {g : G1} {d : Nat} {cs : UInt8} {w : List Nat} {M γ b : Fr}

theorem at1_eq (hg : rOrder • g = 0) {i : Nat} (hi : i ≤ d) :
    (instanceOf E g d γ b).at1 i = expHom g hg (γ ^ i) := by
  unfold Instance.at1 instanceOf
  rw [List.getD_eq_getElem?_getD, List.getElem?_ofFn, dif_pos (by omega)]
  rfl

theorem at2_eq (hg2 : rOrder • E.gen2 = 0) {i : Nat} (hi : i ≤ d) :
    (instanceOf E g d γ b).at2 i = expHom E.gen2 hg2 (γ ^ i) := by
  unfold Instance.at2 instanceOf
  rw [List.getD_eq_getElem?_getD, List.getElem?_ofFn, dif_pos (by omega)]
  rfl

theorem simParam_eq (hg : rOrder • g = 0) (k : Coin d → Fr) :
    simParam E cs d w M (instanceOf E g d γ b) k =
      (gameParam E g cs (simExp d w M γ k) : PubParam G1 G2) := by
  have hlist : ∀ i : Fin (d + 1), (k (.gen i)).val • (instanceOf E g d γ b).at1 0 +
      (if i.val = 0 then ∑ j ∈ Finset.Icc 1 d, (coefs d w M j).val •
        (instanceOf E g d γ b).at1 (d + 1 - j) else - (instanceOf E g d γ b).at1 (d + 1 - i)) =
      expHom g hg (simExp d w M γ k (.gen i)) := by
    intro i
    rw [at1_eq hg (by omega), ← expHom_mul]
    simp only [simExp, shift, map_add, pow_zero, mul_one]
    congr 1
    by_cases h0 : i.val = 0
    · rw [if_pos h0, if_pos h0, map_sum]
      refine Finset.sum_congr rfl fun j hj => ?_
      rw [Finset.mem_Icc] at hj
      rw [at1_eq hg (by omega), expHom_mul]
    · rw [if_neg h0, if_neg h0, map_neg, at1_eq hg (by omega)]
  have hh : (k .h).val • (instanceOf E g d γ b).at1 0 + (instanceOf E g d γ b).at1 d =
      expHom g hg (simExp d w M γ k .h) := by
    rw [at1_eq hg (by omega), at1_eq hg le_rfl, ← expHom_mul, ← map_add]
    simp only [simExp, pow_zero, mul_one]
  unfold simParam gameParam
  rw [hh]
  simp only [hlist]
  rfl

theorem simWorld_eq (hg : rOrder • g = 0) (hg2 : rOrder • E.gen2 = 0) (hd : 0 < d)
    (k : Coin d → Fr) :
    simWorld E cs d w M (instanceOf E g d γ b) k = worldOf E g cs (simExp d w M γ k) [] := by
  unfold simWorld worldOf
  rw [simParam_eq hg, at2_eq hg2 (by omega), at1_eq hg (by omega), at1_eq hg (by omega),
    ← expHom_mul, ← expHom_mul]
  congr 1
  · rw [pow_one]; rfl
  · rw [pow_zero, mul_one]; rfl
  · change _ = γ.val • expHom g hg (k .q)
    rw [← expHom_mul, pow_one, mul_comm]

/-- the coefficients of a query that does not spoil the target -/
def Query.Good (w : List Nat) (M : Fr) : Query → Prop
  | .subKey _ v => ¬ AncestorOrSelf v w
  | .signature _ v M' => ¬ (v = w ∧ M' = M)
  | .point => True

theorem subKey_diff {d t : Nat} {v w : List Nat} (hv : NodeAt d t v) (hw : IsNode d w)
    (h : ¬ AncestorOrSelf v w) (M : Fr) : ∃ j ≤ v.length, coefs d v 0 j ≠ coefs d w M j := by
  have hn := nodeAt_isNode hv
  by_contra hc
  push Not at hc
  refine h ?_
  have : v <+: w := by
    refine prefix_of_coefN hn.2 fun i hi => ?_
    have h1 := hn.1
    have := hc (i + 1) (by omega)
    rw [coefs, coefs, if_neg (by omega), if_neg (by omega), if_neg (by omega), if_neg (by omega),
      Nat.add_sub_cancel] at this
    exact digit_inj (digit_lt hn.2 _) (digit_lt hw.2 _) this
  obtain ⟨u, hu⟩ := this
  exact ⟨u, hu.symm⟩

theorem signature_diff {d t : Nat} {v w : List Nat} {M M' : Fr} (hv : NodeAt d t v)
    (hw : IsNode d w) (h : ¬ (v = w ∧ M' = M)) : ∃ j ≤ d, coefs d v M' j ≠ coefs d w M j := by
  have hn := nodeAt_isNode hv
  have h1 := hn.1
  have h2 := hw.1
  by_contra hc
  push Not at hc
  have hdig : ∀ i, v.getD i 0 = w.getD i 0 := by
    intro i
    by_cases hi : i + 1 < d
    · have := hc (i + 1) (by omega)
      rw [coefs, coefs, if_neg (by omega), if_neg (by omega), if_neg (by omega), if_neg (by omega),
        Nat.add_sub_cancel] at this
      exact digit_inj (digit_lt hn.2 _) (digit_lt hw.2 _) this
    · rw [List.getD_eq_default _ _ (by omega), List.getD_eq_default _ _ (by omega)]
  have p1 := prefix_of_coefN hn.2 fun i _ => hdig i
  have p2 := prefix_of_coefN hw.2 fun i _ => (hdig i).symm
  have hM := hc d le_rfl
  simp only [coefs, if_neg (show ¬ d = 0 by omega), if_true] at hM
  exact h ⟨p1.eq_of_length_le p2.length_le, hM⟩

/-- the real randomness behind a simulated answer -/
def simRnd (d : Nat) (w : List Nat) (M γ h : Fr) (r : Fr) : Query → Fr
  | .subKey _ v => r + factor d w M (coefs d v 0) * γ ^ firstDiff d w M (coefs d v 0)
  | .signature _ v M' => r + factor d w M (coefs d v M') * γ ^ firstDiff d w M (coefs d v M')
  | .point => r * h

theorem sim_sigPoint (hg : rOrder • g = 0) (hd : 0 < d) (k : Coin d → Fr) {v : List Nat}
    (hv : v.length < d) (M' : Fr) :
    sigPoint (gameParam E g cs (simExp d w M γ k) : PubParam G1 G2) v M' =
      expHom g hg (∑ i : Fin (d + 1), coefs d v M' i * simExp d w M γ k (.gen i)) := by
  rw [gameParam_eq, sigPoint_paramOf hg hd _ hv, sigE]
  congr 1
  refine Finset.sum_congr rfl fun i _ => ?_
  rw [coefs_eq hd]
  rfl

theorem simSecond_eq (hg : rOrder • g = 0) (hd : 0 < d) (k : Coin d → Fr) {v : List Nat}
    (hv : v.length < d) {M' : Fr} {j0 : Nat} (hj0 : j0 ≤ d)
    (h : coefs d v M' j0 ≠ coefs d w M j0) (r : Fr) :
    simSecond E cs d w M (instanceOf E g d γ b) k v M' r =
      γ.val • (gameParam E g cs (simExp d w M γ k) : PubParam G1 G2).h +
        (r + factor d w M (coefs d v M') * γ ^ firstDiff d w M (coefs d v M')).val •
          sigPoint (gameParam E g cs (simExp d w M γ k) : PubParam G1 G2) v M' := by
  have hj := (firstDiff_spec hj0 h).1
  have key := congrArg (expHom g hg) (second_exp (γ := γ) hj0 h k r)
  simp only [simSecond]
  rw [simParam_eq hg, sim_sigPoint hg hd k hv, at1_eq hg hd, at1_eq hg (hj.trans hj0)]
  change _ = γ.val • expHom g hg (k .h + γ ^ d) + _
  rw [← expHom_mul _ _ γ, ← expHom_mul _ _ (r + _), ← map_add, key, map_add, map_add, map_add]
  congr 1
  · congr 1
    · congr 1
      · rw [← expHom_mul, pow_one]
      · rw [← expHom_mul]
    · rw [map_sum]
      exact Finset.sum_congr rfl fun i _ => (expHom_mul _ _ _ _).symm
  · rw [map_sum]
    refine Finset.sum_congr rfl fun i hi => ?_
    rw [Finset.mem_Ioc] at hi
    rw [at1_eq hg (by omega), ← expHom_mul]

theorem simAnswer_eq (hg : rOrder • g = 0) (hg2 : rOrder • E.gen2 = 0) (hd : 0 < d)
    (hw : IsNode d w) (k : Coin d → Fr) (r : Fr) {q : Query} (hl : q.Legal d)
    (hgood : Query.Good w M q) :
    simAnswer E cs d w M (instanceOf E g d γ b) k r q =
      answer (gameParam E g cs (simExp d w M γ k) : PubParam G1 G2) g γ
        (simRnd d w M γ (k .h + γ ^ d) r q) q := by
  have hfirst : ∀ c : Nat → Fr, firstDiff d w M c ≤ d →
      simFirst E d w M (instanceOf E g d γ b) c r =
      (r + factor d w M c * γ ^ firstDiff d w M c).val • E.gen2 := by
    intro c hc
    rw [simFirst, at2_eq hg2 hc, ← expHom_mul]
    change expHom E.gen2 hg2 r + _ = expHom E.gen2 hg2 _
    rw [map_add]
  cases q with
  | subKey t v =>
    have hvl := (nodeAt_isNode hl).1
    obtain ⟨j0, hj0, hdiff⟩ := subKey_diff hl hw hgood M
    have hj := (firstDiff_spec (by omega) hdiff).1
    simp only [simAnswer, answer, simRnd]
    rw [hfirst _ (by omega), simSecond_eq hg hd k hvl (by omega) hdiff]
    congr 2
    · simp only [sigPoint, ZMod.val_zero, zero_smul, add_zero]
    · simp only [gameParam]
      rw [List.map_drop, List.map_ofFn]
      refine List.ext_getElem (by simp) fun i h1 h2 => ?_
      simp only [List.length_drop, List.length_ofFn] at h1
      simp only [List.getElem_drop, List.getElem_ofFn, simVector, Function.comp_apply]
      rw [at1_eq hg (by omega), at1_eq hg (by omega), at1_eq hg (by omega), at1_eq hg (by omega)]
      change _ = _ • expHom g hg _
      simp only [← expHom_mul, ← map_add, ← map_sub]
      congr 1
      simp only [simExp, shift]
      rw [if_neg (by omega), pow_add]
      ring
  | signature t v M' =>
    have hvl := (nodeAt_isNode hl).1
    obtain ⟨j0, hj0, hdiff⟩ := signature_diff hl hw hgood
    have hj := (firstDiff_spec (by omega) hdiff).1
    simp only [simAnswer, answer, simRnd]
    rw [hfirst _ (by omega), simSecond_eq hg hd k hvl (by omega) hdiff]
    rfl
  | point =>
    simp only [simAnswer, answer, simRnd]
    rw [simParam_eq hg]
    change Answer.point (r.val • expHom g hg (k .h + γ ^ d)) = .point (expHom g hg _)
    rw [expHom_mul]

end World

end Pixel
