import Verif.Proof.Verify

/-! # Lemmas on aggregation -/

namespace Pixel

open Spec

set_option linter.unusedSectionVars false

variable {G1 G2 GT : Type} [AddCommGroup G1] [AddCommGroup G2] [CommGroup GT]

theorem foldl_add_sum {G : Type} [AddCommGroup G] (l : List G) (a : G) :
    l.foldl (fun acc e => acc + e) a = a + l.sum := by
  induction l generalizing a with
  | nil => simp
  | cons b l ih => rw [List.foldl_cons, ih, List.sum_cons, add_assoc]

namespace Signature

theorem agg_fold (res : Signature G1 G2) (l : List (Signature G1 G2)) :
    l.foldl (fun res e =>
      { res with sigma1 := res.sigma1 + e.sigma1, sigma2 := res.sigma2 + e.sigma2 }) res =
    { res with
      sigma1 := res.sigma1 + (l.map (·.sigma1)).sum
      sigma2 := res.sigma2 + (l.map (·.sigma2)).sum } := by
  induction l generalizing res with
  | nil => simp
  | cons e l ih =>
    rw [List.foldl_cons, ih]
    simp only [List.map_cons, List.sum_cons, add_assoc]

/-- the checks pass a prefix of matching entries -/
theorem aggCheck_append (res : Signature G1 G2) (pre post : List (Signature G1 G2))
    (h : ∀ e ∈ pre, e.ciphersuite = res.ciphersuite ∧ e.time = res.time) :
    aggCheck res (pre ++ post) = aggCheck res post := by
  induction pre with
  | nil => rfl
  | cons e pre ih =>
    obtain ⟨h1, h2⟩ := h e (by simp)
    rw [List.cons_append, aggCheck, if_neg (by simp [h1]), if_neg (by simp [h2])]
    exact ih (fun e he => h e (by simp [he]))

theorem aggCheck_ok {res : Signature G1 G2} {l : List (Signature G1 G2)} :
    aggCheck res l = .ok () ↔ ∀ e ∈ l, e.ciphersuite = res.ciphersuite ∧ e.time = res.time := by
  induction l with
  | nil => simp [aggCheck]
  | cons e l ih =>
    rw [aggCheck]
    by_cases h1 : e.ciphersuite = res.ciphersuite
    · by_cases h2 : e.time = res.time
      · rw [if_neg (by simp [h1]), if_neg (by simp [h2]), ih]
        simp [h1, h2]
      · rw [if_neg (by simp [h1]), if_pos (Ne.symm h2)]
        simp [h2]
    · rw [if_pos (Ne.symm h1)]
      simp [h1]

theorem aggregate_cons (x : Signature G1 G2) (l : List (Signature G1 G2)) :
    aggregateWithoutValidate (x :: l) = (aggCheck x l >>= fun _ => Res.ok
      { ciphersuite := x.ciphersuite
        time := x.time
        sigma1 := ((x :: l).map (·.sigma1)).sum
        sigma2 := ((x :: l).map (·.sigma2)).sum }) := by
  unfold aggregateWithoutValidate
  have : idx (x :: l) 0 = .ok x := rfl
  rw [this, Res.ok_bind]
  simp only [List.drop_succ_cons, List.drop_zero, agg_fold, List.map_cons, List.sum_cons]

/-- what a successful aggregation returns -/
theorem aggregate_ok_iff {l : List (Signature G1 G2)} {s : Signature G1 G2} :
    aggregateWithoutValidate l = .ok s ↔ l ≠ [] ∧
      (∀ e ∈ l, e.ciphersuite = s.ciphersuite ∧ e.time = s.time) ∧
      s.sigma1 = (l.map (·.sigma1)).sum ∧ s.sigma2 = (l.map (·.sigma2)).sum := by
  cases l with
  | nil =>
    constructor
    · intro h; cases h
    · intro h; exact absurd rfl h.1
  | cons x l =>
    rw [aggregate_cons]
    constructor
    · intro h
      cases hc : aggCheck x l with
      | ok u =>
        rw [hc, Res.ok_bind] at h
        have h := Res.ok.inj h
        subst h
        have := aggCheck_ok.1 hc
        refine ⟨by simp, ?_, rfl, rfl⟩
        intro e he
        rcases List.mem_cons.1 he with rfl | he
        · exact ⟨rfl, rfl⟩
        · exact this e he
      | err e => rw [hc] at h; cases h
      | panic p => rw [hc] at h; cases h
    · rintro ⟨_, h1, h2, h3⟩
      obtain ⟨hx1, hx2⟩ := h1 x (by simp)
      have hc : aggCheck x l = .ok () := aggCheck_ok.2 (fun e he => by
        rw [hx1, hx2]; exact h1 e (by simp [he]))
      rw [hc, Res.ok_bind, hx1, hx2, ← h2, ← h3]

theorem aggCheck_congr {x y : Signature G1 G2} (h1 : x.ciphersuite = y.ciphersuite)
    (h2 : x.time = y.time) (l : List (Signature G1 G2)) : aggCheck x l = aggCheck y l := by
  induction l with
  | nil => rfl
  | cons e l ih => rw [aggCheck, aggCheck, h1, h2, ih]

/-- checking the groups' aggregates is checking all the entries -/
theorem aggCheck_flatten (x : Signature G1 G2) {ls : List (List (Signature G1 G2))}
    {ss : List (Signature G1 G2)}
    (h : List.Forall₂ (fun l s => aggregateWithoutValidate l = .ok s) ls ss) :
    aggCheck x ss = aggCheck x ls.flatten := by
  induction h with
  | nil => rfl
  | @cons l s ls ss hl _ ih =>
    obtain ⟨hne, hall, _, _⟩ := aggregate_ok_iff.1 hl
    cases l with
    | nil => exact absurd rfl hne
    | cons y l =>
      obtain ⟨hy1, hy2⟩ := hall y (by simp)
      rw [List.flatten_cons, List.cons_append, aggCheck, aggCheck, hy1, hy2]
      by_cases h1 : x.ciphersuite = s.ciphersuite
      · by_cases h2 : x.time = s.time
        · rw [if_neg (by simp [h1]), if_neg (by simp [h2]), if_neg (by simp [h1]),
            if_neg (by simp [h2]), ih]
          refine (aggCheck_append x l ls.flatten ?_).symm
          intro e he
          rw [h1, h2]
          exact hall e (by simp [he])
        · rw [if_neg (by simp [h1]), if_pos h2, if_neg (by simp [h1]), if_pos h2]
      · rw [if_pos h1, if_pos h1]

theorem sums_flatten {ls : List (List (Signature G1 G2))} {ss : List (Signature G1 G2)}
    (h : List.Forall₂ (fun l s => aggregateWithoutValidate l = .ok s) ls ss) :
    (ss.map (·.sigma1)).sum = (ls.flatten.map (·.sigma1)).sum ∧
      (ss.map (·.sigma2)).sum = (ls.flatten.map (·.sigma2)).sum := by
  induction h with
  | nil => simp
  | cons hl _ ih =>
    obtain ⟨_, _, h1, h2⟩ := aggregate_ok_iff.1 hl
    simp only [List.map_cons, List.sum_cons, List.flatten_cons, List.map_append, List.sum_append]
    rw [h1, h2, ih.1, ih.2]
    exact ⟨rfl, rfl⟩

/-- aggregated verification is verification under the sum of the keys -/
theorem verifyBytesAggregated_eq [DecidableEq GT] (E : Ext G1 G2 GT) (pf : Profile)
    (sig : Signature G1 G2) (pks : List (PublicKey G2)) (pp : PubParam G1 G2) (msg : Bytes)
    (hne : pks ≠ []) (hc : ∀ pk ∈ pks, pk.ciphersuite = pp.ciphersuite) :
    verifyBytesAggregated E pf sig pks pp msg =
      verifyBytes E pf sig
        { ciphersuite := pp.ciphersuite, pk := (pks.map (·.pk)).sum } pp msg := by
  unfold verifyBytesAggregated
  simp only []
  rw [if_neg (by
    rw [List.any_eq_true]
    rintro ⟨pk, h1, h2⟩
    exact (of_decide_eq_true h2) (hc pk h1).symm)]
  cases pks with
  | nil => exact absurd rfl hne
  | cons p pks =>
    have hi : idx (p :: pks) 0 = .ok p := rfl
    by_cases h1 : sig.ciphersuite = pp.ciphersuite
    · rw [if_neg (by simp [h1]), hi, Res.ok_bind]
      have : (List.drop 1 (p :: pks)).foldl (fun acc e => acc + e.pk) p.pk =
          ((p :: pks).map (·.pk)).sum := by
        have := foldl_add_sum (pks.map (·.pk)) p.pk
        rw [List.foldl_map] at this
        simpa using this
      rw [this]
    · rw [if_pos h1]
      unfold verifyBytes
      by_cases h2 : validCiphersuite.contains pp.ciphersuite = true
      · rw [h2]
        simp only [Bool.not_true, Bool.false_eq_true, if_false]
        rw [if_pos h1]
      · rw [if_pos (by simpa using h2)]

end Signature

end Pixel
