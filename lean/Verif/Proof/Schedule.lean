import Verif.Spec.Schedule

set_option linter.unusedSectionVars false

/-!
# Helper lemmas for C62: the number of draws of an update
-/

namespace Pixel

open Spec Props

variable {G1 G2 : Type} [AddCommGroup G1] [AddCommGroup G2]

theorem coverTimes_num {d : Nat} {v : List Nat} (h : IsNode d v) :
    coverTimes d (num d v) = (gam v).map (num d) := by
  induction v generalizing d with
  | nil =>
    obtain ⟨d', rfl⟩ : ∃ d', d = d' + 1 := ⟨d - 1, by have := isNode_pos h; omega⟩
    simp [coverTimes, gam]
  | cons x w ih =>
    obtain ⟨d', rfl, hx, hw⟩ := isNode_cons_pos h
    have hb := num_bounds hw
    have hp1 : 1 ≤ 2 ^ d' := Nat.one_le_two_pow
    rcases hx with rfl | rfl
    · have e1 : ¬ (1 + num d' w = 1) := by omega
      have e2 : 1 + num d' w ≤ 2 ^ d' := by omega
      rw [num_one, coverTimes, if_neg e1, if_pos e2, show 1 + num d' w - 1 = num d' w by omega, ih hw]
      simp [gam, Nat.add_comm]
    · have e1 : ¬ (2 ^ d' + num d' w = 1) := by omega
      have e2 : ¬ (2 ^ d' + num d' w ≤ 2 ^ d') := by omega
      rw [num_two, coverTimes, if_neg e1, if_neg e2,
        show 2 ^ d' + num d' w - 2 ^ d' = num d' w by omega, ih hw]
      simp [gam, Nat.add_comm]

/-- membership of a time in the cover of `v` -/
theorem mem_coverTimes {d : Nat} {v a : List Nat} (hv : IsNode d v) (ha : IsNode d a) :
    num d a ∈ coverTimes d (num d v) ↔ a ∈ gam v := by
  rw [coverTimes_num hv, List.mem_map]
  constructor
  · rintro ⟨b, hb, e⟩
    rw [← num_inj (gam_isNode hv hb) ha e]
    exact hb
  · intro h
    exact ⟨a, h, rfl⟩

theorem newTimes_self {d : Nat} {v g : List Nat} (hv : IsNode d v) {A : List (List Nat)}
    (h : gam v = A ++ g :: sibs g) : newTimes d (num d v) (num d g) = [] := by
  have hg : IsNode d g := gam_isNode hv (by rw [h]; simp)
  rw [newTimes, List.filter_eq_nil_iff]
  intro s hs
  rw [coverTimes_num hg, List.mem_map] at hs
  obtain ⟨a, ha, rfl⟩ := hs
  have : num d a ∈ coverTimes d (num d v) := by
    rw [mem_coverTimes hv (gam_isNode hg ha), h]
    exact List.mem_append_right _ ha
  simp [this]

theorem drawsNeeded_self {d : Nat} {v g : List Nat} (hv : IsNode d v) {A : List (List Nat)}
    (h : gam v = A ++ g :: sibs g) : drawsNeeded d (num d v) (num d g) = 0 := by
  rw [drawsNeeded, newTimes_self hv h]
  rfl

theorem newTimes_below {d : Nat} {v g w : List Nat} (hv : IsNode d v) (hu : IsNode d (g ++ w))
    (hw : w ≠ []) {A : List (List Nat)} (h : gam v = A ++ g :: sibs g) :
    newTimes d (num d v) (num d (g ++ w)) =
      num d (g ++ w) :: ((sibs w).map (g ++ ·)).map (num d) := by
  have hg : g ∈ gam v := by rw [h]; simp
  have hnew : ∀ x, x ≠ [] → IsNode d (g ++ x) → g ++ x ∉ gam v := by
    intro x hx hn hm
    have := gam_unique hv hn hg hm (List.prefix_append g x) (List.prefix_refl _)
    exact hx (by simpa using this.symm)
  have hsn : ∀ x ∈ sibs w, x ≠ [] ∧ IsNode d (g ++ x) := by
    intro x hx
    constructor
    · obtain ⟨a, b, _, hab⟩ := mem_sibs.1 hx
      rw [hab]; simp
    · apply sibs_isNode hu
      rw [sibs_append]
      exact List.mem_append_left _ (List.mem_map_of_mem hx)
  · rw [newTimes, coverTimes_num hu, gam, sibs_append, List.map_cons, List.map_append,
      List.filter_cons_of_pos, List.filter_append, List.filter_eq_self.2, List.filter_eq_nil_iff.2,
      List.append_nil]
    · intro s hs
      rw [List.mem_map] at hs
      obtain ⟨a, ha, rfl⟩ := hs
      have hm : a ∈ gam v := by rw [h]; simp [ha]
      have : num d a ∈ coverTimes d (num d v) := (mem_coverTimes hv (gam_isNode hv hm)).2 hm
      simp [this]
    · intro s hs
      rw [List.map_map, List.mem_map] at hs
      obtain ⟨a, ha, rfl⟩ := hs
      obtain ⟨h1, h2⟩ := hsn a ha
      have : num d (g ++ a) ∉ coverTimes d (num d v) := fun hc =>
        hnew a h1 h2 ((mem_coverTimes hv h2).1 hc)
      simp [this]
    · have : num d (g ++ w) ∉ coverTimes d (num d v) := fun hc =>
        hnew w hw hu ((mem_coverTimes hv hu).1 hc)
      simp [this]

theorem drawsNeeded_below {d : Nat} {v g w : List Nat} (hv : IsNode d v) (hu : IsNode d (g ++ w))
    (hw : w ≠ []) {A : List (List Nat)} (h : gam v = A ++ g :: sibs g) :
    drawsNeeded d (num d v) (num d (g ++ w)) = (sibs w).length := by
  rw [drawsNeeded, newTimes_below hv hu hw h]
  simp

theorem coverTimes_one (d : Nat) : coverTimes (d + 1) 1 = [1] := by
  rw [coverTimes, if_pos rfl]

theorem coverTimes_left {d t : Nat} (h : t ≠ 1) (h' : t ≤ 2 ^ d) :
    coverTimes (d + 1) t = (coverTimes d (t - 1)).map (· + 1) ++ [2 ^ d + 1] := by
  rw [coverTimes, if_neg h, if_pos h']

theorem coverTimes_right {d t : Nat} (h : t ≠ 1) (h' : ¬ t ≤ 2 ^ d) :
    coverTimes (d + 1) t = (coverTimes d (t - 2 ^ d)).map (· + 2 ^ d) := by
  rw [coverTimes, if_neg h, if_neg h']

theorem newTimes_next (d t : Nat) (h1 : 1 ≤ t) (h2 : t + 1 ≤ 2 ^ d - 1) :
    (newTimes d t (t + 1)).length = 0 ∨ (newTimes d t (t + 1)).length = 2 := by
  induction d generalizing t with
  | zero => simp at h2
  | succ d ih =>
    have hp : 2 ^ (d + 1) = 2 * 2 ^ d := by rw [Nat.pow_succ]; omega
    have hmap : ∀ (l m : List Nat) (f : Nat → Nat), (∀ x y, f x = f y → x = y) →
        ((l.map f).filter (fun s => ! (m.map f).contains s)).length =
          (l.filter (fun s => ! m.contains s)).length := by
      intro l m f hf
      rw [List.filter_map, List.length_map]
      congr 2
      funext s
      simp only [Function.comp]
      congr 1
      rw [Bool.eq_iff_iff]
      simp only [List.contains_iff_mem, List.mem_map]
      constructor
      · rintro ⟨a, ha, e⟩; rw [← hf _ _ e]; exact ha
      · intro h; exact ⟨s, h, rfl⟩
    unfold newTimes
    by_cases ht1 : t = 1
    · subst ht1
      have hd : 1 ≤ d := by
        by_contra hc
        have : d = 0 := by omega
        subst this
        simp at h2
      obtain ⟨d', rfl⟩ : ∃ d', d = d' + 1 := ⟨d - 1, by omega⟩
      have hp2 : 2 ≤ 2 ^ (d' + 1) := by rw [Nat.pow_succ]; have := Nat.one_le_two_pow (n := d'); omega
      right
      rw [coverTimes_left (d := d' + 1) (t := 1 + 1) (by omega) hp2, coverTimes_one, Nat.add_sub_cancel,
        coverTimes_one]
      simp
    · by_cases hl : t + 1 ≤ 2 ^ d
      · have e1 : t - 1 + 1 = t := by omega
        have := ih (t - 1) (by omega) (by omega)
        rw [e1] at this
        rw [coverTimes_left (t := t + 1) (by omega) hl, coverTimes_left (t := t) ht1 (by omega),
          Nat.add_sub_cancel]
        have hnot : ∀ u, u ≤ 2 ^ d - 1 → 1 ≤ u → ∀ s ∈ coverTimes d u, s ≤ 2 ^ d - 1 := by
          intro u hu hu1 s hs
          have hv : ValidTime d u := ⟨hu1, hu⟩
          rw [← num_path hv, coverTimes_num (path_isNode hv), List.mem_map] at hs
          obtain ⟨a, ha, rfl⟩ := hs
          exact (num_bounds (gam_isNode (path_isNode hv) ha)).2
        have hkey : ((((coverTimes d t).map (· + 1) ++ [2 ^ d + 1]).filter (fun s =>
            ! ((coverTimes d (t - 1)).map (· + 1) ++ [2 ^ d + 1]).contains s))).length =
            ((coverTimes d t).filter (fun s => ! (coverTimes d (t - 1)).contains s)).length := by
          rw [← hmap (coverTimes d t) (coverTimes d (t - 1)) (· + 1) (fun x y h => by simpa using h),
            List.filter_append, List.length_append]
          rw [List.filter_cons_of_neg (by simp), List.filter_nil, List.length_nil, Nat.add_zero]
          congr 1
          apply List.filter_congr
          intro s hs
          rw [List.mem_map] at hs
          obtain ⟨a, ha, rfl⟩ := hs
          have hne : a ≠ 2 ^ d := by
            have := hnot t (by omega) (by omega) a ha
            have := Nat.one_le_two_pow (n := d)
            omega
          simp [hne]
        rw [hkey]
        exact this
      · by_cases hm : t ≤ 2 ^ d
        · have hte : t = 2 ^ d := by omega
          left
          rw [coverTimes_right (t := t + 1) (by omega) hl, coverTimes_left (t := t) ht1 hm]
          have hd : 1 ≤ d := by
            by_contra hc
            have : d = 0 := by omega
            subst this
            simp at h2
            omega
          obtain ⟨d', rfl⟩ : ∃ d', d = d' + 1 := ⟨d - 1, by omega⟩
          rw [show t + 1 - 2 ^ (d' + 1) = 1 by omega, coverTimes_one]
          simp [Nat.add_comm]
        · have e1 : t + 1 - 2 ^ d = t - 2 ^ d + 1 := by omega
          rw [coverTimes_right (t := t + 1) (by omega) hl, coverTimes_right (t := t) ht1 hm,
            hmap _ _ _ (fun x y h => by simpa using h), e1]
          exact ih (t - 2 ^ d) (by omega) (by omega)

/-- `update` on an honest key, in all cases -/
theorem update_exact {sha : Bytes → Bytes} (hsha : ∀ m, (sha m).length = 64) (pf : Profile)
    {pp : PubParam G1 G2} (S : ParamShape pp) {alpha : G1} {t tar : Nat} {sk : SecretKey G1 G2}
    (h : KeyFor pp alpha t sk) (h1 : t < tar) (h2 : tar ≤ 2 ^ pp.depth - 1) (seed : Bytes) :
    ((∃ k, 1 ≤ k ∧ k ≤ drawsNeeded pp.depth t tar ∧
        afterDraws sha (reseeded sha sk.prng seed t) k = sk.prng) ∧
      SecretKey.update sha pf pp tar seed sk = (.panic .assertion, sk)) ∨
    ((¬ ∃ k, 1 ≤ k ∧ k ≤ drawsNeeded pp.depth t tar ∧
        afterDraws sha (reseeded sha sk.prng seed t) k = sk.prng) ∧
      ∃ sk', SecretKey.update sha pf pp tar seed sk = (.ok (), sk') ∧ KeyFor pp alpha tar sk' ∧
        sk'.prng = afterDraws sha (reseeded sha sk.prng seed t) (drawsNeeded pp.depth t tar)) := by
  rcases (C15_update_outcome hsha pf S h tar seed).2 ⟨h1, h2⟩ with ⟨sk', hu, hk'⟩ | ⟨hp, _⟩
  all_goals
    obtain ⟨v, hv, hk⟩ := keyFor_iff.1 h
    have ht : sk.time = t := by rw [hk.time, nodeAt_num_eq hv]
    have hval : ValidTime pp.depth tar := ⟨by omega, h2⟩
    have hun := path_isNode hval
    have hnt := num_path hval
    have hlt : num pp.depth v < num pp.depth (path pp.depth tar) := by
      rw [hnt, ← hk.time, ht]; exact h1
    obtain ⟨A, g, SA, sg, SB, a1, a2, a3, a4, a5, a6⟩ :=
      SecretKey.update_eq hsha (pf := pf) S hk hun hlt seed
    have hvt : num pp.depth v = t := by rw [← hk.time, ht]
    have hvn := nodeAt_isNode hv
    rw [hnt] at a6
  · right
    rw [hu] at a6
    rcases a6 with ⟨hg, a6⟩ | ⟨w, hw, hgw, a6⟩
    · have hd0 := drawsNeeded_self hvn a1
      rw [hg, hnt, hvt] at hd0
      rw [hd0]
      refine ⟨by rintro ⟨k, k1, k2, _⟩; omega, sk', hu, hk', ?_⟩
      rw [(Prod.mk.inj a6).2, ht, afterDraws, reseeded_eq hsha]
    · rw [hgw] at hun
      have hd0 := drawsNeeded_below hvn hun hw a1
      rw [← hgw, hnt, hvt] at hd0
      rw [hd0]
      have hfl := SecretKey.freshLoop_ok_iff (sha := sha) (pp := pp) (p0 := sk.prng) (g := g)
        (s := sg) (sibs w) (mixed sha sk.prng seed (SecretKey.reseedInfo sk.time))
      by_cases hc : ∃ k, 1 ≤ k ∧ k ≤ (sibs w).length ∧
          SecretKey.chain sha (mixed sha sk.prng seed (SecretKey.reseedInfo sk.time)) k = sk.prng
      · rw [hfl.2 hc] at a6
        cases (Prod.mk.inj a6).1
      · obtain ⟨l, hl, hf⟩ := hfl.1 (fun k h1 h2 h3 => hc ⟨k, h1, h2, h3⟩)
        rw [hl] at a6
        refine ⟨?_, sk', hu, hk', ?_⟩
        · rintro ⟨k, k1, k2, k3⟩
          rw [afterDraws_eq hsha, reseeded_eq hsha, ← ht] at k3
          exact hc ⟨k, k1, k2, k3⟩
        · rw [(Prod.mk.inj a6).2, afterDraws_eq hsha, reseeded_eq hsha, ← ht]
  · left
    refine ⟨?_, hp⟩
    rw [hp] at a6
    rcases a6 with ⟨hg, a6⟩ | ⟨w, hw, hgw, a6⟩
    · cases (Prod.mk.inj a6).1
    · rw [hgw] at hun
      have hd0 := drawsNeeded_below hvn hun hw a1
      rw [← hgw, hnt, hvt] at hd0
      rw [hd0]
      have hfl := SecretKey.freshLoop_ok_iff (sha := sha) (pp := pp) (p0 := sk.prng) (g := g)
        (s := sg) (sibs w) (mixed sha sk.prng seed (SecretKey.reseedInfo sk.time))
      by_cases hc : ∃ k, 1 ≤ k ∧ k ≤ (sibs w).length ∧
          SecretKey.chain sha (mixed sha sk.prng seed (SecretKey.reseedInfo sk.time)) k = sk.prng
      · obtain ⟨k, k1, k2, k3⟩ := hc
        refine ⟨k, k1, k2, ?_⟩
        rw [afterDraws_eq hsha, reseeded_eq hsha, ← ht]
        exact k3
      · obtain ⟨l, hl, hf⟩ := hfl.1 (fun k h1 h2 h3 => hc ⟨k, h1, h2, h3⟩)
        rw [hl] at a6
        cases (Prod.mk.inj a6).1

theorem any_range_iff {n : Nat} {P : Nat → Prop} [DecidablePred P] :
    (List.range n).any (fun k => decide (P (k + 1))) = true ↔ ∃ k, 1 ≤ k ∧ k ≤ n ∧ P k := by
  rw [List.any_eq_true]
  constructor
  · rintro ⟨k, hk, h⟩
    exact ⟨k + 1, by omega, by rw [List.mem_range] at hk; omega, by simpa using h⟩
  · rintro ⟨k, k1, k2, h⟩
    obtain ⟨j, rfl⟩ : ∃ j, k = j + 1 := ⟨k - 1, by omega⟩
    exact ⟨j, by rw [List.mem_range]; omega, by simpa using h⟩

/-- `update` on an honest key against `prngStep` -/
theorem update_step {sha : Bytes → Bytes} (hsha : ∀ m, (sha m).length = 64) (pf : Profile)
    {pp : PubParam G1 G2} (S : ParamShape pp) {alpha : G1} {t tar : Nat} {sk : SecretKey G1 G2}
    (h : KeyFor pp alpha t sk) (h1 : t < tar) (h2 : tar ≤ 2 ^ pp.depth - 1) (seed : Bytes) :
    (prngStep sha pp.depth sk.prng t tar seed = none ∧
      SecretKey.update sha pf pp tar seed sk = (.panic .assertion, sk)) ∨
    ∃ sk', prngStep sha pp.depth sk.prng t tar seed = some sk'.prng ∧
      SecretKey.update sha pf pp tar seed sk = (.ok (), sk') ∧ KeyFor pp alpha tar sk' := by
  rcases update_exact hsha pf S h h1 h2 seed with ⟨hc, hp⟩ | ⟨hc, sk', a1, a2, a3⟩
  · left
    refine ⟨?_, hp⟩
    exact if_pos (any_range_iff.2 hc)
  · right
    refine ⟨sk', ?_, a1, a2⟩
    rw [a3]
    exact if_neg (fun hh => hc (any_range_iff.1 hh))

end Pixel
