import Verif.Proof.Time

/-!
# Properties C01–C06: the time tree

The specification vocabulary (`ValidTime`, `NodeAt`, `ProperAncestor`, …) is in
`Verif/Spec/Tree.lean` and does not mention the code.
-/

namespace Pixel.Props

open Pixel Pixel.Spec

/-! ## C01 -/

/-- C01: for depth at most 63, in both build profiles, the complete outcome of `TimeVec::init`. -/
theorem C01_init_outcome (pf : Profile) (d t : Nat) (hd : d ≤ 63) :
    ((TimeVec.init pf t d).isOk = true ↔ ValidTime d t) ∧
    (TimeVec.init pf t d).isPanic = false ∧
    (d = 0 → TimeVec.init pf t d = .err .timeDepth) ∧
    (0 < d → (t = 0 ∨ 2 ^ d < t) → TimeVec.init pf t d = .err .timeStamp) ∧
    (t = 2 ^ d → TimeVec.init pf t d = .err .timeDepth) := by
  refine ⟨?_, ?_, ?_, ?_, ?_⟩
  · rcases init_cases (pf := pf) (t := t) hd with ⟨hv, h⟩ | ⟨hv, e, h⟩ <;> simp [h, hv]
  · rcases init_cases (pf := pf) (t := t) hd with ⟨hv, h⟩ | ⟨hv, e, h⟩ <;> simp [h]
  · rintro rfl; exact init_zero
  · intro h0 h; exact init_bad h0 hd h
  · rintro rfl; exact init_max hd

/-- C01: debug and release builds agree. -/
theorem C01_profiles_agree (d t : Nat) (hd : d ≤ 63) :
    TimeVec.init .debug t d = TimeVec.init .release t d := by
  by_cases hv : ValidTime d t
  · rw [init_valid hd hv, init_valid hd hv]
  · rcases Nat.eq_zero_or_pos d with rfl | hd0
    · rfl
    · by_cases h2 : t = 2 ^ d
      · rw [h2, init_max hd, init_max hd]
      · have hb : t = 0 ∨ 2 ^ d < t := by
          unfold ValidTime at hv
          have : 1 ≤ 2 ^ d := Nat.one_le_two_pow
          omega
        rw [init_bad hd0 hd hb, init_bad hd0 hd hb]

/-- the hypotheses are met, with a valid and an invalid stamp at the depth the crate uses -/
example : (32 ≤ 63) ∧ ValidTime 32 (2 ^ 32 - 1) ∧ ¬ ValidTime 32 (2 ^ 32) := by
  refine ⟨by omega, ⟨by omega, by omega⟩, fun h => ?_⟩
  have := h.2
  omega

/-! ## C02 -/

/-- C02: the vector computed for a time stamp is the corresponding node of the pre-order listing
of the tree, and nothing else is accepted. -/
theorem C02_preorder (pf : Profile) (d t : Nat) (hd : d ≤ 63) (tv : TimeVec) :
    TimeVec.init pf t d = .ok tv ↔ tv.time = t ∧ NodeAt d t tv.vec := by
  rw [init_eq_ok hd, nodeAt_iff]
  constructor
  · rintro ⟨hv, rfl⟩; exact ⟨rfl, hv, rfl⟩
  · rintro ⟨h1, hv, h2⟩
    refine ⟨hv, ?_⟩
    cases tv
    simp_all

/-- C02: every node of the tree is the vector of exactly one time stamp. -/
theorem C02_every_node_once (pf : Profile) (d : Nat) (hd : d ≤ 63) (v : List Nat) :
    IsNode d v ↔ ∃! t, ∃ tv, TimeVec.init pf t d = .ok tv ∧ tv.vec = v := by
  constructor
  · intro h
    refine ⟨num d v, ⟨tvOf d v, init_num hd h, rfl⟩, ?_⟩
    rintro t ⟨tv, h1, h2⟩
    obtain ⟨hv, rfl⟩ := (init_eq_ok hd).1 h1
    simp only at h2
    rw [← h2, num_path hv]
  · rintro ⟨t, ⟨tv, h1, rfl⟩, _⟩
    obtain ⟨hv, rfl⟩ := (init_eq_ok hd).1 h1
    exact path_isNode hv

/-- C02: converting the vector back gives the time stamp, without overflow. -/
theorem C02_roundtrip (pf : Profile) (d t : Nat) (hd : d ≤ 63) (tv : TimeVec)
    (h : TimeVec.init pf t d = .ok tv) : vecToTime pf tv.vec d = .ok t := by
  obtain ⟨hv, rfl⟩ := (init_eq_ok hd).1 h
  rw [vecToTime_valid hd (path_isNode hv), num_path hv]

/-- C02: the number of time stamps. -/
theorem C02_count (d : Nat) : (preorder d).length = 2 ^ d - 1 := length_preorder d

/-- a concrete case: the documentation's example for depth 3 (lines 37-44 of `time.rs`) -/
example : preorder 3 = [[], [1], [1, 1], [1, 2], [2], [2, 1], [2, 2]] ∧
    TimeVec.init .release 6 3 = .ok ⟨6, [2, 1]⟩ := by decide

/-! ## C03 -/

/-- C03: `is_prefix` is the proper-ancestor relation. -/
theorem C03_isPrefix_ancestor (pf : Profile) (d a b : Nat) (hd : d ≤ 63) (va vb : TimeVec)
    (ha : TimeVec.init pf a d = .ok va) (hb : TimeVec.init pf b d = .ok vb) :
    va.isPrefix vb = true ↔ ProperAncestor va.vec vb.vec := by
  obtain ⟨hva, rfl⟩ := (init_eq_ok hd).1 ha
  obtain ⟨hvb, rfl⟩ := (init_eq_ok hd).1 hb
  have h1 := isPrefix_tvOf (v := path d a) (path_isNode hvb)
  simp only [tvOf, num_path hva, num_path hvb] at h1
  exact h1

/-- C03: the descendants of a node form a contiguous block of later time stamps. -/
theorem C03_isPrefix_interval (pf : Profile) (d a b : Nat) (hd : d ≤ 63) (va vb : TimeVec)
    (ha : TimeVec.init pf a d = .ok va) (hb : TimeVec.init pf b d = .ok vb) :
    va.isPrefix vb = true ↔ a < b ∧ b ≤ a + (2 ^ (d - va.vec.length) - 2) := by
  rw [C03_isPrefix_ancestor pf d a b hd va vb ha hb]
  obtain ⟨hva, rfl⟩ := (init_eq_ok hd).1 ha
  obtain ⟨hvb, rfl⟩ := (init_eq_ok hd).1 hb
  have hi := ancestor_interval (path_isNode hva) (path_isNode hvb)
  rw [num_path hva, num_path hvb] at hi
  simp only [ProperAncestor]
  have hl := (path_isNode hva).1
  have hpow : 2 ^ 1 ≤ 2 ^ (d - (path d a).length) := Nat.pow_le_pow_right (by omega) (by omega)
  constructor
  · rintro ⟨s, hs, hs'⟩
    have h1 := hi.1 ⟨s, hs'.symm⟩
    have : a ≠ b := by
      rintro rfl
      have : s = [] := by simpa using hs'
      exact hs this
    omega
  · rintro ⟨h1, h2⟩
    obtain ⟨s, hs⟩ := hi.2 ⟨by omega, by omega⟩
    refine ⟨s, ?_, hs.symm⟩
    rintro rfl
    rw [List.append_nil] at hs
    have := congrArg (num d) hs
    rw [num_path hva, num_path hvb] at this
    omega

example : ∃ va vb, TimeVec.init .debug 9 4 = .ok va ∧ TimeVec.init .debug 12 4 = .ok vb ∧
    va.isPrefix vb = true := ⟨⟨9, [2]⟩, ⟨12, [2, 1, 2]⟩, by decide⟩

/-! ## C04 -/

/-- C04: gamma lists never fail and are well formed. -/
theorem C04_gamma_wf (pf : Profile) (d t : Nat) (hd : d ≤ 63) (tv : TimeVec)
    (h : TimeVec.init pf t d = .ok tv) :
    ∃ l, tv.gammaList pf d = .ok (tv :: l) ∧
      (tv :: l).Pairwise (fun a b => a.time < b.time) ∧
      (∀ e ∈ l, TimeVec.init pf e.time d = .ok e) ∧
      (∀ s, (∃ e ∈ l, e.vec = s) ↔ RightSiblingOnPath tv.vec s) ∧
      (tv :: l).length ≤ d := by
  obtain ⟨hv, rfl⟩ := (init_eq_ok hd).1 h
  have hn := path_isNode hv
  have hg := gammaList_eq (pf := pf) hd hn
  have htv : tvOf d (path d t) = { time := t, vec := path d t } := by
    simp [tvOf, num_path hv]
  rw [htv] at hg
  refine ⟨(sibs (path d t)).map (tvOf d), ?_, ?_, ?_, ?_, ?_⟩
  · rw [hg]; simp [gam, htv]
  · have hs := gam_sorted hn
    rw [show ({ time := t, vec := path d t } : TimeVec) :: (sibs (path d t)).map (tvOf d)
      = (gam (path d t)).map (tvOf d) by simp [gam, htv], List.pairwise_map]
    exact hs
  · intro e he
    obtain ⟨s, hs, rfl⟩ := List.mem_map.1 he
    exact init_num hd (sibs_isNode hn hs)
  · intro s
    rw [← mem_sibs]
    constructor
    · rintro ⟨e, he, rfl⟩
      obtain ⟨s, hs, rfl⟩ := List.mem_map.1 he
      exact hs
    · intro hs
      exact ⟨tvOf d s, List.mem_map.2 ⟨s, hs, rfl⟩, rfl⟩
  · have h1 := sibs_length_le (path d t)
    have h2 := hn.1
    simp; omega

/-- concrete case: the documented example `[1,1,1]` at depth 4 -/
example : ∃ tv, TimeVec.init .debug 4 4 = .ok tv ∧ (tv.gammaList .debug 4) =
    .ok [⟨4, [1, 1, 1]⟩, ⟨5, [1, 1, 2]⟩, ⟨6, [1, 2]⟩, ⟨9, [2]⟩] :=
  ⟨⟨4, [1, 1, 1]⟩, by decide⟩

/-! ## C05 -/

/-- C05: a time stamp `u` is the same as or below an entry of the gamma list of `t` exactly when
`u ≥ t`. -/
theorem C05_gamma_covers_future (pf : Profile) (d t u : Nat) (hd : d ≤ 63) (tv uv : TimeVec)
    (l : List TimeVec)
    (ht : TimeVec.init pf t d = .ok tv) (hu : TimeVec.init pf u d = .ok uv)
    (hl : tv.gammaList pf d = .ok l) :
    (∃ g ∈ l, g = uv ∨ g.isPrefix uv = true) ↔ t ≤ u := by
  obtain ⟨hv, rfl⟩ := (init_eq_ok hd).1 ht
  obtain ⟨hv', rfl⟩ := (init_eq_ok hd).1 hu
  have hg := gammaList_eq (pf := pf) hd (path_isNode hv)
  have htv : tvOf d (path d t) = { time := t, vec := path d t } := by simp [tvOf, num_path hv]
  have huv : tvOf d (path d u) = { time := u, vec := path d u } := by simp [tvOf, num_path hv']
  rw [htv, hl] at hg
  cases hg
  have hc := gam_cover (path_isNode hv) (path_isNode hv')
  rw [num_path hv, num_path hv'] at hc
  rw [hc, ← huv]
  constructor
  · rintro ⟨g, hg, h⟩
    obtain ⟨s, hs, rfl⟩ := List.mem_map.1 hg
    refine ⟨s, hs, ?_⟩
    rcases h with h | h
    · rw [tvOf_inj h]; exact List.prefix_refl _
    · obtain ⟨w, _, hw⟩ := (isPrefix_tvOf (path_isNode hv')).1 h
      exact ⟨w, hw.symm⟩
  · rintro ⟨g, hg, w, hw⟩
    refine ⟨tvOf d g, List.mem_map.2 ⟨g, hg, rfl⟩, ?_⟩
    cases w with
    | nil => left; rw [← hw, List.append_nil]
    | cons x w => right; exact (isPrefix_tvOf (path_isNode hv')).2 ⟨x :: w, by simp, hw.symm⟩

/-- C05: … and then below exactly one entry. -/
theorem C05_gamma_unique (pf : Profile) (d t u : Nat) (hd : d ≤ 63) (tv uv : TimeVec)
    (l : List TimeVec)
    (ht : TimeVec.init pf t d = .ok tv) (hu : TimeVec.init pf u d = .ok uv)
    (hl : tv.gammaList pf d = .ok l) (g g' : TimeVec) (hg : g ∈ l) (hg' : g' ∈ l)
    (h : g = uv ∨ g.isPrefix uv = true) (h' : g' = uv ∨ g'.isPrefix uv = true) : g = g' := by
  obtain ⟨hv, rfl⟩ := (init_eq_ok hd).1 ht
  obtain ⟨hv', rfl⟩ := (init_eq_ok hd).1 hu
  have hgl := gammaList_eq (pf := pf) hd (path_isNode hv)
  have htv : tvOf d (path d t) = { time := t, vec := path d t } := by simp [tvOf, num_path hv]
  have huv : tvOf d (path d u) = { time := u, vec := path d u } := by simp [tvOf, num_path hv']
  rw [htv, hl] at hgl
  cases hgl
  rw [← huv] at h h'
  obtain ⟨s, hs, rfl⟩ := List.mem_map.1 hg
  obtain ⟨s', hs', rfl⟩ := List.mem_map.1 hg'
  have aux : ∀ k, (tvOf d k = tvOf d (path d u) ∨ (tvOf d k).isPrefix (tvOf d (path d u)) = true) →
      k <+: path d u := by
    intro k hk
    rcases hk with hk | hk
    · rw [tvOf_inj hk]; exact List.prefix_refl _
    · obtain ⟨w, _, hw⟩ := (isPrefix_tvOf (path_isNode hv')).1 hk
      exact ⟨w, hw.symm⟩
  rw [gam_unique (path_isNode hv) (path_isNode hv') hs hs' (aux s h) (aux s' h')]

example : ∃ tv uv l, TimeVec.init .debug 3 4 = .ok tv ∧ TimeVec.init .debug 12 4 = .ok uv ∧
    tv.gammaList .debug 4 = .ok l ∧ ∃ g ∈ l, g.isPrefix uv = true :=
  ⟨⟨3, [1, 1]⟩, ⟨12, [2, 1, 2]⟩, [⟨3, [1, 1]⟩, ⟨6, [1, 2]⟩, ⟨9, [2]⟩], by decide⟩

/-! ## C06 -/

/-- C06: with overflow checks, a depth of 64 or more makes every call panic. -/
theorem C06_debug_panics (d t : Nat) (hd : 64 ≤ d) :
    TimeVec.init .debug t d = .panic .overflow := by
  obtain ⟨d', rfl⟩ : ∃ d', d = d' + 1 := ⟨d - 1, by omega⟩
  unfold TimeVec.init timeToVec shl1
  simp only
  rw [if_neg (by omega)]
  rfl

/-- C06: without overflow checks, depth 64 rejects every time stamp but 1, although all of
`2..2^64-1` are stamps of a tree of depth 64. -/
theorem C06_release_depth64 (t : Nat) (h2 : 2 ≤ t) (ht : t ≤ 2 ^ 64 - 1) :
    ValidTime 64 t ∧ TimeVec.init .release t 64 = .err .timeStamp := by
  refine ⟨⟨by omega, ht⟩, ?_⟩
  unfold TimeVec.init timeToVec shl1
  simp only [Res.ok_bind]
  rw [if_pos (Or.inl (by norm_num; omega))]
  rfl

/-- C06: at depth 65 a release build silently returns a *wrong* node: stamp 2 is the left child of
the root, the code answers the right child. -/
theorem C06_release_depth65_wrong :
    TimeVec.init .release 2 65 = .ok ⟨2, [2]⟩ ∧ NodeAt 65 2 [1] ∧ ¬ NodeAt 65 2 [2] := by
  have hn : NodeAt 65 2 [1] := by
    have := nodeAt_num (d := 65) (v := [1]) ⟨by simp, by simp⟩
    simpa using this
  refine ⟨by decide, hn, fun h => ?_⟩
  have := (nodeAt_iff.1 h).2.trans (nodeAt_iff.1 hn).2.symm
  simp at this

/-- C06: so the documented claim "every depth `d ≥ 1`, every stamp in range is accepted" is false of
the code, in either profile. -/
theorem C06_documented_range_false (pf : Profile) :
    ¬ ∀ d t, 1 ≤ d → ValidTime d t → (TimeVec.init pf t d).isOk = true := by
  intro h
  have hv : ValidTime 64 2 := ⟨by omega, by omega⟩
  have := h 64 2 (by omega) hv
  cases pf with
  | debug => rw [C06_debug_panics 64 2 (le_refl _)] at this; simp at this
  | release =>
    rw [(C06_release_depth64 2 (le_refl _) (by omega)).2] at this; simp at this

end Pixel.Props
