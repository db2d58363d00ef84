import Verif.Model.Time
import Verif.Spec.Tree
import Mathlib.Tactic.Ring
import Mathlib.Tactic.Linarith

/-! # Helper lemmas about time stamps, paths and gamma lists -/

namespace Pixel

open Spec

/-- pre-order number of a path (helper; the specification is `Spec.NodeAt`) -/
def num : Nat → List Nat → Nat
  | _, [] => 1
  | 0, _ :: _ => 0
  | d + 1, x :: w => if x = 1 then 1 + num d w else 2 ^ d + num d w

@[simp] theorem num_nil (d : Nat) : num d [] = 1 := by cases d <;> rfl
@[simp] theorem num_one (d : Nat) (w : List Nat) : num (d + 1) (1 :: w) = 1 + num d w := by
  simp [num]
@[simp] theorem num_two (d : Nat) (w : List Nat) : num (d + 1) (2 :: w) = 2 ^ d + num d w := by
  simp [num]

/-- path of a pre-order number (helper) -/
def path : Nat → Nat → List Nat
  | 0, _ => []
  | d + 1, t => if t ≤ 1 then [] else if t > 2 ^ d then 2 :: path d (t - 2 ^ d)
                else 1 :: path d (t - 1)

theorem isNode_nil {d : Nat} : IsNode d [] ↔ 0 < d := by simp [IsNode]

theorem isNode_cons {d x : Nat} {w : List Nat} :
    IsNode (d + 1) (x :: w) ↔ (x = 1 ∨ x = 2) ∧ IsNode d w := by
  simp only [IsNode, List.length_cons, List.mem_cons, forall_eq_or_imp]
  constructor
  · rintro ⟨h, h1, h2⟩; exact ⟨h1, by omega, h2⟩
  · rintro ⟨h1, h, h2⟩; exact ⟨by omega, h1, h2⟩

theorem isNode_cons_pos {d x : Nat} {w : List Nat} (h : IsNode d (x :: w)) :
    ∃ d', d = d' + 1 ∧ (x = 1 ∨ x = 2) ∧ IsNode d' w := by
  cases d with
  | zero => exact absurd h.1 (by simp)
  | succ d => exact ⟨d, rfl, isNode_cons.1 h⟩

theorem isNode_pos {d : Nat} {v : List Nat} (h : IsNode d v) : 0 < d := by
  have := h.1; omega

theorem exists_succ_of_isNode {d : Nat} {v : List Nat} (h : IsNode d v) : ∃ d', d = d' + 1 :=
  ⟨d - 1, by have := h.1; omega⟩

theorem num_bounds {d : Nat} {v : List Nat} (h : IsNode d v) : 1 ≤ num d v ∧ num d v ≤ 2 ^ d - 1 := by
  induction v generalizing d with
  | nil =>
    have hd := isNode_pos h
    have : 2 ^ 1 ≤ 2 ^ d := Nat.pow_le_pow_right (by omega) hd
    simp; omega
  | cons x w ih =>
    obtain ⟨d', rfl, hx, hw⟩ := isNode_cons_pos h
    have := ih hw
    have hp : 2 ^ (d' + 1) = 2 * 2 ^ d' := by rw [pow_succ]; ring
    have hp1 : 1 ≤ 2 ^ d' := Nat.one_le_two_pow
    rcases hx with rfl | rfl
    · simp; omega
    · simp; omega

theorem num_pos {d : Nat} {v : List Nat} (h : IsNode d v) : 1 ≤ num d v := (num_bounds h).1

theorem path_isNode {d t : Nat} (h : ValidTime d t) : IsNode d (path d t) := by
  induction d generalizing t with
  | zero => simp [ValidTime] at h; omega
  | succ d ih =>
    unfold ValidTime at h
    have hp : 2 ^ (d + 1) = 2 * 2 ^ d := by rw [pow_succ]; ring
    unfold path
    split
    · exact isNode_nil.2 (by omega)
    · split
      · exact isNode_cons.2 ⟨Or.inr rfl, ih ⟨by omega, by omega⟩⟩
      · exact isNode_cons.2 ⟨Or.inl rfl, ih ⟨by omega, by omega⟩⟩

theorem num_path {d t : Nat} (h : ValidTime d t) : num d (path d t) = t := by
  induction d generalizing t with
  | zero => simp [ValidTime] at h; omega
  | succ d ih =>
    unfold ValidTime at h
    have hp : 2 ^ (d + 1) = 2 * 2 ^ d := by rw [pow_succ]; ring
    unfold path
    split
    · simp; omega
    · split
      · rw [num_two, ih ⟨by omega, by omega⟩]; omega
      · rw [num_one, ih ⟨by omega, by omega⟩]; omega

theorem path_num {d : Nat} {v : List Nat} (h : IsNode d v) : path d (num d v) = v := by
  induction v generalizing d with
  | nil =>
    obtain ⟨d', rfl⟩ : ∃ d', d = d' + 1 := exists_succ_of_isNode h
    simp [path]
  | cons x w ih =>
    obtain ⟨d', rfl, hx, hw⟩ := isNode_cons_pos h
    have hb := num_bounds hw
    have hp1 : 1 ≤ 2 ^ d' := Nat.one_le_two_pow
    rcases hx with rfl | rfl
    · rw [num_one, path, if_neg (by omega), if_neg (by omega)]
      rw [show 1 + num d' w - 1 = num d' w by omega, ih hw]
    · rw [num_two, path, if_neg (by omega), if_pos (by omega)]
      rw [show 2 ^ d' + num d' w - 2 ^ d' = num d' w by omega, ih hw]

theorem num_inj {d : Nat} {v w : List Nat} (hv : IsNode d v) (hw : IsNode d w)
    (h : num d v = num d w) : v = w := by
  rw [← path_num hv, ← path_num hw, h]

theorem valid_num {d : Nat} {v : List Nat} (h : IsNode d v) : ValidTime d (num d v) := num_bounds h

/-! ### relation to the pre-order listing -/

theorem length_preorder (d : Nat) : (preorder d).length = 2 ^ d - 1 := by
  induction d with
  | zero => rfl
  | succ d ih =>
    simp only [preorder, List.length_cons, List.length_append, List.length_map, ih]
    have : 1 ≤ 2 ^ d := Nat.one_le_two_pow
    rw [pow_succ]; omega

theorem preorder_num {d : Nat} {v : List Nat} (h : IsNode d v) :
    (preorder d)[num d v - 1]? = some v := by
  induction v generalizing d with
  | nil =>
    obtain ⟨d', rfl⟩ : ∃ d', d = d' + 1 := exists_succ_of_isNode h
    simp [preorder]
  | cons x w ih =>
    obtain ⟨d', rfl, hx, hw⟩ := isNode_cons_pos h
    have hb := num_bounds hw
    have hl := length_preorder d'
    have hi := ih hw
    rcases hx with rfl | rfl
    · rw [num_one, show 1 + num d' w - 1 = (num d' w - 1) + 1 by omega]
      simp only [preorder, List.getElem?_cons_succ]
      rw [List.getElem?_append_left (by rw [List.length_map]; omega)]
      simp [hi]
    · have hp1 : 1 ≤ 2 ^ d' := Nat.one_le_two_pow
      rw [num_two, show 2 ^ d' + num d' w - 1 = (2 ^ d' - 1 + (num d' w - 1)) + 1 by omega]
      simp only [preorder, List.getElem?_cons_succ]
      rw [List.getElem?_append_right (by rw [List.length_map]; omega)]
      rw [List.length_map, hl, show 2 ^ d' - 1 + (num d' w - 1) - (2 ^ d' - 1) = num d' w - 1 by omega]
      simp [hi]

theorem nodeAt_iff {d t : Nat} {v : List Nat} :
    NodeAt d t v ↔ ValidTime d t ∧ v = path d t := by
  constructor
  · rintro ⟨h1, h2⟩
    have hlt : t - 1 < (preorder d).length := by
      rw [List.getElem?_eq_some_iff] at h2; exact h2.1
    rw [length_preorder] at hlt
    have hv : ValidTime d t := ⟨h1, by omega⟩
    refine ⟨hv, ?_⟩
    have := preorder_num (path_isNode hv)
    rw [num_path hv] at this
    rw [this] at h2
    exact (Option.some.inj h2).symm
  · rintro ⟨hv, rfl⟩
    refine ⟨hv.1, ?_⟩
    have := preorder_num (path_isNode hv)
    rwa [num_path hv] at this

theorem nodeAt_num {d : Nat} {v : List Nat} (h : IsNode d v) : NodeAt d (num d v) v :=
  nodeAt_iff.2 ⟨valid_num h, (path_num h).symm⟩

theorem nodeAt_isNode {d t : Nat} {v : List Nat} (h : NodeAt d t v) : IsNode d v := by
  obtain ⟨hv, rfl⟩ := nodeAt_iff.1 h
  exact path_isNode hv

theorem nodeAt_num_eq {d t : Nat} {v : List Nat} (h : NodeAt d t v) : num d v = t := by
  obtain ⟨hv, rfl⟩ := nodeAt_iff.1 h
  exact num_path hv

theorem mem_preorder {d : Nat} {v : List Nat} : v ∈ preorder d ↔ IsNode d v := by
  constructor
  · intro h
    obtain ⟨i, hi⟩ := List.getElem?_of_mem h
    exact nodeAt_isNode (t := i + 1) ⟨by omega, by simpa using hi⟩
  · intro h
    exact List.mem_of_getElem? (preorder_num h)

/-! ### the code's conversions -/

theorem timeToVec_valid {pf : Profile} {d t : Nat} (hd : d ≤ 63) (h : ValidTime d t) :
    timeToVec pf t d = .ok (path d t) := by
  induction d generalizing t with
  | zero => simp [ValidTime] at h; omega
  | succ d ih =>
    unfold ValidTime at h
    have hp : 2 ^ (d + 1) = 2 * 2 ^ d := by rw [pow_succ]; ring
    have hp1 : 1 ≤ 2 ^ d := Nat.one_le_two_pow
    rw [timeToVec, shl1_lt (by omega), shl1_lt (by omega)]
    simp only [Res.ok_bind]
    rw [if_neg (by omega), path]
    by_cases h1 : t = 1
    · rw [if_pos h1, if_pos (by omega)]
    · have h3 : ¬ t ≤ 1 := by omega
      rw [if_neg h1, if_neg h3]
      by_cases h2 : t > 2 ^ d
      · rw [if_pos h2, if_pos h2, ih (by omega) ⟨by omega, by omega⟩]; rfl
      · rw [if_neg h2, if_neg h2, ih (by omega) ⟨by omega, by omega⟩]; rfl

theorem timeToVec_max {pf : Profile} {d : Nat} (hd : d ≤ 63) :
    timeToVec pf (2 ^ d) d = .err .timeDepth := by
  induction d with
  | zero => rfl
  | succ d ih =>
    have hp : 2 ^ (d + 1) = 2 * 2 ^ d := by rw [pow_succ]; ring
    have hp1 : 1 ≤ 2 ^ d := Nat.one_le_two_pow
    rw [timeToVec, shl1_lt (by omega), shl1_lt (by omega)]
    simp only [Res.ok_bind]
    rw [if_neg (by omega), if_neg (by omega), if_pos (by omega),
      show 2 ^ (d + 1) - 2 ^ d = 2 ^ d by omega, ih (by omega)]
    rfl

theorem init_valid {pf : Profile} {d t : Nat} (hd : d ≤ 63) (h : ValidTime d t) :
    TimeVec.init pf t d = .ok { time := t, vec := path d t } := by
  rw [TimeVec.init, timeToVec_valid hd h]; rfl

theorem init_zero {pf : Profile} {t : Nat} : TimeVec.init pf t 0 = .err .timeDepth := rfl

theorem init_bad {pf : Profile} {d t : Nat} (hd0 : 0 < d) (hd : d ≤ 63) (h : t = 0 ∨ 2 ^ d < t) :
    TimeVec.init pf t d = .err .timeStamp := by
  obtain ⟨d', rfl⟩ : ∃ d', d = d' + 1 := ⟨d - 1, by omega⟩
  rw [TimeVec.init, timeToVec, shl1_lt (by omega)]
  simp only [Res.ok_bind]
  rw [if_pos (by omega)]; rfl

theorem init_max {pf : Profile} {d : Nat} (hd : d ≤ 63) :
    TimeVec.init pf (2 ^ d) d = .err .timeDepth := by
  rw [TimeVec.init, timeToVec_max hd]; rfl

theorem init_eq_ok {pf : Profile} {d t : Nat} {tv : TimeVec} (hd : d ≤ 63) :
    TimeVec.init pf t d = .ok tv ↔ ValidTime d t ∧ tv = { time := t, vec := path d t } := by
  constructor
  · intro h
    by_cases hv : ValidTime d t
    · rw [init_valid hd hv] at h; exact ⟨hv, (Res.ok.inj h).symm⟩
    · rcases Nat.eq_zero_or_pos d with rfl | hd0
      · simp [init_zero] at h
      · by_cases h2 : t = 2 ^ d
        · subst h2; simp [init_max hd] at h
        · rw [init_bad hd0 hd] at h
          · simp at h
          · unfold ValidTime at hv
            have : 1 ≤ 2 ^ d := Nat.one_le_two_pow
            omega
  · rintro ⟨hv, rfl⟩; exact init_valid hd hv

/-- `TimeVec::init` never panics for depth at most 63 -/
theorem init_cases {pf : Profile} {d t : Nat} (hd : d ≤ 63) :
    (ValidTime d t ∧ TimeVec.init pf t d = .ok { time := t, vec := path d t }) ∨
    (¬ ValidTime d t ∧ ∃ e, TimeVec.init pf t d = .err e) := by
  by_cases hv : ValidTime d t
  · exact Or.inl ⟨hv, init_valid hd hv⟩
  · refine Or.inr ⟨hv, ?_⟩
    rcases Nat.eq_zero_or_pos d with rfl | hd0
    · exact ⟨_, init_zero⟩
    · by_cases h2 : t = 2 ^ d
      · subst h2; exact ⟨_, init_max hd⟩
      · refine ⟨_, init_bad hd0 hd ?_⟩
        unfold ValidTime at hv
        have : 1 ≤ 2 ^ d := Nat.one_le_two_pow
        omega

theorem vecToTime_valid {pf : Profile} {d : Nat} {v : List Nat} (hd : d ≤ 63) (h : IsNode d v) :
    vecToTime pf v d = .ok (num d v) := by
  induction v generalizing d with
  | nil =>
    obtain ⟨d', rfl⟩ : ∃ d', d = d' + 1 := exists_succ_of_isNode h
    simp [vecToTime]
  | cons x w ih =>
    obtain ⟨d', rfl, hx, hw⟩ := isNode_cons_pos h
    have hb := num_bounds hw
    have hp1 : 1 ≤ 2 ^ d' := Nat.one_le_two_pow
    have hp2 : 2 ^ d' ≤ 2 ^ 62 := Nat.pow_le_pow_right (by omega) (by omega)
    have hx2 : x - 1 = 0 ∨ x - 1 = 1 := by omega
    rw [vecToTime, sub64_le (by omega) (by omega), shl1_lt (by omega)]
    simp only [Res.ok_bind]
    rw [sub64_le hp1 (by omega)]
    simp only [Res.ok_bind]
    have hm : (x - 1) * (2 ^ d' - 1) ≤ 2 ^ d' - 1 := by
      rcases hx2 with h | h <;> rw [h] <;> omega
    rw [mul64_lt (by omega)]
    simp only [Res.ok_bind]
    rw [add64_lt (by omega), ih (by omega) hw]
    simp only [Res.ok_bind]
    rw [add64_lt (by omega)]
    rcases hx with rfl | rfl
    · simp
    · simp only [num_two]
      congr 1
      omega

/-! ### ancestors and intervals -/

theorem isNode_append {d : Nat} {v s : List Nat} :
    IsNode d (v ++ s) ↔ IsNode d v ∧ IsNode (d - v.length) s := by
  unfold IsNode
  simp only [List.length_append, List.mem_append]
  constructor
  · rintro ⟨h1, h2⟩
    exact ⟨⟨by omega, fun x hx => h2 x (Or.inl hx)⟩, by omega, fun x hx => h2 x (Or.inr hx)⟩
  · rintro ⟨⟨h1, h2⟩, h3, h4⟩
    exact ⟨by omega, fun x hx => hx.elim (h2 x) (h4 x)⟩

theorem num_append {d : Nat} {v s : List Nat} (h : IsNode d (v ++ s)) :
    num d (v ++ s) + 1 = num d v + num (d - v.length) s := by
  induction v generalizing d with
  | nil => simp; omega
  | cons x w ih =>
    obtain ⟨d', rfl, hx, hw⟩ := isNode_cons_pos (by simpa using h : IsNode d (x :: (w ++ s)))
    have := ih hw
    rcases hx with rfl | rfl
    · simp only [List.cons_append, num_one, List.length_cons, Nat.add_sub_add_right]; omega
    · simp only [List.cons_append, num_two, List.length_cons, Nat.add_sub_add_right]; omega

theorem ancestor_interval {d : Nat} {v w : List Nat} (hv : IsNode d v) (hw : IsNode d w) :
    v <+: w ↔ num d v ≤ num d w ∧ num d w + 2 ≤ num d v + 2 ^ (d - v.length) := by
  constructor
  · rintro ⟨s, rfl⟩
    have h2 := (isNode_append.1 hw).2
    have hb := num_bounds h2
    have := num_append hw
    omega
  · rintro ⟨h1, h2⟩
    have hval : ValidTime (d - v.length) (num d w - num d v + 1) := by
      constructor <;> omega
    have hs := path_isNode hval
    have hvs : IsNode d (v ++ path (d - v.length) (num d w - num d v + 1)) :=
      isNode_append.2 ⟨hv, hs⟩
    refine ⟨_, num_inj hvs hw ?_⟩
    have := num_append hvs
    rw [num_path hval] at this
    omega

/-- proper ancestors have smaller numbers -/
theorem num_lt_of_append {d : Nat} {v s : List Nat} (h : IsNode d (v ++ s)) (hs : s ≠ []) :
    num d v < num d (v ++ s) := by
  have h1 := num_append h
  have h2 := (isNode_append.1 h).2
  have : 2 ≤ num (d - v.length) s := by
    obtain ⟨x, s', rfl⟩ := List.exists_cons_of_ne_nil hs
    obtain ⟨d', hd', hx, hw⟩ := isNode_cons_pos h2
    rw [hd']
    have := num_pos hw
    have hp1 : 1 ≤ 2 ^ d' := Nat.one_le_two_pow
    rcases hx with rfl | rfl <;> simp <;> omega
  omega

/-! ### gamma lists -/

/-- right siblings along a path, deepest first (helper) -/
def sibs : List Nat → List (List Nat)
  | [] => []
  | x :: w => if x = 1 then (sibs w).map (1 :: ·) ++ [[2]] else (sibs w).map (x :: ·)

@[simp] theorem sibs_nil : sibs [] = [] := rfl
@[simp] theorem sibs_one (w : List Nat) : sibs (1 :: w) = (sibs w).map (1 :: ·) ++ [[2]] := by
  simp [sibs]
@[simp] theorem sibs_two (w : List Nat) : sibs (2 :: w) = (sibs w).map (2 :: ·) := by
  simp [sibs]

theorem sibs_append (g w : List Nat) : sibs (g ++ w) = (sibs w).map (g ++ ·) ++ sibs g := by
  induction g with
  | nil => simp
  | cons x g ih =>
    simp only [List.cons_append, sibs, ih]
    split
    · next h => subst h; simp [List.map_append, List.map_map, Function.comp_def]
    · simp [List.map_append, List.map_map, Function.comp_def]

theorem sibs_snoc_one (u : List Nat) : sibs (u ++ [1]) = (u ++ [2]) :: sibs u := by
  rw [sibs_append]; simp

theorem sibs_snoc_two (u : List Nat) : sibs (u ++ [2]) = sibs u := by
  rw [sibs_append]; simp

theorem mem_sibs {v s : List Nat} : s ∈ sibs v ↔ RightSiblingOnPath v s := by
  induction v generalizing s with
  | nil => simp [RightSiblingOnPath]
  | cons x w ih =>
    simp only [RightSiblingOnPath] at ih ⊢
    constructor
    · intro h
      by_cases hx : x = 1
      · subst hx
        rw [sibs_one, List.mem_append, List.mem_map] at h
        rcases h with ⟨a, ha, rfl⟩ | h
        · obtain ⟨u, w', h1, h2⟩ := ih.1 ha
          exact ⟨1 :: u, w', by simp [h1], by simp [h2]⟩
        · simp at h; exact ⟨[], w, rfl, by simp [h]⟩
      · rw [sibs, if_neg hx, List.mem_map] at h
        obtain ⟨a, ha, rfl⟩ := h
        obtain ⟨u, w', h1, h2⟩ := ih.1 ha
        exact ⟨x :: u, w', by simp [h1], by simp [h2]⟩
    · rintro ⟨u, w', h1, h2⟩
      cases u with
      | nil =>
        simp at h1 h2
        obtain ⟨rfl, rfl⟩ := h1
        subst h2; simp
      | cons y u =>
        simp at h1 h2
        obtain ⟨rfl, h1⟩ := h1
        have : u ++ [2] ∈ sibs w := ih.2 ⟨u, w', h1, rfl⟩
        subst h2
        unfold sibs
        split
        · simp_all
        · simp [this]

theorem sibs_isNode {d : Nat} {v s : List Nat} (h : IsNode d v) (hs : s ∈ sibs v) : IsNode d s := by
  obtain ⟨u, w, rfl, rfl⟩ := mem_sibs.1 hs
  obtain ⟨h1, h2⟩ := h
  constructor
  · simp at h1 ⊢; omega
  · intro x hx
    simp only [List.mem_append, List.mem_singleton] at hx
    rcases hx with hx | hx
    · exact h2 x (by simp [hx])
    · exact Or.inr hx

theorem sibs_length_le (v : List Nat) : (sibs v).length ≤ v.length := by
  induction v with
  | nil => simp
  | cons x w ih =>
    unfold sibs
    split
    · simp [ih]
    · simp; omega

/-- the node list of the gamma list -/
def gam (v : List Nat) : List (List Nat) := v :: sibs v

theorem gam_isNode {d : Nat} {v s : List Nat} (h : IsNode d v) (hs : s ∈ gam v) : IsNode d s := by
  rcases List.mem_cons.1 hs with rfl | hs
  · exact h
  · exact sibs_isNode h hs

theorem gam_num_lt {d : Nat} {v s : List Nat} (h : IsNode d v) (hs : s ∈ sibs v) :
    num d v < num d s := by
  induction v generalizing d s with
  | nil => simp at hs
  | cons x w ih =>
    obtain ⟨d', rfl, hx, hw⟩ := isNode_cons_pos h
    rcases hx with rfl | rfl
    · rw [sibs_one, List.mem_append, List.mem_map] at hs
      rcases hs with ⟨a, ha, rfl⟩ | hs
      · have := ih hw ha; simp; omega
      · simp at hs; subst hs
        have := num_bounds hw
        have hp1 : 1 ≤ 2 ^ d' := Nat.one_le_two_pow
        simp; omega
    · rw [sibs_two, List.mem_map] at hs
      obtain ⟨a, ha, rfl⟩ := hs
      have := ih hw ha; simp; omega

theorem gam_sorted {d : Nat} {v : List Nat} (h : IsNode d v) :
    (gam v).Pairwise (fun a b => num d a < num d b) := by
  unfold gam
  rw [List.pairwise_cons]
  refine ⟨fun s hs => gam_num_lt h hs, ?_⟩
  induction v generalizing d with
  | nil => simp
  | cons x w ih =>
    obtain ⟨d', rfl, hx, hw⟩ := isNode_cons_pos h
    rcases hx with rfl | rfl
    · rw [sibs_one, List.pairwise_append]
      refine ⟨?_, by simp, ?_⟩
      · rw [List.pairwise_map]
        exact (ih hw).imp (by intro a b hab; simp; omega)
      · intro a ha b hb
        rw [List.mem_map] at ha
        obtain ⟨a', ha', rfl⟩ := ha
        simp at hb; subst hb
        have := num_bounds (sibs_isNode hw ha')
        have hp1 : 1 ≤ 2 ^ d' := Nat.one_le_two_pow
        simp; omega
    · rw [sibs_two, List.pairwise_map]
      exact (ih hw).imp (by intro a b hab; simp; omega)

theorem gam_cover {d : Nat} {v w : List Nat} (hv : IsNode d v) (hw : IsNode d w) :
    num d v ≤ num d w ↔ ∃ g ∈ gam v, g <+: w := by
  induction v generalizing d w with
  | nil =>
    have := num_pos hw
    simp [gam]; omega
  | cons x v ih =>
    obtain ⟨d', rfl, hx, hv'⟩ := isNode_cons_pos hv
    have hbv := num_bounds hv'
    have hp1 : 1 ≤ 2 ^ d' := Nat.one_le_two_pow
    cases w with
    | nil =>
      constructor
      · intro h; exfalso
        rcases hx with rfl | rfl <;> simp at h <;> omega
      · rintro ⟨g, hg, hgw⟩
        have : g = [] := by simpa using hgw
        subst this
        exfalso
        rcases hx with rfl | rfl
        · simp [gam] at hg
        · simp [gam] at hg
    | cons y w =>
      obtain ⟨hy, hw'⟩ := isNode_cons.1 hw
      have hbw := num_bounds hw'
      have ih' := ih hv' hw'
      rcases hx with rfl | rfl <;> rcases hy with rfl | rfl
      · simp only [num_one, Nat.add_le_add_iff_left, ih']
        simp [gam]
      · simp only [num_one, num_two]
        constructor
        · intro _; exact ⟨[2], by simp [gam], by simp⟩
        · intro _; omega
      · simp only [num_one, num_two]
        constructor
        · intro h; omega
        · rintro ⟨g, hg, hgw⟩
          simp [gam] at hg
          rcases hg with rfl | ⟨a, _, rfl⟩ <;> simp at hgw
      · simp only [num_two, Nat.add_le_add_iff_left, ih']
        simp [gam]

/-- entries of a gamma list are pairwise incomparable, so a node lies below at most one -/
theorem gam_unique {d : Nat} {v w g g' : List Nat} (hv : IsNode d v) (hw : IsNode d w)
    (hg : g ∈ gam v) (hg' : g' ∈ gam v) (h : g <+: w) (h' : g' <+: w) : g = g' := by
  induction v generalizing d w g g' with
  | nil => simp [gam] at hg hg'; simp [hg, hg']
  | cons x v ih =>
    obtain ⟨d', rfl, hx, hv'⟩ := isNode_cons_pos hv
    cases w with
    | nil =>
      have h1 : g = [] := by simpa using h
      have h2 : g' = [] := by simpa using h'
      rw [h1, h2]
    | cons y w =>
      obtain ⟨hy, hw'⟩ := isNode_cons.1 hw
      rcases hx with rfl | rfl
      · simp only [gam, sibs_one, List.mem_cons, List.mem_append, List.mem_map, List.not_mem_nil,
          or_false] at hg hg'
        have key : ∀ k, (k = 1 :: v ∨ (∃ a ∈ sibs v, 1 :: a = k) ∨ k = [2]) → k <+: y :: w →
            (∃ a, k = 1 :: a ∧ a ∈ gam v ∧ y = 1 ∧ a <+: w) ∨ (k = [2] ∧ y = 2) := by
          intro k hk hkw
          rcases hk with rfl | ⟨a, ha, rfl⟩ | rfl
          · rw [List.cons_prefix_cons] at hkw
            exact Or.inl ⟨v, rfl, by simp [gam], hkw.1.symm, hkw.2⟩
          · rw [List.cons_prefix_cons] at hkw
            exact Or.inl ⟨a, rfl, by simp [gam, ha], hkw.1.symm, hkw.2⟩
          · rw [List.cons_prefix_cons] at hkw
            exact Or.inr ⟨rfl, hkw.1.symm⟩
        rcases key g hg h with ⟨a, rfl, ha, hy1, haw⟩ | ⟨rfl, hy1⟩ <;>
          rcases key g' hg' h' with ⟨b, rfl, hb, hy2, hbw⟩ | ⟨rfl, hy2⟩
        · rw [ih hv' hw' ha hb haw hbw]
        · omega
        · omega
        · rfl
      · simp only [gam, sibs_two, List.mem_cons, List.mem_map] at hg hg'
        have key : ∀ k, (k = 2 :: v ∨ (∃ a ∈ sibs v, 2 :: a = k)) → k <+: y :: w →
            (∃ a, k = 2 :: a ∧ a ∈ gam v ∧ a <+: w) := by
          intro k hk hkw
          rcases hk with rfl | ⟨a, ha, rfl⟩
          · rw [List.cons_prefix_cons] at hkw
            exact ⟨v, rfl, by simp [gam], hkw.2⟩
          · rw [List.cons_prefix_cons] at hkw
            exact ⟨a, rfl, by simp [gam, ha], hkw.2⟩
        obtain ⟨a, rfl, ha, haw⟩ := key g hg h
        obtain ⟨b, rfl, hb, hbw⟩ := key g' hg' h'
        rw [ih hv' hw' ha hb haw hbw]

/-- if `g` is an entry of `gam v`, the entries after it are the siblings of `g` -/
theorem sibs_split {v g : List Nat} {A B : List (List Nat)} (h : sibs v = A ++ g :: B) :
    B = sibs g := by
  induction v generalizing A g B with
  | nil => simp at h
  | cons x v ih =>
    by_cases hx : x = 1
    · subst hx
      rw [sibs_one] at h
      rcases List.append_eq_append_iff.1 h with ⟨a', h1, h2⟩ | ⟨c', h1, h2⟩
      · -- A = map ++ a', [[2]] = a' ++ g :: B
        cases a' with
        | nil =>
          simp at h2
          obtain ⟨rfl, rfl⟩ := h2
          simp [sibs]
        | cons z a' => simp at h2
      · -- map = A ++ c', g :: B = c' ++ [[2]]
        cases c' with
        | nil =>
          simp at h2
          obtain ⟨rfl, rfl⟩ := h2
          simp [sibs]
        | cons z c' =>
          simp at h2
          obtain ⟨rfl, rfl⟩ := h2
          obtain ⟨l1, l2, h3, h4, h5⟩ := List.map_eq_append_iff.1 h1
          cases l2 with
          | nil => simp at h5
          | cons y l2 =>
            simp at h5
            obtain ⟨rfl, rfl⟩ := h5
            have := ih h3
            simp [this]
    · rw [sibs, if_neg hx] at h
      obtain ⟨l1, l2, h3, h4, h5⟩ := List.map_eq_append_iff.1 h
      cases l2 with
      | nil => simp at h5
      | cons y l2 =>
        simp at h5
        obtain ⟨rfl, rfl⟩ := h5
        have := ih h3
        simp [sibs, if_neg hx, this]

theorem gam_split {v g : List Nat} {A B : List (List Nat)} (h : gam v = A ++ g :: B) :
    B = sibs g := by
  cases A with
  | nil =>
    simp [gam] at h
    obtain ⟨rfl, rfl⟩ := h
    rfl
  | cons a A =>
    simp [gam] at h
    exact sibs_split h.2

/-- the time-vector for a node -/
def tvOf (d : Nat) (v : List Nat) : TimeVec := { time := num d v, vec := v }

theorem init_num {pf : Profile} {d : Nat} {v : List Nat} (hd : d ≤ 63) (h : IsNode d v) :
    TimeVec.init pf (num d v) d = .ok (tvOf d v) := by
  rw [init_valid hd (valid_num h), path_num h]; rfl

theorem gammaList_eq {pf : Profile} {d : Nat} {v : List Nat} (hd : d ≤ 63) (h : IsNode d v) :
    TimeVec.gammaList pf (tvOf d v) d = .ok ((gam v).map (tvOf d)) := by
  have key : ∀ i, i ≤ v.length →
      (List.range i).foldlM (TimeVec.gammaStep pf (tvOf d v) d) [tvOf d v] =
        .ok (tvOf d v :: (sibs (v.take i)).map (tvOf d)) := by
    intro i hi
    induction i with
    | zero => simp
    | succ i ih =>
      rw [List.range_succ, List.foldlM_append, ih (by omega)]
      simp only [Res.ok_bind, List.foldlM_cons, List.foldlM_nil]
      have hlt : i < v.length := by omega
      have htake : v.take (i + 1) = v.take i ++ [v[i]] := by
        rw [List.take_add_one]; simp [hlt]
      have hmem := h.2 v[i] (List.getElem_mem hlt)
      rw [htake, TimeVec.gammaStep]
      have : idx (tvOf d v).vec i = .ok v[i] := idx_lt hlt
      rw [this]
      simp only [Res.ok_bind]
      rcases hmem with h1 | h1
      · rw [h1, if_pos rfl, sibs_snoc_one]
        have hs : slice (tvOf d v).vec 0 i = .ok (v.take i) := by
          have h0 : 0 ≤ i ∧ i ≤ (tvOf d v).vec.length := ⟨Nat.zero_le _, hlt.le⟩
          unfold slice
          rw [if_pos h0]; simp [tvOf]
        rw [hs]
        simp only [Res.ok_bind]
        have hnode : IsNode d (v.take i ++ [2]) := by
          constructor
          · have := h.1; simp; omega
          · intro x hx
            simp only [List.mem_append, List.mem_singleton] at hx
            rcases hx with hx | hx
            · exact h.2 x (List.mem_of_mem_take hx)
            · exact Or.inr hx
        rw [vecToTime_valid hd hnode]
        simp only [Res.ok_bind]
        rw [vecInsert, if_pos (by simp)]
        simp [tvOf]
      · rw [h1, if_neg (by omega), sibs_snoc_two]; rfl
  have := key v.length (le_refl _)
  rw [List.take_length] at this
  exact this

theorem tvOf_inj {d : Nat} {v w : List Nat} (h : tvOf d v = tvOf d w) : v = w :=
  congrArg TimeVec.vec h

theorem isPrefix_tvOf {d : Nat} {v w : List Nat} (hw : IsNode d w) :
    (tvOf d v).isPrefix (tvOf d w) = true ↔ ∃ s, s ≠ [] ∧ w = v ++ s := by
  unfold TimeVec.isPrefix
  by_cases hge : (tvOf d v).time ≥ (tvOf d w).time
  · rw [if_pos hge]
    simp only [tvOf] at hge
    simp only [Bool.false_eq_true, false_iff, not_exists, not_and]
    rintro s hs rfl
    have := num_lt_of_append hw hs
    omega
  · rw [if_neg hge, List.isPrefixOf_iff_prefix]
    simp only [tvOf] at hge ⊢
    constructor
    · rintro ⟨s, rfl⟩
      refine ⟨s, ?_, rfl⟩
      rintro rfl
      simp at hge
    · rintro ⟨s, _, rfl⟩; exact ⟨s, rfl⟩

end Pixel
