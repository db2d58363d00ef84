import Verif.Proof.Forge
import Verif.Proof.History

/-!
# Linear forgers: strategies that do work, and the relation between two signed points
-/

namespace Pixel

open Spec

set_option linter.unusedSectionVars false

section Lin

variable {A : Type} [AddCommGroup A]

theorem lin_zero (l : List A) : lin (fun _ => 0) l = 0 := by
  induction l with
  | nil => rfl
  | cons a l ih => rw [lin, ih, ZMod.val_zero, zero_smul, add_zero]

theorem lin_single (j : Nat) (l : List A) :
    lin (fun i => if i = j then 1 else 0) l = l.getD j 0 := by
  induction l generalizing j with
  | nil => rfl
  | cons a l ih =>
    rw [lin]
    cases j with
    | zero =>
      have : (fun i : Nat => if i + 1 = 0 then (1 : Fr) else 0) = fun _ => 0 := by
        funext i; rw [if_neg (by omega)]
      rw [if_pos rfl, this, lin_zero, ZMod.val_one, one_smul, add_zero, List.getD_cons_zero]
    | succ j =>
      have : (fun i : Nat => if i + 1 = j + 1 then (1 : Fr) else 0) =
          fun i => if i = j then 1 else 0 := by
        funext i
        by_cases h : i = j
        · rw [if_pos h, if_pos (by omega)]
        · rw [if_neg h, if_neg (by omega)]
      rw [if_neg (by omega), this, ih, ZMod.val_zero, zero_smul, zero_add, List.getD_cons_succ]

theorem linVectors_zero (ls : List (List A)) : linVectors (fun _ _ => 0) ls = 0 := by
  induction ls with
  | nil => rfl
  | cons l ls ih => rw [linVectors, lin_zero, ih, add_zero]

theorem linVectors_single (j : Nat) (e : Nat → Fr) (ls : List (List A)) :
    linVectors (fun j' i => if j' = j then e i else 0) ls = lin e (ls.getD j []) := by
  induction ls generalizing j with
  | nil => rfl
  | cons l ls ih =>
    rw [linVectors]
    cases j with
    | zero =>
      have h1 : (fun (j' i : Nat) => if j' + 1 = 0 then e i else 0) = fun _ _ => 0 := by
        funext j' i; rw [if_neg (by omega)]
      rw [h1, linVectors_zero, add_zero, List.getD_cons_zero]
      congr 1
    | succ j =>
      have h1 : (fun (j' i : Nat) => if j' + 1 = j + 1 then e i else 0) =
          fun j' i => if j' = j then e i else 0 := by
        funext j' i
        by_cases h : j' = j
        · rw [if_pos h, if_pos (by omega)]
        · rw [if_neg h, if_neg (by omega)]
      have h2 : (fun i => if 0 = j + 1 then e i else 0) = fun _ => (0 : Fr) := by
        funext i; rw [if_neg (by omega)]
      rw [h1, h2, ih, lin_zero, zero_add, List.getD_cons_succ]

/-- the coefficients that turn the `hvector` of an ancestor into what is missing in `F(w, M)` -/
def tailCoef (k : Nat) (u : List Nat) (M : Fr) (i : Nat) : Fr :=
  if i = k then M else ((u.getD i 0 : Nat) : Fr)

theorem lin_tailCoef {k : Nat} {u : List Nat} (hu : ∀ x ∈ u, x = 1 ∨ x = 2) (hk : u.length ≤ k)
    (M : Fr) {l : List A} (hl : l.length = k + 1) :
    lin (tailCoef k u M) l = (List.zipWith (fun t h => t • h) u l).sum + M.val • l.getLastD 0 := by
  induction k generalizing u l with
  | zero =>
    cases l with
    | nil => cases hl
    | cons a l =>
      cases l with
      | nil =>
        have : u = [] := List.length_eq_zero_iff.1 (by omega)
        subst this
        simp [lin, tailCoef]
      | cons b l => simp at hl
  | succ k ih =>
    cases l with
    | nil => cases hl
    | cons a l =>
      have hl' : l.length = k + 1 := by simpa using hl
      have hlast : (a :: l).getLastD 0 = l.getLastD 0 := by
        cases l with
        | nil => simp at hl'
        | cons b l => rfl
      have hc : (fun i => tailCoef (k + 1) u M (i + 1)) = tailCoef k u.tail M := by
        funext i
        unfold tailCoef
        by_cases h : i = k
        · rw [if_pos h, if_pos (by omega)]
        · rw [if_neg h, if_neg (by omega)]
          cases u <;> simp
      rw [lin, hc, hlast, ih (fun x hx => hu x (List.mem_of_mem_tail hx))
        (by rw [List.length_tail]; omega) hl']
      cases u with
      | nil => simp [tailCoef]
      | cons t u =>
        rw [List.tail_cons, List.zipWith_cons_cons, List.sum_cons, ← add_assoc]
        congr 2
        have := digit_lt hu 0
        rw [List.getD_cons_zero] at this
        rw [tailCoef, if_neg (by omega), List.getD_cons_zero, ZMod.val_natCast,
          Nat.mod_eq_of_lt this]

end Lin

/-- use sub key `j` for an ancestor of the target -/
def delegating (d j : Nat) (v w : List Nat) (M : Fr) : Strategy where
  onG2 := 0
  onPk := 0
  onG2r i := if i = j then 1 else 0
  onSigma1 _ := 0
  onH := 0
  onQ := 0
  onPop := 0
  onHlist _ := 0
  onHpoly i := if i = j then 1 else 0
  onHvector j' i := if j' = j then tailCoef (d - (v.length + 1)) (w.drop v.length) M i else 0
  onSigma2 _ := 0

/-- replay signature `k` -/
def replaying (k : Nat) : Strategy where
  onG2 := 0
  onPk := 0
  onG2r _ := 0
  onSigma1 i := if i = k then 1 else 0
  onH := 0
  onQ := 0
  onPop := 0
  onHlist _ := 0
  onHpoly _ := 0
  onHvector _ _ := 0
  onSigma2 i := if i = k then 1 else 0

section Groups

variable {G1 G2 GT : Type} [AddCommGroup G1] [AddCommGroup G2] [CommGroup GT]
  {E : Ext G1 G2 GT} {d x t : Nat} {cs : UInt8} {nodes : List (List Nat)}
  {signed : List (List Nat × Fr)} {V : View G1 G2}

theorem delegating_sigFor (h : HonestView E d cs nodes signed x V) {w : List Nat}
    (hw : NodeAt d t w) {j : Nat} (hj : j < nodes.length) (hv : nodes[j] <+: w) (M : Fr) :
    ∃ a, SigFor V.pp (x • V.pp.h) w M a ((delegating d j nodes[j] w M).forge V t) := by
  have hlen := h.ssk.length_eq
  obtain ⟨rho, hs⟩ := (List.forall₂_iff_get.1 h.ssk).2 j hj (by omega)
  simp only [List.get_eq_getElem] at hs
  obtain ⟨u, rfl⟩ : ∃ u, w = nodes[j] ++ u := by
    obtain ⟨u, hu⟩ := hv
    exact ⟨u, hu.symm⟩
  generalize nodes[j] = v at *
  have hj' : j < V.ssk.length := by omega
  have hwn := nodeAt_isNode hw
  have hdl := h.wf.hlist_len
  rw [h.depth] at hdl
  have hlt : v.length + u.length < d := by simpa using hwn.1
  refine ⟨rho, rfl, by rw [h.depth]; exact hw, ?_, ?_⟩
  · simp only [Strategy.forge, delegating, ZMod.val_zero, zero_smul, lin_zero, lin_single, zero_add,
      add_zero]
    rw [List.getD_eq_getElem _ _ (by simpa using hj'), List.getElem_map]
    exact hs.g2r
  · simp only [Strategy.forge, delegating, ZMod.val_zero, zero_smul, lin_zero, lin_single, zero_add,
      add_zero, linVectors_single, List.drop_left]
    rw [List.getD_eq_getElem _ _ (by simpa using hj'), List.getElem_map,
      List.getD_eq_getElem _ _ (by simpa using hj'), List.getElem_map]
    rw [lin_tailCoef (fun y hy => hwn.2 y (by simp [hy])) (by omega) M
      (by rw [hs.hvector, List.length_map, List.length_drop]; omega)]
    rw [hs.hpoly, hs.hvector]
    have e1 : (List.zipWith (fun t h => t • h) u
        ((V.pp.hlist.drop (v.length + 1)).map (fun h => rho • h))).sum =
        rho • wsum u (V.pp.hlist.drop (v.length + 1)) := wsum_map_smul u _ rho
    have e2 : ((V.pp.hlist.drop (v.length + 1)).map (fun h => rho • h)).getLastD 0 =
        rho • V.pp.hlist.getLastD 0 := by
      rw [List.getLastD_eq_getLast?, List.getLast?_map, List.getLast?_drop,
        if_neg (by omega), List.getLastD_eq_getLast?]
      cases hl : V.pp.hlist.getLast? with
      | none => rw [List.getLast?_eq_none_iff] at hl; rw [hl] at hdl; simp at hdl
      | some y => rfl
    rw [e1, e2, sigPoint, nodePoint_append _ _ _ (by omega), smul_add, smul_add,
      smul_comm M.val rho]
    abel

theorem replaying_sigFor (h : HonestView E d cs nodes signed x V) {w : List Nat} {M : Fr}
    (hw : NodeAt d t w) {k : Nat} (hk : signed[k]? = some (w, M)) :
    ∃ a, SigFor V.pp (x • V.pp.h) w M a ((replaying k).forge V t) := by
  obtain ⟨hk', he⟩ := List.getElem?_eq_some_iff.1 hk
  have hlen := h.sigs.length_eq
  obtain ⟨a, hs⟩ := (List.forall₂_iff_get.1 h.sigs).2 k hk' (by omega)
  simp only [List.get_eq_getElem, he] at hs
  have hj' : k < V.sigs.length := by omega
  refine ⟨a, rfl, by rw [h.depth]; exact hw, ?_, ?_⟩
  · simp only [Strategy.forge, replaying, ZMod.val_zero, zero_smul, lin_zero, lin_single, zero_add]
    rw [List.getD_eq_getElem _ _ (by simpa using hj'), List.getElem_map]
    exact hs.sigma1
  · simp only [Strategy.forge, replaying, ZMod.val_zero, zero_smul, lin_zero, lin_single, zero_add,
      add_zero, linVectors_zero]
    rw [List.getD_eq_getElem _ _ (by simpa using hj'), List.getElem_map]
    exact hs.sigma2

/-! ## The relation between two signed points -/

theorem relation_sum_aux {A : Type} [AddCommGroup A] {k : Nat} {v w : List Nat} (hv : v.length ≤ k)
    (hw : w.length ≤ k) (M M' : Fr) {l : List A} (hl : l.length = k + 1) :
    (List.zipWith (fun (c : Int) h => c • h) (relation (k + 1) v M w M') l).sum =
      ((List.zipWith (fun t h => t • h) v l).sum + M.val • l.getLastD 0) -
        ((List.zipWith (fun t h => t • h) w l).sum + M'.val • l.getLastD 0) := by
  induction k generalizing v w l with
  | zero =>
    cases l with
    | nil => cases hl
    | cons a l =>
      cases l with
      | nil =>
        have h1 : v = [] := List.length_eq_zero_iff.1 (by omega)
        have h2 : w = [] := List.length_eq_zero_iff.1 (by omega)
        subst h1 h2
        have e : (List.zipWith (fun (c : Int) h => c • h) (relation (0 + 1) [] M [] M') [a]).sum =
            ((M.val : Int) - (M'.val : Int)) • a := add_zero _
        rw [e, sub_smul, natCast_zsmul, natCast_zsmul]
        simp
      | cons b l => simp at hl
  | succ k ih =>
    cases l with
    | nil => cases hl
    | cons a l =>
      have hl' : l.length = k + 1 := by simpa using hl
      have hlast : (a :: l).getLastD 0 = l.getLastD 0 := by
        cases l with
        | nil => simp at hl'
        | cons b l => rfl
      have hr : relation (k + 1 + 1) v M w M' = ((v.getD 0 0 : Int) - (w.getD 0 0 : Int)) ::
          relation (k + 1) v.tail M w.tail M' := by
        unfold relation
        rw [Nat.add_sub_cancel, Nat.add_sub_cancel, List.range_succ_eq_map, List.map_cons,
          List.map_map, List.cons_append]
        congr 2
        refine List.map_congr_left fun i _ => ?_
        cases v <;> cases w <;> simp
      rw [hr, List.zipWith_cons_cons, List.sum_cons, ih (by rw [List.length_tail]; omega)
        (by rw [List.length_tail]; omega) hl', hlast]
      have key : ∀ u : List Nat, (List.zipWith (fun t h => t • h) u (a :: l)).sum =
          u.getD 0 0 • a + (List.zipWith (fun t h => t • h) u.tail l).sum := by
        intro u
        cases u <;> simp
      rw [key v, key w, sub_smul, natCast_zsmul, natCast_zsmul]
      abel

theorem relation_sum {pp : PubParam G1 G2} (S : ParamShape pp) {v w : List Nat}
    (hv : v.length < pp.depth) (hw : w.length < pp.depth) (M M' : Fr) :
    (List.zipWith (fun (c : Int) h => c • h) (relation pp.depth v M w M') pp.hlist.tail).sum =
      sigPoint pp v M - sigPoint pp w M' := by
  obtain ⟨k, hk⟩ : ∃ k, pp.depth = k + 1 := ⟨pp.depth - 1, by omega⟩
  obtain ⟨h0, hl, hhl, hlen⟩ := hlist_cons S
  have hlast : pp.hlist.getLastD 0 = hl.getLastD 0 := by
    rw [hhl]
    cases hl with
    | nil => rw [hk] at hlen; cases hlen
    | cons b l => rfl
  rw [hk, relation_sum_aux (by omega) (by omega) M M' (by rw [hhl]; simpa [hk] using hlen)]
  unfold sigPoint nodePoint
  rw [hlast, hhl, List.tail_cons]
  abel

theorem relation_trivial {d : Nat} {v w : List Nat} (hv : IsNode d v) (hw : IsNode d w)
    (M M' : Fr) : (∀ c ∈ relation d v M w M', (rOrder : Int) ∣ c) ↔ v = w ∧ M = M' := by
  have hr : 3 ≤ rOrder := by decide +kernel
  have dig : ∀ {u : List Nat}, (∀ y ∈ u, y = 1 ∨ y = 2) → ∀ i, u.getD i 0 ≤ 2 := by
    intro u hu i
    by_cases hi : i < u.length
    · rw [List.getD_eq_getElem _ _ hi]
      have := hu _ (List.getElem_mem hi)
      omega
    · rw [List.getD_eq_default _ _ (by omega)]
      omega
  have small : ∀ {a b : Nat}, a < rOrder → b < rOrder → (rOrder : Int) ∣ (a : Int) - b → a = b := by
    intro a b ha hb h
    have := Int.eq_zero_of_abs_lt_dvd h (by rw [abs_lt]; omega)
    omega
  unfold relation
  constructor
  · intro h
    have hM : M = M' := by
      have := h ((M.val : Int) - (M'.val : Int)) (by simp)
      exact ZMod.val_injective _ (small (ZMod.val_lt M) (ZMod.val_lt M') this)
    have hd : ∀ i, v.getD i 0 = w.getD i 0 := by
      intro i
      by_cases hi : i < d - 1
      · have := h _ (List.mem_append_left _ (List.mem_map.2 ⟨i, List.mem_range.2 hi, rfl⟩))
        exact small (by have := dig hv.2 i; omega) (by have := dig hw.2 i; omega) this
      · have h1 := hv.1
        have h2 := hw.1
        rw [List.getD_eq_default _ _ (by omega), List.getD_eq_default _ _ (by omega)]
    have p1 := prefix_of_coefN hv.2 fun i _ => hd i
    have p2 := prefix_of_coefN hw.2 fun i _ => (hd i).symm
    exact ⟨p1.eq_of_length_le p2.length_le, hM⟩
  · rintro ⟨rfl, rfl⟩ c hc
    rcases List.mem_append.1 hc with hc | hc
    · obtain ⟨i, _, rfl⟩ := List.mem_map.1 hc
      simp
    · simp at hc
      rw [hc]
      exact dvd_zero _

end Groups

end Pixel
