import Verif.Proof.Time
import Verif.Proof.Prng
import Verif.Spec.Key
import Mathlib.Algebra.BigOperators.Group.List.Lemmas
import Mathlib.Tactic.Abel
import Mathlib.Algebra.Module.NatInt

/-! # Lemmas about sub secret keys -/

namespace Pixel

open Spec

set_option linter.unusedSectionVars false

variable {G1 G2 GT : Type} [AddCommGroup G1] [AddCommGroup G2] [CommGroup GT]

/-! ### loops -/

theorem foldlM_range_ok {β : Type} {f : β → Nat → Res β} (S : Nat → β) (n : Nat)
    (h : ∀ i < n, f (S i) i = .ok (S (i + 1))) : (List.range n).foldlM f (S 0) = .ok (S n) := by
  induction n with
  | zero => rfl
  | succ n ih =>
    rw [List.range_succ, List.foldlM_append, ih (fun i hi => h i (by omega))]
    simp [h n (by omega)]

theorem forM_range_ok {σ : Type} {f : Nat → SM σ Unit} (S : Nat → σ) (n : Nat)
    (h : ∀ i < n, f i (S i) = (.ok (), S (i + 1))) :
    (List.range n).forM f (S 0) = (.ok (), S n) := by
  induction n with
  | zero => rfl
  | succ n ih =>
    rw [List.range_succ]
    have : (List.range n ++ [n]).forM f = ((List.range n).forM f >>= fun _ => [n].forM f) :=
      List.forM_append
    rw [this, SM.bind_run_ok (ih (fun i hi => h i (by omega)))]
    show (f n >>= fun _ => pure ()) (S n) = _
    rw [SM.bind_run_ok (h n (by omega))]
    rfl

/-- if step `k` panics (after `k` good steps), the loop panics -/
theorem forM_range_panic {σ : Type} {f : Nat → SM σ Unit} (S : Nat → σ) (n k : Nat) (p : Panic)
    (hk : k < n) (h : ∀ i < k, f i (S i) = (.ok (), S (i + 1)))
    (hp : f k (S k) = (.panic p, S k)) :
    (List.range n).forM f (S 0) = (.panic p, S k) := by
  obtain ⟨m, rfl⟩ : ∃ m, n = k + 1 + m := ⟨n - (k + 1), by omega⟩
  rw [List.range_add]
  have e1 : ∀ (a b : List Nat), (a ++ b).forM f = (a.forM f >>= fun _ => b.forM f) :=
    fun a b => List.forM_append
  rw [e1]
  apply SM.bind_run_panic
  rw [List.range_succ, e1, SM.bind_run_ok (forM_range_ok S k h)]
  show (f k >>= fun _ => pure ()) (S k) = _
  exact SM.bind_run_panic hp

/-! ### weighted sums -/

/-- `Σ v_i h_i` -/
def wsum (v : List Nat) (hs : List G1) : G1 := (List.zipWith (fun t h => t • h) v hs).sum

@[simp] theorem wsum_nil (hs : List G1) : wsum [] hs = 0 := rfl
@[simp] theorem wsum_cons (t : Nat) (v : List Nat) (h : G1) (hs : List G1) :
    wsum (t :: v) (h :: hs) = t • h + wsum v hs := by simp [wsum]

theorem wsum_append (v w : List Nat) (hs : List G1) (h : v.length ≤ hs.length) :
    wsum (v ++ w) hs = wsum v hs + wsum w (hs.drop v.length) := by
  induction v generalizing hs with
  | nil => simp
  | cons t v ih =>
    cases hs with
    | nil => simp at h
    | cons a hs =>
      simp only [List.cons_append, wsum_cons, List.length_cons, List.drop_succ_cons]
      rw [ih hs (by simpa using h)]
      abel

theorem wsum_map_smul (v : List Nat) (hs : List G1) (n : Nat) :
    wsum v (hs.map (fun h => n • h)) = n • wsum v hs := by
  induction v generalizing hs with
  | nil => simp
  | cons t v ih =>
    cases hs with
    | nil => simp [wsum]
    | cons a hs =>
      simp only [List.map_cons, wsum_cons, ih, smul_add]
      rw [smul_smul, smul_smul, Nat.mul_comm]

theorem wsum_zipAdd (v : List Nat) (as bs : List G1) (h1 : v.length ≤ as.length)
    (h2 : v.length ≤ bs.length) :
    wsum v (List.zipWith (· + ·) as bs) = wsum v as + wsum v bs := by
  induction v generalizing as bs with
  | nil => simp
  | cons t v ih =>
    cases as with
    | nil => simp at h1
    | cons a as =>
      cases bs with
      | nil => simp at h2
      | cons b bs =>
        simp only [List.zipWith_cons_cons, wsum_cons]
        rw [ih as bs (by simpa using h1) (by simpa using h2), smul_add]
        abel

theorem wsum_take_succ (v : List Nat) (hs : List G1) (i : Nat) (hi : i < v.length)
    (hh : i < hs.length) :
    wsum (v.take (i + 1)) hs = wsum (v.take i) hs + v[i] • hs[i] := by
  rw [List.take_add_one, wsum_append _ _ _ (by simp; omega)]
  congr 1
  simp only [List.length_take, Nat.min_eq_left (Nat.le_of_lt hi), List.getElem?_eq_getElem hi,
    Option.toList_some]
  rw [List.drop_eq_getElem_cons hh, wsum_cons, wsum_nil, add_zero]

theorem nodePoint_eq (pp : PubParam G1 G2) (v : List Nat) :
    nodePoint pp v = pp.hlist.headD 0 + wsum v pp.hlist.tail := rfl

theorem double_or {t : Nat} (ht : t = 1 ∨ t = 2) (h : G1) :
    (if t = 2 then h + h else h) = t • h := by
  rcases ht with rfl | rfl
  · simp
  · rw [if_pos rfl, two_nsmul]

/-- the loop `tmp3 = h_0 · Π h_i^{t_i}` with doublings -/
theorem nodeLoop_eq {pp : PubParam G1 G2} {v : List Nat} {h0 : G1} {hs : List G1}
    (hl : pp.hlist = h0 :: hs) (hv : ∀ x ∈ v, x = 1 ∨ x = 2) (hlen : v.length ≤ hs.length) :
    (List.range v.length).foldlM (fun tmp3 i => do
      let tmp2 ← idx pp.hlist (i + 1)
      let ti ← idx v i
      let tmp2 := if ti = 2 then tmp2 + tmp2 else tmp2
      .ok (tmp3 + tmp2)) h0 = .ok (nodePoint pp v) := by
  have := foldlM_range_ok (f := fun tmp3 i => do
      let tmp2 ← idx pp.hlist (i + 1)
      let ti ← idx v i
      let tmp2 := if ti = 2 then tmp2 + tmp2 else tmp2
      .ok (tmp3 + tmp2)) (fun i => h0 + wsum (v.take i) hs) v.length (by
    intro i hi
    have hh : i < hs.length := by omega
    simp only [hl, idx_succ_cons, idx_lt hh, idx_lt hi, Res.ok_bind]
    rw [wsum_take_succ v hs i hi hh, double_or (hv _ (List.getElem_mem hi))]
    congr 1
    abel)
  simp only [List.take_zero, wsum_nil, add_zero, List.take_length] at this
  rw [this, nodePoint_eq, hl]
  rfl

/-- the same loop in `validate`, with scalar multiplications -/
theorem nodeLoop_mul_eq {pp : PubParam G1 G2} {v : List Nat} {h0 : G1} {hs : List G1}
    (hl : pp.hlist = h0 :: hs) (hlen : v.length ≤ hs.length) :
    (List.range v.length).foldlM (fun h2fx i => do
      let tmp ← idx pp.hlist (i + 1)
      let ti ← idx v i
      .ok (h2fx + ti • tmp)) h0 = .ok (nodePoint pp v) := by
  have := foldlM_range_ok (f := fun h2fx i => do
      let tmp ← idx pp.hlist (i + 1)
      let ti ← idx v i
      .ok (h2fx + ti • tmp)) (fun i => h0 + wsum (v.take i) hs) v.length (by
    intro i hi
    have hh : i < hs.length := by omega
    simp only [hl, idx_succ_cons, idx_lt hh, idx_lt hi, Res.ok_bind]
    rw [wsum_take_succ v hs i hi hh]
    congr 1
    abel)
  simp only [List.take_zero, wsum_nil, add_zero, List.take_length] at this
  rw [this, nodePoint_eq, hl]
  rfl

theorem nodePoint_append (pp : PubParam G1 G2) (v w : List Nat)
    (h : v.length + 1 ≤ pp.hlist.length) :
    nodePoint pp (v ++ w) = nodePoint pp v + wsum w (pp.hlist.drop (v.length + 1)) := by
  rw [nodePoint_eq, nodePoint_eq, wsum_append _ _ _ (by rw [List.length_tail]; omega),
    ← List.drop_one, List.drop_drop, add_assoc, Nat.add_comm 1]

/-! ### `delegate` -/

namespace SubSecretKey

/-- the result of a delegation along the turns `w` -/
def delegated (s : SubSecretKey G1 G2) (tar : Nat) (w : List Nat) : SubSecretKey G1 G2 :=
  { time := tar, g2r := s.g2r, hpoly := s.hpoly + wsum w s.hvector,
    hvector := s.hvector.drop w.length }

theorem delegate_eq {pf : Profile} {d : Nat} (hd : d ≤ 63) {s : SubSecretKey G1 G2} {v w : List Nat}
    (hv : IsNode d v) (hvw : IsNode d (v ++ w)) (hw : w ≠ []) (ht : s.time = num d v)
    (hlen : w.length ≤ s.hvector.length) :
    delegate pf (num d (v ++ w)) d s = (.ok (), s.delegated (num d (v ++ w)) w) := by
  unfold delegate
  rw [SM.get_bind, ht, init_num hd hv, SM.lift_ok_bind, init_num hd hvw, SM.lift_ok_bind]
  have hp : (tvOf d v).isPrefix (tvOf d (v ++ w)) = true := (isPrefix_tvOf hvw).2 ⟨w, hw, rfl⟩
  rw [hp]
  simp only [Bool.not_true, Bool.false_eq_true, if_false]
  have hl : (tvOf d (v ++ w)).vec.length - (tvOf d v).vec.length = w.length := by
    simp [tvOf]
  simp only [hl]
  have hw12 : ∀ x ∈ w, x = 1 ∨ x = 2 := fun x hx => hvw.2 x (List.mem_append_right _ hx)
  rw [SM.bind_run_ok (forM_range_ok
    (fun i => { s with hpoly := s.hpoly + wsum (w.take i) s.hvector }) w.length ?_ |> fun h => by
      simpa using h)]
  · rw [SM.bind_run_ok (forM_range_ok
      (fun i => { s with hpoly := s.hpoly + wsum w s.hvector, hvector := s.hvector.drop i })
      w.length ?_ |> fun h => by simpa using h)]
    · rfl
    · intro i hi
      have hi' : i < s.hvector.length := by omega
      rw [SM.get_bind]
      simp only
      rw [List.drop_eq_getElem_cons hi']
      rfl
  · intro i hi
    have hi' : i < s.hvector.length := by omega
    rw [SM.get_bind]
    simp only
    rw [idx_lt hi', SM.lift_ok_bind]
    have hg : idx (tvOf d (v ++ w)).vec (i + (tvOf d v).vec.length) = .ok w[i] := by
      rw [idx_eq_ok]
      simp only [tvOf]
      rw [List.getElem?_append_right (by omega)]
      simp [hi]
    rw [hg, SM.lift_ok_bind, SM.set_run, wsum_take_succ w _ i hi hi',
      double_or (hw12 _ (List.getElem_mem hi)), add_assoc]

/-- with too short an `hvector` (a malformed sub key), delegation panics -/
theorem delegate_short {pf : Profile} {d : Nat} (hd : d ≤ 63) {s : SubSecretKey G1 G2}
    {v w : List Nat} (hv : IsNode d v) (hvw : IsNode d (v ++ w)) (hw : w ≠ [])
    (ht : s.time = num d v) (hlen : s.hvector.length < w.length) :
    (delegate pf (num d (v ++ w)) d s).1 = .panic .index := by
  unfold delegate
  rw [SM.get_bind, ht, init_num hd hv, SM.lift_ok_bind, init_num hd hvw, SM.lift_ok_bind]
  have hp : (tvOf d v).isPrefix (tvOf d (v ++ w)) = true := (isPrefix_tvOf hvw).2 ⟨w, hw, rfl⟩
  rw [hp]
  simp only [Bool.not_true, Bool.false_eq_true, if_false]
  have hl : (tvOf d (v ++ w)).vec.length - (tvOf d v).vec.length = w.length := by
    simp [tvOf]
  simp only [hl]
  have hw12 : ∀ x ∈ w, x = 1 ∨ x = 2 := fun x hx => hvw.2 x (List.mem_append_right _ hx)
  rw [SM.bind_run_panic (forM_range_panic
    (fun i => { s with hpoly := s.hpoly + wsum (w.take i) s.hvector }) w.length s.hvector.length
      .index hlen ?_ ?_ |> fun h => by simpa using h)]
  · intro i hi'
    have hi : i < w.length := by omega
    rw [SM.get_bind]
    simp only
    rw [idx_lt hi', SM.lift_ok_bind]
    have hg : idx (tvOf d (v ++ w)).vec (i + (tvOf d v).vec.length) = .ok w[i] := by
      rw [idx_eq_ok]
      simp only [tvOf]
      rw [List.getElem?_append_right (by omega)]
      simp [hi]
    rw [hg, SM.lift_ok_bind, SM.set_run, wsum_take_succ w _ i hi hi',
      double_or (hw12 _ (List.getElem_mem hi)), add_assoc]
  · rw [SM.get_bind]
    simp only
    rw [idx_ge (le_refl _)]
    rfl

theorem delegate_bad {pf : Profile} {d tar : Nat} (hd : d ≤ 63) {s : SubSecretKey G1 G2}
    (h : ¬ ∃ v w, NodeAt d s.time v ∧ NodeAt d tar (v ++ w) ∧ w ≠ []) :
    ∃ e, delegate pf tar d s = (.err e, s) ∧
      (e = .timeNonePrefix ↔ ValidTime d s.time ∧ ValidTime d tar) := by
  have hne : ∀ t e, TimeVec.init pf t d = .err e → e ≠ .timeNonePrefix := by
    intro t e he
    rcases Nat.eq_zero_or_pos d with rfl | hd0
    · rw [init_zero] at he; cases he; decide
    · by_cases h2 : t = 2 ^ d
      · rw [h2, init_max hd] at he; cases he; decide
      · by_cases hv : ValidTime d t
        · rw [init_valid hd hv] at he; cases he
        · rw [init_bad hd0 hd (by
            unfold ValidTime at hv
            have : 1 ≤ 2 ^ d := Nat.one_le_two_pow
            omega)] at he
          cases he; decide
  unfold delegate
  rw [SM.get_bind]
  rcases init_cases (pf := pf) (t := s.time) hd with ⟨hv1, h1⟩ | ⟨hv1, e, h1⟩
  · rw [h1, SM.lift_ok_bind]
    rcases init_cases (pf := pf) (t := tar) hd with ⟨hv2, h2⟩ | ⟨hv2, e, h2⟩
    · rw [h2, SM.lift_ok_bind]
      refine ⟨.timeNonePrefix, ?_, by simp [hv1, hv2]⟩
      have hp : ({ time := s.time, vec := path d s.time } : TimeVec).isPrefix
          { time := tar, vec := path d tar } = false := by
        rw [Bool.eq_false_iff]
        intro hp
        have e1 : ({ time := s.time, vec := path d s.time } : TimeVec) = tvOf d (path d s.time) := by
          simp [tvOf, num_path hv1]
        have e2 : ({ time := tar, vec := path d tar } : TimeVec) = tvOf d (path d tar) := by
          simp [tvOf, num_path hv2]
        rw [e1, e2, isPrefix_tvOf (path_isNode hv2)] at hp
        obtain ⟨w, hw, he⟩ := hp
        exact h ⟨path d s.time, w, nodeAt_iff.2 ⟨hv1, rfl⟩, by
          rw [← he]; exact nodeAt_iff.2 ⟨hv2, rfl⟩, hw⟩
      rw [hp]
      rfl
    · refine ⟨e, by rw [h2]; rfl, ?_⟩
      constructor
      · intro he; exact absurd he (hne _ _ h2)
      · rintro ⟨_, h⟩; exact absurd h hv2
  · refine ⟨e, by rw [h1]; rfl, ?_⟩
    constructor
    · intro he; exact absurd he (hne _ _ h1)
    · rintro ⟨h, _⟩; exact absurd h hv1

/-! ### `randomization` -/

/-- the result of a re-randomisation of the sub key of node `v` with the (natural) scalar `n` -/
def rerand (s : SubSecretKey G1 G2) (pp : PubParam G1 G2) (v : List Nat) (n : Nat) :
    SubSecretKey G1 G2 :=
  { time := s.time, g2r := s.g2r + n • pp.g2, hpoly := s.hpoly + n • nodePoint pp v,
    hvector := List.zipWith (fun a h => a + n • h) s.hvector (pp.hlist.drop (v.length + 1)) }

theorem randomization_eq {pf : Profile} {pp : PubParam G1 G2} (hd : pp.depth ≤ 63)
    {s : SubSecretKey G1 G2} {v : List Nat} (hv : IsNode pp.depth v) (ht : s.time = num pp.depth v)
    (hlen : v.length + 1 + s.hvector.length ≤ pp.hlist.length) (r : Fr) :
    randomization pf pp r s = (.ok (), s.rerand pp v r.val) := by
  obtain ⟨h0, hs, hl⟩ : ∃ h0 hs, pp.hlist = h0 :: hs := by
    cases h : pp.hlist with
    | nil => rw [h] at hlen; simp at hlen
    | cons a l => exact ⟨a, l, rfl⟩
  have hlen' : v.length + s.hvector.length ≤ hs.length := by
    rw [hl] at hlen; simp at hlen; omega
  unfold randomization timeVec
  simp only [SM.get_bind, SM.set_bind]
  rw [ht, init_num hd hv, SM.lift_ok_bind]
  have hi0 : idx pp.hlist 0 = .ok h0 := by rw [hl]; rfl
  rw [hi0, SM.lift_ok_bind]
  have hloop := nodeLoop_eq (pp := pp) hl hv.2 (by omega)
  simp only [tvOf]
  rw [hloop, SM.lift_ok_bind, SM.get_bind, SM.set_bind, SM.get_bind]
  simp only
  have := forM_range_ok
    (f := fun i => (do
      let tmp ← SM.lift (idx pp.hlist (v.length + i + 1))
      let tmp := mulFr r tmp
      let self ← SM.get
      let hi ← SM.lift (idx self.hvector i)
      SM.set { self with hvector := self.hvector.set i (hi + tmp) } : SM (SubSecretKey G1 G2) Unit))
    (fun i => (
      { time := num pp.depth v
        g2r := s.g2r + mulFr r pp.g2
        hpoly := s.hpoly + mulFr r (nodePoint pp v)
        hvector := List.zipWith (fun a h => a + r.val • h) (s.hvector.take i) (hs.drop v.length)
          ++ s.hvector.drop i } : SubSecretKey G1 G2)) s.hvector.length (by
    intro i hi
    have hh : v.length + i < hs.length := by omega
    rw [hl, idx_succ_cons, idx_lt hh, SM.lift_ok_bind]
    simp only
    rw [SM.get_bind]
    simp only
    have hzl : (List.zipWith (fun a h => a + r.val • h) (s.hvector.take i)
        (hs.drop v.length)).length = i := by
      simp; omega
    have hg : idx (List.zipWith (fun a h => a + r.val • h) (s.hvector.take i) (hs.drop v.length)
        ++ s.hvector.drop i) i = .ok s.hvector[i] := by
      rw [idx_eq_ok, List.getElem?_append_right (by omega), hzl, Nat.sub_self,
        List.getElem?_drop]
      simp [hi]
    rw [hg, SM.lift_ok_bind, SM.set_run]
    congr 2
    rw [List.set_append_right _ _ (by omega), hzl, Nat.sub_self, List.drop_eq_getElem_cons hi,
      List.set_cons_zero, List.take_add_one, List.getElem?_eq_getElem hi, Option.toList_some]
    have hdr : hs.drop v.length = (hs.drop v.length).take i ++ hs[v.length + i] ::
        hs.drop (v.length + i + 1) := by
      have e : hs.drop (v.length + i) = hs[v.length + i] :: hs.drop (v.length + i + 1) :=
        List.drop_eq_getElem_cons hh
      rw [← e, ← List.drop_drop, List.take_append_drop]
    rw [hdr]
    have htl : ((hs.drop v.length).take i).length = (s.hvector.take i).length := by
      simp; omega
    rw [List.zipWith_append htl.symm]
    simp only [List.zipWith_cons_cons, List.zipWith_nil_left, List.append_assoc,
      List.singleton_append]
    congr 1
    have : List.zipWith (fun a h => a + r.val • h) (s.hvector.take i)
        ((hs.drop v.length).take i ++ hs[v.length + i] :: hs.drop (v.length + i + 1)) =
        List.zipWith (fun a h => a + r.val • h) (s.hvector.take i) ((hs.drop v.length).take i) := by
      have := List.zipWith_append (f := fun a (h : G1) => a + r.val • h) (l₁ := s.hvector.take i)
        (l₁' := []) (l₂ := (hs.drop v.length).take i)
        (l₂' := hs[v.length + i] :: hs.drop (v.length + i + 1)) htl.symm
      simpa using this
    rw [this])
  simp only [List.take_zero, List.zipWith_nil_left, List.drop_zero, List.nil_append,
    List.take_length, List.drop_length, List.append_nil] at this
  rw [this]
  unfold rerand mulFr
  rw [hl, ht]
  simp

end SubSecretKey

end Pixel
