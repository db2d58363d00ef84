import Verif.Proof.SubKeyOps

/-! # Lemmas about secret keys: the update algorithm -/

namespace Pixel

open Spec

set_option linter.unusedSectionVars false

variable {G1 G2 GT : Type} [AddCommGroup G1] [AddCommGroup G2] [CommGroup GT]

/-! ### lists -/

theorem forall₂_append_left {α β : Type} {R : α → β → Prop} {A B : List α} {l : List β}
    (h : List.Forall₂ R (A ++ B) l) :
    ∃ SA SB, l = SA ++ SB ∧ List.Forall₂ R A SA ∧ List.Forall₂ R B SB := by
  induction A generalizing l with
  | nil => exact ⟨[], l, rfl, .nil, h⟩
  | cons a A ih =>
    cases h with
    | cons h1 h2 =>
      obtain ⟨SA, SB, rfl, h3, h4⟩ := ih h2
      exact ⟨_ :: SA, SB, rfl, .cons h1 h3, h4⟩

theorem forall₂_append {α β : Type} {R : α → β → Prop} {A B : List α} {C D : List β}
    (h : List.Forall₂ R A C) (h' : List.Forall₂ R B D) : List.Forall₂ R (A ++ B) (C ++ D) := by
  induction h with
  | nil => exact h'
  | cons h1 _ ih => exact .cons h1 ih

theorem forall₂_mem_right {α β : Type} {R : α → β → Prop} {A : List α} {B : List β}
    (h : List.Forall₂ R A B) {b : β} (hb : b ∈ B) : ∃ a ∈ A, R a b := by
  induction h with
  | nil => cases hb
  | cons h1 _ ih =>
    rcases List.mem_cons.1 hb with rfl | hb
    · exact ⟨_, by simp, h1⟩
    · obtain ⟨a, ha, hr⟩ := ih hb
      exact ⟨a, by simp [ha], hr⟩

/-- two strictly sorted lists with the same elements are equal -/
theorem sorted_ext {α : Type} {f : α → Nat} {l m : List α}
    (hl : l.Pairwise (fun a b => f a < f b)) (hm : m.Pairwise (fun a b => f a < f b))
    (h : ∀ a, a ∈ l ↔ a ∈ m) : l = m := by
  induction l generalizing m with
  | nil =>
    cases m with
    | nil => rfl
    | cons b m => exact absurd ((h b).2 (by simp)) (by simp)
  | cons a l ih =>
    cases m with
    | nil => exact absurd ((h a).1 (by simp)) (by simp)
    | cons b m =>
      rw [List.pairwise_cons] at hl hm
      have hab : a = b := by
        rcases List.mem_cons.1 ((h a).1 (by simp)) with h1 | h1
        · exact h1
        · rcases List.mem_cons.1 ((h b).2 (by simp)) with h2 | h2
          · exact h2.symm
          · have := hl.1 b h2
            have := hm.1 a h1
            omega
      subst hab
      congr 1
      refine ih hl.2 hm.2 (fun c => ?_)
      constructor
      · intro hc
        rcases List.mem_cons.1 ((h c).1 (by simp [hc])) with h1 | h1
        · subst h1; have := hl.1 c hc; omega
        · exact h1
      · intro hc
        rcases List.mem_cons.1 ((h c).2 (by simp [hc])) with h1 | h1
        · subst h1; have := hm.1 c hc; omega
        · exact h1

/-- the cover of a time stamp, listed by time, is its gamma list -/
theorem coverList_iff {d t : Nat} {v : List Nat} {vs : List (List Nat)} (hv : NodeAt d t v) :
    CoverList d t vs ↔ vs = gam v := by
  have hn := nodeAt_isNode hv
  have hu : ∀ v', NodeAt d t v' → v' = v := fun v' h => by
    rw [(nodeAt_iff.1 h).2, (nodeAt_iff.1 hv).2]
  have hmem : ∀ s, (∃ v, NodeAt d t v ∧ (s = v ∨ RightSiblingOnPath v s)) ↔ s ∈ gam v := by
    intro s
    constructor
    · rintro ⟨v', h1, h2⟩
      have := hu v' h1
      subst this
      rcases h2 with rfl | h2
      · simp [gam]
      · exact List.mem_cons_of_mem _ (mem_sibs.2 h2)
    · intro h
      refine ⟨v, hv, ?_⟩
      rcases List.mem_cons.1 h with rfl | h
      · exact Or.inl rfl
      · exact Or.inr (mem_sibs.1 h)
  constructor
  · rintro ⟨h1, h2⟩
    refine sorted_ext (f := num d) (h2.imp ?_) (gam_sorted hn) (fun s => (h1 s).trans (hmem s))
    rintro a b ⟨ta, tb, ha, hb, hlt⟩
    rwa [nodeAt_num_eq ha, nodeAt_num_eq hb]
  · rintro rfl
    refine ⟨fun s => (hmem s).symm, ?_⟩
    refine (gam_sorted hn).imp_of_mem ?_
    intro a b ha hb hab
    exact ⟨_, _, nodeAt_num (gam_isNode hn ha), nodeAt_num (gam_isNode hn hb), hab⟩

/-! ### honest sub-key lists -/

/-- `s` is an honest sub key of node `v` -/
def SubAt (pp : PubParam G1 G2) (alpha : G1) (v : List Nat) (s : SubSecretKey G1 G2) : Prop :=
  ∃ rho, SubKeyFor pp alpha v rho s

theorem SubAt.time_eq {pp : PubParam G1 G2} {alpha : G1} {v : List Nat} {s : SubSecretKey G1 G2}
    (h : SubAt pp alpha v s) : s.time = num pp.depth v := h.choose_spec.time_eq

theorem SubAt.isNode {pp : PubParam G1 G2} {alpha : G1} {v : List Nat} {s : SubSecretKey G1 G2}
    (h : SubAt pp alpha v s) : IsNode pp.depth v := h.choose_spec.isNode

/-- the helper form of `Spec.KeyFor` -/
structure HKey (pp : PubParam G1 G2) (alpha : G1) (v : List Nat) (sk : SecretKey G1 G2) : Prop where
  suite : sk.ciphersuite = pp.ciphersuite
  time : sk.time = num pp.depth v
  node : IsNode pp.depth v
  prng : sk.prng.WF
  ssk : List.Forall₂ (SubAt pp alpha) (gam v) sk.ssk

theorem keyFor_iff {pp : PubParam G1 G2} {alpha : G1} {t : Nat} {sk : SecretKey G1 G2} :
    KeyFor pp alpha t sk ↔ ∃ v, NodeAt pp.depth t v ∧ HKey pp alpha v sk := by
  constructor
  · rintro ⟨h1, h2, h3, hp, vs, h4, h5⟩
    have hn : NodeAt pp.depth t (path pp.depth t) := nodeAt_iff.2 ⟨h3, rfl⟩
    have := (coverList_iff hn).1 h4
    subst this
    exact ⟨_, hn, h1, by rw [h2, nodeAt_num_eq hn], nodeAt_isNode hn, hp, h5⟩
  · rintro ⟨v, hn, h⟩
    exact ⟨h.suite, by rw [h.time, nodeAt_num_eq hn], (nodeAt_iff.1 hn).1, h.prng, gam v,
      (coverList_iff hn).2 rfl, h.ssk⟩

theorem HKey.keyFor {pp : PubParam G1 G2} {alpha : G1} {v : List Nat} {sk : SecretKey G1 G2}
    (h : HKey pp alpha v sk) : KeyFor pp alpha sk.time sk :=
  keyFor_iff.2 ⟨v, by rw [h.time]; exact nodeAt_num h.node, h⟩

namespace SecretKey

/-! ### `find_ancestor` -/

theorem foldlM_idx_eq {β : Type} (a : SubSecretKey G1 G2) (l : List (SubSecretKey G1 G2))
    (f : β → SubSecretKey G1 G2 → β) (r0 : β) (F : β → Nat → Res β)
    (hF : ∀ r i, F r i = (idx (a :: l) (i + 1) >>= fun s => .ok (f r s))) :
    (List.range l.length).foldlM F r0 = .ok (l.foldl f r0) := by
  have := foldlM_range_ok (f := F) (fun i => (l.take i).foldl f r0) l.length (by
    intro i hi
    rw [hF, idx_succ_cons, idx_lt hi, Res.ok_bind, List.take_add_one,
      List.getElem?_eq_getElem hi, Option.toList_some, List.foldl_append]
    rfl)
  simpa using this

/-- on a list sorted by time, the scan returns the last element not after `tar` -/
theorem scan_last (tar : Nat) (A : List (SubSecretKey G1 G2)) (r0 g : SubSecretKey G1 G2)
    (B : List (SubSecretKey G1 G2)) (hg : g.time ≤ tar)
    (hB : ∀ s ∈ B, tar < s.time) :
    (A ++ g :: B).foldl (fun res s => if s.time ≤ tar then s else res) r0 = g := by
  have key : ∀ (B : List (SubSecretKey G1 G2)) (r : SubSecretKey G1 G2),
      (∀ s ∈ B, tar < s.time) →
      B.foldl (fun res s => if s.time ≤ tar then s else res) r = r := by
    intro B
    induction B with
    | nil => intro r _; rfl
    | cons b B ih =>
      intro r h
      rw [List.foldl_cons, if_neg (by have := h b (by simp); omega)]
      exact ih r (fun s hs => h s (by simp [hs]))
  rw [List.foldl_append, List.foldl_cons, if_pos hg]
  exact key B g hB

theorem findAncestor_eq {sk : SecretKey G1 G2} {tar : Nat} {A B : List (SubSecretKey G1 G2)}
    {g : SubSecretKey G1 G2} (hs : sk.ssk = A ++ g :: B)
    (hg : g.time ≤ tar) (hB : ∀ s ∈ B, tar < s.time)
    (h0 : ∀ s, sk.ssk.head? = some s → s.time < tar) :
    findAncestor sk tar = .ok g.time := by
  cases A with
  | nil =>
    rw [List.nil_append] at hs
    have hlt := h0 g (by rw [hs]; rfl)
    unfold findAncestor
    rw [hs]
    simp only [List.isEmpty_cons, Bool.false_eq_true, if_false, idx_zero_cons, Res.ok_bind,
      List.length_cons, Nat.add_sub_cancel]
    rw [if_neg (by omega)]
    rw [foldlM_idx_eq g B (fun res s => if s.time ≤ tar then s else res) g _ (by
      intro r i
      congr 1
      funext s
      split <;> rfl)]
    have := scan_last tar [] g g B hg hB
    rw [List.nil_append, List.foldl_cons, if_pos hg] at this
    rw [this]
    rfl
  | cons a A =>
    rw [List.cons_append] at hs
    have hlt := h0 a (by rw [hs]; rfl)
    unfold findAncestor
    rw [hs]
    simp only [List.isEmpty_cons, Bool.false_eq_true, if_false, idx_zero_cons, Res.ok_bind]
    rw [if_neg (by omega)]
    have hl : (a :: (A ++ g :: B)).length - 1 = (A ++ g :: B).length := by simp
    rw [hl, foldlM_idx_eq a (A ++ g :: B) (fun res s => if s.time ≤ tar then s else res) a _ (by
      intro r i
      congr 1
      funext s
      split <;> rfl)]
    rw [scan_last tar A a g B hg hB]
    rfl

theorem dropUntil_eq {t : Nat} {A B : List (SubSecretKey G1 G2)} {g : SubSecretKey G1 G2}
    (hA : ∀ s ∈ A, s.time ≠ t) (hg : g.time = t) : dropUntil t (A ++ g :: B) = .ok (g :: B) := by
  induction A with
  | nil => simp [dropUntil, hg]
  | cons a A ih =>
    rw [List.cons_append, dropUntil, if_pos (hA a (by simp))]
    exact ih (fun s hs => hA s (by simp [hs]))

/-! ### the loop -/

theorem scanDup_eq {pf : Profile} {d : Nat} (hd : d ≤ 63) (u : List Nat)
    (pre B : List (SubSecretKey G1 G2)) (Bn : List (List Nat))
    (hB : List.Forall₂ (fun b s => IsNode d b ∧ SubSecretKey.time s = num d b) Bn B) :
    scanDup pf d (tvOf d u) (pre ++ B) (List.range' pre.length B.length) =
      .ok (Bn.contains u) := by
  induction hB generalizing pre with
  | nil => rfl
  | @cons b s Bn B h hrest ih =>
    have hi : idx (pre ++ s :: B) pre.length = .ok s := by
      rw [idx_eq_ok, List.getElem?_append_right (le_refl _), Nat.sub_self]; rfl
    rw [List.length_cons, List.range'_succ, scanDup, hi, Res.ok_bind, SubSecretKey.timeVec, h.2,
      init_num hd h.1, Res.ok_bind, List.contains_cons]
    by_cases hub : u = b
    · subst hub
      simp
    · rw [if_neg (fun h => hub (tvOf_inj h))]
      have := ih (pre ++ [s])
      rw [List.length_append, List.append_assoc] at this
      simp only [List.length_cons, List.length_nil, Nat.zero_add, List.singleton_append] at this
      rw [this]
      simp [hub]

/-- the sub keys created by an update besides the one for the target: for each suffix `w`, the
delegator `s` (of node `g`) delegated along `w` and re-randomised with its own draw; fails with
the assertion when a draw leads back to the PRNG state `p0`. -/
def freshLoop (sha : Bytes → Bytes) (pp : PubParam G1 G2) (p0 : Prng) (g : List Nat)
    (s : SubSecretKey G1 G2) : Prng → List (List Nat) → Res (List (SubSecretKey G1 G2) × Prng)
  | p, [] => .ok ([], p)
  | p, w :: ws =>
    if drawNext sha p DOM_SEP_SK_UPDATE = p0 then .panic .assertion
    else match freshLoop sha pp p0 g s (drawNext sha p DOM_SEP_SK_UPDATE) ws with
      | .ok (l, p') => .ok ((s.delegated (num pp.depth (g ++ w)) w).rerand pp (g ++ w)
          (drawVal sha p DOM_SEP_SK_UPDATE).val :: l, p')
      | .err e => .err e
      | .panic q => .panic q

/-- gluing the result of `freshLoop` into the working copy -/
def glue (sk : SecretKey G1 G2) (pre : List (SubSecretKey G1 G2)) (SB : List (SubSecretKey G1 G2)) :
    Res (List (SubSecretKey G1 G2) × Prng) → Res (SecretKey G1 G2)
  | .ok (l, p') => .ok { sk with ssk := pre ++ (l ++ SB), prng := p' }
  | .err e => .err e
  | .panic q => .panic q

/-- the sub keys after the delegator cannot coincide with a new one -/
theorem not_mem_sibs_of_append {d : Nat} {g w : List Nat} (hg : IsNode d g)
    (hgw : IsNode d (g ++ w)) : g ++ w ∉ sibs g := by
  intro h
  have h1 : g ++ w = g :=
    gam_unique hg hgw (by simp [gam, h]) (by simp [gam]) (List.prefix_refl _)
      (List.prefix_append g w)
  have h2 := gam_num_lt hg h
  rw [h1] at h2
  omega

/-- once all new entries are there, the loop stops: either the list is exhausted or the next entry
is the first of the old sub keys -/
theorem updateLoop_stop {sha : Bytes → Bytes} {pf : Profile} {pp : PubParam G1 G2} {p0 : Prng}
    (hd : pp.depth ≤ 63) (pre SB : List (SubSecretKey G1 G2)) (Bn : List (List Nat))
    (hB : List.Forall₂ (fun b s => IsNode pp.depth b ∧ SubSecretKey.time s = num pp.depth b) Bn SB)
    (i : Nat) (hi : pre.length = i + 1) (sk : SecretKey G1 G2) (hs : sk.ssk = pre ++ SB) :
    updateLoop sha pf pp p0 i (Bn.map (tvOf pp.depth)) sk = .ok sk := by
  cases Bn with
  | nil => rfl
  | cons b Bn =>
    have h := scanDup_eq (pf := pf) hd b pre SB _ hB
    rw [List.map_cons, updateLoop, hs]
    simp only
    have hl : (pre ++ SB).length - (i + 1) = SB.length := by rw [List.length_append]; omega
    rw [hl, ← hi, h]
    simp

theorem updateLoop_fresh {sha : Bytes → Bytes} (hsha : ∀ m, (sha m).length = 64) {pf : Profile}
    {pp : PubParam G1 G2} (S : ParamShape pp) {alpha : G1} {p0 : Prng} (hp0 : p0.WF)
    {g : List Nat} {s : SubSecretKey G1 G2} {rho : Nat} (hs : SubKeyFor pp alpha g rho s)
    (SB : List (SubSecretKey G1 G2))
    (hB : List.Forall₂ (fun b s => IsNode pp.depth b ∧ SubSecretKey.time s = num pp.depth b)
      (sibs g) SB)
    (ws : List (List Nat)) (hws : ∀ w ∈ ws, w ≠ [] ∧ IsNode pp.depth (g ++ w))
    (done : List (SubSecretKey G1 G2)) (i : Nat) (hi : done.length = i) (hi0 : i ≠ 0)
    (sk : SecretKey G1 G2) (hsk : sk.ssk = s :: (done ++ SB)) :
    updateLoop sha pf pp p0 i ((ws.map (g ++ ·) ++ sibs g).map (tvOf pp.depth)) sk =
      glue sk (s :: done) SB (freshLoop sha pp p0 g s sk.prng ws) := by
  induction ws generalizing done i sk with
  | nil =>
    rw [List.map_nil, List.nil_append,
      updateLoop_stop S.depth_le (s :: done) SB _ hB i (by simp [hi]) sk (by simp [hsk])]
    simp only [freshLoop, glue, List.nil_append]
    congr 1
    cases sk
    simp_all
  | cons w ws ih =>
    obtain ⟨hw, hgw⟩ := hws w (by simp)
    have hd := S.depth_le
    have h := scanDup_eq (pf := pf) hd (g ++ w) (s :: done) SB _ hB
    have hl : (s :: (done ++ SB)).length - (i + 1) = SB.length := by
      simp [← hi]
    have hnc : (sibs g).contains (g ++ w) = false := by
      rw [← Bool.not_eq_true, List.contains_iff_mem]
      exact not_mem_sibs_of_append hs.isNode hgw
    have hpl : (s :: done).length = i + 1 := by simp [hi]
    rw [hpl, List.cons_append, hnc] at h
    rw [List.map_cons, List.cons_append, List.map_cons, updateLoop, hsk]
    simp only
    rw [hl, h, Res.ok_bind]
    simp only [Bool.false_eq_true, if_false, idx_zero_cons, Res.ok_bind]
    rw [show (tvOf pp.depth (g ++ w)).time = num pp.depth (g ++ w) from rfl,
      SM.exec_ok (hs.delegate_eq S pf hgw hw)]
    simp only [Res.ok_bind]
    rw [if_pos hi0, sampleThenUpdate_exec hsha]
    simp only [Res.ok_bind]
    rw [freshLoop]
    by_cases hc : drawNext sha sk.prng DOM_SEP_SK_UPDATE = p0
    · rw [if_pos hc]
      rw [(Prng.eq_iff (drawNext_wf hsha _ _) hp0).2 hc]
      rfl
    · rw [if_neg hc]
      have : Prng.eq (drawNext sha sk.prng DOM_SEP_SK_UPDATE) p0 = false := by
        rw [← Bool.not_eq_true, Prng.eq_iff (drawNext_wf hsha _ _) hp0]
        exact hc
      rw [this]
      have hs' := hs.delegated S hgw
      rw [SM.exec_ok (hs'.randomization_eq S pf _)]
      simp only [Bool.not_false, assertRes_true, Res.ok_bind]
      set e := (s.delegated (num pp.depth (g ++ w)) w).rerand pp (g ++ w)
        (drawVal sha sk.prng DOM_SEP_SK_UPDATE).val with he
      have hins : vecInsert (s :: (done ++ SB)) (i + 1) e = .ok (s :: ((done ++ [e]) ++ SB)) := by
        unfold vecInsert
        rw [if_pos (by simp [hi]), List.take_succ_cons, List.drop_succ_cons, ← hi,
          List.take_left, List.drop_left]
        simp
      rw [hins, Res.ok_bind]
      have := ih (fun w hw => hws w (by simp [hw])) (done ++ [e]) (i + 1) (by simp [hi]) (by omega)
        { sk with ssk := s :: ((done ++ [e]) ++ SB)
                  prng := drawNext sha sk.prng DOM_SEP_SK_UPDATE } rfl
      rw [this]
      simp only
      cases freshLoop sha pp p0 g s (drawNext sha sk.prng DOM_SEP_SK_UPDATE) ws with
      | ok q => simp [glue]
      | err q => rfl
      | panic q => rfl

theorem freshLoop_spec {sha : Bytes → Bytes} {pp : PubParam G1 G2} (S : ParamShape pp)
    {alpha : G1} {p0 : Prng} {g : List Nat} {s : SubSecretKey G1 G2}
    (hs : SubAt pp alpha g s) (ws : List (List Nat)) (hws : ∀ w ∈ ws, IsNode pp.depth (g ++ w))
    (p : Prng) :
    (∃ l p', freshLoop sha pp p0 g s p ws = .ok (l, p') ∧
        List.Forall₂ (SubAt pp alpha) (ws.map (g ++ ·)) l) ∨
      freshLoop sha pp p0 g s p ws = .panic .assertion := by
  induction ws generalizing p with
  | nil => exact Or.inl ⟨[], p, rfl, .nil⟩
  | cons w ws ih =>
    rw [freshLoop]
    by_cases hc : drawNext sha p DOM_SEP_SK_UPDATE = p0
    · rw [if_pos hc]; exact Or.inr rfl
    · rw [if_neg hc]
      rcases ih (fun w hw => hws w (by simp [hw])) (drawNext sha p DOM_SEP_SK_UPDATE) with
        ⟨l, p', h1, h2⟩ | h1
      · rw [h1]
        obtain ⟨rho, hr⟩ := hs
        exact Or.inl ⟨_, _, rfl, .cons ⟨_, (hr.delegated S (hws w (by simp))).rerand _⟩ h2⟩
      · rw [h1]; exact Or.inr rfl

theorem freshLoop_wf {sha : Bytes → Bytes} (hsha : ∀ m, (sha m).length = 64)
    {pp : PubParam G1 G2} {p0 : Prng} {g : List Nat} {s : SubSecretKey G1 G2}
    {ws : List (List Nat)} {p p' : Prng} {l : List (SubSecretKey G1 G2)} (hp : p.WF)
    (h : freshLoop sha pp p0 g s p ws = .ok (l, p')) : p'.WF := by
  induction ws generalizing p l with
  | nil => cases h; exact hp
  | cons w ws ih =>
    rw [freshLoop] at h
    by_cases hc : drawNext sha p DOM_SEP_SK_UPDATE = p0
    · rw [if_pos hc] at h; cases h
    · rw [if_neg hc] at h
      cases hf : freshLoop sha pp p0 g s (drawNext sha p DOM_SEP_SK_UPDATE) ws with
      | ok q =>
        obtain ⟨l', q'⟩ := q
        rw [hf] at h
        cases h
        exact ih (drawNext_wf hsha _ _) hf
      | err e => rw [hf] at h; cases h
      | panic e => rw [hf] at h; cases h

/-! ### `update` -/

/-- the string mixed into the PRNG by an update at time `t` -/
def reseedInfo (t : Nat) : Bytes := DOM_SEP_SK_RERANDOMIZE_INFO ++ timeBytes t

theorem update_suite {sha : Bytes → Bytes} {pf : Profile} {pp : PubParam G1 G2} {tar : Nat}
    {seed : Bytes} {sk : SecretKey G1 G2} (h : sk.ciphersuite ≠ pp.ciphersuite) :
    update sha pf pp tar seed sk = (.err .ciphersuite, sk) := by
  unfold update
  rw [SM.get_bind, if_pos h]
  rfl

theorem maxTime_eq (pf : Profile) {d : Nat} (hd : d ≤ 63) :
    shl1 pf d = .ok (2 ^ d) ∧ sub64 pf (2 ^ d) 1 = .ok (2 ^ d - 1) := by
  refine ⟨shl1_lt (by omega), sub64_le Nat.one_le_two_pow ?_⟩
  exact Nat.pow_lt_pow_right (by omega) (by omega)

theorem update_time {sha : Bytes → Bytes} {pf : Profile} {pp : PubParam G1 G2}
    (hd : pp.depth ≤ 63) {tar : Nat} {seed : Bytes} {sk : SecretKey G1 G2}
    (h : sk.ciphersuite = pp.ciphersuite) (ht : tar ≤ sk.time ∨ 2 ^ pp.depth - 1 < tar) :
    update sha pf pp tar seed sk = (.err .timeStamp, sk) := by
  unfold update
  rw [SM.get_bind, if_neg (by simp [h])]
  simp only
  rw [(maxTime_eq pf hd).1, SM.lift_ok_bind, (maxTime_eq pf hd).2, SM.lift_ok_bind, if_pos ht]
  rfl

/-- writing back the result of the loop -/
def finish (sk : SecretKey G1 G2) (tar : Nat) (first : SubSecretKey G1 G2)
    (SB : List (SubSecretKey G1 G2)) : Res (List (SubSecretKey G1 G2) × Prng) →
    Res Unit × SecretKey G1 G2
  | .ok (l, p') => (.ok (), { sk with time := tar, ssk := first :: (l ++ SB), prng := p' })
  | .err e => (.err e, sk)
  | .panic q => (.panic q, sk)

/-- the entry of the gamma list above a later node: it is the last one not after the target -/
theorem gam_find {d : Nat} {v u : List Nat} (hv : IsNode d v) (hu : IsNode d u)
    (h : num d v ≤ num d u) :
    ∃ A g, gam v = A ++ g :: sibs g ∧ g <+: u ∧ (∀ a ∈ A, num d a < num d g) ∧
      num d g ≤ num d u ∧ ∀ b ∈ sibs g, num d u < num d b := by
  obtain ⟨g, hg, hgu⟩ := (gam_cover hv hu).1 h
  obtain ⟨A, B, hAB⟩ := List.append_of_mem hg
  have hB := gam_split hAB
  subst hB
  have hgn := gam_isNode hv hg
  have hsort := gam_sorted hv
  rw [hAB, List.pairwise_append] at hsort
  refine ⟨A, g, hAB, hgu, fun a ha => hsort.2.2 a ha g (by simp), ?_, ?_⟩
  · obtain ⟨w, rfl⟩ := hgu
    by_cases hw : w = []
    · subst hw; simp
    · exact Nat.le_of_lt (num_lt_of_append hu hw)
  · intro b hb
    by_contra hc
    have hbn := sibs_isNode hgn hb
    have hlt := gam_num_lt hgn hb
    have hi := (ancestor_interval hgn hu).1 hgu
    have hgb : g <+: b := (ancestor_interval hgn hbn).2 ⟨by omega, by omega⟩
    have := gam_unique hgn hbn (g := g) (g' := b) (by simp [gam]) (by simp [gam, hb]) hgb
      (List.prefix_refl _)
    subst this
    omega

theorem subAt_times {pp : PubParam G1 G2} {alpha : G1} {A : List (List Nat)}
    {SA : List (SubSecretKey G1 G2)} (h : List.Forall₂ (SubAt pp alpha) A SA) :
    List.Forall₂ (fun b s => IsNode pp.depth b ∧ SubSecretKey.time s = num pp.depth b) A SA := by
  induction h with
  | nil => exact .nil
  | cons h1 _ ih => exact .cons ⟨h1.isNode, h1.time_eq⟩ ih

theorem update_eq {sha : Bytes → Bytes} (hsha : ∀ m, (sha m).length = 64) {pf : Profile}
    {pp : PubParam G1 G2} (S : ParamShape pp) {alpha : G1} {v u : List Nat}
    {sk : SecretKey G1 G2} (h : HKey pp alpha v sk) (hu : IsNode pp.depth u)
    (hlt : num pp.depth v < num pp.depth u) (seed : Bytes) :
    ∃ A g SA sg SB, gam v = A ++ g :: sibs g ∧ sk.ssk = SA ++ sg :: SB ∧
      List.Forall₂ (SubAt pp alpha) A SA ∧ SubAt pp alpha g sg ∧
      List.Forall₂ (SubAt pp alpha) (sibs g) SB ∧
      ((g = u ∧ update sha pf pp (num pp.depth u) seed sk =
          (.ok (), { sk with time := num pp.depth u
                             ssk := sg :: SB
                             prng := mixed sha sk.prng seed (reseedInfo sk.time) })) ∨
       ∃ w, w ≠ [] ∧ u = g ++ w ∧ update sha pf pp (num pp.depth u) seed sk =
          finish sk (num pp.depth u) (sg.delegated (num pp.depth u) w) SB
            (freshLoop sha pp sk.prng g sg (mixed sha sk.prng seed (reseedInfo sk.time))
              (sibs w))) := by
  have hd := S.depth_le
  obtain ⟨A, g, hAg, hgu, hA, hgle, hB⟩ := gam_find h.node hu (Nat.le_of_lt hlt)
  have hss := h.ssk
  rw [hAg] at hss
  obtain ⟨SA, SR, hsk, hSA, hSR⟩ := forall₂_append_left hss
  cases hSR with
  | @cons _ sg _ SB hsg hSB =>
  refine ⟨A, g, SA, sg, SB, hAg, hsk, hSA, hsg, hSB, ?_⟩
  have hgn := hsg.isNode
  have tA : ∀ s ∈ SA, s.time < num pp.depth g := by
    intro s hs
    obtain ⟨a, ha, hr⟩ := forall₂_mem_right hSA hs
    rw [hr.time_eq]; exact hA a ha
  have tB : ∀ s ∈ SB, num pp.depth u < s.time := by
    intro s hs
    obtain ⟨a, ha, hr⟩ := forall₂_mem_right hSB hs
    rw [hr.time_eq]; exact hB a ha
  have hhead : ∀ s, sk.ssk.head? = some s → s.time < num pp.depth u := by
    intro s hs
    have h1 := h.ssk
    cases hc : sk.ssk with
    | nil => rw [hc] at hs; cases hs
    | cons a l =>
      rw [hc] at hs h1
      cases hs
      cases h1 with
      | cons h2 _ => rw [h2.time_eq]; exact hlt
  have hfa : findAncestor sk (num pp.depth u) = .ok (num pp.depth g) := by
    rw [← hsg.time_eq]
    exact findAncestor_eq hsk (by rw [hsg.time_eq]; exact hgle) tB hhead
  have hval := valid_num hu
  have hdrop : dropUntil (num pp.depth g) sk.ssk = .ok (sg :: SB) := by
    rw [hsk]
    exact dropUntil_eq (fun s hs => by have := tA s hs; omega) hsg.time_eq
  have hcommon : ¬ (sk.time ≥ num pp.depth u ∨ num pp.depth u > 2 ^ pp.depth - 1) := by
    rw [h.time]
    have := hval.2
    omega
  by_cases hgu' : g = u
  · left
    refine ⟨hgu', ?_⟩
    subst hgu'
    unfold update
    rw [SM.get_bind, if_neg (by simp [h.suite])]
    simp only
    rw [(maxTime_eq pf hd).1, SM.lift_ok_bind, (maxTime_eq pf hd).2, SM.lift_ok_bind,
      if_neg hcommon, hfa, SM.lift_ok_bind]
    simp only
    rw [rerandomize_exec hsha, SM.lift_ok_bind]
    simp only
    rw [hdrop, SM.lift_ok_bind]
    simp only [List.isEmpty_cons, Bool.false_eq_true, if_false, if_true]
    rfl
  · right
    obtain ⟨w, rfl⟩ := hgu
    have hw : w ≠ [] := by rintro rfl; simp at hgu'
    refine ⟨w, hw, rfl, ?_⟩
    have hne : num pp.depth g ≠ num pp.depth (g ++ w) := fun hc => hgu' (num_inj hgn hu hc)
    unfold update
    rw [SM.get_bind, if_neg (by simp [h.suite])]
    simp only
    rw [(maxTime_eq pf hd).1, SM.lift_ok_bind, (maxTime_eq pf hd).2, SM.lift_ok_bind,
      if_neg hcommon, hfa, SM.lift_ok_bind]
    rw [rerandomize_exec hsha, SM.lift_ok_bind]
    simp only
    rw [hdrop, SM.lift_ok_bind]
    simp only [List.isEmpty_cons, Bool.false_eq_true, if_false]
    rw [if_neg hne, init_num hd hu, SM.lift_ok_bind, gammaList_eq hd hu, SM.lift_ok_bind]
    -- the first iteration, for the target itself
    obtain ⟨rho, hrho⟩ := hsg
    have hgam : gam (g ++ w) = (g ++ w) :: ((sibs w).map (g ++ ·) ++ sibs g) := by
      rw [gam, sibs_append]
    have hscan := scanDup_eq (pf := pf) hd (g ++ w) [sg] SB _ (subAt_times hSB)
    have hnc : (sibs g).contains (g ++ w) = false := by
      rw [← Bool.not_eq_true, List.contains_iff_mem]
      exact not_mem_sibs_of_append hgn hu
    rw [hnc, List.singleton_append] at hscan
    rw [hgam, List.map_cons, updateLoop]
    simp only [List.length_cons, Nat.zero_add, Nat.add_sub_cancel]
    rw [List.length_singleton] at hscan
    rw [hscan, Res.ok_bind]
    simp only [Bool.false_eq_true, if_false, idx_zero_cons, Res.ok_bind]
    rw [show (tvOf pp.depth (g ++ w)).time = num pp.depth (g ++ w) from rfl,
      SM.exec_ok (hrho.delegate_eq S pf hu hw)]
    simp only [ne_eq, not_true_eq_false, if_false, Res.ok_bind]
    have hins : vecInsert (sg :: SB) 1 (sg.delegated (num pp.depth (g ++ w)) w) =
        .ok (sg :: ([sg.delegated (num pp.depth (g ++ w)) w] ++ SB)) := by
      simp [vecInsert]
    rw [hins, Res.ok_bind]
    have hsub : ∀ x ∈ sibs w, x ≠ [] ∧ IsNode pp.depth (g ++ x) := by
      intro x hx
      obtain ⟨a, b, _, rfl⟩ := mem_sibs.1 hx
      refine ⟨by simp, sibs_isNode hu ?_⟩
      rw [sibs_append]
      exact List.mem_append_left _ (List.mem_map_of_mem hx)
    rw [updateLoop_fresh hsha S h.prng hrho SB (subAt_times hSB) (sibs w) hsub
      [sg.delegated (num pp.depth (g ++ w)) w] 1 rfl (by omega) _ rfl]
    change (SM.lift (glue _ _ _ (freshLoop sha pp sk.prng g sg
      (mixed sha sk.prng seed (reseedInfo sk.time)) (sibs w))) >>= _) sk = _
    cases freshLoop sha pp sk.prng g sg (mixed sha sk.prng seed (reseedInfo sk.time)) (sibs w) with
    | ok q =>
      obtain ⟨l, p'⟩ := q
      rfl
    | err e => rfl
    | panic q => rfl

/-- an honest update: the new key is honest for the target, or the PRNG assertion fires and the key
is unchanged -/
theorem update_honest {sha : Bytes → Bytes} (hsha : ∀ m, (sha m).length = 64) {pf : Profile}
    {pp : PubParam G1 G2} (S : ParamShape pp) {alpha : G1} {v u : List Nat}
    {sk : SecretKey G1 G2} (h : HKey pp alpha v sk) (hu : IsNode pp.depth u)
    (hlt : num pp.depth v < num pp.depth u) (seed : Bytes) :
    (∃ sk', update sha pf pp (num pp.depth u) seed sk = (.ok (), sk') ∧ HKey pp alpha u sk') ∨
      update sha pf pp (num pp.depth u) seed sk = (.panic .assertion, sk) := by
  obtain ⟨A, g, SA, sg, SB, h1, h2, h3, h4, h5, h6⟩ := update_eq hsha (pf := pf) S h hu hlt seed
  rcases h6 with ⟨rfl, h6⟩ | ⟨w, hw, rfl, h6⟩
  · exact Or.inl ⟨_, h6, h.suite, rfl, hu, mixed_wf hsha _ _ _, .cons h4 h5⟩
  · have hws : ∀ x ∈ sibs w, IsNode pp.depth (g ++ x) := by
      intro x hx
      apply sibs_isNode hu
      rw [sibs_append]
      exact List.mem_append_left _ (List.mem_map_of_mem hx)
    rcases freshLoop_spec S h4 (sibs w) hws (sha := sha) (p0 := sk.prng)
      (mixed sha sk.prng seed (reseedInfo sk.time)) with ⟨l, p', h7, h8⟩ | h7
    · rw [h6, h7]
      refine Or.inl ⟨_, rfl, h.suite, rfl, hu, ?_, ?_⟩
      · exact freshLoop_wf hsha (mixed_wf hsha _ _ _) h7
      · obtain ⟨rho, hrho⟩ := h4
        rw [gam, sibs_append]
        exact .cons ⟨rho, hrho.delegated S hu⟩ (forall₂_append h8 h5)
    · rw [h6, h7]
      exact Or.inr rfl

end SecretKey

end Pixel
