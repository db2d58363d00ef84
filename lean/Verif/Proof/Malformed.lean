import Verif.Spec.Malformed
import Verif.Proof.Schedule

/-! # Helper lemmas for C103: updates of keys that did not come from key generation -/

namespace Pixel

open Spec Props

set_option linter.unusedSectionVars false

variable {G1 G2 GT : Type} [AddCommGroup G1] [AddCommGroup G2] [CommGroup GT]

/-! ### loops that can only panic with an index -/

theorem forM_index {σ β : Type} {f : β → SM σ Unit} {l : List β}
    (h : ∀ i ∈ l, ∀ s, (f i s).1 = .ok () ∨ (f i s).1 = .panic .index)
    (hb : ∃ i ∈ l, ∀ s, (f i s).1 = .panic .index) (s : σ) :
    (l.forM f s).1 = .panic .index := by
  induction l generalizing s with
  | nil => obtain ⟨i, hi, _⟩ := hb; cases hi
  | cons a l ih =>
    change ((f a >>= fun _ => l.forM f) s).1 = _
    rcases hr : f a s with ⟨r, s'⟩
    rcases h a (by simp) s with h1 | h1
    · rw [hr] at h1
      simp only at h1
      subst h1
      rw [SM.bind_run_ok hr]
      refine ih (fun i hi => h i (by simp [hi])) ?_ s'
      obtain ⟨i, hi, hp⟩ := hb
      rcases List.mem_cons.1 hi with rfl | hi
      · have := hp s
        rw [hr] at this
        cases this
      · exact ⟨i, hi, hp⟩
    · rw [hr] at h1
      simp only at h1
      subst h1
      rw [SM.bind_run_panic hr]

namespace SubSecretKey

/-- with too long an `hvector` (a malformed sub key), re-randomisation panics -/
theorem randomization_long {pf : Profile} {pp : PubParam G1 G2} (hd : pp.depth ≤ 63)
    {s : SubSecretKey G1 G2} {v : List Nat} (hv : IsNode pp.depth v) (ht : s.time = num pp.depth v)
    (hl : v.length + 1 ≤ pp.hlist.length)
    (hlen : pp.hlist.length < v.length + 1 + s.hvector.length) (r : Fr) :
    (randomization pf pp r s).1 = .panic .index := by
  obtain ⟨h0, hs, he⟩ : ∃ h0 hs, pp.hlist = h0 :: hs := by
    cases h : pp.hlist with
    | nil => rw [h] at hl; simp at hl
    | cons a l => exact ⟨a, l, rfl⟩
  unfold randomization timeVec
  simp only [SM.get_bind, SM.set_bind]
  rw [ht, init_num hd hv, SM.lift_ok_bind]
  have hi0 : idx pp.hlist 0 = .ok h0 := by rw [he]; rfl
  rw [hi0, SM.lift_ok_bind]
  have hloop := nodeLoop_eq (pp := pp) he hv.2 (by rw [he] at hl; simpa using hl)
  simp only [tvOf]
  rw [hloop, SM.lift_ok_bind, SM.get_bind, SM.set_bind, SM.get_bind]
  simp only
  refine forM_index (fun i _ q => ?_) ⟨s.hvector.length - 1, ?_, fun q => ?_⟩ _
  · by_cases h1 : v.length + i + 1 < pp.hlist.length
    · rw [idx_lt h1, SM.lift_ok_bind, SM.get_bind]
      by_cases h2 : i < q.hvector.length
      · rw [idx_lt h2, SM.lift_ok_bind]
        exact Or.inl rfl
      · rw [idx_ge (by omega)]
        exact Or.inr rfl
    · rw [idx_ge (by omega)]
      exact Or.inr rfl
  · rw [List.mem_range]
    omega
  · rw [idx_ge (by omega)]
    rfl

/-- how a delegation of a sub key with a long enough `hvector` ends -/
theorem delegate_cases {pf : Profile} {d tar : Nat} (hd : d ≤ 63) {s : SubSecretKey G1 G2}
    (hl : ∀ v, NodeAt d s.time v → v.length + s.hvector.length = d) :
    (∃ e, delegate pf tar d s = (.err e, s)) ∨
    ∃ v w, NodeAt d s.time v ∧ NodeAt d tar (v ++ w) ∧ w.length ≤ s.hvector.length ∧
      delegate pf tar d s = (.ok (), s.delegated tar w) := by
  by_cases hex : ∃ v w, NodeAt d s.time v ∧ NodeAt d tar (v ++ w) ∧ w ≠ []
  · obtain ⟨v, w, hv, hw, hne⟩ := hex
    have h1 := hl v hv
    have h2 := (nodeAt_isNode hw).1
    rw [List.length_append] at h2
    exact Or.inr ⟨v, w, hv, hw, by omega,
      (delegate_ok_iff hd).2 ⟨v, w, hv, hw, hne, by omega, rfl⟩⟩
  · obtain ⟨e, he, _⟩ := delegate_bad (pf := pf) hd hex
    exact Or.inl ⟨e, he⟩

end SubSecretKey

/-! ### what can only panic with the assertion -/

/-- if it panics, it is the assertion -/
def OnlyAssert {α : Type} (x : Res α) : Prop := ∀ p, x = .panic p → p = .assertion

theorem onlyAssert_ok {α : Type} (a : α) : OnlyAssert (.ok a) := fun _ h => by cases h
theorem onlyAssert_err {α : Type} (e : Err) : OnlyAssert (.err e : Res α) := fun _ h => by cases h

theorem onlyAssert_bind {α β : Type} {x : Res α} {f : α → Res β} (hx : OnlyAssert x)
    (hf : ∀ a, x = .ok a → OnlyAssert (f a)) : OnlyAssert (x >>= f) := by
  cases x with
  | ok a => exact hf a rfl
  | err e => exact onlyAssert_err e
  | panic p => intro q hq; cases hq; exact hx p rfl

namespace SecretKey

theorem dropUntil_first {t : Nat} (l : List (SubSecretKey G1 G2)) (h : ∃ s ∈ l, s.time = t) :
    ∃ A g B, l = A ++ g :: B ∧ g.time = t ∧ (∀ a ∈ A, SubSecretKey.time a ≠ t) ∧
      dropUntil t l = .ok (g :: B) := by
  induction l with
  | nil => obtain ⟨s, hs, _⟩ := h; cases hs
  | cons a l ih =>
    by_cases ha : a.time = t
    · exact ⟨[], a, l, rfl, ha, by simp, by rw [dropUntil, if_neg (by simp [ha])]⟩
    · obtain ⟨s, hs, hst⟩ := h
      rcases List.mem_cons.1 hs with rfl | hs
      · exact absurd hst ha
      · obtain ⟨A, g, B, rfl, h2, h4, h3⟩ := ih ⟨s, hs, hst⟩
        refine ⟨a :: A, g, B, rfl, h2, ?_, by rw [dropUntil, if_pos ha, h3]⟩
        intro b hb
        rcases List.mem_cons.1 hb with rfl | hb
        · exact ha
        · exact h4 b hb

theorem scanDup_only {pf : Profile} {d : Nat} (hd : d ≤ 63) (tv : TimeVec)
    (l : List (SubSecretKey G1 G2)) (js : List Nat) (hj : ∀ j ∈ js, j < l.length) :
    OnlyAssert (scanDup pf d tv l js) := by
  induction js with
  | nil => exact onlyAssert_ok _
  | cons j js ih =>
    have hjl := hj j (by simp)
    rw [scanDup, idx_lt hjl, Res.ok_bind]
    refine onlyAssert_bind ?_ fun a _ => ?_
    · unfold SubSecretKey.timeVec
      rcases init_cases (pf := pf) (t := l[j].time) hd with ⟨_, h⟩ | ⟨_, e, h⟩
      · rw [h]; exact onlyAssert_ok _
      · rw [h]; exact onlyAssert_err _
    · split
      · exact onlyAssert_ok _
      · exact ih fun j hj' => hj j (by simp [hj'])

theorem updateLoop_only {sha : Bytes → Bytes} (hsha : ∀ m, (sha m).length = 64) {pf : Profile}
    {pp : PubParam G1 G2} (S : ParamShape pp) {p0 : Prng} {s : SubSecretKey G1 G2}
    (hl : ∀ v, NodeAt pp.depth s.time v → v.length + s.hvector.length = pp.depth)
    (us : List (List Nat)) (rest : List (SubSecretKey G1 G2)) (i : Nat) (hi : i ≤ rest.length)
    (sk : SecretKey G1 G2) (hs : sk.ssk = s :: rest) :
    OnlyAssert (updateLoop sha pf pp p0 i (us.map (tvOf pp.depth)) sk) := by
  induction us generalizing rest i sk with
  | nil => rw [List.map_nil, updateLoop]; exact onlyAssert_ok _
  | cons u us ih =>
    have hd := S.depth_le
    rw [List.map_cons, updateLoop]
    simp only
    refine onlyAssert_bind (scanDup_only hd _ _ _ fun j hj => ?_) fun b _ => ?_
    · rw [List.mem_range'_1] at hj
      omega
    cases b with
    | true => exact onlyAssert_ok _
    | false =>
      rw [if_neg (by simp), hs, idx_zero_cons, Res.ok_bind]
      rcases SubSecretKey.delegate_cases (pf := pf) (tar := (tvOf pp.depth u).time) hd hl with
        ⟨e, he⟩ | ⟨v, w, hv, hw, hwl, he⟩
      · unfold SM.exec
        rw [he]
        exact onlyAssert_err _
      rw [SM.exec_ok he, Res.ok_bind]
      have key : ∀ (q : Prng) (s2 : SubSecretKey G1 G2),
          OnlyAssert (do
            let ssk ← vecInsert (s :: rest) (i + 1) s2
            updateLoop sha pf pp p0 (i + 1) (us.map (tvOf pp.depth)) { sk with ssk := ssk, prng := q }) := by
        intro q s2
        unfold vecInsert
        rw [if_pos (by simp [hi]), Res.ok_bind]
        refine ih (rest.take i ++ s2 :: rest.drop i) (i + 1) ?_ _ rfl
        simp
        omega
      by_cases hi0 : i ≠ 0
      · simp only [if_pos hi0]
        rw [sampleThenUpdate_exec hsha, Res.ok_bind]
        simp only
        refine onlyAssert_bind ?_ fun a ha => ?_
        · refine onlyAssert_bind ?_ fun _ _ => ?_
          · intro p hp
            unfold assertRes at hp
            split at hp
            · cases hp
            · cases hp; rfl
          · rw [SM.exec_ok (SubSecretKey.randomization_eq hd (nodeAt_isNode hw)
              (nodeAt_num_eq hw).symm ?_ _), Res.ok_bind]
            · exact onlyAssert_ok _
            · have h1 := hl v hv
              rw [S.hlist_len, List.length_append]
              unfold SubSecretKey.delegated
              rw [List.length_drop]
              omega
        · obtain ⟨_, _, ha⟩ := Res.bind_eq_ok.1 ha
          obtain ⟨⟨_, s3⟩, _, ha⟩ := Res.bind_eq_ok.1 ha
          cases ha
          simp only
          exact key _ _
      · simp only [if_neg hi0, Res.ok_bind, hs]
        exact key sk.prng _

/-! ### keys with the right times -/

/-- the right times, in terms of the nodes -/
structure RawKey (pp : PubParam G1 G2) (v : List Nat) (sk : SecretKey G1 G2) : Prop where
  suite : sk.ciphersuite = pp.ciphersuite
  time : sk.time = num pp.depth v
  node : IsNode pp.depth v
  prng : sk.prng.WF
  ssk : List.Forall₂ (fun b s => IsNode pp.depth b ∧ SubSecretKey.time s = num pp.depth b) (gam v) sk.ssk

theorem timesFor_iff {pp : PubParam G1 G2} {t : Nat} {sk : SecretKey G1 G2} :
    TimesFor pp t sk ↔ ∃ v, NodeAt pp.depth t v ∧ RawKey pp v sk := by
  constructor
  · rintro ⟨h1, h2, h3, h4, vs, h5, h6⟩
    have hv : NodeAt pp.depth t (path pp.depth t) := nodeAt_iff.2 ⟨h3, rfl⟩
    refine ⟨_, hv, h1, by rw [h2, nodeAt_num_eq hv], nodeAt_isNode hv, h4, ?_⟩
    rw [(coverList_iff hv).1 h5] at h6
    exact h6.imp fun a b h => ⟨nodeAt_isNode h, (nodeAt_num_eq h).symm⟩
  · rintro ⟨v, hv, h⟩
    refine ⟨h.suite, by rw [h.time, nodeAt_num_eq hv], (nodeAt_iff.1 hv).1, h.prng, gam v,
      (coverList_iff hv).2 rfl, h.ssk.imp fun a b hab => ?_⟩
    rw [hab.2]
    exact nodeAt_num hab.1

theorem loop_raw {sha : Bytes → Bytes} (hsha : ∀ m, (sha m).length = 64) {pf : Profile}
    {pp : PubParam G1 G2} (S : ParamShape pp) {p0 : Prng} (hp0 : p0.WF)
    {g : List Nat} {s : SubSecretKey G1 G2} (hgn : IsNode pp.depth g) (hst : s.time = num pp.depth g)
    (SB : List (SubSecretKey G1 G2))
    (hB : List.Forall₂ (fun b s => IsNode pp.depth b ∧ SubSecretKey.time s = num pp.depth b)
      (sibs g) SB)
    (ws : List (List Nat))
    (hws : ∀ w ∈ ws, w ≠ [] ∧ IsNode pp.depth (g ++ w) ∧ w.length ≤ s.hvector.length)
    (done : List (SubSecretKey G1 G2)) (i : Nat) (hi : done.length = i) (hi0 : i ≠ 0)
    (sk : SecretKey G1 G2) (hsk : sk.ssk = s :: (done ++ SB)) :
    (g.length + s.hvector.length ≤ pp.depth ∨ ws = [] →
      updateLoop sha pf pp p0 i ((ws.map (g ++ ·) ++ sibs g).map (tvOf pp.depth)) sk =
        glue sk (s :: done) SB (freshLoop sha pp p0 g s sk.prng ws)) ∧
    (pp.depth < g.length + s.hvector.length → ws ≠ [] →
      updateLoop sha pf pp p0 i ((ws.map (g ++ ·) ++ sibs g).map (tvOf pp.depth)) sk =
        .panic (if drawNext sha sk.prng DOM_SEP_SK_UPDATE = p0 then .assertion else .index)) := by
  induction ws generalizing done i sk with
  | nil =>
    refine ⟨fun _ => ?_, fun _ h => absurd rfl h⟩
    rw [List.map_nil, List.nil_append,
      updateLoop_stop S.depth_le (s :: done) SB _ hB i (by simp [hi]) sk (by simp [hsk])]
    simp only [freshLoop, glue, List.nil_append]
    congr 1
    cases sk
    simp_all
  | cons w ws ih =>
    obtain ⟨hw, hgw, hwl⟩ := hws w (by simp)
    have hd := S.depth_le
    have h := scanDup_eq (pf := pf) hd (g ++ w) (s :: done) SB _ hB
    have hl : (s :: (done ++ SB)).length - (i + 1) = SB.length := by
      simp [← hi]
    have hnc : (sibs g).contains (g ++ w) = false := by
      rw [← Bool.not_eq_true, List.contains_iff_mem]
      exact not_mem_sibs_of_append hgn hgw
    have hpl : (s :: done).length = i + 1 := by simp [hi]
    have hglen := hgw.1
    rw [List.length_append] at hglen
    have hdl : (s.delegated (num pp.depth (g ++ w)) w).hvector.length =
        s.hvector.length - w.length := by
      unfold SubSecretKey.delegated
      rw [List.length_drop]
    rw [hpl, List.cons_append, hnc] at h
    rw [List.map_cons, List.cons_append, List.map_cons, updateLoop, hsk]
    simp only
    rw [hl, h, Res.ok_bind]
    simp only [Bool.false_eq_true, if_false, idx_zero_cons, Res.ok_bind]
    rw [show (tvOf pp.depth (g ++ w)).time = num pp.depth (g ++ w) from rfl,
      SM.exec_ok (SubSecretKey.delegate_eq hd hgn hgw hw hst hwl)]
    simp only [Res.ok_bind]
    rw [if_pos hi0, sampleThenUpdate_exec hsha]
    simp only [Res.ok_bind]
    rw [freshLoop]
    by_cases hc : drawNext sha sk.prng DOM_SEP_SK_UPDATE = p0
    · rw [if_pos hc, if_pos hc, (Prng.eq_iff (drawNext_wf hsha _ _) hp0).2 hc]
      exact ⟨fun _ => rfl, fun _ _ => rfl⟩
    rw [if_neg hc, if_neg hc]
    have hne : Prng.eq (drawNext sha sk.prng DOM_SEP_SK_UPDATE) p0 = false := by
      rw [← Bool.not_eq_true, Prng.eq_iff (drawNext_wf hsha _ _) hp0]
      exact hc
    rw [hne]
    simp only [Bool.not_false, assertRes_true, Res.ok_bind]
    constructor
    · intro hlong
      have hlong' : g.length + s.hvector.length ≤ pp.depth := by
        rcases hlong with h | h
        · exact h
        · cases h
      rw [SM.exec_ok (SubSecretKey.randomization_eq hd hgw rfl
        (by rw [hdl, S.hlist_len, List.length_append]; omega) _)]
      simp only [Res.ok_bind]
      set e := (s.delegated (num pp.depth (g ++ w)) w).rerand pp (g ++ w)
        (drawVal sha sk.prng DOM_SEP_SK_UPDATE).val with he
      have hins : vecInsert (s :: (done ++ SB)) (i + 1) e = .ok (s :: ((done ++ [e]) ++ SB)) := by
        unfold vecInsert
        rw [if_pos (by simp [hi]), List.take_succ_cons, List.drop_succ_cons, ← hi,
          List.take_left, List.drop_left]
        simp
      rw [hins, Res.ok_bind]
      have := (ih (fun w hw => hws w (by simp [hw])) (done ++ [e]) (i + 1) (by simp [hi]) (by omega)
        { sk with ssk := s :: ((done ++ [e]) ++ SB)
                  prng := drawNext sha sk.prng DOM_SEP_SK_UPDATE } rfl).1 (Or.inl hlong')
      rw [this]
      simp only
      cases freshLoop sha pp p0 g s (drawNext sha sk.prng DOM_SEP_SK_UPDATE) ws with
      | ok q => simp [glue]
      | err q => rfl
      | panic q => rfl
    · intro hlong _
      have hp := SubSecretKey.randomization_long (pf := pf) hd hgw
        (s := s.delegated (num pp.depth (g ++ w)) w) rfl
        (by rw [S.hlist_len, List.length_append]; omega)
        (by rw [hdl, S.hlist_len, List.length_append]; omega)
        (drawVal sha sk.prng DOM_SEP_SK_UPDATE)
      unfold SM.exec
      rcases hr : (SubSecretKey.randomization pf pp (drawVal sha sk.prng DOM_SEP_SK_UPDATE))
        (s.delegated (num pp.depth (g ++ w)) w) with ⟨r, q⟩
      rw [hr] at hp
      simp only at hp
      subst hp
      rfl

theorem update_raw {sha : Bytes → Bytes} (hsha : ∀ m, (sha m).length = 64) {pf : Profile}
    {pp : PubParam G1 G2} (S : ParamShape pp) {v u : List Nat}
    {sk : SecretKey G1 G2} (h : RawKey pp v sk) (hu : IsNode pp.depth u)
    (hlt : num pp.depth v < num pp.depth u) (seed : Bytes) :
    ∃ A g SA sg SB, gam v = A ++ g :: sibs g ∧ sk.ssk = SA ++ sg :: SB ∧
      IsNode pp.depth g ∧ sg.time = num pp.depth g ∧
      List.Forall₂ (fun b s => IsNode pp.depth b ∧ SubSecretKey.time s = num pp.depth b) (sibs g) SB ∧
      ((g = u ∧ update sha pf pp (num pp.depth u) seed sk =
          (.ok (), { sk with time := num pp.depth u
                             ssk := sg :: SB
                             prng := mixed sha sk.prng seed (reseedInfo sk.time) })) ∨
       ∃ w, w ≠ [] ∧ u = g ++ w ∧
        (sg.hvector.length < w.length →
          update sha pf pp (num pp.depth u) seed sk = (.panic .index, sk)) ∧
        (w.length ≤ sg.hvector.length →
          (g.length + sg.hvector.length ≤ pp.depth ∨ sibs w = [] →
            update sha pf pp (num pp.depth u) seed sk =
              finish sk (num pp.depth u) (sg.delegated (num pp.depth u) w) SB
                (freshLoop sha pp sk.prng g sg (mixed sha sk.prng seed (reseedInfo sk.time))
                  (sibs w))) ∧
          (pp.depth < g.length + sg.hvector.length → sibs w ≠ [] →
            update sha pf pp (num pp.depth u) seed sk =
              (.panic (if drawNext sha (mixed sha sk.prng seed (reseedInfo sk.time))
                DOM_SEP_SK_UPDATE = sk.prng then .assertion else .index), sk)))) := by
  have hd := S.depth_le
  obtain ⟨A, g, hAg, hgu, hA, hgle, hB⟩ := gam_find h.node hu (Nat.le_of_lt hlt)
  have hss := h.ssk
  rw [hAg] at hss
  obtain ⟨SA, SR, hsk, hSA, hSR⟩ := forall₂_append_left hss
  cases hSR with
  | @cons _ sg _ SB hsg hSB =>
  obtain ⟨hgn, hst⟩ := hsg
  refine ⟨A, g, SA, sg, SB, hAg, hsk, hgn, hst, hSB, ?_⟩
  have tA : ∀ s ∈ SA, s.time < num pp.depth g := by
    intro s hs
    obtain ⟨a, ha, hr⟩ := forall₂_mem_right hSA hs
    rw [hr.2]; exact hA a ha
  have tB : ∀ s ∈ SB, num pp.depth u < s.time := by
    intro s hs
    obtain ⟨a, ha, hr⟩ := forall₂_mem_right hSB hs
    rw [hr.2]; exact hB a ha
  have hhead : ∀ s, sk.ssk.head? = some s → s.time < num pp.depth u := by
    intro s hs
    have h1 := h.ssk
    cases hc : sk.ssk with
    | nil => rw [hc] at hs; cases hs
    | cons a l =>
      rw [hc] at hs h1
      cases hs
      cases h1 with
      | cons h2 _ => rw [h2.2]; exact hlt
  have hfa : findAncestor sk (num pp.depth u) = .ok (num pp.depth g) := by
    rw [← hst]
    exact findAncestor_eq hsk (by rw [hst]; exact hgle) tB hhead
  have hval := valid_num hu
  have hdrop : dropUntil (num pp.depth g) sk.ssk = .ok (sg :: SB) := by
    rw [hsk]
    exact dropUntil_eq (fun s hs => by have := tA s hs; omega) hst
  have hcommon : ¬ (sk.time ≥ num pp.depth u ∨ num pp.depth u > 2 ^ pp.depth - 1) := by
    rw [h.time]
    have := hval.2
    omega
  by_cases hgu' : g = u
  · left
    refine ⟨hgu', ?_⟩
    subst hgu'
    unfold update
    rw [SM.get_bind, if_neg (by simp [h.suite])]
    simp only
    rw [(maxTime_eq pf hd).1, SM.lift_ok_bind, (maxTime_eq pf hd).2, SM.lift_ok_bind,
      if_neg hcommon, hfa, SM.lift_ok_bind]
    simp only
    rw [rerandomize_exec hsha, SM.lift_ok_bind]
    simp only
    rw [hdrop, SM.lift_ok_bind]
    simp only [List.isEmpty_cons, Bool.false_eq_true, if_false, if_true]
    rfl
  · right
    obtain ⟨w, rfl⟩ := hgu
    have hw : w ≠ [] := by rintro rfl; simp at hgu'
    refine ⟨w, hw, rfl, ?_⟩
    have hne : num pp.depth g ≠ num pp.depth (g ++ w) := fun hc => hgu' (num_inj hgn hu hc)
    have hgam : gam (g ++ w) = (g ++ w) :: ((sibs w).map (g ++ ·) ++ sibs g) := by
      rw [gam, sibs_append]
    have hscan := scanDup_eq (pf := pf) hd (g ++ w) [sg] SB _ hSB
    have hnc : (sibs g).contains (g ++ w) = false := by
      rw [← Bool.not_eq_true, List.contains_iff_mem]
      exact not_mem_sibs_of_append hgn hu
    rw [hnc, List.singleton_append, List.length_singleton] at hscan
    have hrun : ∀ x : Res (SecretKey G1 G2),
        updateLoop sha pf pp sk.prng 0 ((gam (g ++ w)).map (tvOf pp.depth))
          { ciphersuite := sk.ciphersuite, time := num pp.depth g, ssk := sg :: SB,
            prng := mixed sha sk.prng seed (reseedInfo sk.time) } = x →
        update sha pf pp (num pp.depth (g ++ w)) seed sk =
          (SM.lift x >>= fun newSk => do
            let ssk ← SM.lift (removeFirst newSk.ssk)
            let newSk := { newSk with ssk := ssk }
            let first ← SM.lift (idx newSk.ssk 0)
            let newSk := { newSk with time := first.time }
            SM.set newSk
            pure ()) sk := by
      intro x hx
      unfold update
      rw [SM.get_bind, if_neg (by simp [h.suite])]
      simp only
      rw [(maxTime_eq pf hd).1, SM.lift_ok_bind, (maxTime_eq pf hd).2, SM.lift_ok_bind,
        if_neg hcommon, hfa, SM.lift_ok_bind]
      rw [rerandomize_exec hsha, SM.lift_ok_bind]
      simp only
      rw [hdrop, SM.lift_ok_bind]
      simp only [List.isEmpty_cons, Bool.false_eq_true, if_false]
      rw [if_neg hne, init_num hd hu, SM.lift_ok_bind, gammaList_eq hd hu, SM.lift_ok_bind, ← hx]
      rfl
    have hsib : ∀ x ∈ sibs w, x ≠ [] ∧ IsNode pp.depth (g ++ x) ∧ x.length ≤ w.length := by
      intro x hx
      obtain ⟨a, b, hab, rfl⟩ := mem_sibs.1 hx
      refine ⟨by simp, sibs_isNode hu ?_, ?_⟩
      · rw [sibs_append]
        exact List.mem_append_left _ (List.mem_map_of_mem hx)
      · rw [hab]
        simp
    rw [hgam, List.map_cons, updateLoop] at hrun
    simp only [List.length_cons, Nat.zero_add, Nat.add_sub_cancel] at hrun
    rw [hscan, Res.ok_bind] at hrun
    simp only [Bool.false_eq_true, if_false, idx_zero_cons, Res.ok_bind] at hrun
    rw [show (tvOf pp.depth (g ++ w)).time = num pp.depth (g ++ w) from rfl] at hrun
    constructor
    · intro hshort
      have hp := SubSecretKey.delegate_short (pf := pf) hd hgn hu hw hst hshort
      have he : (SubSecretKey.delegate pf (num pp.depth (g ++ w)) pp.depth).exec sg =
          .panic .index := by
        unfold SM.exec
        rcases hr : (SubSecretKey.delegate pf (num pp.depth (g ++ w)) pp.depth) sg with ⟨r, q⟩
        rw [hr] at hp
        simp only at hp
        subst hp
        rfl
      rw [he] at hrun
      rw [hrun _ rfl]
      rfl
    · intro hwl
      rw [SM.exec_ok (SubSecretKey.delegate_eq hd hgn hu hw hst hwl)] at hrun
      simp only [ne_eq, not_true_eq_false, if_false, Res.ok_bind] at hrun
      have hins : vecInsert (sg :: SB) 1 (sg.delegated (num pp.depth (g ++ w)) w) =
          .ok (sg :: ([sg.delegated (num pp.depth (g ++ w)) w] ++ SB)) := by
        simp [vecInsert]
      rw [hins, Res.ok_bind] at hrun
      obtain ⟨l1, l2⟩ := loop_raw hsha (pf := pf) S h.prng hgn hst SB hSB (sibs w)
        (fun x hx => ⟨(hsib x hx).1, (hsib x hx).2.1, (hsib x hx).2.2.trans hwl⟩)
        [sg.delegated (num pp.depth (g ++ w)) w] 1 rfl (by omega)
        { ciphersuite := sk.ciphersuite, time := num pp.depth g,
          ssk := sg :: ([sg.delegated (num pp.depth (g ++ w)) w] ++ SB),
          prng := mixed sha sk.prng seed (reseedInfo sk.time) } rfl
      constructor
      · intro hc
        rw [hrun _ (l1 hc)]
        change (SM.lift (glue _ _ _ (freshLoop sha pp sk.prng g sg
          (mixed sha sk.prng seed (reseedInfo sk.time)) (sibs w))) >>= _) sk = _
        cases freshLoop sha pp sk.prng g sg (mixed sha sk.prng seed (reseedInfo sk.time)) (sibs w) with
        | ok q =>
          obtain ⟨l, p'⟩ := q
          rfl
        | err e => rfl
        | panic q => rfl
      · intro hc hne'
        rw [hrun _ (l2 hc hne')]
        rfl

theorem freshLoop_raw {sha : Bytes → Bytes} {pp : PubParam G1 G2} {p0 : Prng} {g : List Nat}
    {s : SubSecretKey G1 G2} {ws : List (List Nat)} {p p' : Prng} {l : List (SubSecretKey G1 G2)}
    (h : freshLoop sha pp p0 g s p ws = .ok (l, p')) :
    List.Forall₂ (fun b s => SubSecretKey.time s = num pp.depth b) (ws.map (g ++ ·)) l := by
  induction ws generalizing p l with
  | nil => cases h; exact .nil
  | cons w ws ih =>
    rw [freshLoop] at h
    split at h
    · cases h
    · cases hf : freshLoop sha pp p0 g s (drawNext sha p DOM_SEP_SK_UPDATE) ws with
      | ok q =>
        obtain ⟨l', q'⟩ := q
        rw [hf] at h
        cases h
        exact .cons rfl (ih hf)
      | err e => rw [hf] at h; cases h
      | panic e => rw [hf] at h; cases h

theorem forall₂_raw {d : Nat} {X Y : List (List Nat)} {l m : List (SubSecretKey G1 G2)}
    (h : List.Forall₂ (fun b s => SubSecretKey.time s = num d b) X l) (hX : ∀ b ∈ X, IsNode d b)
    (h' : List.Forall₂ (fun b s => IsNode d b ∧ SubSecretKey.time s = num d b) Y m) :
    List.Forall₂ (fun b s => IsNode d b ∧ SubSecretKey.time s = num d b) (X ++ Y) (l ++ m) := by
  induction h with
  | nil => exact h'
  | cons h1 _ ih => exact .cons ⟨hX _ (by simp), h1⟩ (ih fun b hb => hX b (by simp [hb]))

theorem update_only {sha : Bytes → Bytes} (hsha : ∀ m, (sha m).length = 64) (pf : Profile)
    {pp : PubParam G1 G2} (S : ParamShape pp) (sk : SecretKey G1 G2) (hl : RightLengths pp sk)
    (tar : Nat) (seed : Bytes) : OnlyAssert (update sha pf pp tar seed sk).1 := by
  have hd := S.depth_le
  by_cases hsuite : sk.ciphersuite = pp.ciphersuite
  swap
  · rw [update_suite hsuite]
    exact onlyAssert_err _
  by_cases htime : sk.time < tar ∧ tar ≤ 2 ^ pp.depth - 1
  swap
  · rw [update_time hd hsuite (by omega)]
    exact onlyAssert_err _
  have hval : ValidTime pp.depth tar := ⟨by omega, htime.2⟩
  have hu := path_isNode hval
  unfold update
  rw [SM.get_bind, if_neg (by simp [hsuite])]
  simp only
  rw [(maxTime_eq pf hd).1, SM.lift_ok_bind, (maxTime_eq pf hd).2, SM.lift_ok_bind,
    if_neg (by omega)]
  cases hssk : sk.ssk with
  | nil =>
    have : findAncestor sk tar = .err .sskEmpty := by
      unfold findAncestor
      rw [hssk]
      rfl
    rw [this]
    exact onlyAssert_err _
  | cons s0 rest =>
  by_cases h0 : tar ≤ s0.time
  · have : findAncestor sk tar = .err .timeStamp := by
      unfold findAncestor
      rw [hssk]
      change (if s0.time ≥ tar then _ else _) = _
      rw [if_pos h0]
    rw [this]
    exact onlyAssert_err _
  obtain ⟨A, g, B, hAB, hg, hB⟩ := exists_last (tar := tar) sk.ssk
    ⟨s0, by rw [hssk]; simp, by omega⟩
  have hfa : findAncestor sk tar = .ok g.time := findAncestor_eq hAB hg hB (by
    intro s hs
    rw [hssk] at hs
    cases hs
    omega)
  obtain ⟨A', g', B', hAB', hg', _, hdrop⟩ := dropUntil_first (t := g.time) sk.ssk
    ⟨g, by rw [hAB]; simp, rfl⟩
  rw [hssk] at hdrop
  rw [hfa, SM.lift_ok_bind, rerandomize_exec hsha, SM.lift_ok_bind]
  simp only
  rw [hdrop, SM.lift_ok_bind]
  simp only [List.isEmpty_cons, Bool.false_eq_true, if_false]
  by_cases hgt : g.time = tar
  · rw [if_pos hgt]
    exact onlyAssert_ok _
  rw [if_neg hgt, init_valid hd hval, SM.lift_ok_bind]
  have htv : ({ time := tar, vec := path pp.depth tar } : TimeVec) =
      tvOf pp.depth (path pp.depth tar) := by simp [tvOf, num_path hval]
  rw [htv, gammaList_eq hd hu, SM.lift_ok_bind]
  have honly := updateLoop_only hsha (pf := pf) S (p0 := sk.prng)
    (hl g' (by rw [hAB']; simp)) (gam (path pp.depth tar)) B' 0 (Nat.zero_le _)
    { ciphersuite := sk.ciphersuite, time := g.time, ssk := g' :: B',
      prng := mixed sha sk.prng seed (reseedInfo sk.time) } rfl
  change OnlyAssert ((SM.lift (updateLoop sha pf pp sk.prng 0
    ((gam (path pp.depth tar)).map (tvOf pp.depth))
    { ciphersuite := sk.ciphersuite, time := g.time, ssk := g' :: B',
      prng := mixed sha sk.prng seed (reseedInfo sk.time) }) >>= _) sk).1
  cases hloop : updateLoop sha pf pp sk.prng 0 ((gam (path pp.depth tar)).map (tvOf pp.depth))
    { ciphersuite := sk.ciphersuite, time := g.time, ssk := g' :: B',
      prng := mixed sha sk.prng seed (reseedInfo sk.time) } with
  | err e => exact onlyAssert_err _
  | panic p =>
    intro q hq
    cases hq
    exact honly p hloop
  | ok sk2 =>
    rw [SM.lift_ok_bind]
    obtain ⟨h1, N, n, h2, h3, h4, h5⟩ := updateLoop_times hd (gam (path pp.depth tar))
      (fun u hu' => gam_isNode hu hu') [g'] B' 0 rfl _ _ rfl hloop
    rw [List.singleton_append] at h2
    rw [h2]
    simp only [removeFirst]
    rw [SM.lift_ok_bind]
    have hne : ∃ a l, N ++ B' = a :: l := by
      cases hN : N ++ B' with
      | cons a l => exact ⟨a, l, rfl⟩
      | nil =>
        obtain ⟨rfl, rfl⟩ := List.append_eq_nil_iff.1 hN
        cases n with
        | zero =>
          rcases h5 rfl with h5 | ⟨u, h5, h6⟩
          · simp [gam] at h5
          · simp at h6
        | succ n => simp [gam] at h3
    obtain ⟨a, l, hal⟩ := hne
    rw [hal, idx_zero_cons, SM.lift_ok_bind]
    exact onlyAssert_ok _

/-! ### keys with any valid times -/

theorem updateLoop_any {sha : Bytes → Bytes} (hsha : ∀ m, (sha m).length = 64) {pf : Profile}
    {pp : PubParam G1 G2} (S : ParamShape pp) {p0 : Prng} {s : SubSecretKey G1 G2}
    (hl : ∀ v, NodeAt pp.depth s.time v → v.length + s.hvector.length = pp.depth)
    (hsv : ValidTime pp.depth s.time)
    (B : List (SubSecretKey G1 G2)) (hB : ∀ b ∈ B, ValidTime pp.depth b.time)
    (us : List (List Nat)) (hus : ∀ u ∈ us, IsNode pp.depth u)
    (done : List (SubSecretKey G1 G2)) (i : Nat) (hi : done.length = i)
    (sk : SecretKey G1 G2) (hs : sk.ssk = s :: (done ++ B)) (N : List Nat)
    (hN : N = (us.map (num pp.depth)).takeWhile fun t => ! (B.map SubSecretKey.time).contains t) :
    ((∀ t ∈ N, Below pp.depth s.time t) →
      (∃ sk' new, updateLoop sha pf pp p0 i (us.map (tvOf pp.depth)) sk = .ok sk' ∧
        sk'.ssk = s :: (done ++ (new ++ B)) ∧ new.map SubSecretKey.time = N) ∨
      updateLoop sha pf pp p0 i (us.map (tvOf pp.depth)) sk = .panic .assertion) ∧
    ((¬ ∀ t ∈ N, Below pp.depth s.time t) →
      updateLoop sha pf pp p0 i (us.map (tvOf pp.depth)) sk = .err .timeNonePrefix ∨
      updateLoop sha pf pp p0 i (us.map (tvOf pp.depth)) sk = .panic .assertion) := by
  induction us generalizing done i sk N with
  | nil =>
    subst hN
    refine ⟨fun _ => Or.inl ⟨sk, [], rfl, by simpa using hs, rfl⟩, fun h => absurd ?_ h⟩
    intro t ht
    cases ht
  | cons u us ih =>
    have hd := S.depth_le
    have hu := hus u (by simp)
    have hscan := scanDup_eq (pf := pf) hd u (s :: done) B
      (B.map fun b => path pp.depth b.time) (by
        rw [List.forall₂_map_left_iff, List.forall₂_same]
        exact fun b hb => ⟨path_isNode (hB b hb), (num_path (hB b hb)).symm⟩)
    have hcon : (B.map fun b => path pp.depth b.time).contains u =
        (B.map SubSecretKey.time).contains (num pp.depth u) := by
      rw [Bool.eq_iff_iff]
      simp only [List.contains_iff_mem, List.mem_map]
      constructor
      · rintro ⟨b, hb, rfl⟩
        exact ⟨b, hb, (num_path (hB b hb)).symm⟩
      · rintro ⟨b, hb, hbt⟩
        refine ⟨b, hb, num_inj (path_isNode (hB b hb)) hu ?_⟩
        rw [num_path (hB b hb), hbt]
    have hpl : (s :: done).length = i + 1 := by simp [hi]
    have hlen : (s :: (done ++ B)).length - (i + 1) = B.length := by simp [← hi]
    rw [hpl, List.cons_append, hcon] at hscan
    rw [List.map_cons, List.takeWhile_cons] at hN
    rw [List.map_cons, updateLoop, hs]
    simp only
    rw [hlen, hscan, Res.ok_bind]
    cases hc : (B.map SubSecretKey.time).contains (num pp.depth u) with
    | true =>
      rw [hc] at hN
      simp only [Bool.not_true, Bool.false_eq_true, if_false] at hN
      subst hN
      rw [if_pos rfl]
      refine ⟨fun _ => Or.inl ⟨sk, [], rfl, by simpa using hs, rfl⟩, fun h => absurd ?_ h⟩
      intro t ht
      cases ht
    | false =>
      rw [hc] at hN
      simp only [Bool.not_false, if_true] at hN
      rw [if_neg (by simp), idx_zero_cons, Res.ok_bind]
      by_cases hb : Below pp.depth s.time (num pp.depth u)
      swap
      · obtain ⟨e, he, hi2⟩ := SubSecretKey.delegate_bad (pf := pf) hd (s := s) hb
        have : e = .timeNonePrefix := hi2.2 ⟨hsv, valid_num hu⟩
        subst this
        have he' : (SubSecretKey.delegate pf (tvOf pp.depth u).time pp.depth).exec s =
            .err .timeNonePrefix := by
          unfold SM.exec
          rw [show (tvOf pp.depth u).time = num pp.depth u from rfl, he]
        rw [he']
        refine ⟨fun h => absurd (h _ (by rw [hN]; simp)) hb, fun _ => Or.inl rfl⟩
      obtain ⟨v, w, hv, hw, hne⟩ := hb
      have hvl := hl v hv
      have hwl := (nodeAt_isNode hw).1
      rw [List.length_append] at hwl
      have he : SubSecretKey.delegate pf (num pp.depth u) pp.depth s =
          (.ok (), s.delegated (num pp.depth u) w) :=
        (SubSecretKey.delegate_ok_iff hd).2 ⟨v, w, hv, hw, hne, by omega, rfl⟩
      rw [show (tvOf pp.depth u).time = num pp.depth u from rfl, SM.exec_ok he, Res.ok_bind]
      have key : ∀ (q : Prng) (s2 : SubSecretKey G1 G2), s2.time = num pp.depth u →
          ((∀ t ∈ N, Below pp.depth s.time t) →
            (∃ sk' new, (do
                let ssk ← vecInsert (s :: (done ++ B)) (i + 1) s2
                updateLoop sha pf pp p0 (i + 1) (us.map (tvOf pp.depth))
                  { sk with ssk := ssk, prng := q }) = .ok sk' ∧
              sk'.ssk = s :: (done ++ (new ++ B)) ∧ new.map SubSecretKey.time = N) ∨
            (do
              let ssk ← vecInsert (s :: (done ++ B)) (i + 1) s2
              updateLoop sha pf pp p0 (i + 1) (us.map (tvOf pp.depth))
                { sk with ssk := ssk, prng := q }) = .panic .assertion) ∧
          ((¬ ∀ t ∈ N, Below pp.depth s.time t) →
            (do
              let ssk ← vecInsert (s :: (done ++ B)) (i + 1) s2
              updateLoop sha pf pp p0 (i + 1) (us.map (tvOf pp.depth))
                { sk with ssk := ssk, prng := q }) = .err .timeNonePrefix ∨
            (do
              let ssk ← vecInsert (s :: (done ++ B)) (i + 1) s2
              updateLoop sha pf pp p0 (i + 1) (us.map (tvOf pp.depth))
                { sk with ssk := ssk, prng := q }) = .panic .assertion) := by
        intro q s2 ht2
        have hins : vecInsert (s :: (done ++ B)) (i + 1) s2 = .ok (s :: ((done ++ [s2]) ++ B)) := by
          unfold vecInsert
          rw [if_pos (by simp [hi]), List.take_succ_cons, List.drop_succ_cons, ← hi,
            List.take_left, List.drop_left]
          simp
        rw [hins, Res.ok_bind]
        obtain ⟨i1, i2⟩ := ih (fun u hu => hus u (by simp [hu])) (done ++ [s2]) (i + 1)
          (by simp [hi]) { sk with ssk := s :: ((done ++ [s2]) ++ B), prng := q } rfl _ rfl
        have hsplit : (∀ t ∈ N, Below pp.depth s.time t) ↔
            ∀ t ∈ (us.map (num pp.depth)).takeWhile fun t => ! (B.map SubSecretKey.time).contains t,
              Below pp.depth s.time t := by
          rw [hN]
          simp only [List.forall_mem_cons]
          exact ⟨fun h => h.2, fun h => ⟨⟨v, w, hv, hw, hne⟩, h⟩⟩
        rw [hsplit]
        refine ⟨fun h => ?_, i2⟩
        rcases i1 h with ⟨sk', new, e1, e2, e3⟩ | e1
        · refine Or.inl ⟨sk', s2 :: new, e1, by rw [e2]; simp, ?_⟩
          rw [List.map_cons, e3, ht2, hN]
        · exact Or.inr e1
      by_cases hi0 : i ≠ 0
      · simp only [if_pos hi0]
        rw [sampleThenUpdate_exec hsha, Res.ok_bind]
        simp only
        unfold assertRes
        split
        · rw [Res.ok_bind, SM.exec_ok (SubSecretKey.randomization_eq hd (nodeAt_isNode hw)
              (nodeAt_num_eq hw).symm ?_ _), Res.ok_bind, Res.ok_bind]
          · exact key _ _ rfl
          · rw [S.hlist_len, List.length_append]
            unfold SubSecretKey.delegated
            rw [List.length_drop]
            omega
        · exact ⟨fun _ => Or.inr rfl, fun _ => Or.inr rfl⟩
      · simp only [if_neg hi0, Res.ok_bind, hs]
        exact key sk.prng _ rfl

end SecretKey

end Pixel
