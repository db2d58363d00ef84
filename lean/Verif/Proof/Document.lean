import Verif.Spec.Document
import Verif.Proof.PyRef
import Verif.Proof.Validate
import Verif.Proof.Agg

/-! # Lemmas on the transcription of `/repo/spec.md` -/

namespace Pixel.Doc

open Pixel Pixel.Spec

set_option linter.unusedSectionVars false

variable {G1 G2 GT : Type} [AddCommGroup G1] [AddCommGroup G2] [CommGroup GT]

/-! ### PRNG -/

theorem text_update : text "Pixel secret key update" = DOM_SEP_SK_UPDATE := by decide +kernel

theorem text_reseed : text "Pixel secret key rerandomize expand" = DOM_SEP_SK_RERANDOMIZE_INFO := by
  decide +kernel

theorem sampleThenUpdate_eq (sha : Bytes → Bytes) (p : Prng) (info : Bytes) :
    sampleThenUpdate sha p.seed info = (drawVal sha p info, (drawNext sha p info).seed) := by
  unfold sampleThenUpdate
  rw [natOfBytes_eq]
  rfl

theorem sample_eq (sha : Bytes → Bytes) (p : Prng) (info : Bytes) :
    sample sha p.seed info = drawVal sha p info := by
  unfold sample
  rw [natOfBytes_eq]
  rfl

theorem rerandomize_eq (sha : Bytes → Bytes) (p : Prng) (seed info : Bytes) :
    rerandomize sha p.seed seed info = (mixed sha p seed info).seed := rfl

/-! ### times -/

theorem vecOf_iff {d t : Nat} {v : List Nat} : vecOf d t = some v ↔ NodeAt d t v := by
  unfold vecOf NodeAt
  by_cases h : t = 0
  · rw [if_pos h]
    constructor
    · intro h'; cases h'
    · intro h'; omega
  · rw [if_neg h]
    constructor
    · intro h'; exact ⟨by omega, h'⟩
    · intro h'; exact h'.2

theorem vecOf_num {d : Nat} {v : List Nat} (h : IsNode d v) : vecOf d (num d v) = some v :=
  vecOf_iff.2 (nodeAt_num h)

theorem timeOf_num {d : Nat} {v : List Nat} (h : IsNode d v) : timeOf d v = num d v := by
  have hm : v ∈ preorder d := mem_preorder.2 h
  have hlt : (preorder d).idxOf v < (preorder d).length := List.idxOf_lt_length_iff.2 hm
  have hg : (preorder d)[(preorder d).idxOf v]? = some v := by
    rw [List.getElem?_eq_getElem hlt, List.getElem_idxOf hlt]
  have hn : NodeAt d ((preorder d).idxOf v + 1) v := ⟨by omega, by simpa using hg⟩
  exact (nodeAt_num_eq hn).symm

theorem gammaList_eq {d : Nat} {v : List Nat} (h : IsNode d v) : gammaList v = gam v := by
  have key : ∀ i, i ≤ v.length →
      (List.range i).reverse.filterMap
        (fun i => if v[i]? = some 1 then some (v.take i ++ [2]) else none) = sibs (v.take i) := by
    intro i hi
    induction i with
    | zero => simp
    | succ i ih =>
      have hlt : i < v.length := by omega
      have htake : v.take (i + 1) = v.take i ++ [v[i]] := by
        rw [List.take_add_one]; simp [hlt]
      rw [List.range_succ, List.reverse_append, List.reverse_singleton, List.singleton_append,
        List.filterMap_cons, htake, List.getElem?_eq_getElem hlt]
      rcases h.2 v[i] (List.getElem_mem hlt) with h1 | h1
      · rw [h1, if_pos rfl, sibs_snoc_one, ih (by omega)]
      · rw [h1, if_neg (by simp), sibs_snoc_two, ih (by omega)]
  have := key v.length (le_refl _)
  rw [List.take_length] at this
  unfold gammaList gam
  rw [this]

/-! ### sub keys -/

theorem delegate_eq {d : Nat} {s : SubSecretKey G1 G2} {v w : List Nat} (hv : IsNode d v)
    (hvw : IsNode d (v ++ w)) (ht : s.time = num d v) :
    delegate d s (num d (v ++ w)) = some (s.delegated (num d (v ++ w)) w) := by
  unfold delegate
  rw [ht, vecOf_num hv, vecOf_num hvw]
  simp only []
  rw [if_pos (List.prefix_append v w), List.drop_left]
  rfl

theorem randomization_eq {pp : PubParam G1 G2} {s : SubSecretKey G1 G2} {v : List Nat}
    (hv : IsNode pp.depth v) (ht : s.time = num pp.depth v) (r : Fr) :
    randomization pp s r = some (s.rerand pp v r.val) := by
  unfold randomization
  rw [ht, vecOf_num hv]
  unfold SubSecretKey.rerand
  rw [ht]

/-! ### update -/

theorem insertIdx_append_left {α : Type} (a b : List α) (x : α) {n : Nat} (h : a.length = n) :
    (a ++ b).insertIdx n x = a ++ x :: b := by
  subst h
  induction a with
  | nil => simp
  | cons c a ih => simp [ih]

/-- the sub keys, and the PRNG state, that an update with draw string `info` adds -/
def freshWith (sha : Bytes → Bytes) (info : Bytes) (pp : PubParam G1 G2) (g : List Nat)
    (s : SubSecretKey G1 G2) : Prng → List (List Nat) → List (SubSecretKey G1 G2) × Prng
  | p, [] => ([], p)
  | p, w :: ws =>
    let q := freshWith sha info pp g s (drawNext sha p info) ws
    ((s.delegated (num pp.depth (g ++ w)) w).rerand pp (g ++ w) (drawVal sha p info).val :: q.1, q.2)

theorem freshWith_code (sha : Bytes → Bytes) (pp : PubParam G1 G2) (g : List Nat)
    (s : SubSecretKey G1 G2) (p : Prng) (ws : List (List Nat)) :
    freshWith sha DOM_SEP_SK_UPDATE pp g s p ws = Py.freshAll sha pp g s p ws := by
  induction ws generalizing p with
  | nil => rfl
  | cons w ws ih => simp only [freshWith, Py.freshAll, ih]

theorem freshWith_sub (sha : Bytes → Bytes) (info : Bytes) {pp : PubParam G1 G2} (S : ParamShape pp)
    {alpha : G1} {g : List Nat} {s : SubSecretKey G1 G2} (hs : SubAt pp alpha g s)
    (ws : List (List Nat)) (hws : ∀ w ∈ ws, IsNode pp.depth (g ++ w)) (p : Prng) :
    List.Forall₂ (SubAt pp alpha) (ws.map (g ++ ·)) (freshWith sha info pp g s p ws).1 := by
  induction ws generalizing p with
  | nil => exact .nil
  | cons w ws ih =>
    obtain ⟨rho, hr⟩ := hs
    exact .cons ⟨_, (hr.delegated S (hws w (by simp))).rerand _⟩
      (ih (fun x hx => hws x (List.mem_cons_of_mem _ hx)) _)

theorem freshWith_wf {sha : Bytes → Bytes} (hsha : ∀ m, (sha m).length = 64) (info : Bytes)
    (pp : PubParam G1 G2) (g : List Nat) (s : SubSecretKey G1 G2) (p : Prng) (hp : p.WF)
    (ws : List (List Nat)) : (freshWith sha info pp g s p ws).2.WF := by
  induction ws generalizing p with
  | nil => exact hp
  | cons w ws ih => exact ih _ (okm2_length hsha _ _)

theorem loop_fresh (sha : Bytes → Bytes) (info : Bytes) {pp : PubParam G1 G2} {g : List Nat}
    (hg : IsNode pp.depth g) {s : SubSecretKey G1 G2} (ht : s.time = num pp.depth g)
    (ws : List (List Nat)) (hws : ∀ w ∈ ws, IsNode pp.depth (g ++ w)) (rest : List (List Nat))
    (p : Prng) (i : Nat) (hi : i ≠ 0) (pre SB : List (SubSecretKey G1 G2))
    (hpre : pre.length = i + 1) :
    updateLoop sha pp info s g i (ws.map (g ++ ·) ++ rest) (pre ++ SB, p.seed) =
      updateLoop sha pp info s g (i + ws.length) rest
        (pre ++ (freshWith sha info pp g s p ws).1 ++ SB, (freshWith sha info pp g s p ws).2.seed) := by
  induction ws generalizing p i pre with
  | nil => simp [freshWith]
  | cons w ws ih =>
    have hn := hws w (by simp)
    rw [List.map_cons, List.cons_append, updateLoop, if_pos (List.prefix_append g w),
      timeOf_num hn, delegate_eq hg hn ht]
    simp only []
    rw [if_neg hi, sampleThenUpdate_eq, randomization_eq hn (by rfl)]
    simp only []
    rw [insertIdx_append_left pre SB _ hpre]
    have := ih (fun x hx => hws x (List.mem_cons_of_mem _ hx)) (drawNext sha p info)
      (i + 1) (by omega)
      (pre ++ [(s.delegated (num pp.depth (g ++ w)) w).rerand pp (g ++ w)
        (drawVal sha p info).val]) (by simp [hpre])
    rw [List.append_assoc, List.singleton_append] at this
    rw [this, freshWith]
    simp only [List.length_cons, List.append_assoc, List.cons_append,
      List.nil_append]
    congr 1
    omega

theorem loop_skip (sha : Bytes → Bytes) (pp : PubParam G1 G2) (info : Bytes)
    (s : SubSecretKey G1 G2) (g : List Nat) (l : List (List Nat)) (h : ∀ e ∈ l, ¬ g <+: e) (i : Nat)
    (st : List (SubSecretKey G1 G2) × Bytes) : updateLoop sha pp info s g i l st = some st := by
  induction l generalizing i with
  | nil => rfl
  | cons e l ih =>
    obtain ⟨a, b⟩ := st
    rw [updateLoop, if_neg (h e (by simp))]
    exact ih (fun x hx => h x (List.mem_cons_of_mem _ hx)) (i + 1)

theorem findAncestor_eq {sk : SecretKey G1 G2} {tar : Nat} {SA SB : List (SubSecretKey G1 G2)}
    {sg : SubSecretKey G1 G2} (hsk : sk.ssk = SA ++ sg :: SB) (hA : ∀ s ∈ SA, s.time < sg.time)
    (hg : sg.time ≤ tar) (hB : ∀ s ∈ SB, tar < s.time) : findAncestor sk tar = some sg.time := by
  unfold findAncestor
  rw [List.max?_eq_some_iff, hsk]
  constructor
  · simp [hg]
  · intro b hb
    simp only [List.map_append, List.map_cons, List.mem_filter, List.mem_append, List.mem_cons,
      List.mem_map, decide_eq_true_eq] at hb
    obtain ⟨h1 | h1 | h1, h2⟩ := hb
    · obtain ⟨s, hs, rfl⟩ := h1
      exact Nat.le_of_lt (hA s hs)
    · omega
    · obtain ⟨s, hs, rfl⟩ := h1
      have := hB s hs
      omega

theorem update_explicit (sha : Bytes → Bytes) (info : Bytes) {pp : PubParam G1 G2} {alpha : G1}
    {v u : List Nat} {sk : SecretKey G1 G2} (h : HKey pp alpha v sk) (hu : IsNode pp.depth u)
    (hlt : num pp.depth v < num pp.depth u) (seed : Bytes) {A : List (List Nat)} {g : List Nat}
    {SA SB : List (SubSecretKey G1 G2)} {sg : SubSecretKey G1 G2} (hAg : gam v = A ++ g :: sibs g)
    (hsk : sk.ssk = SA ++ sg :: SB) (hSA : List.Forall₂ (SubAt pp alpha) A SA)
    (hsg : SubAt pp alpha g sg) (hSB : List.Forall₂ (SubAt pp alpha) (sibs g) SB) (hgp : g <+: u) :
    (g = u → update sha pp info (num pp.depth u) seed sk =
      some { sk with
        time := num pp.depth u
        ssk := sg :: SB
        prng := mixed sha sk.prng seed (SecretKey.reseedInfo sk.time) }) ∧
    ∀ w, w ≠ [] → u = g ++ w → update sha pp info (num pp.depth u) seed sk =
      some { sk with
        time := num pp.depth (g ++ w)
        ssk := sg.delegated (num pp.depth (g ++ w)) w ::
          ((freshWith sha info pp g sg (mixed sha sk.prng seed (SecretKey.reseedInfo sk.time))
            (sibs w)).1 ++ SB)
        prng := (freshWith sha info pp g sg (mixed sha sk.prng seed (SecretKey.reseedInfo sk.time))
            (sibs w)).2 } := by
  obtain ⟨A', g', hAg', hgu, hA, hgle, hB⟩ := SecretKey.gam_find h.node hu (Nat.le_of_lt hlt)
  obtain ⟨rfl, rfl⟩ : A = A' ∧ g = g' := by
    have hgg : g = g' := gam_unique h.node hu (by rw [hAg]; simp) (by rw [hAg']; simp) hgp hgu
    subst hgg
    have := hAg.symm.trans hAg'
    exact ⟨List.append_cancel_right this, rfl⟩
  have hgn := hsg.isNode
  have tA : ∀ s ∈ SA, s.time < sg.time := by
    intro s hs
    obtain ⟨a, ha, hr⟩ := forall₂_mem_right hSA hs
    rw [hr.time_eq, hsg.time_eq]; exact hA a ha
  have tB : ∀ s ∈ SB, num pp.depth u < s.time := by
    intro s hs
    obtain ⟨a, ha, hr⟩ := forall₂_mem_right hSB hs
    rw [hr.time_eq]; exact hB a ha
  have hfa := findAncestor_eq hsk tA (by rw [hsg.time_eq]; exact hgle) tB
  have hfilter : sk.ssk.filter (fun x => decide (sg.time ≤ x.time)) = sg :: SB := by
    rw [hsk, List.filter_append, List.filter_cons_of_pos (by simp)]
    have h1 : SA.filter (fun x => decide (sg.time ≤ x.time)) = [] := by
      rw [List.filter_eq_nil_iff]
      intro a ha
      have := tA a ha
      simpa using this
    have h2 : SB.filter (fun x => decide (sg.time ≤ x.time)) = SB := by
      rw [List.filter_eq_self]
      intro a ha
      have := tB a ha
      have := hsg.time_eq
      have : sg.time ≤ a.time := by omega
      simpa using this
    rw [h1, h2, List.nil_append]
  have hval := valid_num hu
  have hcond : sk.ciphersuite = pp.ciphersuite ∧ sk.time < num pp.depth u ∧
      num pp.depth u ≤ 2 ^ pp.depth - 1 := ⟨h.suite, by rw [h.time]; exact hlt, hval.2⟩
  have hinfo : text "Pixel secret key rerandomize expand" ++ be32 sk.time =
      SecretKey.reseedInfo sk.time := by
    rw [text_reseed, SecretKey.reseedInfo, timeBytes_eq]
  constructor
  · rintro rfl
    unfold update
    rw [if_pos hcond, hfa]
    simp only []
    rw [hfilter, if_pos hsg.time_eq, hinfo, rerandomize_eq, hsg.time_eq]
  · rintro w hw rfl
    have hne : sg.time ≠ num pp.depth (g ++ w) := by
      have := num_lt_of_append hu hw
      rw [hsg.time_eq]; omega
    have hws : ∀ x ∈ sibs w, IsNode pp.depth (g ++ x) := by
      intro x hx
      refine sibs_isNode hu ?_
      rw [sibs_append]
      exact List.mem_append_left _ (List.mem_map_of_mem hx)
    have hskip : ∀ e ∈ sibs g, ¬ g <+: e := by
      intro e he hpre
      have hen := sibs_isNode hgn he
      have := gam_unique hgn hen (g := g) (g' := e) (by simp [gam]) (by simp [gam, he]) hpre
        (List.prefix_refl _)
      have h2 := gam_num_lt hgn he
      rw [← this] at h2
      omega
    have hloop : updateLoop sha pp info sg g 0 (gammaList (g ++ w))
        (sg :: SB, (mixed sha sk.prng seed (SecretKey.reseedInfo sk.time)).seed) =
        some (sg :: sg.delegated (num pp.depth (g ++ w)) w ::
          ((freshWith sha info pp g sg (mixed sha sk.prng seed (SecretKey.reseedInfo sk.time))
            (sibs w)).1 ++ SB),
          (freshWith sha info pp g sg (mixed sha sk.prng seed (SecretKey.reseedInfo sk.time))
            (sibs w)).2.seed) := by
      rw [gammaList_eq hu, gam, sibs_append, updateLoop, if_pos (List.prefix_append g w),
        timeOf_num hu, delegate_eq hgn hu hsg.time_eq]
      simp only []
      rw [if_pos trivial]
      have := loop_fresh sha info hgn hsg.time_eq (sibs w) hws (sibs g)
        (mixed sha sk.prng seed (SecretKey.reseedInfo sk.time)) 1 (by omega)
        [sg, sg.delegated (num pp.depth (g ++ w)) w] SB rfl
      rw [loop_skip _ _ _ _ _ _ hskip] at this
      exact this
    unfold update
    rw [if_pos hcond, hfa]
    simp only []
    rw [hfilter, if_neg hne, hinfo, rerandomize_eq, List.head?_cons, hsg.time_eq,
      vecOf_num hgn, vecOf_num hu]
    simp only []
    rw [hloop]
    rfl

theorem update_eq {sha : Bytes → Bytes} (hsha : ∀ m, (sha m).length = 64) (pf : Profile)
    {pp : PubParam G1 G2} (S : ParamShape pp) {alpha : G1} {v u : List Nat}
    {sk : SecretKey G1 G2} (h : HKey pp alpha v sk) (hu : IsNode pp.depth u)
    (hlt : num pp.depth v < num pp.depth u) (seed : Bytes) :
    ∃ k, update sha pp DOM_SEP_SK_UPDATE (num pp.depth u) seed sk = some k ∧
      (SecretKey.update sha pf pp (num pp.depth u) seed sk = (.ok (), k) ∨
      SecretKey.update sha pf pp (num pp.depth u) seed sk = (.panic .assertion, sk)) := by
  obtain ⟨A, g, SA, sg, SB, hAg, hsk, hSA, hsg, hSB, hup⟩ :=
    SecretKey.update_eq hsha (pf := pf) S h hu hlt seed
  have hgp : g <+: u := by
    rcases hup with ⟨rfl, _⟩ | ⟨w, _, rfl, _⟩
    · exact List.prefix_refl _
    · exact List.prefix_append _ _
  have hex := update_explicit sha DOM_SEP_SK_UPDATE h hu hlt seed hAg hsk hSA hsg hSB hgp
  rcases hup with ⟨hgu, hup⟩ | ⟨w, hw, hgw, hup⟩
  · exact ⟨_, hex.1 hgu, Or.inl hup⟩
  · refine ⟨_, hex.2 w hw hgw, ?_⟩
    rw [hup, freshWith_code]
    subst hgw
    rcases Py.freshLoop_cases sha pp sk.prng g sg
      (mixed sha sk.prng seed (SecretKey.reseedInfo sk.time)) (sibs w) with hf | hf
    · left; rw [hf]; rfl
    · right; rw [hf]; rfl

/-- with whatever string for the draws, the document's update yields a key for the target time -/
theorem update_key {sha : Bytes → Bytes} (hsha : ∀ m, (sha m).length = 64) (info : Bytes)
    {pp : PubParam G1 G2} (S : ParamShape pp) {alpha : G1} {v u : List Nat}
    {sk : SecretKey G1 G2} (h : HKey pp alpha v sk) (hu : IsNode pp.depth u)
    (hlt : num pp.depth v < num pp.depth u) (seed : Bytes) :
    ∃ k, update sha pp info (num pp.depth u) seed sk = some k ∧ HKey pp alpha u k := by
  obtain ⟨A, g, SA, sg, SB, hAg, hsk, hSA, hsg, hSB, hup⟩ :=
    SecretKey.update_eq hsha (pf := .debug) S h hu hlt seed
  have hm : (mixed sha sk.prng seed (SecretKey.reseedInfo sk.time)).WF := hmac_length hsha _ _
  rcases hup with ⟨hgu, _⟩ | ⟨w, hw, hgw, _⟩
  · have hex := update_explicit sha info h hu hlt seed hAg hsk hSA hsg hSB
      (by rw [hgu])
    refine ⟨_, hex.1 hgu, h.suite, rfl, hu, hm, ?_⟩
    subst hgu
    exact .cons hsg hSB
  · have hex := update_explicit sha info h hu hlt seed hAg hsk hSA hsg hSB
      (by rw [hgw]; exact List.prefix_append _ _)
    refine ⟨_, hex.2 w hw hgw, h.suite, by rw [hgw], hu, freshWith_wf hsha _ _ _ _ _ hm _, ?_⟩
    subst hgw
    have hws : ∀ x ∈ sibs w, IsNode pp.depth (g ++ x) := by
      intro x hx
      refine sibs_isNode hu ?_
      rw [sibs_append]
      exact List.mem_append_left _ (List.mem_map_of_mem hx)
    rw [gam, sibs_append]
    obtain ⟨rho, hr⟩ := hsg
    exact .cons ⟨_, hr.delegated S hu⟩
      (List.rel_append (freshWith_sub sha info S ⟨rho, hr⟩ (sibs w) hws _) hSB)

theorem updates_keyFor {sha : Bytes → Bytes} (hsha : ∀ m, (sha m).length = 64)
    {pp : PubParam G1 G2} (S : ParamShape pp) {alpha : G1} {t : Nat} {sk sk' : SecretKey G1 G2}
    (h : KeyFor pp alpha t sk) (us : List (Bytes × Nat × Bytes))
    (hu : us.foldlM (fun k u => update sha pp u.1 u.2.1 u.2.2 k) sk = some sk') :
    ∃ t', KeyFor pp alpha t' sk' := by
  induction us generalizing sk t with
  | nil => cases hu; exact ⟨t, h⟩
  | cons u us ih =>
    rw [List.foldlM_cons] at hu
    obtain ⟨v, hv, hk⟩ := keyFor_iff.1 h
    by_cases hr : sk.time < u.2.1 ∧ u.2.1 ≤ 2 ^ pp.depth - 1
    · have hval : ValidTime pp.depth u.2.1 := ⟨by omega, hr.2⟩
      have hnt := num_path hval
      obtain ⟨k, h1, h2⟩ := update_key hsha u.1 S hk (path_isNode hval)
        (by rw [hnt, ← hk.time]; exact hr.1) u.2.2
      rw [hnt] at h1
      rw [h1] at hu
      exact ih (keyFor_iff.2 ⟨_, nodeAt_iff.2 ⟨hval, rfl⟩, h2⟩) hu
    · have hn : update sha pp u.1 u.2.1 u.2.2 sk = none := by
        unfold update
        rw [if_neg]
        rintro ⟨_, h1, h2⟩
        exact hr ⟨h1, h2⟩
      rw [hn] at hu
      cases hu

/-! ### signatures -/

theorem hashMsg_eq (sha : Bytes → Bytes) (msg : Bytes) (cs : UInt8) :
    hashMsg sha msg cs = msgField sha cs msg := rfl

theorem sign_eq {sha : Bytes → Bytes} (hsha : ∀ m, (sha m).length = 64) (pf : Profile)
    {pp : PubParam G1 G2} (S : ParamShape pp) (hsup : Supported pp.ciphersuite) {alpha : G1}
    {v : List Nat} {sk : SecretKey G1 G2} (h : HKey pp alpha v sk) {t : Nat} (ht : sk.time = t)
    (msg : Bytes) :
    ∃ sig, Signature.signPresent sha pf t pp msg sk = (.ok sig, sk) ∧
      sign sha sk t pp msg = some sig := by
  subst ht
  obtain ⟨s, l, hs⟩ : ∃ s l, sk.ssk = s :: l := by
    cases hc : sk.ssk with
    | nil => have := h.ssk; rw [hc] at this; cases this
    | cons a l => exact ⟨a, l, rfl⟩
  obtain ⟨rho, hk⟩ : ∃ rho, SubKeyFor pp alpha v rho s := by
    have h1 := h.ssk
    rw [hs] at h1
    cases h1 with
    | cons h2 _ => exact h2
  obtain ⟨h0, hl, hhl, hlen⟩ := hlist_cons S
  have hn := h.node
  have hn1 := hn.1
  have hloop := nodeLoop_eq (pp := pp) (v := v) hhl hn.2 (by omega)
  have hi0 : idx pp.hlist 0 = .ok h0 := by rw [hhl]; rfl
  have hlast : s.hvector.getLastD 0 = rho • pp.hlist.getLastD 0 := by
    have h1 := hvector_last S hk
    have hl0 := hk.hvector_length S
    unfold SubSecretKey.lastHvectorCoeff at h1
    cases hv : s.hvector with
    | nil => rw [hv] at hl0; simp at hl0; omega
    | cons a b =>
      rw [hv] at h1
      rw [List.getLastD_eq_getLast?, List.getLast?_eq_getElem?]
      have h2 : idx (a :: b) ((a :: b).length - 1) = .ok (rho • pp.hlist.getLastD 0) := by
        simpa using h1
      rw [idx_eq_ok] at h2
      rw [h2]; rfl
  refine ⟨{ ciphersuite := pp.ciphersuite, time := sk.time,
            sigma1 := s.g2r + mulFr (drawVal sha sk.prng (signInfo msg sk.time)) pp.g2,
            sigma2 := s.hpoly + mulFr (msgField sha pp.ciphersuite msg) (rho • pp.hlist.getLastD 0) +
              mulFr (drawVal sha sk.prng (signInfo msg sk.time)) (nodePoint pp v +
                mulFr (msgField sha pp.ciphersuite msg) (pp.hlist.getLastD 0)) }, ?_, ?_⟩
  · rw [Signature.signPresent_eq rfl]
    unfold Signature.signBytes
    simp only [validCiphersuite_contains.2 hsup, Bool.not_true, Bool.false_eq_true, if_false,
      h.suite, ne_eq, not_true_eq_false, decide_true, assertRes_true, Res.ok_bind]
    rw [sample_exec hsha]
    simp only [Res.ok_bind]
    rw [_root_.Pixel.hashMsg_eq hsha, Res.ok_bind]
    unfold Signature.signFr SecretKey.firstSsk SubSecretKey.timeVec
    simp only [decide_true, assertRes_true, Res.ok_bind, hs, List.isEmpty_cons, Bool.false_eq_true,
      if_false, idx_zero_cons]
    rw [hk.time_eq, init_num S.depth_le hn]
    simp only [Res.ok_bind, tvOf]
    rw [hi0, Res.ok_bind, hloop, Res.ok_bind, hlist_last S, Res.ok_bind, hvector_last S hk,
      Res.ok_bind]
  · have hinfo : text "Pixel randomness for signing" ++ msg ++ be32 sk.time =
        signInfo msg sk.time := by
      rw [show text "Pixel randomness for signing" = DOM_SEP_SIG by decide +kernel, signInfo,
        timeBytes_eq]
    have htv : vecOf pp.depth sk.time = some v := by rw [h.time]; exact vecOf_num hn
    unfold sign
    rw [if_pos ⟨rfl, h.suite, hsup⟩, htv, hs, List.head?_cons]
    simp only []
    rw [hinfo, sample_eq, hashMsg_eq, hlast]
    rfl

theorem verifies_iff [DecidableEq GT] {E : Ext G1 G2 GT} (H : HashLaws E) (L : GroupLaws E)
    (pf : Profile) {pp : PubParam G1 G2} (W : ParamWF E pp) (sig : Signature G1 G2)
    {pk : PublicKey G2} (hpk : E.inSub2 pk.pk = true) (msg : Bytes) :
    Signature.verifyBytes E pf sig pk pp msg = .ok true ↔ Verifies E sig pk.pk pp msg := by
  rw [Signature.verifyBytes_eq H W.toParamShape]
  simp only [Res.ok.injEq, decide_eq_true_eq]
  unfold Verifies
  refine and_congr Iff.rfl (and_congr Iff.rfl (and_congr_right fun h1 => and_congr_right fun h2 =>
    exists_congr fun v => ?_))
  rw [vecOf_iff]
  refine and_congr_right fun hv => ?_
  have hg2 : E.inSub2 (-pp.g2) = true := by rw [W.g2_gen]; exact L.sub2_neg _ L.gen2_sub
  rw [L.pairing_prod _ (by
    intro q hq
    simp only [List.mem_cons, List.not_mem_nil, or_false] at hq
    rcases hq with rfl | rfl | rfl
    · exact ⟨hg2, h2⟩
    · exact ⟨h1, L.sub1_sigPoint W _ _⟩
    · exact ⟨hpk, W.h_sub⟩)]
  simp only [List.map_cons, List.map_nil, List.prod_cons, List.prod_nil, mul_one, Option.some.injEq,
    hashMsg_eq, mul_assoc]
  exact Iff.rfl

theorem aggregate_iff (sigs : List (Signature G1 G2)) (s : Signature G1 G2) :
    Signature.aggregateWithoutValidate sigs = .ok s ↔ aggregate sigs = some s := by
  rw [Signature.aggregate_ok_iff]
  cases sigs with
  | nil =>
    constructor
    · intro h; exact absurd rfl h.1
    · intro h; cases h
  | cons x l =>
    unfold aggregate
    simp only []
    by_cases hc : (∀ e ∈ l, e.ciphersuite = x.ciphersuite) ∧ (∀ e ∈ l, e.time = x.time)
    · rw [if_pos hc, Option.some.injEq]
      constructor
      · rintro ⟨_, h1, h2, h3⟩
        obtain ⟨a, b⟩ := h1 x (by simp)
        cases s
        simp only at a b h2 h3
        simp only [Signature.mk.injEq]
        exact ⟨a, b, h2.symm, h3.symm⟩
      · rintro rfl
        refine ⟨by simp, ?_, rfl, rfl⟩
        intro e he
        rcases List.mem_cons.1 he with rfl | he
        · exact ⟨rfl, rfl⟩
        · exact ⟨hc.1 e he, hc.2 e he⟩
    · rw [if_neg hc]
      constructor
      · rintro ⟨_, h1, _, _⟩
        obtain ⟨a, b⟩ := h1 x (by simp)
        exact absurd ⟨fun e he => ((h1 e (by simp [he])).1.trans a.symm),
          fun e he => ((h1 e (by simp [he])).2.trans b.symm)⟩ hc
      · intro h; cases h

theorem verifiesAggregated_iff [DecidableEq GT] {E : Ext G1 G2 GT} (H : HashLaws E)
    (L : GroupLaws E) (pf : Profile) {pp : PubParam G1 G2} (W : ParamWF E pp)
    (sig : Signature G1 G2) {pks : List (PublicKey G2)} (hne : pks ≠ [])
    (hpk : ∀ pk ∈ pks, E.inSub2 pk.pk = true) (msg : Bytes) :
    Signature.verifyBytesAggregated E pf sig pks pp msg = .ok true ↔
      VerifiesAggregated E sig pks pp msg := by
  unfold VerifiesAggregated
  by_cases hc : ∀ pk ∈ pks, pk.ciphersuite = pp.ciphersuite
  · rw [Signature.verifyBytesAggregated_eq E pf sig pks pp msg hne hc]
    have hsum : E.inSub2 (pks.map (·.pk)).sum = true := by
      clear hne hc
      induction pks with
      | nil => exact L.sub2_zero
      | cons p l ih =>
        rw [List.map_cons, List.sum_cons]
        exact L.sub2_add _ _ (hpk p (by simp)) (ih fun q hq => hpk q (by simp [hq]))
    rw [verifies_iff H L pf W sig (pk := PublicKey.mk pp.ciphersuite (pks.map (·.pk)).sum) hsum]
    constructor
    · intro h; exact ⟨h.2.1, hc, h⟩
    · intro h; exact h.2.2
  · constructor
    · intro h
      unfold Signature.verifyBytesAggregated at h
      simp only [] at h
      rw [if_pos (by
        rw [List.any_eq_true]
        by_contra hn
        exact hc fun pk hp => by
          by_contra h'
          exact hn ⟨pk, hp, decide_eq_true fun e => h' e.symm⟩)] at h
      cases h
    · intro h; exact absurd h.2.1 hc

/-! ### validation -/

theorem pair_inj {E : Ext G1 G2 GT} (L : GroupLaws E) {a b : G1} (ha : E.inSub1 a = true)
    (hb : E.inSub1 b = true) (h : pair E E.gen2 a = pair E E.gen2 b) : a = b := by
  have h1 : pair E E.gen2 (a + -b) = 1 := by
    rw [L.pair_add_right _ _ _ L.gen2_sub ha (L.sub1_neg _ hb), L.pair_neg_right L.gen2_sub hb, h,
      mul_inv_cancel]
  have h2 := L.pair_nondeg _ (L.sub1_add _ _ ha (L.sub1_neg _ hb)) h1
  exact (sub_eq_zero.1 (by rw [sub_eq_add_neg]; exact h2))

theorem popValid_iff [DecidableEq GT] {E : Ext G1 G2 GT} (L : GroupLaws E) (pk : PublicKey G2)
    (pop : ProofOfPossession G1) : pk.validate E pop = true ↔ PopValid E pk pop := by
  by_cases hs : E.inSub2 pk.pk = true
  · obtain ⟨x, hx⟩ := L.gen2_gen _ hs
    rw [PublicKey.validate_iff L hx]
    unfold PopValid
    refine and_congr Iff.rfl (and_congr Iff.rfl ?_)
    have hh := L.hash_sub (text "Pixel public key POP" ++ E.encG2 true pk.pk) [pk.ciphersuite]
    generalize E.hashToG1 (text "Pixel public key POP" ++ E.encG2 true pk.pk) [pk.ciphersuite] = Q
      at hh
    constructor
    · intro h
      refine ⟨hs, by rw [h]; exact L.sub1_nsmul hh _, ?_⟩
      rw [h, hx, L.pair_nsmul L.gen2_sub hh]
    · rintro ⟨_, h1, h2⟩
      rw [hx, L.pair_nsmul L.gen2_sub hh] at h2
      exact pair_inj L h1 (L.sub1_nsmul hh _) h2
  · constructor
    · intro h
      unfold PublicKey.validate blsCoreVerify at h
      simp [hs] at h
    · intro h; exact absurd h.2.2.1 hs

theorem subKeyValid_iff {E : Ext G1 G2 GT} (L : GroupLaws E) {pp : PubParam G1 G2}
    (W : ParamWF E pp) {pk : PublicKey G2} {x : Nat} (hx : pk.pk = x • pp.g2)
    {s : SubSecretKey G1 G2} (h1 : E.inSub2 s.g2r = true) (h2 : E.inSub1 s.hpoly = true)
    {v : List Nat} (hv : NodeAt pp.depth s.time v) :
    SubKeyValid E pp pk s ↔ HeadFor pp (x • pp.h) v s := by
  obtain ⟨rho, hr⟩ := L.gen2_gen _ h1
  have hF := L.sub1_nodePoint W v
  have hd : SubKeyValid E pp pk s ↔
      pair E pp.g2 s.hpoly = pair E pk.pk pp.h * pair E s.g2r (nodePoint pp v) := by
    unfold SubKeyValid
    constructor
    · rintro ⟨tv, h3, h4⟩
      have : tv = v := by
        rw [vecOf_iff.2 hv] at h3
        exact (Option.some.inj h3).symm
      rwa [this] at h4
    · intro h; exact ⟨v, vecOf_iff.2 hv, h⟩
  have key : ∀ rho : Nat, s.g2r = rho • E.gen2 → (SubKeyValid E pp pk s ↔
      s.hpoly = x • pp.h + rho • nodePoint pp v) := by
    intro rho hr
    rw [hd, hx, hr, W.g2_gen, L.pair_nsmul L.gen2_sub W.h_sub, L.pair_nsmul L.gen2_sub hF,
      ← L.pair_add_right _ _ _ L.gen2_sub (L.sub1_nsmul W.h_sub _) (L.sub1_nsmul hF _)]
    constructor
    · exact pair_inj L h2 (L.sub1_add _ _ (L.sub1_nsmul W.h_sub _) (L.sub1_nsmul hF _))
    · intro h; rw [h]
  constructor
  · intro h
    exact ⟨hv, rho, by rw [hr, W.g2_gen], (key rho hr).1 h⟩
  · rintro ⟨_, rho', hr', h3⟩
    exact (key rho' (by rw [hr', W.g2_gen])).2 h3

end Pixel.Doc
