import Verif.Model.PyRef
import Verif.Proof.Sig
import Verif.Proof.Verify
import Verif.Proof.Serdes

/-! # Lemmas on the Python reference implementation -/

namespace Pixel.Py

open Pixel Pixel.Spec

set_option linter.unusedSectionVars false

variable {G1 G2 GT : Type} [AddCommGroup G1] [AddCommGroup G2] [CommGroup GT]

/-! ### PRNG -/

theorem expand_128 {sha : Bytes → Bytes} (h : ∀ m, (sha m).length = 64) (prk info : Bytes) :
    expand sha prk info 128 = okm1 sha prk info ++ okm2 sha prk info := by
  have := expandAsserted_128 h prk info
  unfold expandAsserted hkdfExpand at this
  rw [if_neg (by omega)] at this
  exact Res.ok.inj this

theorem expand_64 {sha : Bytes → Bytes} (h : ∀ m, (sha m).length = 64) (prk info : Bytes) :
    expand sha prk info 64 = okm1 sha prk info := by
  have := expandAsserted_64 h prk info
  unfold expandAsserted hkdfExpand at this
  rw [if_neg (by omega)] at this
  exact Res.ok.inj this

theorem sampleThenUpdate_eq {sha : Bytes → Bytes} (h : ∀ m, (sha m).length = 64) (p : Prng)
    (info : Bytes) :
    sampleThenUpdate sha p.seed info = ((drawVal sha p info).val, (drawNext sha p info).seed) := by
  unfold sampleThenUpdate drawVal drawNext
  simp only []
  rw [expand_128 h, ZMod.val_natCast]
  have hl := okm1_length h p.seed info
  rw [List.take_left' hl, List.drop_left' hl]

theorem sample_eq {sha : Bytes → Bytes} (h : ∀ m, (sha m).length = 64) (p : Prng) (info : Bytes) :
    sample sha p.seed info = (drawVal sha p info).val := by
  unfold sample drawVal
  rw [expand_64 h, ZMod.val_natCast]

theorem rerandomize_eq {sha : Bytes → Bytes} (h : ∀ m, (sha m).length = 64) (p : Prng)
    (seed info : Bytes) :
    rerandomize sha p.seed seed info = (mixed sha p seed info).seed := by
  unfold rerandomize mixed hkdfExtract
  simp only []
  rw [expand_128 h]
  have hl := okm1_length h p.seed info
  rw [List.take_left' hl, List.drop_left' hl]

/-! ### times -/

theorem timeToVec_valid {d t : Nat} (h : ValidTime d t) : timeToVec t d = .ok (path d t) := by
  induction d generalizing t with
  | zero => simp [ValidTime] at h; omega
  | succ d ih =>
    unfold ValidTime at h
    have hp : 2 ^ (d + 1) = 2 * 2 ^ d := by rw [pow_succ]; ring
    have hpos : 0 < 2 ^ d := Nat.two_pow_pos _
    unfold timeToVec path
    rw [dif_neg (by omega)]
    by_cases h1 : t = 1
    · rw [if_pos h1, if_pos (by omega)]
    · rw [if_neg h1, if_neg (by omega : ¬ t ≤ 1)]
      simp only [Nat.add_sub_cancel]
      by_cases h2 : t > 2 ^ d
      · rw [if_pos ⟨by omega, h2⟩, if_pos h2, ih ⟨by omega, by omega⟩]
        rfl
      · rw [if_neg (fun hc => h2 hc.2), if_neg h2, ih ⟨by omega, by omega⟩]
        rfl

theorem timeToVec_num {d : Nat} {v : List Nat} (h : IsNode d v) : timeToVec (num d v) d = .ok v := by
  rw [timeToVec_valid (valid_num h), path_num h]

theorem vecToTime_valid {d : Nat} {v : List Nat} (h : IsNode d v) :
    vecToTime v d = .ok (num d v) := by
  induction v generalizing d with
  | nil => cases d <;> rfl
  | cons x w ih =>
    obtain ⟨d', rfl, hx, hw⟩ := isNode_cons_pos h
    rw [vecToTime, ih hw, Res.ok_bind, num]
    have hpos : 0 < 2 ^ d' := Nat.two_pow_pos _
    rcases hx with rfl | rfl
    · simp
    · rw [if_neg (by omega)]
      congr 1
      omega

theorem gammat_eq {d : Nat} {v : List Nat} (h : IsNode d v) : gammat v = gam v := by
  have key : ∀ i, i ≤ v.length →
      (List.range i).foldl (fun ans i =>
        if v[i]? = some 1 then ans.take 1 ++ (v.take i ++ [2]) :: ans.drop 1 else ans) [v] =
        v :: sibs (v.take i) := by
    intro i hi
    induction i with
    | zero => simp
    | succ i ih =>
      rw [List.range_succ, List.foldl_append, ih (by omega), List.foldl_cons, List.foldl_nil]
      have hlt : i < v.length := by omega
      have htake : v.take (i + 1) = v.take i ++ [v[i]] := by
        rw [List.take_add_one]; simp [hlt]
      rw [htake, List.getElem?_eq_getElem hlt]
      rcases h.2 v[i] (List.getElem_mem hlt) with h1 | h1
      · rw [h1, if_pos rfl, sibs_snoc_one]; rfl
      · rw [h1, if_neg (by simp), sibs_snoc_two]
  have := key v.length (le_refl _)
  rw [List.take_length] at this
  exact this

/-! ### sub keys -/

theorem nodeSum_eq {pp : PubParam G1 G2} {v : List Nat} (hlen : v.length + 1 ≤ pp.hlist.length) :
    nodeSum pp.hlist v = .ok (nodePoint pp v) := by
  obtain ⟨h0, hs, hl⟩ : ∃ h0 hs, pp.hlist = h0 :: hs := by
    cases h : pp.hlist with
    | nil => rw [h] at hlen; simp at hlen
    | cons a l => exact ⟨a, l, rfl⟩
  have hlen' : v.length ≤ hs.length := by rw [hl] at hlen; simp at hlen; omega
  unfold nodeSum
  have := foldlM_range_ok (f := fun tmp i => do
      let t ← idx v i
      let h ← idx pp.hlist (i + 1)
      .ok (tmp + t • h)) (fun i => h0 + wsum (v.take i) hs) v.length (by
    intro i hi
    have hh : i < hs.length := by omega
    simp only [hl, idx_succ_cons, idx_lt hh, idx_lt hi, Res.ok_bind]
    rw [wsum_take_succ v hs i hi hh]
    congr 1
    abel)
  simp only [List.take_zero, wsum_nil, add_zero, List.take_length] at this
  have hi0 : idx pp.hlist 0 = .ok h0 := by rw [hl]; rfl
  rw [hi0, Res.ok_bind, this, nodePoint_eq, hl]
  rfl

theorem zipWith_take_succ {α β γ : Type} (f : α → β → γ) (as : List α) (bs : List β) (i : Nat)
    (ha : i < as.length) (hb : i < bs.length) :
    List.zipWith f (as.take (i + 1)) bs = List.zipWith f (as.take i) bs ++ [f as[i] bs[i]] := by
  induction as generalizing bs i with
  | nil => simp at ha
  | cons a as ih =>
    cases bs with
    | nil => simp at hb
    | cons b bs =>
      cases i with
      | zero => simp
      | succ i =>
        simp only [List.take_succ_cons, List.zipWith_cons_cons, List.cons_append,
          List.getElem_cons_succ]
        rw [ih bs i (by simpa using ha) (by simpa using hb)]

theorem randomization_eq {pp : PubParam G1 G2} {s : SubSecretKey G1 G2} {v : List Nat}
    (hv : IsNode pp.depth v) (ht : s.time = num pp.depth v)
    (hlen : v.length + 1 + s.hvector.length ≤ pp.hlist.length) (r : Nat) :
    randomization s pp r = .ok (s.rerand pp v r) := by
  unfold randomization
  simp only []
  rw [ht, timeToVec_num hv, Res.ok_bind, nodeSum_eq (by omega), Res.ok_bind]
  have := foldlM_range_ok (f := fun new i => do
      let h ← idx pp.hlist (i + 1 + v.length)
      let a ← idx s.hvector i
      .ok (new ++ [r • h + a]))
    (fun i => List.zipWith (fun a h => a + r • h) (s.hvector.take i)
      (pp.hlist.drop (v.length + 1))) s.hvector.length (by
    intro i hi
    have hh : i + 1 + v.length < pp.hlist.length := by omega
    rw [idx_lt hh, Res.ok_bind, idx_lt hi, Res.ok_bind, zipWith_take_succ _ _ _ i hi (by simp; omega)]
    congr 2
    rw [List.getElem_drop]
    have e : v.length + 1 + i = i + 1 + v.length := by omega
    simp only [e]
    rw [add_comm])
  simp only [List.take_zero, List.zipWith_nil_left, List.take_length] at this
  rw [this, Res.ok_bind]
  unfold SubSecretKey.rerand
  rw [ht]

theorem delegate_eq {d : Nat} {s : SubSecretKey G1 G2} {v w : List Nat} (hv : IsNode d v)
    (hvw : IsNode d (v ++ w)) (ht : s.time = num d v) (hlen : w.length ≤ s.hvector.length) :
    delegate s (num d (v ++ w)) d = .ok (s.delegated (num d (v ++ w)) w) := by
  unfold delegate
  rw [ht, timeToVec_num hv, Res.ok_bind, timeToVec_num hvw, Res.ok_bind]
  have hl : (v ++ w).length - v.length = w.length := by simp
  rw [hl]
  have h1 := foldlM_range_ok (f := fun hpoly i => do
      let t ← idx (v ++ w) (i + v.length)
      let h ← idx s.hvector i
      .ok (hpoly + t • h)) (fun i => s.hpoly + wsum (w.take i) s.hvector) w.length (by
    intro i hi
    have hi' : i < s.hvector.length := by omega
    have hg : idx (v ++ w) (i + v.length) = .ok w[i] := by
      rw [idx_eq_ok, List.getElem?_append_right (by omega)]
      simp [hi]
    rw [hg, Res.ok_bind, idx_lt hi', Res.ok_bind, wsum_take_succ w _ i hi hi', add_assoc])
  simp only [List.take_zero, wsum_nil, add_zero, List.take_length] at h1
  rw [h1, Res.ok_bind]
  have h2 := foldlM_range_ok (f := fun (hv : List G1) (_ : Nat) => removeFirst hv)
    (fun i => s.hvector.drop i) w.length (by
      intro i hi
      have hi' : i < s.hvector.length := by omega
      rw [List.drop_eq_getElem_cons hi']
      rfl)
  simp only [List.drop_zero] at h2
  rw [h2]
  rfl

/-! ### update -/

/-- `SecretKey.freshLoop` without the assertion on the PRNG state -/
def freshAll (sha : Bytes → Bytes) (pp : PubParam G1 G2) (g : List Nat) (s : SubSecretKey G1 G2) :
    Prng → List (List Nat) → List (SubSecretKey G1 G2) × Prng
  | p, [] => ([], p)
  | p, w :: ws =>
    let q := freshAll sha pp g s (drawNext sha p DOM_SEP_SK_UPDATE) ws
    ((s.delegated (num pp.depth (g ++ w)) w).rerand pp (g ++ w)
      (drawVal sha p DOM_SEP_SK_UPDATE).val :: q.1, q.2)

theorem freshLoop_cases (sha : Bytes → Bytes) (pp : PubParam G1 G2) (p0 : Prng) (g : List Nat)
    (s : SubSecretKey G1 G2) (p : Prng) (ws : List (List Nat)) :
    SecretKey.freshLoop sha pp p0 g s p ws = .ok (freshAll sha pp g s p ws) ∨
      SecretKey.freshLoop sha pp p0 g s p ws = .panic .assertion := by
  induction ws generalizing p with
  | nil => exact Or.inl rfl
  | cons w ws ih =>
    rw [SecretKey.freshLoop]
    by_cases hc : drawNext sha p DOM_SEP_SK_UPDATE = p0
    · rw [if_pos hc]; exact Or.inr rfl
    · rw [if_neg hc]
      rcases ih (drawNext sha p DOM_SEP_SK_UPDATE) with h | h
      · rw [h]; exact Or.inl rfl
      · rw [h]; exact Or.inr rfl

theorem rerandomizeAll_eq {sha : Bytes → Bytes} (hsha : ∀ m, (sha m).length = 64)
    {pp : PubParam G1 G2} (S : ParamShape pp) {alpha : G1} {g : List Nat} {rho : Nat}
    {s : SubSecretKey G1 G2} (hs : SubKeyFor pp alpha g rho s) (ws : List (List Nat))
    (hws : ∀ w ∈ ws, IsNode pp.depth (g ++ w)) (p : Prng) :
    rerandomizeAll sha pp (ws.map (fun w => s.delegated (num pp.depth (g ++ w)) w)) p.seed =
      .ok ((freshAll sha pp g s p ws).1, (freshAll sha pp g s p ws).2.seed) := by
  induction ws generalizing p with
  | nil => rfl
  | cons w ws ih =>
    have hn := hws w (by simp)
    have hs' := hs.delegated S hn
    rw [List.map_cons, rerandomizeAll]
    rw [show ascii "Pixel secret key update" = DOM_SEP_SK_UPDATE from rfl, sampleThenUpdate_eq hsha]
    simp only []
    have hlen : (g ++ w).length + 1 + (s.delegated (num pp.depth (g ++ w)) w).hvector.length ≤
        pp.hlist.length := by
      have := hn.1
      rw [hs'.hvector_length S, S.hlist_len]; omega
    rw [randomization_eq hn hs'.time_eq hlen, Res.ok_bind, ih (fun w hw => hws w (by simp [hw])),
      Res.ok_bind]
    rfl

theorem collect_fresh {pp : PubParam G1 G2} (S : ParamShape pp) {alpha : G1} {g : List Nat}
    {rho : Nat} {s : SubSecretKey G1 G2} (hs : SubKeyFor pp alpha g rho s)
    {SB : List (SubSecretKey G1 G2)} (hSB : List.Forall₂ (SubAt pp alpha) (sibs g) SB)
    (ws : List (List Nat)) (hws : ∀ w ∈ ws, w ≠ [] ∧ IsNode pp.depth (g ++ w)) :
    collect pp.depth (s :: SB) s (ws.map (g ++ ·) ++ sibs g) =
      .ok (ws.map (fun w => s.delegated (num pp.depth (g ++ w)) w)) := by
  induction ws with
  | nil =>
    rw [List.map_nil, List.map_nil, List.nil_append]
    have key : ∀ (es : List (List Nat)), (∀ e ∈ es, e ∈ sibs g) →
        collect pp.depth (s :: SB) s es = .ok [] := by
      intro es
      induction es with
      | nil => intro _; rfl
      | cons e es ih =>
        intro he
        have hmem := he e (by simp)
        rw [collect, vecToTime_valid (sibs_isNode hs.isNode hmem), Res.ok_bind, if_pos, ih]
        · exact fun x hx => he x (by simp [hx])
        · obtain ⟨b, hb, _, hr⟩ := forall₂_mem_right hSB.flip hmem
          rw [List.any_eq_true]
          exact ⟨b, by simp [hb], by simpa using hr.time_eq⟩
    exact key _ (fun _ h => h)
  | cons w ws ih =>
    obtain ⟨hw, hn⟩ := hws w (by simp)
    have hlen : w.length ≤ s.hvector.length := by
      have := hn.1
      rw [List.length_append] at this
      rw [hs.hvector_length S]; omega
    rw [List.map_cons, List.cons_append, collect, vecToTime_valid hn, Res.ok_bind, if_neg,
      delegate_eq hs.isNode hn hs.time_eq hlen, Res.ok_bind,
      ih (fun x hx => hws x (by simp [hx])), Res.ok_bind]
    · rfl
    · rw [List.any_eq_true]
      rintro ⟨b, hb, ht⟩
      have ht := of_decide_eq_true ht
      rcases List.mem_cons.1 hb with rfl | hb
      · have := num_lt_of_append hn hw
        rw [← hs.time_eq, ht] at this
        omega
      · obtain ⟨a, ha, hr⟩ := forall₂_mem_right hSB hb
        rw [hr.time_eq] at ht
        have := num_inj hr.isNode hn ht
        subst this
        exact SecretKey.not_mem_sibs_of_append hs.isNode hn ha

/-- the Python key holding the same data as a Rust key -/
def ofRust (sk : SecretKey G1 G2) : Key G1 G2 := { prng := sk.prng.seed, ssk := sk.ssk }

theorem i2osp4_eq {t : Nat} (h : t < 2 ^ 32) : i2osp4 t = .ok (timeBytes t) := by
  unfold i2osp4
  rw [if_pos h]
  congr 1
  simp only [natToBE, timeBytes, List.nil_append, List.cons_append]
  have e : ∀ n : Nat, n &&& 0xFF = n % 256 := fun n => by
    have := Nat.and_two_pow_sub_one_eq_mod n 8
    simpa using this
  simp only [e, Nat.shiftRight_eq_div_pow, Nat.div_div_eq_div_mul]

theorem skUpdate_eq {sha : Bytes → Bytes} (hsha : ∀ m, (sha m).length = 64) (pf : Profile)
    {pp : PubParam G1 G2} (S : ParamShape pp) {alpha : G1} {v u : List Nat}
    {sk : SecretKey G1 G2} (h : HKey pp alpha v sk) (hu : IsNode pp.depth u)
    (hlt : num pp.depth v < num pp.depth u) (h32 : num pp.depth v < 2 ^ 32) (seed : Bytes) :
    ∃ k, skUpdate sha (ofRust sk) pp (num pp.depth u) seed = .ok k ∧
      ((∃ sk', SecretKey.update sha pf pp (num pp.depth u) seed sk = (.ok (), sk') ∧
        ofRust sk' = k) ∨
      SecretKey.update sha pf pp (num pp.depth u) seed sk = (.panic .assertion, sk)) := by
  obtain ⟨A, g, SA, sg, SB, hAg, hsk, hSA, hsg, hSB, hup⟩ :=
    SecretKey.update_eq hsha (pf := pf) S h hu hlt seed
  obtain ⟨A', g', hAg', hgu, hA, hgle, hB⟩ := SecretKey.gam_find h.node hu (Nat.le_of_lt hlt)
  -- the two descriptions of the delegator agree
  obtain ⟨rfl, rfl⟩ : A = A' ∧ g = g' := by
    have hgp : g <+: u := by
      rcases hup with ⟨rfl, _⟩ | ⟨w, _, rfl, _⟩
      · exact List.prefix_refl _
      · exact List.prefix_append _ _
    have hgg : g = g' := gam_unique h.node hu (by rw [hAg]; simp) (by rw [hAg']; simp) hgp hgu
    subst hgg
    have := hAg.symm.trans hAg'
    exact ⟨List.append_cancel_right this, rfl⟩
  have tA : ∀ s ∈ SA, s.time < num pp.depth g := by
    intro s hs
    obtain ⟨a, ha, hr⟩ := forall₂_mem_right hSA hs
    rw [hr.time_eq]; exact hA a ha
  have tB : ∀ s ∈ SB, num pp.depth u < s.time := by
    intro s hs
    obtain ⟨a, ha, hr⟩ := forall₂_mem_right hSB hs
    rw [hr.time_eq]; exact hB a ha
  obtain ⟨f, l, hfl⟩ : ∃ f l, sk.ssk = f :: l := by
    cases hc : sk.ssk with
    | nil => have := h.ssk; rw [hc] at this; cases this
    | cons a l => exact ⟨a, l, rfl⟩
  have hft : f.time = sk.time := by
    have h1 := h.ssk
    rw [hfl] at h1
    cases h1 with
    | cons h2 _ => rw [h2.time_eq, h.time]
  have hfa : findAncestor (ofRust sk) (num pp.depth u) = .ok sg := by
    unfold findAncestor ofRust
    simp only []
    rw [hfl, idx_zero_cons, Res.ok_bind, ← hfl, hsk,
      SecretKey.scan_last _ SA f sg SB (by rw [hsg.time_eq]; exact hgle) tB]
  have hfilter : sk.ssk.filter (fun x => decide (x.time ≥ sg.time)) = sg :: SB := by
    rw [hsk, List.filter_append, List.filter_cons_of_pos (by simp)]
    have h1 : SA.filter (fun x => decide (x.time ≥ sg.time)) = [] := by
      rw [List.filter_eq_nil_iff]
      intro a ha
      have := tA a ha
      rw [← hsg.time_eq] at this
      simpa using this
    have h2 : SB.filter (fun x => decide (x.time ≥ sg.time)) = SB := by
      rw [List.filter_eq_self]
      intro a ha
      have := tB a ha
      have := hsg.time_eq
      have : sg.time ≤ a.time := by omega
      simpa using this
    rw [h1, h2, List.nil_append]
  have hmix : rerandomize sha sk.prng.seed seed
      (ascii "Pixel secret key rerandomize expand" ++ timeBytes sk.time) =
      (mixed sha sk.prng seed (SecretKey.reseedInfo sk.time)).seed := rerandomize_eq hsha _ _ _
  have hstart : ∀ (k : Key G1 G2),
      (skUpdate sha (ofRust sk) pp (num pp.depth u) seed = .ok k ↔
      (if sg.time = num pp.depth u then
        .ok { prng := (mixed sha sk.prng seed (SecretKey.reseedInfo sk.time)).seed, ssk := sg :: SB }
      else do
        let tvec ← timeToVec (num pp.depth u) pp.depth
        let newSsk ← collect pp.depth (sg :: SB) sg (gammat tvec)
        let (rest, newSeed) ← rerandomizeAll sha pp (newSsk.drop 1)
          (mixed sha sk.prng seed (SecretKey.reseedInfo sk.time)).seed
        let skVec ← removeFirst (sg :: SB)
        (.ok { prng := newSeed, ssk := (newSsk.take 1 ++ rest) ++ skVec } : Res (Key G1 G2))) =
        .ok k) := by
    intro k
    unfold skUpdate
    have h0 : idx (ofRust sk).ssk 0 = .ok f := by simp only [ofRust]; rw [hfl]; rfl
    rw [h0, Res.ok_bind, hft, i2osp4_eq (by rw [h.time]; exact h32), Res.ok_bind]
    simp only []
    rw [hfa, Res.ok_bind, show (ofRust sk).ssk = sk.ssk from rfl, hfilter, idx_zero_cons,
      Res.ok_bind, show (ofRust sk).prng = sk.prng.seed from rfl, hmix]
  rcases hup with ⟨hgu', hup⟩ | ⟨w, hw, rfl, hup⟩
  · subst hgu'
    refine ⟨_, (hstart _).2 (by rw [if_pos hsg.time_eq]; rfl), Or.inl ⟨_, hup, rfl⟩⟩
  · have hne : sg.time ≠ num pp.depth (g ++ w) := by
      have := num_lt_of_append hu hw
      rw [hsg.time_eq]; omega
    obtain ⟨rho, hrho⟩ := hsg
    have hws : ∀ x ∈ sibs w, x ≠ [] ∧ IsNode pp.depth (g ++ x) := by
      intro x hx
      obtain ⟨a, b, _, rfl⟩ := mem_sibs.1 hx
      refine ⟨by simp, sibs_isNode hu ?_⟩
      rw [sibs_append]
      exact List.mem_append_left _ (List.mem_map_of_mem hx)
    have hcol := collect_fresh S hrho hSB (w :: sibs w) (by
      intro x hx
      rcases List.mem_cons.1 hx with rfl | hx
      · exact ⟨hw, hu⟩
      · exact hws x hx)
    rw [List.map_cons, List.map_cons, List.cons_append] at hcol
    have hgam : gammat (g ++ w) = (g ++ w) :: ((sibs w).map (g ++ ·) ++ sibs g) := by
      rw [gammat_eq hu, gam, sibs_append]
    have hre := rerandomizeAll_eq hsha S hrho (sibs w) (fun x hx => (hws x hx).2)
      (mixed sha sk.prng seed (SecretKey.reseedInfo sk.time))
    refine ⟨_, (hstart _).2 (by
      rw [if_neg hne, timeToVec_num hu, Res.ok_bind, hgam, hcol, Res.ok_bind,
        List.drop_succ_cons, List.drop_zero, hre, Res.ok_bind]
      rfl), ?_⟩
    rcases freshLoop_cases sha pp sk.prng g sg
      (mixed sha sk.prng seed (SecretKey.reseedInfo sk.time)) (sibs w) with hf | hf
    · left
      rw [hup, hf]
      exact ⟨_, rfl, by simp [ofRust]⟩
    · right
      rw [hup, hf]
      rfl

/-! ### key generation -/

theorem keyGen_eq {E : Ext G1 G2 GT} (H : HashLaws E) {pp : PubParam G1 G2} (S : ParamShape pp)
    (seed : Bytes) :
    ∃ s, SubKeyFor pp (mulFr (kgSecret E.sha512 seed 0) pp.h) []
        (drawVal E.sha512 (kgNext E.sha512 seed 0) (DOM_SEP_SK_INIT ++ [0, 0, 0, 1])).val s ∧
      keyGen E.sha512 pp seed = .ok (mulFr (kgSecret E.sha512 seed 0) pp.g2,
        { prng := (drawNext E.sha512 (kgNext E.sha512 seed 0)
            (DOM_SEP_SK_INIT ++ [0, 0, 0, 1])).seed
          ssk := [s] }) := by
  obtain ⟨h0, hs, hl, hlen⟩ := hlist_cons S
  have hd := S.depth_pos
  unfold keyGen
  simp only []
  rw [show prngInit E.sha512 seed (ascii "Pixel master key" ++ [0]) =
      (kgState E.sha512 seed 0).seed from rfl, sampleThenUpdate_eq H.sha_len]
  simp only []
  rw [show drawNext E.sha512 (kgState E.sha512 seed 0) (ascii "key initialization") =
    kgNext E.sha512 seed 0 from rfl, show ascii "Pixel secret key init" = DOM_SEP_SK_INIT from rfl,
    sampleThenUpdate_eq H.sha_len]
  simp only []
  generalize hr : drawVal E.sha512 (kgNext E.sha512 seed 0) (DOM_SEP_SK_INIT ++ [0, 0, 0, 1]) = r
  have hloop := foldlM_range_ok (f := fun hv i => do
      let h ← idx pp.hlist (i + 1)
      .ok (hv ++ [r.val • h])) (fun i => (hs.take i).map (fun h => r.val • h)) hs.length (by
    intro i hi
    rw [hl, idx_succ_cons, idx_lt hi, Res.ok_bind, List.take_add_one,
      List.getElem?_eq_getElem hi, Option.toList_some, List.map_append]
    rfl)
  simp only [List.take_zero, List.map_nil, List.take_length] at hloop
  have hi0 : idx pp.hlist 0 = .ok h0 := by rw [hl]; rfl
  have hn : pp.hlist.length - 1 = hs.length := by rw [hl]; simp
  rw [hi0, Res.ok_bind, hn, hloop, Res.ok_bind]
  refine ⟨_, ?_, rfl⟩
  refine ⟨?_, rfl, ?_, ?_⟩
  · have := nodeAt_num (d := pp.depth) (v := []) (isNode_nil.2 (by omega))
    rwa [num_nil] at this
  · simp only [nodePoint_eq, hl, List.headD_cons, List.tail_cons, wsum_nil, add_zero]
    rw [add_comm]
    rfl
  · simp only [hl, List.length_nil, Nat.zero_add, List.drop_succ_cons, List.drop_zero]

/-- a sub key is determined by its node, master secret and randomness -/
theorem subKeyFor_unique {pp : PubParam G1 G2} {alpha : G1} {v : List Nat} {rho : Nat}
    {s s' : SubSecretKey G1 G2} (h : SubKeyFor pp alpha v rho s) (h' : SubKeyFor pp alpha v rho s') :
    s = s' := by
  have ht : s.time = s'.time := by rw [h.time_eq, h'.time_eq]
  have h1 : s.g2r = s'.g2r := by rw [h.g2r, h'.g2r]
  have h2 : s.hpoly = s'.hpoly := by rw [h.hpoly, h'.hpoly]
  have h3 : s.hvector = s'.hvector := by rw [h.hvector, h'.hvector]
  cases s; cases s'
  simp only at ht h1 h2 h3
  rw [ht, h1, h2, h3]

/-! ### signing -/

theorem signPresent_eq {sha : Bytes → Bytes} (hsha : ∀ m, (sha m).length = 64) (pf : Profile)
    {pp : PubParam G1 G2} (S : ParamShape pp) (hc : pp.ciphersuite = 0) {alpha : G1}
    {v : List Nat} {sk : SecretKey G1 G2} (h : HKey pp alpha v sk) (h32 : sk.time < 2 ^ 32)
    (msg : Bytes) :
    ∃ sig, Signature.signBytes sha pf sk sk.time pp msg = .ok sig ∧ sig.ciphersuite = 0 ∧
      sig.time = sk.time ∧
      signPresent sha (ofRust sk) sk.time pp msg = .ok (sk.time, sig.sigma1, sig.sigma2) := by
  obtain ⟨s, l, hs⟩ : ∃ s l, sk.ssk = s :: l := by
    cases hc : sk.ssk with
    | nil => have := h.ssk; rw [hc] at this; cases this
    | cons a l => exact ⟨a, l, rfl⟩
  obtain ⟨rho, hk⟩ : ∃ rho, SubKeyFor pp alpha v rho s := by
    have h1 := h.ssk
    rw [hs] at h1
    cases h1 with
    | cons h2 _ => exact h2
  have hsup : Supported pp.ciphersuite := Or.inl hc
  obtain ⟨h0, hl, hhl, hlen⟩ := hlist_cons S
  have hn := h.node
  have hn1 := hn.1
  have hloop := nodeLoop_eq (pp := pp) (v := v) hhl hn.2 (by omega)
  have hi0 : idx pp.hlist 0 = .ok h0 := by rw [hhl]; rfl
  have hlast : idx s.hvector (s.hvector.length - 1) = .ok (rho • pp.hlist.getLastD 0) := by
    have h1 := hvector_last S hk
    have hl0 := hk.hvector_length S
    unfold SubSecretKey.lastHvectorCoeff at h1
    cases hv : s.hvector with
    | nil => rw [hv] at hl0; simp at hl0; omega
    | cons a b =>
      rw [hv] at h1
      simpa using h1
  generalize hM : msgField sha pp.ciphersuite msg = M
  generalize hr : drawVal sha sk.prng (signInfo msg sk.time) = r
  refine ⟨{ ciphersuite := pp.ciphersuite, time := sk.time, sigma1 := s.g2r + mulFr r pp.g2,
            sigma2 := s.hpoly + mulFr M (rho • pp.hlist.getLastD 0) +
              mulFr r (nodePoint pp v + mulFr M (pp.hlist.getLastD 0)) }, ?_, hc, rfl, ?_⟩
  · unfold Signature.signBytes
    simp only [validCiphersuite_contains.2 hsup, Bool.not_true, Bool.false_eq_true, if_false,
      h.suite, ne_eq, not_true_eq_false, decide_true, assertRes_true, Res.ok_bind]
    rw [sample_exec hsha]
    simp only [Res.ok_bind]
    rw [hashMsg_eq hsha, Res.ok_bind, hM, hr]
    unfold Signature.signFr SecretKey.firstSsk SubSecretKey.timeVec
    simp only [decide_true, assertRes_true, Res.ok_bind, hs, List.isEmpty_cons, Bool.false_eq_true,
      if_false, idx_zero_cons]
    rw [hk.time_eq, init_num S.depth_le hn]
    simp only [Res.ok_bind, tvOf]
    rw [hi0, Res.ok_bind, hloop, Res.ok_bind, hlist_last S, Res.ok_bind, hvector_last S hk,
      Res.ok_bind]
  · unfold signPresent
    have hi : idx (ofRust sk).ssk 0 = .ok s := by
      show idx sk.ssk 0 = _
      rw [hs]; rfl
    have hst : s.time = sk.time := by rw [hk.time_eq, h.time]
    have htv : timeToVec sk.time pp.depth = .ok v := by rw [h.time]; exact timeToVec_num hn
    have hinfo : ascii "Pixel randomness for signing" ++ msg ++ timeBytes sk.time =
      signInfo msg sk.time := rfl
    have hh : hashMsg sha msg = M.val := by
      rw [← hM, hc]
      unfold hashMsg msgField
      rw [ZMod.val_natCast, natOfBytes_eq, ← text_hash]
      rfl
    rw [hi, Res.ok_bind]
    simp only [hst, decide_true, assertRes_true, Res.ok_bind, htv, i2osp4_eq h32, hinfo]
    rw [show (ofRust sk).prng = sk.prng.seed from rfl, sample_eq hsha, hr, hh,
      nodeSum_eq (by rw [S.hlist_len]; omega), Res.ok_bind, hlist_last S, Res.ok_bind, hlast,
      Res.ok_bind]
    rfl

/-! ### updates into the past, and to time `2^d` -/

/-- a sub key whose label is a node and whose vector is short enough for that node -/
def Labelled (pp : PubParam G1 G2) (s : SubSecretKey G1 G2) : Prop :=
  ∃ e, IsNode pp.depth e ∧ s.time = num pp.depth e ∧ e.length + s.hvector.length ≤ pp.depth

theorem delegate_any {pp : PubParam G1 G2} {s : SubSecretKey G1 G2} {v e : List Nat}
    (hv : IsNode pp.depth v) (he : IsNode pp.depth e) (ht : s.time = num pp.depth v)
    (hlen : s.hvector.length = pp.depth - v.length) :
    ∃ s', delegate s (num pp.depth e) pp.depth = .ok s' ∧ s'.time = num pp.depth e ∧
      s'.g2r = s.g2r ∧ Labelled pp s' ∧
      (e.length ≤ v.length → s' = { s with time := num pp.depth e }) := by
  have he1 := he.1
  have hv1 := hv.1
  unfold delegate
  rw [ht, timeToVec_num hv, Res.ok_bind, timeToVec_num he, Res.ok_bind]
  have h1 := foldlM_range_ok (f := fun hpoly i => do
      let t ← idx e (i + v.length)
      let h ← idx s.hvector i
      .ok (hpoly + t • h)) (fun i => s.hpoly + wsum ((e.drop v.length).take i) s.hvector)
      (e.length - v.length) (by
    intro i hi
    have hi' : i < s.hvector.length := by omega
    have hi2 : i < (e.drop v.length).length := by simp; omega
    have hg : idx e (i + v.length) = .ok (e.drop v.length)[i] := by
      rw [idx_lt (by omega), List.getElem_drop]
      simp only [Nat.add_comm]
    rw [hg, Res.ok_bind, idx_lt hi', Res.ok_bind, wsum_take_succ _ _ i hi2 hi', add_assoc])
  simp only [List.take_zero, wsum_nil, add_zero] at h1
  rw [h1, Res.ok_bind]
  have h2 := foldlM_range_ok (f := fun (hv : List G1) (_ : Nat) => removeFirst hv)
    (fun i => s.hvector.drop i) (e.length - v.length) (by
      intro i hi
      have hi' : i < s.hvector.length := by omega
      rw [List.drop_eq_getElem_cons hi']
      rfl)
  simp only [List.drop_zero] at h2
  rw [h2, Res.ok_bind]
  refine ⟨_, rfl, rfl, rfl, ⟨e, he, rfl, ?_⟩, fun hle => ?_⟩
  · simp only [List.length_drop]; omega
  · rw [Nat.sub_eq_zero_of_le hle]
    simp

theorem collect_any {pp : PubParam G1 G2} {s : SubSecretKey G1 G2} {v : List Nat}
    (hv : IsNode pp.depth v) (ht : s.time = num pp.depth v)
    (hlen : s.hvector.length = pp.depth - v.length) (skVec : List (SubSecretKey G1 G2))
    (es : List (List Nat)) (hes : ∀ e ∈ es, IsNode pp.depth e) :
    ∃ l, collect pp.depth skVec s es = .ok l ∧ ∀ x ∈ l, Labelled pp x := by
  induction es with
  | nil => exact ⟨[], rfl, by simp⟩
  | cons e es ih =>
    obtain ⟨l, h1, h2⟩ := ih (fun x hx => hes x (by simp [hx]))
    have he := hes e (by simp)
    rw [collect, vecToTime_valid he, Res.ok_bind, h1]
    by_cases hc : skVec.any (fun ssk => decide (ssk.time = num pp.depth e)) = true
    · rw [if_pos hc]; exact ⟨l, rfl, h2⟩
    · obtain ⟨s', h3, _, _, h4, _⟩ := delegate_any hv he ht hlen
      rw [if_neg hc, h3]
      refine ⟨s' :: l, rfl, fun x hx => ?_⟩
      rcases List.mem_cons.1 hx with rfl | hx
      · exact h4
      · exact h2 x hx

theorem rerandomizeAll_any (sha : Bytes → Bytes) {pp : PubParam G1 G2} (S : ParamShape pp)
    (l : List (SubSecretKey G1 G2)) (h : ∀ x ∈ l, Labelled pp x) (seed : Bytes) :
    ∃ r, rerandomizeAll sha pp l seed = .ok r := by
  induction l generalizing seed with
  | nil => exact ⟨_, rfl⟩
  | cons x l ih =>
    obtain ⟨e, he, ht, hl⟩ := h x (by simp)
    rw [rerandomizeAll]
    simp only []
    rw [randomization_eq he ht (by rw [S.hlist_len]; omega), Res.ok_bind]
    obtain ⟨r, hr⟩ := ih (fun y hy => h y (by simp [hy])) (sampleThenUpdate sha seed
      (ascii "Pixel secret key update")).2
    rw [hr]
    exact ⟨_, rfl⟩

theorem foldl_none (tar : Nat) (l : List (SubSecretKey G1 G2)) (r : SubSecretKey G1 G2)
    (h : ∀ s ∈ l, tar < s.time) :
    l.foldl (fun ssk e => if e.time ≤ tar then e else ssk) r = r := by
  induction l with
  | nil => rfl
  | cons a l ih =>
    have := h a (by simp)
    rw [List.foldl_cons, if_neg (by omega), ih (fun s hs => h s (by simp [hs]))]

theorem skUpdate_past (sha : Bytes → Bytes) {pp : PubParam G1 G2} (S : ParamShape pp) {alpha : G1}
    {v u : List Nat} {sk : SecretKey G1 G2} (h : HKey pp alpha v sk) (hu : IsNode pp.depth u)
    (hlt : num pp.depth u < num pp.depth v) (h32 : num pp.depth v < 2 ^ 32) (seed : Bytes) :
    ∃ k s0 s l, skUpdate sha (ofRust sk) pp (num pp.depth u) seed = .ok k ∧
      sk.ssk.head? = some s0 ∧ k.ssk = s :: l ∧ s.time = num pp.depth u ∧ s.g2r = s0.g2r ∧
      (u.length ≤ v.length → s = { s0 with time := num pp.depth u }) := by
  obtain ⟨f, l, hfl⟩ : ∃ f l, sk.ssk = f :: l := by
    cases hc : sk.ssk with
    | nil => have := h.ssk; rw [hc] at this; cases this
    | cons a l => exact ⟨a, l, rfl⟩
  obtain ⟨rho, hf⟩ : SubAt pp alpha v f := by
    have h1 := h.ssk
    rw [hfl] at h1
    cases h1 with
    | cons h2 _ => exact h2
  have htimes : ∀ s ∈ sk.ssk, num pp.depth v ≤ s.time := by
    intro s hs
    obtain ⟨a, ha, hr⟩ := forall₂_mem_right h.ssk hs
    rw [hr.time_eq]
    rcases List.mem_cons.1 ha with rfl | ha
    · exact le_refl _
    · exact Nat.le_of_lt (gam_num_lt h.node ha)
  have hfa : findAncestor (ofRust sk) (num pp.depth u) = .ok f := by
    unfold findAncestor ofRust
    simp only []
    rw [hfl, idx_zero_cons, Res.ok_bind, foldl_none]
    intro s hs
    have := htimes s (by rw [hfl]; exact hs)
    omega
  have hfilter : sk.ssk.filter (fun x => decide (x.time ≥ f.time)) = f :: l := by
    rw [← hfl, List.filter_eq_self]
    intro a ha
    have := htimes a ha
    rw [← hf.time_eq] at this
    simpa using this
  have hlen := hf.hvector_length S
  obtain ⟨s, hd1, hd2, hd3, _, hd5⟩ := delegate_any h.node hu hf.time_eq hlen
  obtain ⟨lc, hc1, hc2⟩ := collect_any h.node hf.time_eq hlen (f :: l) (sibs u)
    (fun e he => sibs_isNode hu he)
  obtain ⟨⟨lr, q⟩, hr⟩ := rerandomizeAll_any sha S lc hc2 (rerandomize sha sk.prng.seed seed
    (ascii "Pixel secret key rerandomize expand" ++ timeBytes (num pp.depth v)))
  refine ⟨{ prng := q, ssk := s :: (lr ++ l) }, f, s, lr ++ l, ?_, by rw [hfl]; rfl, rfl, hd2, hd3,
    hd5⟩
  unfold skUpdate
  have h0 : idx (ofRust sk).ssk 0 = .ok f := by simp only [ofRust]; rw [hfl]; rfl
  rw [h0, Res.ok_bind, hf.time_eq, i2osp4_eq h32, Res.ok_bind]
  simp only []
  rw [hfa, Res.ok_bind, show (ofRust sk).ssk = sk.ssk from rfl, hfilter, idx_zero_cons,
    Res.ok_bind, show (ofRust sk).prng = sk.prng.seed from rfl, if_neg (by rw [hf.time_eq]; omega),
    timeToVec_num hu, Res.ok_bind, gammat_eq hu, gam, collect, vecToTime_valid hu, Res.ok_bind,
    if_neg, hd1, Res.ok_bind, hc1, Res.ok_bind]
  · rw [Res.ok_bind, List.drop_succ_cons, List.drop_zero, hr, Res.ok_bind]
    rfl
  · rw [List.any_eq_true]
    rintro ⟨b, hb, hbt⟩
    have hbt := of_decide_eq_true hbt
    have := htimes b (by rw [hfl]; exact hb)
    omega

theorem timeToVec_max (d : Nat) : timeToVec (2 ^ d) d = .ok (List.replicate d 2) := by
  induction d with
  | zero => unfold timeToVec; rfl
  | succ d ih =>
    have hp : 2 ^ (d + 1) = 2 * 2 ^ d := by rw [pow_succ]; ring
    have hpos : 0 < 2 ^ d := Nat.two_pow_pos _
    unfold timeToVec
    rw [dif_neg (by omega), if_neg (by omega)]
    simp only [Nat.add_sub_cancel]
    rw [if_pos ⟨by omega, by omega⟩, show 2 ^ (d + 1) - 2 ^ d = 2 ^ d by omega, ih]
    rfl

theorem vecToTime_max (d : Nat) : vecToTime (List.replicate d 2) d = .ok (2 ^ d) := by
  induction d with
  | zero => rfl
  | succ d ih =>
    have hp : 2 ^ (d + 1) = 2 * 2 ^ d := by rw [pow_succ]; ring
    have hpos : 0 < 2 ^ d := Nat.two_pow_pos _
    rw [List.replicate_succ, vecToTime, ih, Res.ok_bind]
    congr 1
    omega

theorem gammat_max (d : Nat) : gammat (List.replicate d 2) = [List.replicate d 2] := by
  unfold gammat
  have : ∀ n, (List.range n).foldl (fun (ans : List (List Nat)) i =>
      if (List.replicate d 2)[i]? = some 1 then
        ans.take 1 ++ ((List.replicate d 2).take i ++ [2]) :: ans.drop 1 else ans)
      [List.replicate d 2] = [List.replicate d 2] := by
    intro n
    induction n with
    | zero => rfl
    | succ n ih =>
      rw [List.range_succ, List.foldl_append, ih, List.foldl_cons, List.foldl_nil, if_neg]
      rw [List.getElem?_replicate]
      split <;> simp
  exact this _

/-- from a fresh key, Python updates to time `2^d` -/
theorem skUpdate_max (sha : Bytes → Bytes) {pp : PubParam G1 G2} (S : ParamShape pp) {alpha : G1}
    {sk : SecretKey G1 G2} (h : HKey pp alpha [] sk) (seed : Bytes) :
    ∃ k s, skUpdate sha (ofRust sk) pp (2 ^ pp.depth) seed = .ok k ∧ k.ssk = [s] ∧
      s.time = 2 ^ pp.depth ∧ s.hvector = [] := by
  have hd := S.depth_pos
  have hp : 2 ^ 1 ≤ 2 ^ pp.depth := Nat.pow_le_pow_right (by omega) hd
  obtain ⟨f, hfl, rho, hf⟩ : ∃ f, sk.ssk = [f] ∧ SubAt pp alpha [] f := by
    have h1 := h.ssk
    cases hc : sk.ssk with
    | nil => rw [hc] at h1; cases h1
    | cons a l =>
      rw [hc] at h1
      cases h1 with
      | cons h2 h3 => cases h3; exact ⟨a, rfl, h2⟩
  have ht : f.time = 1 := by rw [hf.time_eq, num_nil]
  have hlen : f.hvector.length = pp.depth := by rw [hf.hvector_length S]; simp
  have hdel : ∃ s, delegate f (2 ^ pp.depth) pp.depth = .ok s ∧ s.time = 2 ^ pp.depth ∧
      s.hvector = [] := by
    unfold delegate
    rw [ht, show timeToVec 1 pp.depth = .ok [] by unfold timeToVec; rfl, Res.ok_bind, timeToVec_max,
      Res.ok_bind]
    have e : (List.replicate pp.depth 2).length - ([] : List Nat).length = pp.depth := by simp
    rw [e]
    have h1 := foldlM_range_ok (f := fun hpoly i => do
        let t ← idx (List.replicate pp.depth 2) (i + ([] : List Nat).length)
        let h ← idx f.hvector i
        .ok (hpoly + t • h)) (fun i => f.hpoly + wsum ((List.replicate pp.depth 2).take i) f.hvector)
        pp.depth (by
      intro i hi
      have hi' : i < f.hvector.length := by omega
      have hi2 : i < (List.replicate pp.depth 2).length := by simpa using hi
      rw [idx_lt (by simpa using hi), Res.ok_bind, idx_lt hi', Res.ok_bind,
        wsum_take_succ _ _ i hi2 hi', add_assoc]
      simp)
    simp only [List.take_zero, wsum_nil, add_zero] at h1
    rw [h1, Res.ok_bind]
    have h2 := foldlM_range_ok (f := fun (hv : List G1) (_ : Nat) => removeFirst hv)
      (fun i => f.hvector.drop i) pp.depth (by
        intro i hi
        have hi' : i < f.hvector.length := by omega
        rw [List.drop_eq_getElem_cons hi']
        rfl)
    simp only [List.drop_zero] at h2
    rw [h2, Res.ok_bind]
    exact ⟨_, rfl, rfl, List.drop_eq_nil_of_le (by omega)⟩
  obtain ⟨s, hd1, hd2, hd3⟩ := hdel
  refine ⟨⟨rerandomize sha sk.prng.seed seed
    (ascii "Pixel secret key rerandomize expand" ++ timeBytes 1), [s]⟩, s, ?_, rfl, hd2, hd3⟩
  unfold skUpdate findAncestor
  have h0 : (ofRust sk).ssk = [f] := hfl
  rw [h0, idx_zero_cons, Res.ok_bind, ht, i2osp4_eq (by norm_num), Res.ok_bind]
  simp only []
  rw [Res.ok_bind, Res.ok_bind]
  simp only [List.foldl_cons, List.foldl_nil, ite_self, ht, List.filter_cons, List.filter_nil,
    ge_iff_le, le_refl, decide_true, if_true, idx_zero_cons, Res.ok_bind]
  rw [if_neg (by omega), timeToVec_max, Res.ok_bind, gammat_max, collect, vecToTime_max,
    Res.ok_bind, if_neg, hd1, Res.ok_bind, collect, Res.ok_bind, Res.ok_bind]
  · rfl
  · simp only [List.any_cons, List.any_nil, Bool.or_false, decide_eq_true_eq]
    omega

/-! ### bytes -/

theorem oneByte_eq {n : Nat} (h : n < 256) : oneByte n = .ok [UInt8.ofNat n] := by
  unfold oneByte; rw [if_pos h]

theorem foldl_enc {α : Type} (f : α → Bytes) (l : List α) (b : Bytes) :
    l.foldl (fun buf e => buf ++ f e) b = b ++ (l.map f).flatten := by
  induction l generalizing b with
  | nil => simp
  | cons a l ih => rw [List.foldl_cons, ih]; simp

theorem serializeSsk_eq (E : Ext G1 G2 GT) {s : SubSecretKey G1 G2} (ht : s.time < 2 ^ 32)
    (hl : s.hvector.length < 256) : serializeSsk E s = .ok (subLayout E true s) := by
  unfold serializeSsk
  rw [i2osp4_eq ht, Res.ok_bind, oneByte_eq hl, Res.ok_bind, foldl_enc, timeBytes_eq, subLayout]
  simp

theorem serializeSsks_eq (E : Ext G1 G2 GT) {l : List (SubSecretKey G1 G2)}
    (h : ∀ s ∈ l, s.time < 2 ^ 32 ∧ s.hvector.length < 256) (buf : Bytes) :
    serializeSsks E l buf = .ok (buf ++ (l.map (subLayout E true)).flatten) := by
  induction l generalizing buf with
  | nil => simp [serializeSsks]
  | cons s l ih =>
    obtain ⟨h1, h2⟩ := h s (by simp)
    rw [serializeSsks, serializeSsk_eq E h1 h2, Res.ok_bind, ih (fun x hx => h x (by simp [hx]))]
    simp

theorem serializeSk_eq (E : Ext G1 G2 GT) {sk : SecretKey G1 G2} (hc : sk.ciphersuite = 0)
    (hl : sk.ssk.length < 256) (h : ∀ s ∈ sk.ssk, s.time < 2 ^ 32 ∧ s.hvector.length < 256) :
    serializeSk E (ofRust sk) = sk.serialize E true := by
  rw [SecretKey.serialize_eq, validCiphersuite_contains.2 (Or.inl hc), if_pos rfl,
    if_pos (fun s hs => Nat.le_of_lt (h s hs).1)]
  unfold serializeSk
  rw [show (ofRust sk).ssk = sk.ssk from rfl, oneByte_eq hl, Res.ok_bind, serializeSsks_eq E h,
    skLayout, hc]
  rfl

theorem serializeSig_eq (E : Ext G1 G2 GT) {sig : Signature G1 G2} (hc : sig.ciphersuite = 0)
    (ht : sig.time < 2 ^ 32) :
    serializeSig E (sig.time, sig.sigma1, sig.sigma2) = sig.serialize E true := by
  rw [Signature.serialize_eq, validCiphersuite_contains.2 (Or.inl hc), if_pos rfl, if_pos ht]
  unfold serializeSig
  simp only []
  rw [i2osp4_eq ht, Res.ok_bind, sigLayout, hc, timeBytes_eq]
  simp

end Pixel.Py
