import Verif.Spec.Signer
import Verif.Proof.Schedule
import Verif.Proof.Oracle
import Verif.Proof.History

/-!
# The signer, described by exponents: proofs
-/

namespace Pixel

open Spec Props

set_option linter.unusedSectionVars false

variable {G1 G2 GT : Type} [AddCommGroup G1] [AddCommGroup G2] [CommGroup GT]
  {E : Ext G1 G2 GT} {pp : PubParam G1 G2}

/-! ## Lists of times -/

theorem dropped_eq {d : Nat} {v u g : List Nat} {A : List (List Nat)} (hv : IsNode d v)
    (hu : IsNode d u) (hlt : num d v ≤ num d u) (h : gam v = A ++ g :: sibs g) (hg : g <+: u) :
    dropped d (num d v) (num d u) = A.length := by
  obtain ⟨A', g', h1, h2, h3, h4, h5⟩ := SecretKey.gam_find hv hu hlt
  have hgg : g = g' := gam_unique hv hu (by rw [h]; simp) (by rw [h1]; simp) hg h2
  subst hgg
  have hA : A = A' := List.append_cancel_right (h.symm.trans h1)
  subst hA
  rw [dropped, coverTimes_num hv, h, List.map_append, List.map_cons, List.countP_append,
    List.countP_cons_of_pos (by simpa using h4), List.countP_eq_length.2, List.countP_eq_zero.2]
  · simp
  · intro s hs
    obtain ⟨b, hb, rfl⟩ := List.mem_map.1 hs
    have := h5 b hb
    simpa using this
  · intro s hs
    obtain ⟨a, ha, rfl⟩ := List.mem_map.1 hs
    have := h3 a ha
    simp only [decide_eq_true_eq]
    omega

/-- what an update does to the list of times -/
theorem cover_step {d t tar : Nat} (ht : ValidTime d t) (h1 : t < tar) (h2 : tar ≤ 2 ^ d - 1) :
    ∃ A g B, coverTimes d t = A ++ g :: B ∧ dropped d t tar = A.length ∧ ValidTime d g ∧
      ((newTimes d t tar = [] ∧ drawsNeeded d t tar = 0 ∧ coverTimes d tar = g :: B) ∨
        ∃ ss, newTimes d t tar = tar :: ss ∧ drawsNeeded d t tar = ss.length ∧
          coverTimes d tar = tar :: (ss ++ B) ∧
          ∀ s ∈ tar :: ss, ValidTime d s ∧ ∃ w, w ≠ [] ∧ path d s = path d g ++ w) := by
  have htar : ValidTime d tar := ⟨by omega, h2⟩
  have hv := path_isNode ht
  have hu := path_isNode htar
  have ev := num_path ht
  have eu := num_path htar
  have hle : num d (path d t) ≤ num d (path d tar) := by omega
  obtain ⟨A, g, a1, a2, -, -, -⟩ := SecretKey.gam_find hv hu hle
  have hgn : IsNode d g := gam_isNode hv (by rw [a1]; simp)
  have hdr := dropped_eq hv hu hle a1 a2
  have hc := coverTimes_num hv
  have hc' := coverTimes_num hu
  rw [ev] at hc
  rw [eu] at hc'
  rw [ev, eu] at hdr
  refine ⟨A.map (num d), num d g, (sibs g).map (num d), ?_, ?_, valid_num hgn, ?_⟩
  · rw [hc, a1]; simp
  · rw [hdr]; simp
  · obtain ⟨w, hw⟩ := a2
    by_cases hw0 : w = []
    · left
      subst hw0
      rw [List.append_nil] at hw
      have e1 := newTimes_self hv a1
      have e2 := drawsNeeded_self hv a1
      rw [hw, ev, eu] at e1 e2
      exact ⟨e1, e2, by rw [hc', ← hw, gam]; simp⟩
    · right
      rw [← hw] at hu
      have e1 := newTimes_below hv hu hw0 a1
      have e2 := drawsNeeded_below hv hu hw0 a1
      rw [hw, ev, eu] at e1 e2
      refine ⟨((sibs w).map (g ++ ·)).map (num d), e1, by rw [e2]; simp, ?_, ?_⟩
      · rw [hc', ← hw, gam, sibs_append, List.map_cons, List.map_append, hw, eu]
      · have hpg : path d (num d g) = g := path_num hgn
        intro s hs
        rcases List.mem_cons.1 hs with rfl | hs
        · exact ⟨htar, w, hw0, by rw [hpg, hw]⟩
        · obtain ⟨b, hb, rfl⟩ := List.mem_map.1 hs
          obtain ⟨x, hx, rfl⟩ := List.mem_map.1 hb
          have hn : IsNode d (g ++ x) := by
            apply sibs_isNode hu
            rw [sibs_append]
            exact List.mem_append_left _ (List.mem_map_of_mem hx)
          refine ⟨valid_num hn, x, ?_, by rw [path_num hn, hpg]⟩
          obtain ⟨a, b, _, rfl⟩ := mem_sibs.1 hx
          simp

theorem stepExponents_length {d t tar : Nat} (ht : ValidTime d t) (h1 : t < tar)
    (h2 : tar ≤ 2 ^ d - 1) {rho rs : List Fr} (hr : rho.length = (coverTimes d t).length)
    (hs : rs.length = drawsNeeded d t tar) :
    (stepExponents d t tar rho rs).length = (coverTimes d tar).length := by
  obtain ⟨A, g, B, e1, e2, -, e3⟩ := cover_step ht h1 h2
  rw [e1] at hr
  simp only [List.length_append, List.length_cons] at hr
  unfold stepExponents
  rcases hdr : rho.drop (dropped d t tar) with _ | ⟨r, rest⟩
  · have := congrArg List.length hdr
    simp at this
    omega
  · have := congrArg List.length hdr
    simp at this
    rcases e3 with ⟨_, e4, e5⟩ | ⟨ss, _, e4, e5, _⟩
    · simp only [List.length_cons, List.length_append, List.length_map, e5]
      omega
    · simp only [List.length_cons, List.length_append, List.length_map, e5]
      omega

/-! ## Sub keys -/

theorem subKeyOf_for {s : Nat} (hs : ValidTime pp.depth s) (x r : Fr) :
    SubKeyFor pp (x.val • pp.h) (path pp.depth s) r.val (subKeyOf pp x s r) where
  node := nodeAt_iff.2 ⟨hs, rfl⟩
  g2r := rfl
  hpoly := rfl
  hvector := rfl

/-- a sub key is given by its node and its randomness modulo `r` -/
theorem subKey_eq (L : GroupLaws E) (W : ParamWF E pp) {x : Fr} {v : List Nat} {n : Nat}
    {s : SubSecretKey G1 G2} (h : SubKeyFor pp (x.val • pp.h) v n s) {r : Fr} (hn : (n : Fr) = r) :
    s = subKeyOf pp x (num pp.depth v) r := by
  subst hn
  have hp := path_num h.isNode
  have h2 : rOrder • pp.g2 = 0 := by rw [W.g2_gen]; exact L.sub2_order _ L.gen2_sub
  refine h.unique ⟨nodeAt_num h.isNode, ?_, ?_, ?_⟩
  · exact mulFr_natCast h2 n
  · show x.val • pp.h + mulFr (n : Fr) (nodePoint pp (path pp.depth (num pp.depth v))) = _
    rw [hp, mulFr_natCast (L.sub1_order _ (L.sub1_nodePoint W v))]
  · show (pp.hlist.drop ((path pp.depth (num pp.depth v)).length + 1)).map (mulFr (n : Fr)) = _
    rw [hp]
    refine List.map_congr_left fun a ha => mulFr_natCast (L.sub1_order _ ?_) n
    exact W.hlist_sub _ (List.mem_of_mem_drop ha)

theorem val_cast (r : Fr) : ((r.val : Nat) : Fr) = r := ZMod.natCast_zmod_val r

/-- delegation and re-randomisation, on exponents -/
theorem subKeyOf_delegated (L : GroupLaws E) (W : ParamWF E pp) {x r : Fr} {g w : List Nat}
    (hg : IsNode pp.depth g) (hw : IsNode pp.depth (g ++ w)) :
    (subKeyOf pp x (num pp.depth g) r).delegated (num pp.depth (g ++ w)) w =
      subKeyOf pp x (num pp.depth (g ++ w)) r := by
  have h := subKeyOf_for (pp := pp) (valid_num hg) x r
  rw [path_num hg] at h
  exact subKey_eq L W (h.delegated W.toParamShape hw) (val_cast r)

theorem subKeyOf_rerand (L : GroupLaws E) (W : ParamWF E pp) {x r r' : Fr} {v : List Nat}
    (hv : IsNode pp.depth v) :
    (subKeyOf pp x (num pp.depth v) r).rerand pp v r'.val =
      subKeyOf pp x (num pp.depth v) (r + r') := by
  have h := subKeyOf_for (pp := pp) (valid_num hv) x r
  rw [path_num hv] at h
  refine subKey_eq L W (h.rerand r'.val) ?_
  rw [Nat.cast_add, val_cast, val_cast]

theorem Spec.KeyAs.keyFor {x : Fr} {t : Nat} {rho : List Fr} {sk : SecretKey G1 G2}
    (h : KeyAs pp x t rho sk) : KeyFor pp (x.val • pp.h) t sk := by
  have hn := path_isNode h.valid
  refine ⟨h.suite, h.time, h.valid, h.prng, gam (path pp.depth t),
    (coverList_iff (nodeAt_iff.2 ⟨h.valid, rfl⟩)).2 rfl, ?_⟩
  have hc := coverTimes_num hn
  rw [num_path h.valid] at hc
  have hl := h.length
  rw [h.ssk, keysOf, hc]
  rw [hc, List.length_map] at hl
  have hg : ∀ g ∈ gam (path pp.depth t), IsNode pp.depth g := fun g => gam_isNode hn
  generalize gam (path pp.depth t) = vs at *
  clear hc h
  induction vs generalizing rho with
  | nil => simp
  | cons v vs ih =>
    cases rho with
    | nil => simp at hl
    | cons r rho =>
      simp only [List.map_cons, List.zipWith_cons_cons]
      refine .cons ⟨r.val, ?_⟩ (ih ?_ (fun g hg' => hg g (by simp [hg'])))
      · have := subKeyOf_for (pp := pp) (valid_num (hg v (by simp))) x r
        rwa [path_num (hg v (by simp))] at this
      · simpa using hl

/-- every honest key has exponents -/
theorem keyAs_of_keyFor (L : GroupLaws E) (W : ParamWF E pp) {x : Fr} {t : Nat}
    {sk : SecretKey G1 G2} (h : KeyFor pp (x.val • pp.h) t sk) : ∃ rho, KeyAs pp x t rho sk := by
  obtain ⟨vs, h1, h2⟩ := h.ssk
  have hn := path_isNode h.valid
  have hvs := (coverList_iff (nodeAt_iff.2 ⟨h.valid, rfl⟩)).1 h1
  have hc := coverTimes_num hn
  rw [num_path h.valid, ← hvs] at hc
  have key : ∃ rho : List Fr, rho.length = vs.length ∧
      sk.ssk = List.zipWith (subKeyOf pp x) (vs.map (num pp.depth)) rho := by
    clear hc hvs h1
    generalize sk.ssk = l at h2
    induction h2 with
    | nil => exact ⟨[], rfl, rfl⟩
    | cons h3 _ ih =>
      obtain ⟨rho, e1, e2⟩ := ih
      obtain ⟨n, h4⟩ := h3
      refine ⟨(n : Fr) :: rho, by simp [e1], ?_⟩
      rw [List.map_cons, List.zipWith_cons_cons, ← e2, ← subKey_eq L W h4 rfl]
  obtain ⟨rho, e1, e2⟩ := key
  exact ⟨rho, h.suite, h.time, h.valid, by rw [hc, e1, List.length_map], by rw [e2, keysOf, hc],
    h.prng⟩

/-! ## Key update -/

theorem drawn_eq {sha : Bytes → Bytes} (hsha : ∀ m, (sha m).length = 64) (info : Bytes) (p : Prng) :
    drawn sha info p = drawVal sha p info := by
  unfold drawn
  rw [sampleThenUpdate_eq hsha]

/-- the sub keys made by the loop of an update -/
theorem fresh_eq (L : GroupLaws E) (W : ParamWF E pp) {x r : Fr} {g : List Nat}
    (hg : IsNode pp.depth g) (val : Nat → Fr) {ws : List (List Nat)}
    (hws : ∀ w ∈ ws, IsNode pp.depth (g ++ w)) {n : Nat} {l : List (SubSecretKey G1 G2)}
    (h : List.Forall₂ (fun wk e => e = ((subKeyOf pp x (num pp.depth g) r).delegated
      (num pp.depth (g ++ wk.1)) wk.1).rerand pp (g ++ wk.1) (val wk.2).val) (ws.zipIdx n) l) :
    l = List.zipWith (subKeyOf pp x) ((ws.map (g ++ ·)).map (num pp.depth))
      (((List.range' n ws.length).map val).map (r + ·)) := by
  induction ws generalizing n l with
  | nil => cases h; rfl
  | cons w ws ih =>
    rw [List.zipIdx_cons] at h
    cases h with
    | cons h1 h2 =>
      rw [ih (fun w hw => hws w (by simp [hw])) h2, h1]
      have hw := hws w (by simp)
      rw [subKeyOf_delegated L W hg hw, subKeyOf_rerand L W hw, List.length_cons, List.range'_succ]
      rfl

/-- `update` acts on the exponents as described -/
theorem update_exponents (H : HashLaws E) (L : GroupLaws E) (pf : Profile) (W : ParamWF E pp)
    {x : Fr} {t : Nat} {rho : List Fr} {sk : SecretKey G1 G2} (h : KeyAs pp x t rho sk) {tar : Nat}
    (h1 : t < tar) (h2 : tar ≤ 2 ^ pp.depth - 1) (seed : Bytes) {sk' : SecretKey G1 G2}
    (hu : SecretKey.update E.sha512 pf pp tar seed sk = (.ok (), sk')) :
    KeyAs pp x tar (stepExponents pp.depth t tar rho
      (updateDraws E.sha512 pp.depth sk.prng t tar seed)) sk' := by
  have hk := h.keyFor
  have htar : ValidTime pp.depth tar := ⟨by omega, h2⟩
  have hun := path_isNode htar
  have hnt := num_path htar
  have hvn := path_isNode h.valid
  have hvt := num_path h.valid
  obtain ⟨v, hv, hh⟩ := keyFor_iff.1 hk
  have hve : v = path pp.depth t := (nodeAt_iff.1 hv).2
  subst hve
  have hlt : num pp.depth (path pp.depth t) < num pp.depth (path pp.depth tar) := by omega
  have hk' : KeyFor pp (x.val • pp.h) tar sk' := by
    rcases (C15_update_outcome H.sha_len pf W.toParamShape hk tar seed).2 ⟨h1, h2⟩ with
      ⟨sk2, e1, e2⟩ | ⟨e1, _⟩
    · rw [hu] at e1
      rwa [(Prod.mk.inj e1).2]
    · rw [hu] at e1
      cases (Prod.mk.inj e1).1
  have hdl : (updateDraws E.sha512 pp.depth sk.prng t tar seed).length =
      drawsNeeded pp.depth t tar := by simp [updateDraws]
  refine ⟨hk'.suite, hk'.time, htar, stepExponents_length h.valid h1 h2 h.length hdl, ?_, hk'.prng⟩
  obtain ⟨A, g, SA, sg, SB, a1, a2, a3, a4, a5, a6⟩ :=
    SecretKey.update_eq H.sha_len (pf := pf) W.toParamShape hh hun hlt seed
  rw [hnt, hu] at a6
  have hgu : g <+: path pp.depth tar := by
    rcases a6 with ⟨rfl, _⟩ | ⟨w, _, e, _⟩
    · exact List.prefix_refl _
    · exact ⟨w, e.symm⟩
  have hdr := dropped_eq hvn hun (Nat.le_of_lt hlt) a1 hgu
  rw [hvt, hnt] at hdr
  have hgn : IsNode pp.depth g := a4.isNode
  -- the exponents of the three parts
  have hc := coverTimes_num hvn
  rw [hvt, a1, List.map_append, List.map_cons] at hc
  have hlen := h.length
  rw [hc] at hlen
  simp only [List.length_append, List.length_cons, List.length_map] at hlen
  obtain ⟨rA, r, rB, hrho, hrA, hrB⟩ : ∃ rA r rB, rho = rA ++ r :: rB ∧ rA.length = A.length ∧
      rB.length = (sibs g).length := by
    have hlt' : A.length < rho.length := by omega
    refine ⟨rho.take A.length, rho[A.length], rho.drop (A.length + 1), ?_, ?_, ?_⟩
    · rw [← List.drop_eq_getElem_cons hlt', List.take_append_drop]
    · rw [List.length_take]; omega
    · rw [List.length_drop]; omega
  have hssk : SA ++ sg :: SB = List.zipWith (subKeyOf pp x) (A.map (num pp.depth)) rA ++
      subKeyOf pp x (num pp.depth g) r ::
        List.zipWith (subKeyOf pp x) ((sibs g).map (num pp.depth)) rB := by
    rw [← a2, h.ssk, keysOf, hc, hrho, List.zipWith_append (by simp [hrA])]
    rfl
  obtain ⟨-, hcons⟩ := List.append_inj hssk (by rw [← a3.length_eq]; simp [hrA])
  obtain ⟨hsg, hSB⟩ := List.cons.inj hcons
  subst hsg hSB
  have hstep : ∀ rs, stepExponents pp.depth t tar rho rs = r :: (rs.map (r + ·) ++ rB) := by
    intro rs
    rw [stepExponents, hdr, hrho, ← hrA, List.drop_left]
  rw [hstep, keysOf]
  have hc' := coverTimes_num hun
  rw [hnt] at hc'
  rcases a6 with ⟨hge, a6⟩ | ⟨w, hw, hgw, a6⟩
  · have hd0 := drawsNeeded_self hvn a1
    rw [hge, hnt, hvt] at hd0
    have hnil : updateDraws E.sha512 pp.depth sk.prng t tar seed = [] := by
      rw [updateDraws, hd0]; rfl
    rw [hnil, (Prod.mk.inj a6).2, hc', ← hge]
    rfl
  · rw [hgw] at hun
    have hd0 := drawsNeeded_below hvn hun hw a1
    rw [← hgw, hnt, hvt] at hd0
    have hfl := SecretKey.freshLoop_ok_iff (sha := E.sha512) (pp := pp) (p0 := sk.prng) (g := g)
      (s := subKeyOf pp x (num pp.depth g) r) (sibs w)
      (mixed E.sha512 sk.prng seed (SecretKey.reseedInfo sk.time))
    by_cases hx : ∃ k, 1 ≤ k ∧ k ≤ (sibs w).length ∧
        SecretKey.chain E.sha512 (mixed E.sha512 sk.prng seed (SecretKey.reseedInfo sk.time)) k =
          sk.prng
    · rw [hfl.2 hx] at a6
      cases (Prod.mk.inj a6).1
    · obtain ⟨l, hl, hf⟩ := hfl.1 (fun k h1 h2 h3 => hx ⟨k, h1, h2, h3⟩)
      rw [hl] at a6
      have hsk' := (Prod.mk.inj a6).2
      have hws : ∀ y ∈ sibs w, IsNode pp.depth (g ++ y) := by
        intro y hy
        apply sibs_isNode hun
        rw [sibs_append]
        exact List.mem_append_left _ (List.mem_map_of_mem hy)
      have hl' := fresh_eq L W hgn (fun k => drawVal E.sha512 (SecretKey.chain E.sha512
        (mixed E.sha512 sk.prng seed (SecretKey.reseedInfo sk.time)) k) DOM_SEP_SK_UPDATE) hws hf
      have hdraws : updateDraws E.sha512 pp.depth sk.prng t tar seed =
          (List.range' 0 (sibs w).length).map fun k => drawVal E.sha512 (SecretKey.chain E.sha512
            (mixed E.sha512 sk.prng seed (SecretKey.reseedInfo sk.time)) k) DOM_SEP_SK_UPDATE := by
        rw [updateDraws, hd0, List.range_eq_range']
        refine List.map_congr_left fun k _ => ?_
        rw [drawn_eq H.sha_len, ← text_update, afterDraws_eq H.sha_len, reseeded_eq H.sha_len,
          h.time]
      rw [hdraws, hsk', hc', hgw, gam, sibs_append, List.map_cons, List.map_append]
      show _ :: (l ++ _) = _ :: List.zipWith _ (_ ++ _) (_ ++ _)
      have hn2 : num pp.depth (g ++ w) = tar := by rw [← hgw, hnt]
      rw [List.zipWith_append (by simp), ← hl', ← subKeyOf_delegated L W hgn hun, hn2]

/-! ## Signing and key generation -/

theorem Spec.KeyAs.head {x : Fr} {t : Nat} {rho : List Fr} {sk : SecretKey G1 G2}
    (h : KeyAs pp x t rho sk) : ∃ l, sk.ssk = subKeyOf pp x t (rho.headD 0) :: l := by
  have hn := path_isNode h.valid
  have hc := coverTimes_num hn
  rw [num_path h.valid, gam, List.map_cons, num_path h.valid] at hc
  have hl := h.length
  rw [hc] at hl
  cases rho with
  | nil => simp at hl
  | cons r rho =>
    rw [h.ssk, keysOf, hc]
    exact ⟨_, rfl⟩

theorem signFr_exponents (L : GroupLaws E) (pf : Profile) (W : ParamWF E pp) {x : Fr} {t : Nat}
    {r0 : Fr} (ht : ValidTime pp.depth t) {sk : SecretKey G1 G2} {l : List (SubSecretKey G1 G2)}
    (htime : sk.time = t) (hs : sk.ssk = subKeyOf pp x t r0 :: l) (M r : Fr) :
    Signature.signFr pf sk t pp M r = .ok (signatureOf pp x t M (r0 + r)) := by
  have hg : rOrder • pp.g2 = 0 := by rw [W.g2_gen]; exact L.sub2_order _ L.gen2_sub
  have hp : rOrder • sigPoint pp (path pp.depth t) M = 0 := L.sub1_order _ (L.sub1_sigPoint W _ M)
  have := Signature.signFr_first W.toParamShape pf hs (subKeyOf_for ht x r0) M r
  rw [htime] at this
  rw [this]
  unfold signatureOf
  congr 2
  · exact (mulFr_add hg r0 r).symm
  · exact congrArg _ (mulFr_add hp r0 r).symm

theorem signDraw_eq {sha : Bytes → Bytes} (hsha : ∀ m, (sha m).length = 64) (p : Prng) (t : Nat)
    (msg : Bytes) : signDraw sha p t msg = drawVal sha p (signInfo msg t) := by
  unfold signDraw signInfo
  rw [sample_eq hsha, text_sig, timeBytes_eq]

theorem signPresent_exponents (H : HashLaws E) (L : GroupLaws E) (pf : Profile) (W : ParamWF E pp)
    (hc : Supported pp.ciphersuite) {x : Fr} {t : Nat} {rho : List Fr} {sk : SecretKey G1 G2}
    (h : KeyAs pp x t rho sk) (msg : Bytes) :
    Signature.signPresent E.sha512 pf t pp msg sk =
      (.ok (signatureOf pp x t (msgField E.sha512 pp.ciphersuite msg)
        (rho.headD 0 + signDraw E.sha512 sk.prng t msg)), sk) := by
  obtain ⟨l, hl⟩ := h.head
  unfold Signature.signPresent
  rw [SM.get_bind, if_neg (by simp [h.time])]
  unfold Signature.signBytes
  simp only [validCiphersuite_contains.2 hc, Bool.not_true, Bool.false_eq_true, if_false, h.suite,
    ne_eq, not_true_eq_false, h.time, decide_true, assertRes_true, Res.ok_bind]
  rw [sample_exec H.sha_len]
  simp only [Res.ok_bind]
  rw [hashMsg_eq H.sha_len, Res.ok_bind, signFr_exponents L pf W h.valid h.time hl,
    signDraw_eq H.sha_len]
  rfl

theorem keygen_exponents (H : HashLaws E) (L : GroupLaws E) (W : ParamWF E pp) {seed : Bytes}
    {pk : PublicKey G2} {sk : SecretKey G1 G2} {pop : ProofOfPossession G1}
    (h : keygen E seed pp = .ok (pk, sk, pop)) :
    pk.pk = (keyDraws E.sha512 seed pp.ciphersuite).1.val • pp.g2 ∧
      KeyAs pp (keyDraws E.sha512 seed pp.ciphersuite).1 1
        [(keyDraws E.sha512 seed pp.ciphersuite).2] sk := by
  have hc := keygen_supported h
  have hl : 32 ≤ seed.length := by
    by_contra hl
    rw [keygen_short (by omega)] at h; cases h
  have hst : (⟨hmac E.sha512 (text "Pixel master key" ++ [pp.ciphersuite]) seed⟩ : Prng) =
      kgState E.sha512 seed pp.ciphersuite := by
    unfold kgState
    rw [text_masterSalt]
  have hx : (keyDraws E.sha512 seed pp.ciphersuite).1 = kgSecret E.sha512 seed pp.ciphersuite := by
    unfold keyDraws kgSecret
    simp only []
    rw [drawn_eq H.sha_len, hst, text_master]
  have hr : (keyDraws E.sha512 seed pp.ciphersuite).2 = drawVal E.sha512
      (kgNext E.sha512 seed pp.ciphersuite) (DOM_SEP_SK_INIT ++ [0, 0, 0, 1]) := by
    unfold keyDraws kgNext
    simp only []
    rw [drawn_eq H.sha_len, hst, text_master, text_init, sampleThenUpdate_eq H.sha_len]
    rfl
  obtain ⟨s, _, h2, h3⟩ := keygen_eq H W.toParamShape hl hc
  rw [h] at h3
  have h4 := Res.ok.inj h3
  obtain ⟨h5, h6⟩ := Prod.mk.inj h4
  obtain ⟨h6, _⟩ := Prod.mk.inj h6
  subst h5 h6
  have hd := W.depth_pos
  have hnil : num pp.depth [] = 1 := by simp
  have hv1 : ValidTime pp.depth 1 := hnil ▸ valid_num (isNode_nil.2 hd)
  have hcov : coverTimes pp.depth 1 = [1] := by
    obtain ⟨d, e⟩ : ∃ d, pp.depth = d + 1 := ⟨pp.depth - 1, by omega⟩
    rw [e, coverTimes_one]
  rw [hx, hr]
  refine ⟨rfl, rfl, rfl, hv1, by rw [hcov]; rfl, ?_, drawNext_wf H.sha_len _ _⟩
  rw [keysOf, hcov]
  show [s] = [subKeyOf pp _ 1 _]
  rw [subKey_eq L W h2 (val_cast _), hnil]

/-! ## Averages over lists of scalars -/

theorem avgs_congr {n : Nat} {f f' : List Fr → ℚ} (h : ∀ l, l.length = n → f l = f' l) :
    avgs n f = avgs n f' := by
  induction n generalizing f f' with
  | zero => exact h [] rfl
  | succ n ih => exact avg_congr fun r => ih fun l hl => h _ (by simp [hl])

theorem avgs_mono {n : Nat} {f f' : List Fr → ℚ} (h : ∀ l, l.length = n → f l ≤ f' l) :
    avgs n f ≤ avgs n f' := by
  induction n generalizing f f' with
  | zero => exact h [] rfl
  | succ n ih => exact avg_mono fun r => ih fun l hl => h _ (by simp [hl])

theorem avgs_const (n : Nat) (c : ℚ) : avgs n (fun _ => c) = c := by
  induction n with
  | zero => rfl
  | succ n ih => simp only [avgs, ih]; exact avg_const c

theorem avgs_append (a b : Nat) (f : List Fr → ℚ) :
    avgs (a + b) f = avgs a fun l => avgs b fun l' => f (l ++ l') := by
  induction a generalizing f with
  | zero => rw [Nat.zero_add]; rfl
  | succ a ih =>
    rw [Nat.succ_add]
    exact avg_congr fun r => ih fun l => f (r :: l)

theorem avg_avgs {α : Type} [Fintype α] (n : Nat) (f : α → List Fr → ℚ) :
    (avg fun a => avgs n (f a)) = avgs n fun l => avg fun a => f a l := by
  induction n generalizing f with
  | zero => rfl
  | succ n ih =>
    simp only [avgs]
    rw [avg_comm]
    exact avg_congr fun r => ih fun a l => f a (r :: l)

theorem avgs_comm (a b : Nat) (f : List Fr → List Fr → ℚ) :
    (avgs a fun l => avgs b (f l)) = avgs b fun l' => avgs a fun l => f l l' := by
  induction a generalizing f with
  | zero => rfl
  | succ a ih =>
    simp only [avgs]
    rw [avg_congr fun r => ih fun l => f (r :: l), avg_avgs]

theorem avgs_shift (n : Nat) (f : List Fr → ℚ) (c : Fr) :
    avgs n (fun l => f (l.map (c + ·))) = avgs n f := by
  induction n generalizing f with
  | zero => rfl
  | succ n ih =>
    simp only [avgs, List.map_cons]
    rw [avg_congr fun r => ih fun l => f ((c + r) :: l)]
    exact avg_equiv (Equiv.addLeft c) fun r => avgs n fun l => f (r :: l)

/-- uniform exponents stay uniform -/
theorem stepExponents_uniform {d t tar : Nat} (ht : ValidTime d t) (h1 : t < tar)
    (h2 : tar ≤ 2 ^ d - 1) (f : List Fr → ℚ) :
    (avgs (coverTimes d t).length fun rho => avgs (drawsNeeded d t tar) fun rs =>
      f (stepExponents d t tar rho rs)) = avgs (coverTimes d tar).length f := by
  obtain ⟨A, g, B, e1, e2, -, e3⟩ := cover_step ht h1 h2
  have hl : (coverTimes d tar).length = (drawsNeeded d t tar + B.length) + 1 := by
    rcases e3 with ⟨_, e4, e5⟩ | ⟨ss, _, e4, e5, _⟩
    · simp [e5, e4]
    · simp [e5, e4]
  rw [hl, e1, List.length_append, List.length_cons, avgs_append]
  rw [avgs_congr (f' := fun _ => avgs (drawsNeeded d t tar + B.length + 1) f), avgs_const]
  intro rA hrA
  simp only [avgs]
  refine avg_congr fun r => ?_
  have hstep : ∀ rB rs, stepExponents d t tar (rA ++ r :: rB) rs = r :: (rs.map (r + ·) ++ rB) := by
    intro rB rs
    rw [stepExponents, e2, ← hrA, List.drop_left]
  simp only [hstep]
  rw [avgs_comm, avgs_append]
  exact avgs_shift _ (fun rs => avgs B.length fun rB => f (r :: (rs ++ rB))) r

end Pixel
