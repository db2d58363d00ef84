import Mathlib.GroupTheory.OrderOfElement
import Verif.Proof.Malformed
import Verif.Proof.Prime
import Verif.Props.Validate
import Verif.Props.Python
import Verif.Spec.Ffi

/-! # Helper lemmas for C104: signatures of keys that did not come from key generation -/

namespace Pixel

open Pixel.Spec

variable {G1 G2 GT : Type} [AddCommGroup G1] [AddCommGroup G2] [CommGroup GT]

omit [AddCommGroup G2] in
theorem bareSignature_eq (s : SubSecretKey G1 G2) (w : List Nat) (M : Fr) :
    bareSignature s w M = s.hpoly + wsum w s.hvector + M.val • s.hvector.getLastD 0 := rfl

theorem getLastD_drop {α : Type} (l : List α) (n : Nat) (a : α) (h : n < l.length) :
    (l.drop n).getLastD a = l.getLastD a := by
  rw [List.getLastD_eq_getLast?, List.getLastD_eq_getLast?, List.getLast?_drop, if_neg (by omega)]

omit [AddCommGroup G2] in
/-- delegation first -/
theorem bareSignature_delegated {s : SubSecretKey G1 G2} {tar : Nat} {x w : List Nat} {M : Fr}
    (h : x.length < s.hvector.length) :
    bareSignature (s.delegated tar x) w M = bareSignature s (x ++ w) M := by
  rw [bareSignature_eq, bareSignature_eq, wsum_append _ _ _ (by omega)]
  simp only [SubSecretKey.delegated]
  rw [getLastD_drop _ _ _ h, ← add_assoc]

theorem wsum_zipWith_smul (w : List Nat) (as hs : List G1) (n : Nat) (h1 : w.length ≤ as.length)
    (h2 : w.length ≤ hs.length) :
    wsum w (List.zipWith (fun a h => a + n • h) as hs) = wsum w as + n • wsum w hs := by
  rw [← wsum_map_smul, ← wsum_zipAdd _ _ _ h1 (by simpa using h2)]
  congr 1
  rw [List.zipWith_map_right]

theorem zipWith_getLastD (as hs : List G1) (n : Nat) (h : as.length = hs.length) (h0 : as ≠ []) :
    (List.zipWith (fun a h => a + n • h) as hs).getLastD 0 = as.getLastD 0 + n • hs.getLastD 0 := by
  induction as generalizing hs with
  | nil => exact absurd rfl h0
  | cons a as ih =>
    cases hs with
    | nil => simp at h
    | cons b hs =>
      cases as with
      | nil =>
        have : hs = [] := by simpa using h.symm
        subst this
        rfl
      | cons a' as =>
        cases hs with
        | nil => simp at h
        | cons b' hs =>
          have := ih (b' :: hs) (by simpa using h) (by simp)
          simpa [List.getLastD_eq_getLast?] using this

/-- re-randomisation -/
theorem bareSignature_rerand {pp : PubParam G1 G2} (S : ParamShape pp) {s : SubSecretKey G1 G2}
    {v w : List Nat} {M : Fr} {n : Nat} (hl : v.length + s.hvector.length = pp.depth)
    (hw : w.length < s.hvector.length) :
    bareSignature (s.rerand pp v n) w M = bareSignature s w M + n • sigPoint pp (v ++ w) M := by
  have hlen := S.hlist_len
  have hdl : (pp.hlist.drop (v.length + 1)).length = s.hvector.length := by
    rw [List.length_drop]; omega
  rw [bareSignature_eq, bareSignature_eq, sigPoint, nodePoint_append _ _ _ (by omega)]
  simp only [SubSecretKey.rerand]
  rw [wsum_zipWith_smul _ _ _ _ (by omega) (by omega),
    zipWith_getLastD _ _ _ hdl.symm (by intro hc; rw [hc] at hw; simp at hw),
    getLastD_drop _ _ _ (by omega)]
  simp only [smul_add, smul_comm M.val n]
  abel

theorem wsum_mem {K : AddSubmonoid G1} (w : List Nat) {hs : List G1} (h : ∀ a ∈ hs, a ∈ K) :
    wsum w hs ∈ K := by
  induction w generalizing hs with
  | nil => exact K.zero_mem
  | cons t w ih =>
    cases hs with
    | nil => exact K.zero_mem
    | cons a hs =>
      rw [wsum_cons]
      exact K.add_mem (K.nsmul_mem (h a (by simp)) _) (ih fun b hb => h b (by simp [hb]))

theorem nodePoint_mem {K : AddSubmonoid G1} {pp : PubParam G1 G2} (h : ∀ a ∈ pp.hlist, a ∈ K)
    (v : List Nat) : nodePoint pp v ∈ K := by
  rw [nodePoint_eq]
  refine K.add_mem ?_ (wsum_mem _ fun a ha => h a (List.mem_of_mem_tail ha))
  cases hl : pp.hlist with
  | nil => exact K.zero_mem
  | cons a l => exact h a (by rw [hl]; simp)

/-- what the sub key `s` of node `v` contributes to signatures at node `u`; its elements are in `K` -/
structure Contributes (K : AddSubmonoid G1) (pp : PubParam G1 G2) (u : List Nat) (M : Fr) (c : G1) (v : List Nat)
    (s : SubSecretKey G1 G2) : Prop where
  node : IsNode pp.depth v
  time : s.time = num pp.depth v
  len : v.length + s.hvector.length = pp.depth
  mem : s.hpoly ∈ K ∧ ∀ h ∈ s.hvector, h ∈ K
  gen : ∃ rho : Nat, s.g2r = rho • pp.g2 ∧
    ∀ w, u = v ++ w → bareSignature s w M = c + rho • sigPoint pp u M

theorem Contributes.delegated {K : AddSubmonoid G1} {pp : PubParam G1 G2} {u : List Nat} {M : Fr} {c : G1} {v x : List Nat}
    {s : SubSecretKey G1 G2} (h : Contributes K pp u M c v s) (hx : IsNode pp.depth (v ++ x)) :
    Contributes K pp u M c (v ++ x) (s.delegated (num pp.depth (v ++ x)) x) := by
  obtain ⟨h1, h2, h3, ⟨k1, k2⟩, rho, h4, h5⟩ := h
  have hlt := hx.1
  rw [List.length_append] at hlt
  refine ⟨hx, rfl, ?_, ⟨K.add_mem k1 (wsum_mem _ k2), fun a ha => k2 a (List.mem_of_mem_drop ha)⟩, rho, h4,
    fun w hw => ?_⟩
  · simp only [SubSecretKey.delegated, List.length_append, List.length_drop]; omega
  · rw [bareSignature_delegated (by omega), h5 _ (by rw [hw, List.append_assoc])]

theorem Contributes.rerand {K : AddSubmonoid G1} {pp : PubParam G1 G2} (S : ParamShape pp)
    (hK : ∀ a ∈ pp.hlist, a ∈ K) {u : List Nat} {M : Fr} {c : G1}
    {v : List Nat} {s : SubSecretKey G1 G2} (h : Contributes K pp u M c v s) (hu : IsNode pp.depth u)
    (n : Nat) : Contributes K pp u M c v (s.rerand pp v n) := by
  obtain ⟨h1, h2, h3, ⟨k1, k2⟩, rho, h4, h5⟩ := h
  have hlen := S.hlist_len
  refine ⟨h1, h2, ?_, ⟨K.add_mem k1 (K.nsmul_mem (nodePoint_mem hK _) _), fun a ha => ?_⟩, rho + n, ?_,
    fun w hw => ?_⟩
  · simp only [SubSecretKey.rerand, List.length_zipWith, List.length_drop]; omega
  · obtain ⟨i, hi, rfl⟩ := List.getElem_of_mem ha
    simp only [SubSecretKey.rerand, List.getElem_zipWith]
    exact K.add_mem (k2 _ (List.getElem_mem _))
      (K.nsmul_mem (hK _ (List.mem_of_mem_drop (List.getElem_mem _))) _)
  · simp only [SubSecretKey.rerand, h4, add_smul]
  · have := hu.1
    rw [hw, List.length_append] at this
    rw [bareSignature_rerand S h3 (by omega), h5 w hw, ← hw, add_smul, add_assoc]

theorem freshLoop_contributes {K : AddSubmonoid G1} {sha : Bytes → Bytes} {pp : PubParam G1 G2}
    (S : ParamShape pp) (hK : ∀ a ∈ pp.hlist, a ∈ K)
    {u : List Nat} {M : Fr} {c : G1} (hu : IsNode pp.depth u) {p0 : Prng} {g : List Nat}
    {s : SubSecretKey G1 G2} (h : Contributes K pp u M c g s) {ws : List (List Nat)}
    (hws : ∀ x ∈ ws, IsNode pp.depth (g ++ x)) {p p' : Prng} {l : List (SubSecretKey G1 G2)}
    (hf : SecretKey.freshLoop sha pp p0 g s p ws = .ok (l, p')) :
    List.Forall₂ (Contributes K pp u M c) (ws.map (g ++ ·)) l := by
  induction ws generalizing p l with
  | nil => cases hf; exact .nil
  | cons w ws ih =>
    rw [SecretKey.freshLoop] at hf
    split at hf
    · cases hf
    · cases hl : SecretKey.freshLoop sha pp p0 g s (drawNext sha p DOM_SEP_SK_UPDATE) ws with
      | ok q =>
        obtain ⟨l', q'⟩ := q
        rw [hl] at hf
        cases hf
        exact .cons ((h.delegated (hws _ (by simp))).rerand S hK hu _)
          (ih (fun x hx => hws x (by simp [hx])) hl)
      | err e => rw [hl] at hf; cases hf
      | panic e => rw [hl] at hf; cases hf

/-- all sub keys together -/
structure KeyContributes (K : AddSubmonoid G1) (pp : PubParam G1 G2) (u : List Nat) (M : Fr) (c : G1) (v : List Nat)
    (sk : SecretKey G1 G2) : Prop where
  suite : sk.ciphersuite = pp.ciphersuite
  time : sk.time = num pp.depth v
  node : IsNode pp.depth v
  prng : sk.prng.WF
  ssk : List.Forall₂ (Contributes K pp u M c) (gam v) sk.ssk

theorem KeyContributes.raw {K : AddSubmonoid G1} {pp : PubParam G1 G2} {u : List Nat} {M : Fr} {c : G1} {v : List Nat}
    {sk : SecretKey G1 G2} (h : KeyContributes K pp u M c v sk) : SecretKey.RawKey pp v sk :=
  ⟨h.suite, h.time, h.node, h.prng, h.ssk.imp fun _ _ h => ⟨h.node, h.time⟩⟩

theorem KeyContributes.update {K : AddSubmonoid G1} {sha : Bytes → Bytes}
    (hsha : ∀ m, (sha m).length = 64) {pf : Profile}
    {pp : PubParam G1 G2} (S : ParamShape pp) (hK : ∀ a ∈ pp.hlist, a ∈ K) {u : List Nat} {M : Fr} {c : G1} {v : List Nat}
    {sk sk' : SecretKey G1 G2} (h : KeyContributes K pp u M c v sk) (hu : IsNode pp.depth u)
    {v' : List Nat} (hv' : IsNode pp.depth v') (hlt : num pp.depth v < num pp.depth v') {seed : Bytes}
    (hup : SecretKey.update sha pf pp (num pp.depth v') seed sk = (.ok (), sk')) :
    KeyContributes K pp u M c v' sk' := by
  obtain ⟨A, g, SA, sg, SB, a1, a2, hgn, hst, a5, a6⟩ :=
    SecretKey.update_raw hsha (pf := pf) S h.raw hv' hlt seed
  have hss := h.ssk
  have hA : A.length = SA.length := by
    have h1 := hss.length_eq
    have h2 := a5.length_eq
    rw [a1, a2] at h1
    simp only [List.length_append, List.length_cons] at h1
    omega
  rw [a2] at hss
  have hR := List.forall₂_drop_append _ _ _ hss
  rw [a1, ← hA, List.drop_left] at hR
  cases hR with
  | cons hsg hSB =>
  rcases a6 with ⟨hg, a6⟩ | ⟨w, hw, hgw, b1, b2⟩
  · rw [hup] at a6
    cases (Prod.mk.inj a6).2
    refine ⟨h.suite, rfl, hv', mixed_wf hsha _ _ _, ?_⟩
    rw [← hg]
    exact .cons hsg hSB
  · have hvl := hv'.1
    rw [hgw, List.length_append] at hvl
    have hsl := hsg.len
    have e := (b2 (by omega)).1 (.inl (by omega))
    rw [hup] at e
    have hall : ∀ x ∈ sibs w, IsNode pp.depth (g ++ x) := by
      intro x hx
      apply sibs_isNode (hgw ▸ hv')
      rw [sibs_append]
      exact List.mem_append_left _ (List.mem_map_of_mem hx)
    cases hf : SecretKey.freshLoop sha pp sk.prng g sg
        (mixed sha sk.prng seed (SecretKey.reseedInfo sk.time)) (sibs w) with
    | ok q =>
      obtain ⟨l, p'⟩ := q
      rw [hf] at e
      cases (Prod.mk.inj e).2
      refine ⟨h.suite, rfl, hv', SecretKey.freshLoop_wf hsha (mixed_wf hsha _ _ _) hf, ?_⟩
      subst hgw
      rw [gam, sibs_append]
      exact .cons (hsg.delegated hv')
        (List.rel_append (freshLoop_contributes S hK hu hsg hall hf) hSB)
    | err e' => rw [hf] at e; cases (Prod.mk.inj e).1
    | panic e' => rw [hf] at e; cases (Prod.mk.inj e).1

/-- the start: only the sub key above the target matters -/
theorem keyContributes_start {K : AddSubmonoid G1} {pp : PubParam G1 G2} {t : Nat} {sk : SecretKey G1 G2}
    (ht : TimesFor pp t sk) (hl : RightLengths pp sk)
    (hm : ∀ s ∈ sk.ssk, s.hpoly ∈ K ∧ ∀ h ∈ s.hvector, h ∈ K) (hg : ∀ s ∈ sk.ssk, ∃ rho : Nat, s.g2r = rho • pp.g2)
    {s : SubSecretKey G1 G2} (hs : s ∈ sk.ssk) {g w : List Nat} (hgn : NodeAt pp.depth s.time g)
    (hu : IsNode pp.depth (g ++ w)) {rho : Nat} (hr : s.g2r = rho • pp.g2) (M : Fr) :
    ∃ v, NodeAt pp.depth t v ∧
      KeyContributes K pp (g ++ w) M (bareSignature s w M - rho • sigPoint pp (g ++ w) M) v sk := by
  obtain ⟨v, hv, hk⟩ := SecretKey.timesFor_iff.1 ht
  refine ⟨v, hv, hk.suite, hk.time, hk.node, hk.prng, ?_⟩
  obtain ⟨S1, S2, e⟩ := List.append_of_mem hs
  have hss := hk.ssk
  have hlen : ∀ s' ∈ sk.ssk, ∀ b, IsNode pp.depth b → s'.time = num pp.depth b →
      b.length + s'.hvector.length = pp.depth := fun s' hs' b hb hb' =>
    hl s' hs' b (by rw [hb']; exact nodeAt_num hb)
  have h2 := List.forall₂_drop_append _ _ _ (e ▸ hss)
  have h1 := List.forall₂_take_append _ _ _ (e ▸ hss)
  have hsplit := List.take_append_drop S1.length (gam v)
  generalize (gam v).take S1.length = V1 at h1 hsplit
  generalize (gam v).drop S1.length = V2 at h2 hsplit
  cases h2 with
  | @cons a _ V2 _ ha hr2 =>
  have hag : a = g := num_inj ha.1 (nodeAt_isNode hgn) (by rw [← ha.2, nodeAt_num_eq hgn])
  subst hag
  have hmem : ∀ b ∈ V1 ++ V2, b ∈ gam v ∧ b ≠ a := by
    intro b hb
    have hsort := gam_sorted hk.node
    rw [← hsplit, List.pairwise_append] at hsort
    obtain ⟨-, p2, p3⟩ := hsort
    rw [List.pairwise_cons] at p2
    rw [← hsplit]
    rcases List.mem_append.1 hb with hb | hb
    · exact ⟨by simp [hb], fun hc => by
        have := p3 b hb a (by simp)
        rw [hc] at this; omega⟩
    · exact ⟨by simp [hb], fun hc => by
        have := p2.1 b hb
        rw [hc] at this; omega⟩
  have hoff : ∀ b ∈ V1 ++ V2, ∀ s' ∈ sk.ssk, IsNode pp.depth b ∧ s'.time = num pp.depth b →
      Contributes K pp (a ++ w) M (bareSignature s w M - rho • sigPoint pp (a ++ w) M) b s' := by
    intro b hb s' hs' hbs
    obtain ⟨m1, m2⟩ := hmem b hb
    obtain ⟨rho', hr'⟩ := hg s' hs'
    refine ⟨hbs.1, hbs.2, hlen s' hs' b hbs.1 hbs.2, hm s' hs', rho', hr', fun w' hw' => ?_⟩
    exact absurd (gam_unique hk.node hu m1 (by rw [← hsplit]; simp) ⟨w', hw'.symm⟩
      (List.prefix_append _ _)) m2
  have lift : ∀ (V : List (List Nat)) (L : List (SubSecretKey G1 G2)), (∀ b ∈ V, b ∈ V1 ++ V2) →
      (∀ s' ∈ L, s' ∈ sk.ssk) →
      List.Forall₂ (fun b s => IsNode pp.depth b ∧ SubSecretKey.time s = num pp.depth b) V L →
      List.Forall₂ (Contributes K pp (a ++ w) M (bareSignature s w M - rho • sigPoint pp (a ++ w) M))
        V L := by
    intro V L c1 c2 h
    induction h with
    | nil => exact .nil
    | cons q _ ih =>
      exact .cons (hoff _ (c1 _ (by simp)) _ (c2 _ (by simp)) q)
        (ih (fun b hb => c1 b (by simp [hb])) (fun b hb => c2 b (by simp [hb])))
  rw [← hsplit, e]
  refine List.rel_append (lift V1 S1 (fun b hb => by simp [hb]) (fun b hb => by rw [e]; simp [hb]) h1)
    (.cons ?_ (lift V2 S2 (fun b hb => by simp [hb]) (fun b hb => by rw [e]; simp [hb]) hr2))
  refine ⟨ha.1, ha.2, hlen s hs a ha.1 ha.2, hm s hs, rho, hr, fun w' hw' => ?_⟩
  rw [← List.append_cancel_left hw']
  abel

/-- the points of `G1` in the subgroup -/
def sub1 {E : Ext G1 G2 GT} (L : GroupLaws E) : AddSubmonoid G1 where
  carrier := {a | E.inSub1 a = true}
  add_mem' := fun ha hb => L.sub1_add _ _ ha hb
  zero_mem' := L.sub1_zero

/-- signing at the present time, whatever the elements of the sub key -/
theorem sign_bare [DecidableEq GT] {E : Ext G1 G2 GT} (H : HashLaws E)
    (L : GroupLaws E) (pf : Profile) {pp : PubParam G1 G2} (W : ParamWF E pp)
    (hsup : Supported pp.ciphersuite) {pk : PublicKey G2} {x rho : Nat} (hpk : pk.pk = x • pp.g2)
    {v : List Nat} {sk : SecretKey G1 G2} {s : SubSecretKey G1 G2} {l : List (SubSecretKey G1 G2)}
    (hcs : sk.ciphersuite = pp.ciphersuite) (hs : sk.ssk = s :: l) (ht : s.time = sk.time)
    (hn : NodeAt pp.depth s.time v) (hg : s.g2r = rho • pp.g2)
    (hp : E.inSub1 s.hpoly = true) (hv : s.hvector ≠ []) (hvs : ∀ h ∈ s.hvector, E.inSub1 h = true)
    (msg : Bytes) :
    ∃ sig, Signature.signPresent E.sha512 pf sk.time pp msg sk = (.ok sig, sk) ∧
      (Signature.verifyBytes E pf sig pk pp msg = .ok true ↔
        bareSignature s [] (msgField E.sha512 pp.ciphersuite msg) =
          x • pp.h + rho • sigPoint pp v (msgField E.sha512 pp.ciphersuite msg)) := by
  set M := msgField E.sha512 pp.ciphersuite msg with hM
  obtain ⟨h0, hl, hhl, hlen⟩ := hlist_cons W.toParamShape
  have hnode := nodeAt_isNode hn
  have hloop := nodeLoop_eq (pp := pp) (v := v) hhl hnode.2 (by have := hnode.1; omega)
  have hi0 : idx pp.hlist 0 = .ok h0 := by rw [hhl]; rfl
  obtain ⟨c, hc⟩ : ∃ c, s.hvector.getLast? = some c :=
    ⟨_, List.getLast?_eq_some_getLast hv⟩
  have hcD : s.hvector.getLastD 0 = c := by rw [List.getLastD_eq_getLast?, hc]; rfl
  have hcsub : E.inSub1 c = true := hvs c (List.mem_of_getLast? hc)
  have hlast : s.lastHvectorCoeff = .ok c := by
    unfold SubSecretKey.lastHvectorCoeff
    rw [if_neg (by rw [List.isEmpty_iff]; exact hv), idx_eq_ok, ← List.getLast?_eq_getElem?, hc]
  let r := drawVal E.sha512 sk.prng (signInfo msg sk.time)
  let sig : Signature G1 G2 :=
    { ciphersuite := pp.ciphersuite, time := sk.time, sigma1 := s.g2r + mulFr r pp.g2,
      sigma2 := s.hpoly + mulFr M c +
        mulFr r (nodePoint pp v + mulFr M (pp.hlist.getLastD 0)) }
  have hsign : Signature.signPresent E.sha512 pf sk.time pp msg sk = (.ok sig, sk) := by
    rw [Signature.signPresent_eq rfl]
    unfold Signature.signBytes
    simp only [validCiphersuite_contains.2 hsup, Bool.not_true, Bool.false_eq_true, if_false, hcs,
      ne_eq, not_true_eq_false, decide_true, assertRes_true, Res.ok_bind]
    rw [sample_exec H.sha_len]
    simp only [Res.ok_bind]
    rw [hashMsg_eq H.sha_len, Res.ok_bind]
    unfold Signature.signFr SecretKey.firstSsk SubSecretKey.timeVec
    simp only [decide_true, assertRes_true, Res.ok_bind, hs, List.isEmpty_cons, Bool.false_eq_true,
      if_false, idx_zero_cons]
    rw [← nodeAt_num_eq hn, init_num W.depth_le hnode]
    simp only [Res.ok_bind, tvOf]
    rw [hi0, Res.ok_bind, hloop, Res.ok_bind, hlist_last W.toParamShape, Res.ok_bind, hlast,
      Res.ok_bind]
  refine ⟨sig, hsign, ?_⟩
  have hs1 : sig.sigma1 = (rho + r.val) • pp.g2 := by
    change s.g2r + mulFr r pp.g2 = _
    rw [hg, add_smul]; rfl
  have hs2 : sig.sigma2 = s.hpoly + M.val • c +
      r.val • (nodePoint pp v + M.val • pp.hlist.getLastD 0) := rfl
  have hlastsub : E.inSub1 (pp.hlist.getLastD 0) = true := by
    have := hlist_last W.toParamShape
    rw [idx_eq_ok] at this
    exact W.hlist_sub _ (List.mem_of_getElem? this)
  have hsub2 : E.inSub1 sig.sigma2 = true := by
    rw [hs2]
    exact L.sub1_add _ _ (L.sub1_add _ _ hp (L.sub1_nsmul hcsub _))
      (L.sub1_nsmul (L.sub1_add _ _ (L.sub1_nodePoint W v) (L.sub1_nsmul hlastsub _)) _)
  have hs1sub : E.inSub2 sig.sigma1 = true := by
    rw [hs1, W.g2_gen]; exact L.sub2_nsmul L.gen2_sub _
  have hnt : NodeAt pp.depth sig.time v := by
    change NodeAt pp.depth sk.time v
    rw [← ht]; exact hn
  have hcheck := L.sig_check W (v := v) (M := M) hsub2 hs1 hpk
  rw [Signature.verifyBytes_eq H W.toParamShape]
  have hfin : (sig.sigma2 = x • pp.h + (rho + r.val) • sigPoint pp v M) ↔
      bareSignature s [] M = x • pp.h + rho • sigPoint pp v M := by
    rw [hs2, bareSignature_eq, hcD, wsum_nil, add_zero, add_smul, ← add_assoc]
    exact add_left_inj _
  rw [← hfin, ← hcheck]
  constructor
  · intro h
    obtain ⟨_, _, _, _, w, hw, h⟩ := @of_decide_eq_true _ (_) (Res.ok.inj h)
    have : w = v := num_inj (nodeAt_isNode hw) hnode (by
      rw [nodeAt_num_eq hw, ← nodeAt_num_eq hnt])
    rw [this] at h
    exact h
  · intro h
    exact congrArg Res.ok (@decide_eq_true _ (_) ⟨hsup, rfl, hs1sub, hsub2, v, hnt, h⟩)

end Pixel

namespace Pixel.Props

open Pixel Pixel.Spec

set_option linter.unusedSectionVars false

variable {G1 G2 GT : Type} [AddCommGroup G1] [AddCommGroup G2] [CommGroup GT]

/-- successful updates keep `KeyContributes` -/
theorem updates_contribute {K : AddSubmonoid G1} {sha : Bytes → Bytes}
    (hsha : ∀ m, (sha m).length = 64) {pf : Profile} {pp : PubParam G1 G2} (S : ParamShape pp)
    (hK : ∀ a ∈ pp.hlist, a ∈ K) {u : List Nat} {M : Fr} {c : G1} (hu : IsNode pp.depth u)
    {us : List (Nat × Bytes)} {t : Nat} {v : List Nat} {sk sk' : SecretKey G1 G2}
    (hv : NodeAt pp.depth t v) (h : KeyContributes K pp u M c v sk) (hs : Updates sha pf pp sk us sk') :
    t ≤ lastTime t us ∧ ∃ v', NodeAt pp.depth (lastTime t us) v' ∧ KeyContributes K pp u M c v' sk' := by
  induction us generalizing t v sk with
  | nil => cases hs; exact ⟨le_refl _, v, hv, h⟩
  | cons x us ih =>
    cases hs with
    | @cons _ sk1 _ tar seed _ h1 h2 =>
      have ht : sk.time = t := by rw [h.time, nodeAt_num_eq hv]
      have hr : t < tar ∧ tar ≤ 2 ^ pp.depth - 1 := by
        by_contra hc
        rw [SecretKey.update_time S.depth_le h.suite (by omega)] at h1
        cases (Prod.mk.inj h1).1
      have hval : ValidTime pp.depth tar := ⟨by omega, hr.2⟩
      have e := num_path hval
      have h3 := h.update hsha (pf := pf) S hK hu (path_isNode hval)
        (by rw [e, ← h.time, ht]; exact hr.1) (seed := seed) (sk' := sk1) (by rw [e]; exact h1)
      obtain ⟨i1, i2⟩ := ih (nodeAt_iff.2 ⟨hval, rfl⟩) h3 h2
      exact ⟨le_trans (Nat.le_of_lt hr.1) i1, i2⟩

/-- the exponent of a sub key is unique, as far as it matters -/
theorem headFor_iff {E : Ext G1 G2 GT} (L : GroupLaws E) {pp : PubParam G1 G2} (W : ParamWF E pp)
    {s : SubSecretKey G1 G2} {v : List Nat} {rho x : Nat} (hv : NodeAt pp.depth s.time v)
    (hg : s.g2r = rho • pp.g2) (hp : E.inSub1 s.hpoly = true) :
    HeadFor pp (x • pp.h) v s ↔ s.hpoly = x • pp.h + rho • nodePoint pp v := by
  classical
  refine ⟨fun ⟨_, rho', hg', hp'⟩ => ?_, fun h => ⟨hv, rho, hg, h⟩⟩
  let pk : PublicKey G2 := { ciphersuite := 0, pk := x • pp.g2 }
  obtain ⟨b, h1, h2⟩ := SubSecretKey.validate_iff L W (pf := .debug) (pk := pk) hv hg hp rfl
  obtain ⟨b', h1', h2'⟩ := SubSecretKey.validate_iff L W (pf := .debug) (pk := pk) hv hg' hp rfl
  rw [h1] at h1'
  cases h1'
  exact h2.1 (h2'.2 hp')

/-- equal multiples of the generator come from equal multiples everywhere -/
theorem nsmul_congr {E : Ext G1 G2 GT} (L : GroupLaws E) {m n : Nat} (h : m • E.gen2 = n • E.gen2)
    {p : G1} (hp : E.inSub1 p = true) : m • p = n • p := by
  have h1 : pair E E.gen2 (m • p + -(n • p)) = 1 := by
    rw [L.pair_add_right _ _ _ L.gen2_sub (L.sub1_nsmul hp _) (L.sub1_neg _ (L.sub1_nsmul hp _)),
      L.pair_neg_right L.gen2_sub (L.sub1_nsmul hp _), ← L.pair_nsmul L.gen2_sub hp,
      ← L.pair_nsmul L.gen2_sub hp, h, mul_inv_cancel]
  have h2 := L.pair_nondeg _
    (L.sub1_add _ _ (L.sub1_nsmul hp _) (L.sub1_neg _ (L.sub1_nsmul hp _))) h1
  rwa [← sub_eq_add_neg, sub_eq_zero] at h2

/-- the nodes of a cover that lie strictly below `g` -/
theorem gam_below {u b g w : List Nat} (hb : b ∈ gam u) (h : b = g ++ w) (hw : w ≠ []) :
    ∃ w', u = g ++ w' ∧ w.length ≤ w'.length := by
  rcases List.mem_cons.1 hb with rfl | hb
  · exact ⟨w, h, le_refl _⟩
  · obtain ⟨p, q, rfl, hp⟩ := mem_sibs.1 hb
    rw [hp] at h
    obtain ⟨w0, c, rfl⟩ : ∃ w0 c, w = w0 ++ [c] := ⟨_, _, (List.dropLast_append_getLast hw).symm⟩
    rw [← List.append_assoc] at h
    obtain ⟨rfl, -⟩ := List.append_inj' h rfl
    exact ⟨w0 ++ 1 :: q, by rw [List.append_assoc], by simp⟩

theorem bareSignature_zero (s : SubSecretKey G1 G2) (w : List Nat) :
    bareSignature s w 0 = s.hpoly + (List.zipWith (fun t a => t • a) w s.hvector).sum := by
  simp [bareSignature]

theorem sigPoint_zero (pp : PubParam G1 G2) (v : List Nat) : sigPoint pp v 0 = nodePoint pp v := by
  simp [sigPoint]

/-- the sub key above a node at or after the time of the key -/
theorem exists_above {pp : PubParam G1 G2} {v : List Nat} {sk : SecretKey G1 G2}
    (h : SecretKey.RawKey pp v sk) {u : List Nat} (hu : IsNode pp.depth u)
    (hle : num pp.depth v ≤ num pp.depth u) :
    ∃ s ∈ sk.ssk, ∃ g w, NodeAt pp.depth s.time g ∧ u = g ++ w := by
  obtain ⟨g, hg, w, rfl⟩ := (gam_cover h.node hu).1 hle
  obtain ⟨k, hk1, hk2⟩ := List.getElem_of_mem hg
  have hks : k < sk.ssk.length := by have := h.ssk.length_eq; omega
  have := h.ssk.get hk1 hks
  simp only [List.get_eq_getElem, hk2] at this
  exact ⟨sk.ssk[k], List.getElem_mem hks, g, w, by rw [this.2]; exact nodeAt_num this.1, rfl⟩

/-! ### one wrong element -/

theorem wsum_modify (w : List Nat) (l : List G1) (j : Nat) (e : G1) (h : w.length ≤ l.length) :
    wsum w (l.modify j (· + e)) = wsum w l + (w[j]?.getD 0) • e := by
  induction w generalizing l j with
  | nil => simp
  | cons t w ih =>
    cases l with
    | nil => simp at h
    | cons a l =>
      cases j with
      | zero =>
        simp [List.modify_zero_cons, smul_add]
        abel
      | succ j =>
        rw [List.modify_succ_cons, wsum_cons, wsum_cons, ih l j (by simpa using h), add_assoc]
        simp

theorem getLastD_modify (l : List G1) (j : Nat) (e : G1) (h : j < l.length) :
    (l.modify j (· + e)).getLastD 0 = l.getLastD 0 + (if j + 1 = l.length then e else 0) := by
  rw [List.getLastD_eq_getLast?, List.getLastD_eq_getLast?, List.getLast?_eq_getElem?,
    List.getLast?_eq_getElem?, List.length_modify, List.getElem?_modify]
  have : l.length - 1 < l.length := by omega
  rw [List.getElem?_eq_getElem this]
  by_cases hj : j + 1 = l.length
  · have e1 : j = l.length - 1 := by omega
    rw [if_pos hj]
    simp [e1]
  · have : j ≠ l.length - 1 := by omega
    simp [hj, this]

theorem smul_ne_zero_of_order {g : G1} (hg : rOrder • g = 0) (h0 : g ≠ 0) {n : Nat} (h : n < rOrder)
    (hn : n • g = 0) : n = 0 := by
  have ho : addOrderOf g = rOrder := addOrderOf_eq_prime hg h0 (hp := ⟨rOrder_prime⟩)
  have := addOrderOf_dvd_of_nsmul_eq_zero hn
  rw [ho] at this
  exact Nat.eq_zero_of_dvd_of_lt this h

theorem bareSignature_honest {pp : PubParam G1 G2} (S : ParamShape pp) {alpha : G1} {g w : List Nat}
    {rho : Nat} {s : SubSecretKey G1 G2} (h : SubKeyFor pp alpha g rho s)
    (hu : IsNode pp.depth (g ++ w)) (M : Fr) :
    bareSignature s w M = alpha + rho • sigPoint pp (g ++ w) M := by
  have hlen := S.hlist_len
  have := hu.1
  rw [List.length_append] at this
  rw [bareSignature_eq, h.hpoly, h.hvector, wsum_map_smul, sigPoint, nodePoint_append _ _ _ (by omega)]
  have e : ((pp.hlist.drop (g.length + 1)).map fun h => rho • h).getLastD 0 =
      rho • pp.hlist.getLastD 0 := by
    rw [← getLastD_drop pp.hlist (g.length + 1) 0 (by omega), List.getLastD_eq_getLast?,
      List.getLastD_eq_getLast?, List.getLast?_map]
    cases (pp.hlist.drop (g.length + 1)).getLast? <;> simp
  rw [e]
  simp only [smul_add, smul_comm M.val rho]
  abel

theorem mem_modify {α : Type} {l : List α} {i : Nat} {f : α → α} {a : α} (h : a ∈ l.modify i f) :
    ∃ b ∈ l, a = b ∨ a = f b := by
  obtain ⟨k, hk, rfl⟩ := List.getElem_of_mem h
  rw [List.length_modify] at hk
  refine ⟨l[k], List.getElem_mem _, ?_⟩
  rw [List.getElem_modify]
  split
  · exact .inr rfl
  · exact .inl rfl

theorem forall₂_modify {α β : Type} {R : α → β → Prop} {X : List α} {l : List β}
    (h : List.Forall₂ R X l) {f : β → β} (hf : ∀ a b, R a b → R a (f b)) (i : Nat) :
    List.Forall₂ R X (l.modify i f) := by
  induction h generalizing i with
  | nil => simp
  | cons h1 h2 ih =>
    cases i with
    | zero => rw [List.modify_zero_cons]; exact .cons (hf _ _ h1) h2
    | succ i => rw [List.modify_succ_cons]; exact .cons h1 (ih i)

theorem withError_times {pp : PubParam G1 G2} {t : Nat} {sk : SecretKey G1 G2} (h : TimesFor pp t sk)
    (i j : Nat) (e : G1) : TimesFor pp t (withError sk i j e) := by
  obtain ⟨vs, h1, h2⟩ := h.ssk
  exact ⟨h.suite, h.time, h.valid, h.prng, vs, h1, 
    forall₂_modify (f := fun s => { s with hvector := s.hvector.modify j (· + e) }) h2
      (fun _ _ h => h) i⟩

theorem withError_lengths {pp : PubParam G1 G2} {sk : SecretKey G1 G2} (h : RightLengths pp sk)
    (i j : Nat) (e : G1) : RightLengths pp (withError sk i j e) := by
  intro s hs v hv
  obtain ⟨b, hb, rfl | rfl⟩ := mem_modify hs
  · exact h _ hb v hv
  · simpa using h _ hb v hv

theorem withError_groups {E : Ext G1 G2 GT} (L : GroupLaws E) {sk : SecretKey G1 G2}
    (h : InGroups E sk) (i j : Nat) {e : G1} (he : E.inSub1 e = true) :
    InGroups E (withError sk i j e) := by
  intro s hs
  obtain ⟨b, hb, rfl | rfl⟩ := mem_modify hs
  · exact h _ hb
  · refine ⟨(h _ hb).1, (h _ hb).2.1, fun a ha => ?_⟩
    obtain ⟨c, hc, rfl | rfl⟩ := mem_modify ha
    · exact (h _ hb).2.2 _ hc
    · exact L.sub1_add _ _ ((h _ hb).2.2 _ hc) he

theorem KeyFor.lengths {pp : PubParam G1 G2} (S : ParamShape pp) {alpha : G1} {t : Nat}
    {sk : SecretKey G1 G2} (h : KeyFor pp alpha t sk) : RightLengths pp sk := by
  intro s hs v hv
  obtain ⟨vs, _, h2⟩ := h.ssk
  obtain ⟨a, _, rho, ha⟩ := forall₂_mem_right h2 hs
  have e : v = a := num_inj (nodeAt_isNode hv) (nodeAt_isNode ha.node) (by
    rw [nodeAt_num_eq hv, nodeAt_num_eq ha.node])
  have := S.hlist_len
  have := (nodeAt_isNode hv).1
  rw [ha.hvector, List.length_map, List.length_drop, ← e]
  omega

theorem KeyFor.groups {E : Ext G1 G2 GT} (L : GroupLaws E) {pp : PubParam G1 G2} (W : ParamWF E pp)
    {alpha : G1} (ha : E.inSub1 alpha = true) {t : Nat} {sk : SecretKey G1 G2}
    (h : KeyFor pp alpha t sk) : InGroups E sk := by
  intro s hs
  obtain ⟨vs, _, h2⟩ := h.ssk
  obtain ⟨a, _, rho, hk⟩ := forall₂_mem_right h2 hs
  refine ⟨?_, ?_, fun b hb => ?_⟩
  · rw [hk.g2r, W.g2_gen]; exact L.sub2_nsmul L.gen2_sub _
  · rw [hk.hpoly]; exact L.sub1_add _ _ ha (L.sub1_nsmul (L.sub1_nodePoint W _) _)
  · rw [hk.hvector] at hb
    obtain ⟨c, hc, rfl⟩ := List.mem_map.1 hb
    exact L.sub1_nsmul (W.hlist_sub _ (List.mem_of_mem_drop hc)) _

end Pixel.Props
