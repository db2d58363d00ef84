import Verif.Proof.ForgeConv
import Verif.Props.Sig

/-!
# Properties C21 (forward security against linear forgers) and C51 (binding of time and message)

Vocabulary: `Verif/Spec/Forge.lean`.
-/

namespace Pixel.Props

open Pixel Pixel.Spec

set_option linter.unusedSectionVars false

variable {G1 G2 GT : Type} [AddCommGroup G1] [AddCommGroup G2] [CommGroup GT]

/-! ## C21 -/

/-- Counting form: for sub keys and signatures at the given nodes, the forgery of a linear
adversary is accepted for at most a fraction `2/r` of all exponents, unless the node of the forgery
is below a leaked node or the very node and hashed message were signed. -/
theorem C21_linear_forgery_bound [DecidableEq GT] {E : Ext G1 G2 GT} (H : HashLaws E)
    (L : GroupLaws E) (pf : Profile) {g : G1} (hsub : E.inSub1 g = true) (hne : g ≠ 0) {d : Nat}
    (hd : 1 ≤ d) (hd' : d ≤ 63) {cs : UInt8} (hsup : Supported cs) (leak : List (Nat × List Nat))
    (hl : ∀ p ∈ leak, NodeAt d p.1 p.2) (signed : List (Nat × List Nat × Fr))
    (hs : ∀ p ∈ signed, NodeAt d p.1 p.2.1) (S : Strategy) {t : Nat} {w : List Nat}
    (hw : NodeAt d t w) (msg : Bytes) (h1 : ¬ ∃ p ∈ leak, AncestorOrSelf p.2 w)
    (h2 : ¬ ∃ p ∈ signed, p.2 = (w, msgField E.sha512 cs msg)) :
    Nat.card { a : Var d leak.length signed.length → Fr //
      Signature.verifyBytes E pf (S.forge (viewOf E g d cs leak signed a) t)
        (viewOf E g d cs leak signed a).pk (viewOf E g d cs leak signed a).pp msg = .ok true } *
      rOrder ≤ 2 * Nat.card (Var d leak.length signed.length → Fr) := by
  classical
  let p := defect S (fun j : Fin leak.length => leak[j].2) (fun k : Fin signed.length => signed[k].2)
    w (msgField E.sha512 cs msg) (MvPolynomial.X : Var d leak.length signed.length →
      MvPolynomial (Var d leak.length signed.length) Fr)
  have hp : p ≠ 0 := by
    intro hp0
    have hall : ∀ a : Var d leak.length signed.length → Fr,
        defect S (fun j : Fin leak.length => leak[j].2) (fun k : Fin signed.length => signed[k].2)
          w (msgField E.sha512 cs msg) a = 0 := by
      intro a
      rw [← defect_eval]
      change MvPolynomial.eval a p = 0
      rw [hp0, map_zero]
    rcases defect_always (nodeAt_isNode hw)
      (fun j => nodeAt_isNode (hl _ (List.getElem_mem j.isLt)))
      (fun k => nodeAt_isNode (hs _ (List.getElem_mem k.isLt))) hall with ⟨j, hj⟩ | ⟨k, hk⟩
    · obtain ⟨u, hu⟩ := hj
      exact h1 ⟨_, List.getElem_mem j.isLt, u, hu.symm⟩
    · exact h2 ⟨_, List.getElem_mem k.isLt, hk⟩
  have hz := zeros_card hp
  have hcard : Nat.card { a : Var d leak.length signed.length → Fr //
      Signature.verifyBytes E pf (S.forge (viewOf E g d cs leak signed a) t)
        (viewOf E g d cs leak signed a).pk (viewOf E g d cs leak signed a).pp msg = .ok true } =
      (Finset.univ.filter fun a : Var d leak.length signed.length → Fr =>
        MvPolynomial.eval a p = 0).card := by
    refine Nat.subtype_card _ fun a => ?_
    rw [forge_accepted_iff H L hsub hne hd hd' hsup pf S hs hw msg a, ← defect_eval]
    simp only [Finset.mem_filter, Finset.mem_univ, true_and, p]
  rw [hcard, Nat.card_eq_fintype_card, Fintype.card_fun, ZMod.card]
  exact hz.trans (Nat.mul_le_mul_right _ (defect_degree _ _ _ _ _))

/-- C21: forward security, counting form: after the leak of a whole secret key for time `t'`, a
linear adversary that may also see any signatures forges for an earlier time (and a node and hashed
message not signed) for at most a fraction `2/r` of all exponents. -/
theorem C21_forward_security_bound [DecidableEq GT] {E : Ext G1 G2 GT} (H : HashLaws E)
    (L : GroupLaws E) (pf : Profile) {g : G1} (hsub : E.inSub1 g = true) (hne : g ≠ 0) {d : Nat}
    (hd' : d ≤ 63) {cs : UInt8} (hsup : Supported cs) {t' : Nat} (leak : List (Nat × List Nat))
    (ht' : ValidTime d t') (hc : CoverList d t' (leak.map (·.2))) (hl : ∀ p ∈ leak, NodeAt d p.1 p.2)
    (signed : List (Nat × List Nat × Fr)) (hs : ∀ p ∈ signed, NodeAt d p.1 p.2.1) (S : Strategy)
    {t : Nat} (ht : t < t') (msg : Bytes)
    (hns : ¬ ∃ p ∈ signed, NodeAt d t p.2.1 ∧ p.2.2 = msgField E.sha512 cs msg) :
    Nat.card { a : Var d leak.length signed.length → Fr //
      Signature.verifyBytes E pf (S.forge (viewOf E g d cs leak signed a) t)
        (viewOf E g d cs leak signed a).pk (viewOf E g d cs leak signed a).pp msg = .ok true } *
      rOrder ≤ 2 * Nat.card (Var d leak.length signed.length → Fr) := by
  have hd : 1 ≤ d := by
    rcases Nat.eq_zero_or_pos d with rfl | h
    · have := ht'.1; have := ht'.2; omega
    · exact h
  by_cases htv : 1 ≤ t
  · have hval : ValidTime d t := ⟨htv, by have := ht'.2; omega⟩
    have hw : NodeAt d t (path d t) := nodeAt_iff.2 ⟨hval, rfl⟩
    have hv' : NodeAt d t' (path d t') := nodeAt_iff.2 ⟨ht', rfl⟩
    refine C21_linear_forgery_bound H L pf hsub hne hd hd' hsup leak hl signed hs S hw msg ?_ ?_
    · rintro ⟨p, hp, u, hu⟩
      have hm : p.2 ∈ gam (path d t') := by
        rw [← (coverList_iff hv').1 hc]
        exact List.mem_map.2 ⟨p, hp, rfl⟩
      have := (gam_cover (nodeAt_isNode hv') (nodeAt_isNode hw)).2 ⟨_, hm, u, hu.symm⟩
      rw [nodeAt_num_eq hv', nodeAt_num_eq hw] at this
      omega
    · rintro ⟨p, hp, he⟩
      exact hns ⟨p, hp, by rw [he]; exact hw, by rw [he]⟩
  · have h0 : t = 0 := by omega
    have he : ∀ a : Var d leak.length signed.length → Fr,
        ¬ Signature.verifyBytes E pf (S.forge (viewOf E g d cs leak signed a) t)
        (viewOf E g d cs leak signed a).pk (viewOf E g d cs leak signed a).pp msg = .ok true := by
      intro a h
      have W : ParamWF E (viewOf E g d cs leak signed a).pp := viewOf_wf L hsub hd hd' a
      rw [Signature.verifyBytes_eq H W.toParamShape] at h
      obtain ⟨_, _, _, _, v, hv, _⟩ := @of_decide_eq_true _ (_) (Res.ok.inj h)
      have := hv.1
      change 1 ≤ t at this
      omega
    have : IsEmpty { a : Var d leak.length signed.length → Fr //
        Signature.verifyBytes E pf (S.forge (viewOf E g d cs leak signed a) t)
        (viewOf E g d cs leak signed a).pk (viewOf E g d cs leak signed a).pp msg = .ok true } :=
      ⟨fun a => he a.1 a.2⟩
    rw [Nat.card_of_isEmpty, Nat.zero_mul]
    exact Nat.zero_le _

/-- C21: exact form: there is a linear strategy that works for *all* honest parameters, keys and
signatures if and only if the node of the forgery is below a leaked node, or it and the hashed
message were signed. -/
theorem C21_linear_forgery_iff [DecidableEq GT] {E : Ext G1 G2 GT} (H : HashLaws E)
    (L : GroupLaws E) (pf : Profile) {g : G1} (hsub : E.inSub1 g = true) (hne : g ≠ 0) {d : Nat}
    (hd' : d ≤ 63) {cs : UInt8} (hsup : Supported cs) {nodes : List (List Nat)}
    (hl : ∀ v ∈ nodes, IsNode d v) {signed : List (List Nat × Fr)}
    (hs : ∀ p ∈ signed, IsNode d p.1) {t : Nat} {w : List Nat} (hw : NodeAt d t w) (msg : Bytes) :
    (∃ S : Strategy, ∀ (x : Nat) (V : View G1 G2), HonestView E d cs nodes signed x V →
      Signature.verifyBytes E pf (S.forge V t) V.pk V.pp msg = .ok true) ↔
    (∃ v ∈ nodes, AncestorOrSelf v w) ∨ (w, msgField E.sha512 cs msg) ∈ signed := by
  have hwn := nodeAt_isNode hw
  have hd : 0 < d := by have := hwn.1; omega
  constructor
  · rintro ⟨S, hS⟩
    let leak : List (Nat × List Nat) := nodes.map fun v => (num d v, v)
    let sg : List (Nat × List Nat × Fr) := signed.map fun p => (num d p.1, p)
    have e1 : leak.map (·.2) = nodes := by simp [leak, List.map_map, Function.comp_def]
    have e2 : sg.map (·.2) = signed := by simp [sg, List.map_map, Function.comp_def]
    have hl' : ∀ p ∈ leak, NodeAt d p.1 p.2 := by
      intro p hp
      obtain ⟨v, hv, rfl⟩ := List.mem_map.1 hp
      exact nodeAt_num (hl v hv)
    have hs' : ∀ p ∈ sg, NodeAt d p.1 p.2.1 := by
      intro p hp
      obtain ⟨v, hv, rfl⟩ := List.mem_map.1 hp
      exact nodeAt_num (hs v hv)
    have hall : ∀ a : Var d leak.length sg.length → Fr,
        defect S (fun j : Fin leak.length => leak[j].2) (fun k : Fin sg.length => sg[k].2)
          w (msgField E.sha512 cs msg) a = 0 := by
      intro a
      rw [← forge_accepted_iff (g := g) H L hsub hne hd hd' hsup pf S hs' hw msg a]
      have := viewOf_honest (cs := cs) L hsub hd hd' hl' hs' a
      rw [e1, e2] at this
      exact hS _ _ this
    rcases defect_always hwn
      (fun j => nodeAt_isNode (hl' _ (List.getElem_mem j.isLt)))
      (fun k => nodeAt_isNode (hs' _ (List.getElem_mem k.isLt))) hall with ⟨j, hj⟩ | ⟨k, hk⟩
    · obtain ⟨u, hu⟩ := hj
      refine Or.inl ⟨_, ?_, u, hu.symm⟩
      rw [← e1]
      exact List.mem_map.2 ⟨_, List.getElem_mem j.isLt, rfl⟩
    · refine Or.inr ?_
      rw [← hk, ← e2]
      exact List.mem_map.2 ⟨_, List.getElem_mem k.isLt, rfl⟩
  · rintro (⟨v, hv, u, hu⟩ | hm)
    · obtain ⟨j, hj, rfl⟩ := List.getElem_of_mem hv
      refine ⟨delegating d j nodes[j] w (msgField E.sha512 cs msg), fun x V hV => ?_⟩
      obtain ⟨a, ha⟩ := delegating_sigFor hV hw hj ⟨u, hu.symm⟩ (msgField E.sha512 cs msg)
      have hsup' : Supported V.pp.ciphersuite := by rw [hV.suite]; exact hsup
      rw [← hV.suite] at ha ⊢
      exact SigFor.verifies H L hV.wf pf hsup' ha hV.pk
    · obtain ⟨k, hk⟩ := List.getElem?_of_mem hm
      refine ⟨replaying k, fun x V hV => ?_⟩
      obtain ⟨a, ha⟩ := replaying_sigFor hV hw hk
      have hsup' : Supported V.pp.ciphersuite := by rw [hV.suite]; exact hsup
      rw [← hV.suite] at ha
      exact SigFor.verifies H L hV.wf pf hsup' ha hV.pk

/-- C21: exact form for the leak of a secret key for time `t'`: forging is possible exactly from
`t'` on, and where a signature was handed out. -/
theorem C21_forward_security_iff [DecidableEq GT] {E : Ext G1 G2 GT} (H : HashLaws E)
    (L : GroupLaws E) (pf : Profile) {g : G1} (hsub : E.inSub1 g = true) (hne : g ≠ 0) {d : Nat}
    (hd' : d ≤ 63) {cs : UInt8} (hsup : Supported cs) {t' : Nat} (ht' : ValidTime d t')
    {vs : List (List Nat)} (hc : CoverList d t' vs) {signed : List (List Nat × Fr)}
    (hs : ∀ p ∈ signed, IsNode d p.1) {t : Nat} (ht : ValidTime d t) (msg : Bytes) :
    (∃ S : Strategy, ∀ (x : Nat) (V : View G1 G2), HonestView E d cs vs signed x V →
      Signature.verifyBytes E pf (S.forge V t) V.pk V.pp msg = .ok true) ↔
    t' ≤ t ∨ ∃ w, NodeAt d t w ∧ (w, msgField E.sha512 cs msg) ∈ signed := by
  have hw : NodeAt d t (path d t) := nodeAt_iff.2 ⟨ht, rfl⟩
  have hv' : NodeAt d t' (path d t') := nodeAt_iff.2 ⟨ht', rfl⟩
  have hvs := (coverList_iff hv').1 hc
  have hl : ∀ v ∈ vs, IsNode d v := by
    intro v hv
    rw [hvs] at hv
    exact gam_isNode (nodeAt_isNode hv') hv
  rw [C21_linear_forgery_iff H L pf hsub hne hd' hsup hl hs hw msg]
  have e1 : (∃ v ∈ vs, AncestorOrSelf v (path d t)) ↔ t' ≤ t := by
    have := gam_cover (nodeAt_isNode hv') (nodeAt_isNode hw)
    rw [nodeAt_num_eq hv', nodeAt_num_eq hw] at this
    rw [this, hvs]
    constructor
    · rintro ⟨v, hv, u, hu⟩
      exact ⟨v, hv, u, hu.symm⟩
    · rintro ⟨v, hv, u, hu⟩
      exact ⟨v, hv, u, hu.symm⟩
  have e2 : (path d t, msgField E.sha512 cs msg) ∈ signed ↔
      ∃ w, NodeAt d t w ∧ (w, msgField E.sha512 cs msg) ∈ signed := by
    constructor
    · exact fun h => ⟨_, hw, h⟩
    · rintro ⟨w, hw', h⟩
      rwa [(nodeAt_iff.1 hw').2] at h
  rw [e1, e2]

/-- C21: the views above are what the API produces: the sub keys of every secret key reached by
honest use are the ones of a cover. -/
theorem C21_keys_are_views {E : Ext G1 G2 GT} {pp : PubParam G1 G2} (W : ParamWF E pp) {x t : Nat}
    {sk : SecretKey G1 G2} (h : KeyFor pp (x • pp.h) t sk) {pk : PublicKey G2}
    (hpk : pk.pk = x • pp.g2) {q : G1} (hq : E.inSub1 q = true) {sigs : List (Signature G1 G2)}
    {signed : List (List Nat × Fr)}
    (hs : List.Forall₂ (fun p s => ∃ a, SigFor pp (x • pp.h) p.1 p.2 a s) signed sigs) :
    ∃ vs, CoverList pp.depth t vs ∧ HonestView E pp.depth pp.ciphersuite vs signed x
      { pp := pp, pk := pk, q := q, pop := x • q, ssk := sk.ssk, sigs := sigs } := by
  obtain ⟨vs, hc, hvs⟩ := h.ssk
  exact ⟨vs, hc, W, rfl, rfl, hpk, hq, rfl, hvs, hs⟩

/-! ## C51 -/

/-- C51: a signature with randomness `a`, relabelled with another time and checked against another
message, is accepted iff the two signed points agree up to `a`. -/
theorem C51_relabelled_iff [DecidableEq GT] {E : Ext G1 G2 GT} (H : HashLaws E) (L : GroupLaws E)
    (pf : Profile) {pp : PubParam G1 G2} (W : ParamWF E pp) (hsup : Supported pp.ciphersuite)
    {pk : PublicKey G2} {x a : Nat} (hpk : pk.pk = x • pp.g2) {v : List Nat} {M : Fr}
    {s : Signature G1 G2} (hs : SigFor pp (x • pp.h) v M a s) {t' : Nat} {w : List Nat}
    (hw : NodeAt pp.depth t' w) (msg' : Bytes) :
    Signature.verifyBytes E pf { s with time := t' } pk pp msg' = .ok true ↔
      a • sigPoint pp v M = a • sigPoint pp w (msgField E.sha512 pp.ciphersuite msg') := by
  have hg2 : E.inSub2 s.sigma1 = true := by
    rw [hs.sigma1, W.g2_gen]; exact L.sub2_nsmul L.gen2_sub _
  have hg1 : E.inSub1 s.sigma2 = true := by
    rw [hs.sigma2]
    exact L.sub1_add _ _ (L.sub1_nsmul W.h_sub _) (L.sub1_nsmul (L.sub1_sigPoint W v M) _)
  have hck := L.sig_check W (v := w) (M := msgField E.sha512 pp.ciphersuite msg') hg1 hs.sigma1 hpk
  rw [hs.sigma2, add_right_inj] at hck
  rw [← hck, Signature.verifyBytes_eq H W.toParamShape]
  constructor
  · intro h
    obtain ⟨_, _, _, _, u, hu, h⟩ := @of_decide_eq_true _ (_) (Res.ok.inj h)
    have : u = w := by rw [(nodeAt_iff.1 hu).2, (nodeAt_iff.1 hw).2]
    rw [this] at h
    rw [← hs.sigma2]
    exact h
  · intro h
    refine congrArg Res.ok (@decide_eq_true _ (_) ⟨hsup, hs.suite, hg2, hg1, w, hw, ?_⟩)
    rw [← hs.sigma2] at h
    exact h

/-- C51: if `sigma1` is not the neutral element, that is an explicit linear relation between
`h_1, …, h_d`, whose coefficients are all zero (modulo the group order) only if the node and the
hashed message are the ones signed. -/
theorem C51_relation [DecidableEq GT] {E : Ext G1 G2 GT} (H : HashLaws E) (L : GroupLaws E)
    (pf : Profile) {pp : PubParam G1 G2} (W : ParamWF E pp) (hsup : Supported pp.ciphersuite)
    {pk : PublicKey G2} {x a : Nat} (hpk : pk.pk = x • pp.g2) {v : List Nat} {M : Fr}
    {s : Signature G1 G2} (hs : SigFor pp (x • pp.h) v M a s) (hne : s.sigma1 ≠ 0) {t' : Nat}
    {w : List Nat} (hw : NodeAt pp.depth t' w) (msg' : Bytes) :
    (Signature.verifyBytes E pf { s with time := t' } pk pp msg' = .ok true ↔
      (List.zipWith (fun (c : Int) h => c • h)
        (relation pp.depth v M w (msgField E.sha512 pp.ciphersuite msg')) pp.hlist.tail).sum = 0) ∧
    ((∀ c ∈ relation pp.depth v M w (msgField E.sha512 pp.ciphersuite msg'), (rOrder : Int) ∣ c) ↔
      s.time = t' ∧ M = msgField E.sha512 pp.ciphersuite msg') := by
  have hv := hs.node
  have hvn := nodeAt_isNode hv
  have hwn := nodeAt_isNode hw
  constructor
  · rw [C51_relabelled_iff H L pf W hsup hpk hs hw msg',
      relation_sum W.toParamShape hvn.1 hwn.1, ← sub_eq_zero, ← smul_sub]
    have ha : ¬ rOrder ∣ a := by
      rintro ⟨k, rfl⟩
      apply hne
      rw [hs.sigma1, mul_comm, mul_smul, W.g2_gen, L.sub2_order _ L.gen2_sub, smul_zero]
    have hsub : E.inSub1 (sigPoint pp v M -
        sigPoint pp w (msgField E.sha512 pp.ciphersuite msg')) = true :=
      L.sub1_sub (L.sub1_sigPoint W _ _) (L.sub1_sigPoint W _ _)
    have hord := L.sub1_order _ hsub
    generalize sigPoint pp v M - sigPoint pp w (msgField E.sha512 pp.ciphersuite msg') = D at *
    constructor
    · intro h
      by_contra hD
      apply ha
      have h1 : expHom D hord (a : Fr) = 0 := by
        rw [expHom_apply, ZMod.val_natCast, mod_smul hord, h]
      exact (ZMod.natCast_eq_zero_iff _ _).1 ((expHom_eq_zero hord hD).1 h1)
    · intro h
      rw [h, smul_zero]
  · rw [relation_trivial hvn hwn]
    constructor
    · rintro ⟨rfl, h⟩
      exact ⟨by rw [← nodeAt_num_eq hv, ← nodeAt_num_eq hw], h⟩
    · rintro ⟨h1, h2⟩
      refine ⟨?_, h2⟩
      rw [h1] at hv
      rw [(nodeAt_iff.1 hv).2, (nodeAt_iff.1 hw).2]

/-- C51: for random parameters, keys and signing randomness, a relabelled signature is accepted with
probability at most `2/r`. -/
theorem C51_random_parameters [DecidableEq GT] {E : Ext G1 G2 GT} (H : HashLaws E)
    (L : GroupLaws E) (pf : Profile) {g : G1} (hsub : E.inSub1 g = true) (hne : g ≠ 0) {d : Nat}
    (hd' : d ≤ 63) {cs : UInt8} (hsup : Supported cs) {t : Nat} {v : List Nat} (hv : NodeAt d t v)
    (M : Fr) {t' : Nat} (ht' : ValidTime d t') (msg' : Bytes)
    (hdiff : t ≠ t' ∨ M ≠ msgField E.sha512 cs msg') :
    Nat.card { a : Var d 0 1 → Fr // ∃ s ∈ (viewOf E g d cs [] [(t, v, M)] a).sigs,
      Signature.verifyBytes E pf { s with time := t' } (viewOf E g d cs [] [(t, v, M)] a).pk
        (viewOf E g d cs [] [(t, v, M)] a).pp msg' = .ok true } * rOrder ≤
      2 * Nat.card (Var d 0 1 → Fr) := by
  have hd : 1 ≤ d := by have := (nodeAt_isNode hv).1; omega
  have hw : NodeAt d t' (path d t') := nodeAt_iff.2 ⟨ht', rfl⟩
  have key := C21_linear_forgery_bound H L pf hsub hne hd hd' hsup [] (by simp) [(t, v, M)]
    (by simpa using hv) (replaying 0) hw msg' (by simp) (by
      rintro ⟨p, hp, he⟩
      have hp' : p = (t, v, M) := by simpa using hp
      rw [hp'] at he
      simp only [Prod.mk.injEq] at he
      rcases hdiff with h | h
      · apply h
        rw [← nodeAt_num_eq hv, ← nodeAt_num_eq hw, he.1]
      · exact h he.2)
  have hset : ∀ a : Var d 0 1 → Fr, (∃ s ∈ (viewOf E g d cs [] [(t, v, M)] a).sigs,
      Signature.verifyBytes E pf { s with time := t' } (viewOf E g d cs [] [(t, v, M)] a).pk
        (viewOf E g d cs [] [(t, v, M)] a).pp msg' = .ok true) ↔
      Signature.verifyBytes E pf ((replaying 0).forge (viewOf E g d cs [] [(t, v, M)] a) t')
        (viewOf E g d cs [] [(t, v, M)] a).pk (viewOf E g d cs [] [(t, v, M)] a).pp msg' =
        .ok true := by
    intro a
    have hf : ∀ s, (viewOf E g d cs [] [(t, v, M)] a).sigs = [s] → s.ciphersuite = cs →
        (replaying 0).forge (viewOf E g d cs [] [(t, v, M)] a) t' = { s with time := t' } := by
      intro s h hc
      simp only [Strategy.forge, replaying, ZMod.val_zero, zero_smul, lin_zero, lin_single,
        zero_add, linVectors_zero, h]
      cases s
      simp only [List.map_cons, List.map_nil, List.getD_cons_zero]
      rw [← hc]
      rfl
    have hsig : ∃ s, (viewOf E g d cs [] [(t, v, M)] a).sigs = [s] ∧ s.ciphersuite = cs := by
      have hlen : (viewOf E g d cs [] [(t, v, M)] a).sigs.length = 1 := by
        rw [viewOf, List.length_ofFn]
        rfl
      obtain ⟨s, hs⟩ := List.length_eq_one_iff.1 hlen
      refine ⟨s, hs, ?_⟩
      have hm : s ∈ (viewOf E g d cs [] [(t, v, M)] a).sigs := by rw [hs]; simp
      rw [viewOf, List.mem_ofFn] at hm
      obtain ⟨i, rfl⟩ := hm
      rfl
    obtain ⟨s, h1, h2⟩ := hsig
    rw [hf s h1 h2, h1]
    simp
  have := Nat.card_congr (Equiv.subtypeEquivRight hset)
  rw [this]
  exact key

/-! ### Concrete cases -/

section Examples
open Pixel.Toy

/-- C21: a leak at time 9 in a tree of depth 5 (nodes with their times), one signature for time 3 -/
def toyLeak : List (Nat × List Nat) := (gam (path 5 9)).map fun v => (num 5 v, v)

example : 1 < toyLeak.length ∧ ValidTime 5 9 ∧ CoverList 5 9 (toyLeak.map (·.2)) ∧
    (∀ p ∈ toyLeak, NodeAt 5 p.1 p.2) ∧
    (∀ p ∈ [(3, path 5 3, (7 : Fr))], NodeAt 5 p.1 p.2.1) ∧
    (ext sha0).inSub1 ((1, 0) : G) = true ∧ ((1, 0) : G) ≠ 0 ∧
    ¬ ∃ p ∈ [(3, path 5 3, (7 : Fr))], NodeAt 5 8 p.2.1 ∧ p.2.2 = msgField sha0 1 [1] := by
  have hv : ValidTime 5 9 := ⟨by omega, by decide⟩
  have hn : NodeAt 5 9 (path 5 9) := nodeAt_iff.2 ⟨hv, rfl⟩
  refine ⟨by decide, hv, ?_, ?_, ?_, by decide, by decide +kernel, ?_⟩
  · rw [coverList_iff hn]
    simp [toyLeak, List.map_map, Function.comp_def]
  · intro p hp
    obtain ⟨v, hv, rfl⟩ := List.mem_map.1 hp
    exact nodeAt_num (gam_isNode (nodeAt_isNode hn) hv)
  · intro p hp
    rw [List.mem_singleton] at hp
    rw [hp]
    exact nodeAt_iff.2 ⟨⟨by omega, by decide⟩, rfl⟩
  · rintro ⟨p, hp, h, _⟩
    rw [List.mem_singleton] at hp
    rw [hp] at h
    exact absurd (nodeAt_iff.1 h).2 (by decide)

/-- C51: a signature with non-trivial `sigma1` -/
example : ∃ sig : Signature G G, ∃ v M a, SigFor (param 5 1) (3 • (param 5 1).h) v M a sig ∧
    sig.sigma1 ≠ 0 :=
  ⟨{ ciphersuite := 1, time := 1, sigma1 := 2 • (param 5 1).g2,
     sigma2 := 3 • (param 5 1).h + 2 • sigPoint (param 5 1) [] 4 }, [], 4, 2,
    ⟨rfl, nodeAt_iff.2 ⟨⟨by decide, by decide⟩, rfl⟩, rfl, rfl⟩, by decide +kernel⟩

end Examples

end Pixel.Props
