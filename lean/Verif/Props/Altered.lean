import Verif.Proof.Altered
import Verif.Props.Malformed

/-!
# Property C104: which signatures of an altered secret key are accepted

Vocabulary: `Verif/Spec/Malformed.lean` (`TimesFor`, `RightLengths`, `InGroups`, `bareSignature`,
`withError`).
-/

namespace Pixel.Props

open Pixel Pixel.Spec

set_option linter.unusedSectionVars false

variable {G1 G2 GT : Type} [AddCommGroup G1] [AddCommGroup G2] [CommGroup GT]

/-! ## C104 -/

/-- C104: let `sk` be a key with the right times and lengths, whose group elements are arbitrary members
of the subgroups.  After any successful updates it signs, and whether the signature is accepted depends
only on the elements of the sub key `s` of `sk` above the time of the signature: if `s` belongs to the
node `g`, has the exponent `rho`, and the time is that of the node `g ++ w`, the signature is accepted
iff what `s` contributes is what a sub key with the exponent `rho` should.  The updates on the way and
their seeds, the state of the PRNG, and all other sub keys do not matter. -/
theorem C104_signature [DecidableEq GT] {E : Ext G1 G2 GT} (H : HashLaws E) (L : GroupLaws E)
    (pf : Profile) {pp : PubParam G1 G2} (W : ParamWF E pp) (hsup : Supported pp.ciphersuite)
    {pk : PublicKey G2} {x : Nat} (hpk : pk.pk = x • pp.g2) {t : Nat} {sk sk' : SecretKey G1 G2}
    (ht : TimesFor pp t sk) (hl : RightLengths pp sk) (hi : InGroups E sk)
    {us : List (Nat × Bytes)} (hus : Updates E.sha512 pf pp sk us sk')
    {s : SubSecretKey G1 G2} (hs : s ∈ sk.ssk) {g w : List Nat} (hg : NodeAt pp.depth s.time g)
    (hw : NodeAt pp.depth (lastTime t us) (g ++ w)) {rho : Nat} (hr : s.g2r = rho • pp.g2)
    (msg : Bytes) :
    ∃ sig, Signature.signPresent E.sha512 pf (lastTime t us) pp msg sk' = (.ok sig, sk') ∧
      (Signature.verifyBytes E pf sig pk pp msg = .ok true ↔
        bareSignature s w (msgField E.sha512 pp.ciphersuite msg) =
          x • pp.h + rho • sigPoint pp (g ++ w) (msgField E.sha512 pp.ciphersuite msg)) := by
  have hu := nodeAt_isNode hw
  obtain ⟨v, hv, hk⟩ := keyContributes_start (K := sub1 L) ht hl
    (fun s hs => ⟨(hi s hs).2.1, (hi s hs).2.2⟩)
    (fun s hs => by
      obtain ⟨n, hn⟩ := L.gen2_gen _ (hi s hs).1
      exact ⟨n, by rw [hn, W.g2_gen]⟩) hs hg hu hr (msgField E.sha512 pp.ciphersuite msg)
  obtain ⟨-, v', hv', hk'⟩ := updates_contribute H.sha_len W.toParamShape
    (fun a ha => W.hlist_sub a ha) hu hv hk hus
  have e : v' = g ++ w := num_inj (nodeAt_isNode hv') hu (by
    rw [nodeAt_num_eq hv', nodeAt_num_eq hw])
  subst e
  have hss := hk'.ssk
  cases hl' : sk'.ssk with
  | nil => rw [hl'] at hss; cases hss
  | cons s' l =>
    rw [hl'] at hss
    cases hss with
    | cons hc _ =>
      obtain ⟨c1, c2, c3, ⟨c4, c5⟩, rho', c6, c7⟩ := hc
      have htime : sk'.time = lastTime t us := by rw [hk'.time, nodeAt_num_eq hv']
      obtain ⟨sig, a1, a2⟩ := sign_bare H L pf W hsup hpk hk'.suite hl' (by rw [c2, hk'.time])
        (by rw [c2]; exact nodeAt_num c1) c6 c4 (by
          intro hc
          have := c1.1
          rw [hc] at c3
          simp only [List.length_nil] at c3
          omega) c5 msg
      rw [htime] at a1
      refine ⟨sig, a1, a2.trans ?_⟩
      rw [c7 [] (by simp), add_left_inj, sub_eq_iff_eq_add]

/-- C104: whether the key validates after the updates is likewise a matter of the elements of `sk`: those
that the sub keys of the present are made of have to be right, the others and the last ones do not
matter. -/
theorem C104_validate [DecidableEq GT] {E : Ext G1 G2 GT} (H : HashLaws E) (L : GroupLaws E)
    (pf : Profile) {pp : PubParam G1 G2} (W : ParamWF E pp) {pk : PublicKey G2} {x : Nat}
    (hpk : pk.pk = x • pp.g2) (hpc : pk.ciphersuite = pp.ciphersuite) {t : Nat}
    {sk sk' : SecretKey G1 G2} (ht : TimesFor pp t sk) (hl : RightLengths pp sk) (hi : InGroups E sk)
    {us : List (Nat × Bytes)} (hus : Updates E.sha512 pf pp sk us sk') {vs : List (List Nat)}
    (hvs : CoverList pp.depth (lastTime t us) vs) :
    SecretKey.validate E pf sk' pk pp = .ok true ↔
      ∀ b ∈ vs, ∀ s ∈ sk.ssk, ∀ g w, ∀ rho : Nat, NodeAt pp.depth s.time g → b = g ++ w →
        s.g2r = rho • pp.g2 →
        s.hpoly + (List.zipWith (fun t a => t • a) w s.hvector).sum =
          x • pp.h + rho • nodePoint pp b := by
  have S := W.toParamShape
  have hK : ∀ a ∈ pp.hlist, a ∈ sub1 L := fun a ha => W.hlist_sub a ha
  have hm : ∀ s ∈ sk.ssk, s.hpoly ∈ sub1 L ∧ ∀ h ∈ s.hvector, h ∈ sub1 L :=
    fun s hs => ⟨(hi s hs).2.1, (hi s hs).2.2⟩
  have hgen : ∀ s ∈ sk.ssk, ∃ rho : Nat, s.g2r = rho • pp.g2 := fun s hs => by
    obtain ⟨n, hn⟩ := L.gen2_gen _ (hi s hs).1
    exact ⟨n, by rw [hn, W.g2_gen]⟩
  obtain ⟨v, hv, hraw⟩ := SecretKey.timesFor_iff.1 ht
  -- the key after the updates
  obtain ⟨v', hv', hle, hall⟩ : ∃ v', NodeAt pp.depth (lastTime t us) v' ∧ t ≤ lastTime t us ∧
      ∀ s ∈ sk.ssk, ∀ g w, ∀ rho : Nat, NodeAt pp.depth s.time g → IsNode pp.depth (g ++ w) →
        s.g2r = rho • pp.g2 → KeyContributes (sub1 L) pp (g ++ w) 0
          (bareSignature s w 0 - rho • sigPoint pp (g ++ w) 0) v' sk' := by
    obtain ⟨s0, hs0, g0, w0, hg0, hv0⟩ := exists_above hraw hraw.node (le_refl _)
    obtain ⟨r0, hr0⟩ := hgen s0 hs0
    have step : ∀ s ∈ sk.ssk, ∀ g w, ∀ rho : Nat, NodeAt pp.depth s.time g → IsNode pp.depth (g ++ w) →
        s.g2r = rho • pp.g2 → t ≤ lastTime t us ∧ ∃ v', NodeAt pp.depth (lastTime t us) v' ∧
          KeyContributes (sub1 L) pp (g ++ w) 0
            (bareSignature s w 0 - rho • sigPoint pp (g ++ w) 0) v' sk' := by
      intro s hs g w rho hg hu hr
      obtain ⟨v1, hv1, hk1⟩ := keyContributes_start ht hl hm hgen hs hg hu hr 0
      exact updates_contribute H.sha_len S hK hu hv1 hk1 hus
    obtain ⟨hle, v', hv', _⟩ := step s0 hs0 g0 w0 r0 hg0 (hv0 ▸ hraw.node) hr0
    refine ⟨v', hv', hle, fun s hs g w rho hg hu hr => ?_⟩
    obtain ⟨_, v'', hv'', hk⟩ := step s hs g w rho hg hu hr
    have : v'' = v' := num_inj (nodeAt_isNode hv'') (nodeAt_isNode hv') (by
      rw [nodeAt_num_eq hv'', nodeAt_num_eq hv'])
    rwa [this] at hk
  have hvs' : vs = gam v' := (coverList_iff hv').1 hvs
  have hvn := nodeAt_isNode hv'
  -- the sub key of `sk` above each node of the cover
  have habove : ∀ b ∈ gam v', ∃ s ∈ sk.ssk, ∃ g w, ∃ rho : Nat, NodeAt pp.depth s.time g ∧ b = g ++ w ∧
      s.g2r = rho • pp.g2 := by
    intro b hb
    have hbn := gam_isNode hvn hb
    have h1 : num pp.depth v' ≤ num pp.depth b := by
      rcases List.mem_cons.1 hb with rfl | hb
      · exact le_refl _
      · exact Nat.le_of_lt (gam_num_lt hvn hb)
    rw [nodeAt_num_eq hv'] at h1
    obtain ⟨s, hs, g, w, hg, hb⟩ := exists_above hraw hbn (by rw [nodeAt_num_eq hv]; omega)
    obtain ⟨rho, hr⟩ := hgen s hs
    exact ⟨s, hs, g, w, rho, hg, hb, hr⟩
  obtain ⟨s0, hs0, g0, w0, r0, hg0, hb0, hr0⟩ := habove v' (by simp [gam])
  have hk0 := hall s0 hs0 g0 w0 r0 hg0 (hb0 ▸ hvn) hr0
  have htime : sk'.time = lastTime t us := by rw [hk0.time, nodeAt_num_eq hv']
  have hlen := hk0.ssk.length_eq
  have hsub : ∀ s ∈ sk'.ssk, E.inSub2 s.g2r = true ∧ E.inSub1 s.hpoly = true := by
    intro s hs
    obtain ⟨b, _, hc⟩ := forall₂_mem_right hk0.ssk hs
    obtain ⟨rho, hr, _⟩ := hc.gen
    exact ⟨by rw [hr, W.g2_gen]; exact L.sub2_nsmul L.gen2_sub _, hc.mem.1⟩
  -- one sub key
  have hone : ∀ k (h1 : k < (gam v').length) (h2 : k < sk'.ssk.length) s, s ∈ sk.ssk →
      ∀ g w, ∀ rho : Nat, NodeAt pp.depth s.time g → (gam v')[k] = g ++ w → s.g2r = rho • pp.g2 →
      (HeadFor pp (x • pp.h) (gam v')[k] sk'.ssk[k] ↔
        s.hpoly + (List.zipWith (fun t a => t • a) w s.hvector).sum =
          x • pp.h + rho • nodePoint pp (gam v')[k]) := by
    intro k h1 h2 s hs g w rho hg hb hr
    have hbn : IsNode pp.depth (gam v')[k] := gam_isNode hvn (List.getElem_mem _)
    have hc := (hall s hs g w rho hg (hb ▸ hbn) hr).ssk.get h1 h2
    simp only [List.get_eq_getElem] at hc
    obtain ⟨c1, c2, c3, ⟨c4, c5⟩, rho', c6, c7⟩ := hc
    have e := c7 [] (by rw [hb, List.append_nil])
    rw [headFor_iff L W (by rw [c2]; exact nodeAt_num c1) c6 c4]
    rw [bareSignature_zero, bareSignature_zero, sigPoint_zero, ← hb] at e
    simp only [List.zipWith_nil_left, List.sum_nil, add_zero] at e
    rw [e, add_left_inj, sub_eq_iff_eq_add]
  rw [(C48_exact L pf W hpk sk' hsub).1, hvs']
  constructor
  · rintro ⟨-, -, -, vs1, q1, q2⟩ b hb s hs g w rho hg hbw hr
    rw [htime] at q1
    rw [(coverList_iff hv').1 q1, ← hlen, List.take_length] at q2
    obtain ⟨k, hk, rfl⟩ := List.getElem_of_mem hb
    have h2 : k < sk'.ssk.length := by omega
    have := q2.get hk h2
    simp only [List.get_eq_getElem] at this
    exact (hone k hk h2 s hs g w rho hg hbw hr).1 this
  · intro h
    refine ⟨by rw [hk0.suite, hpc], hk0.suite, by rw [htime]; exact (nodeAt_iff.1 hv').1, gam v',
      by rw [htime]; exact (coverList_iff hv').2 rfl, ?_⟩
    rw [← hlen, List.take_length, List.forall₂_iff_get]
    refine ⟨hlen, fun k h1 h2 => ?_⟩
    obtain ⟨s, hs, g, w, rho, hg, hb, hr⟩ := habove _ (List.getElem_mem h1)
    simp only [List.get_eq_getElem]
    exact (hone k h1 h2 s hs g w rho hg hb hr).2 (h _ (List.getElem_mem h1) s hs g w rho hg hb hr)

/-- C104: one wrong element.  Let one element `e ≠ 0` be added to the element number `j` of the sub key
of the node `g` of a proper key.  The key still validates.  After any successful updates its signatures
are accepted, except for
* the nodes more than `j` levels below `g`, whatever the message;
* all nodes below `g` and `g` itself, if the element is the last one, for all messages not hashed to
  zero. -/
theorem C104_one_element [DecidableEq GT] {E : Ext G1 G2 GT} (H : HashLaws E) (L : GroupLaws E)
    (pf : Profile) {pp : PubParam G1 G2} (W : ParamWF E pp) (hsup : Supported pp.ciphersuite)
    {pk : PublicKey G2} {x : Nat} (hpk : pk.pk = x • pp.g2) (hpc : pk.ciphersuite = pp.ciphersuite)
    {t : Nat} {sk : SecretKey G1 G2} (hk : KeyFor pp (x • pp.h) t sk) {i j : Nat} {e : G1}
    {s : SubSecretKey G1 G2} (hs : sk.ssk[i]? = some s) {g : List Nat}
    (hg : NodeAt pp.depth s.time g) (hj : j < s.hvector.length) (he : E.inSub1 e = true) (he0 : e ≠ 0) :
    SecretKey.validate E pf (withError sk i j e) pk pp = .ok true ∧
    ∀ us sk', Updates E.sha512 pf pp (withError sk i j e) us sk' →
    ∀ u, NodeAt pp.depth (lastTime t us) u → ∀ msg,
      ∃ sig, Signature.signPresent E.sha512 pf (lastTime t us) pp msg sk' = (.ok sig, sk') ∧
        (Signature.verifyBytes E pf sig pk pp msg = .ok true ↔
          ∀ w, u = g ++ w → w.length ≤ j ∧
            (j + 1 = s.hvector.length → msgField E.sha512 pp.ciphersuite msg = 0)) := by
  have S := W.toParamShape
  have hxh := L.sub1_nsmul W.h_sub x
  obtain ⟨v, hv, hkh⟩ := keyFor_iff.1 hk
  have hti := withError_times (KeyFor.timesFor hk) i j e
  have hle := withError_lengths (KeyFor.lengths S hk) i j e
  have hin := withError_groups L (KeyFor.groups L W hxh hk) i j he
  refine ⟨?_, ?_⟩
  · rw [← C48_ignores_hvector_and_prng E pf pk pp W.depth_le sk (withError sk i j e) rfl rfl]
    · exact SecretKey.validate_honest L W pf hkh hpc hpk
    · unfold withError
      apply List.ext_getElem?
      intro k
      simp only [List.getElem?_map, List.getElem?_modify]
      cases sk.ssk[k]? with
      | none => rfl
      | some b => simp only [Option.map_some]; split <;> rfl
  intro us sk' hus u hu msg
  have hun := nodeAt_isNode hu
  set M := msgField E.sha512 pp.ciphersuite msg with hM
  have hi0 : i < (withError sk i j e).ssk.length := by
    simpa [withError] using (List.getElem?_eq_some_iff.1 hs).1
  have hn0 : NodeAt pp.depth (withError sk i j e).ssk[i].time g := by
    have := (List.getElem?_eq_some_iff.1 hs).2
    simpa [withError, List.getElem_modify, this] using hg
  -- the sub key above `u`
  have hle' : num pp.depth v ≤ num pp.depth u := by
    obtain ⟨n, hn⟩ := L.gen2_gen _ (hin _ (List.getElem_mem hi0)).1
    obtain ⟨v0, hv0, hc0⟩ := keyContributes_start (K := sub1 L) hti hle
      (fun s hs => ⟨(hin s hs).2.1, (hin s hs).2.2⟩)
      (fun s hs => by
        obtain ⟨n, hn⟩ := L.gen2_gen _ (hin s hs).1
        exact ⟨n, by rw [hn, W.g2_gen]⟩) (List.getElem_mem hi0) (w := []) hn0
      (by rw [List.append_nil]; exact nodeAt_isNode hn0) (rho := n) (by rw [hn, W.g2_gen]) M
    have := (updates_contribute H.sha_len S (fun a ha => W.hlist_sub a ha)
      (by rw [List.append_nil]; exact nodeAt_isNode hn0) hv0 hc0 hus).1
    rw [nodeAt_num_eq hv, nodeAt_num_eq hu]
    exact this
  obtain ⟨g', hg', w, rfl⟩ := (gam_cover hkh.node hun).1 hle'
  obtain ⟨k, hk1, hk2⟩ := List.getElem_of_mem hg'
  have hlen := hkh.ssk.length_eq
  have hks : k < sk.ssk.length := by omega
  obtain ⟨rho, hsub⟩ : SubAt pp (x • pp.h) g' sk.ssk[k] := by
    have := hkh.ssk.get hk1 hks
    simpa [hk2] using this
  have hwl := hun.1
  rw [List.length_append] at hwl
  have hsl := KeyFor.lengths S hk _ (List.getElem_mem hks) g' hsub.node
  have hk' : k < (withError sk i j e).ssk.length := by simpa [withError] using hks
  obtain ⟨his, hsi⟩ := List.getElem?_eq_some_iff.1 hs
  obtain ⟨sig, a1, a2⟩ := C104_signature H L pf W hsup hpk hti hle hin hus
    (s := (withError sk i j e).ssk[k]) (List.getElem_mem hk') (g := g') (w := w) (rho := rho)
    (by simp only [withError, List.getElem_modify]; split <;> exact hsub.node) hu
    (by simp only [withError, List.getElem_modify]; split <;> exact hsub.g2r) msg
  refine ⟨sig, a1, a2.trans ?_⟩
  have hb := bareSignature_honest S hsub hun M
  by_cases hik : i = k
  · subst hik
    rw [hsi] at hsub hsl hb
    have hgg : g = g' := num_inj (nodeAt_isNode hg) (nodeAt_isNode hsub.node) (by
      rw [nodeAt_num_eq hg, nodeAt_num_eq hsub.node])
    subst hgg
    have e1 : bareSignature (withError sk i j e).ssk[i] w M =
        x • pp.h + rho • sigPoint pp (g ++ w) M +
          ((w[j]?.getD 0) • e + M.val • (if j + 1 = s.hvector.length then e else 0)) := by
      rw [← hb, bareSignature_eq, bareSignature_eq]
      simp only [withError, List.getElem_modify, if_true, hsi]
      rw [wsum_modify _ _ _ _ (by omega), getLastD_modify _ _ _ hj, smul_add]
      abel
    rw [e1, add_eq_left]
    have hord := L.sub1_order e he
    have hM' : M.val < rOrder := ZMod.val_lt _
    constructor
    · intro h0 w' hw'
      rw [← List.append_cancel_left hw']
      by_cases hjw : w.length ≤ j
      · refine ⟨hjw, fun hlast => ?_⟩
        rw [if_pos hlast, List.getElem?_eq_none hjw] at h0
        simp only [Option.getD_none, zero_smul, zero_add] at h0
        exact (ZMod.val_eq_zero _).1 (smul_ne_zero_of_order hord he0 hM' h0)
      · exfalso
        rw [if_neg (by omega), smul_zero, add_zero, List.getElem?_eq_getElem (by omega)] at h0
        have h12 := hun.2 w[j] (List.mem_append_right _ (List.getElem_mem _))
        have := smul_ne_zero_of_order hord he0 (n := w[j]) (by
          have : 2 < rOrder := by decide
          rcases h12 with h | h <;> omega) h0
        omega
    · intro h
      obtain ⟨h1, h2⟩ := h w rfl
      rw [List.getElem?_eq_none h1]
      split
      · next hlast => rw [h2 hlast]; simp
      · simp
  · have e1 : (withError sk i j e).ssk[k] = sk.ssk[k] := by
      simp [withError, hik]
    rw [e1, hb]
    refine ⟨fun _ w' hw' => ?_, fun _ => rfl⟩
    exfalso
    have hgi : g ∈ gam v ∧ g ≠ g' := by
      have hi1 : i < (gam v).length := by omega
      obtain ⟨rho', hr'⟩ : SubAt pp (x • pp.h) (gam v)[i] sk.ssk[i] := by
        have := hkh.ssk.get hi1 his
        simpa using this
      rw [hsi] at hr'
      have hgg : g = (gam v)[i] := num_inj (nodeAt_isNode hg) (nodeAt_isNode hr'.node) (by
        rw [nodeAt_num_eq hg, nodeAt_num_eq hr'.node])
      refine ⟨by rw [hgg]; exact List.getElem_mem _, fun hc => ?_⟩
      have hsort := List.pairwise_iff_getElem.1 (gam_sorted hkh.node)
      rw [← hk2, hgg] at hc
      rcases Nat.lt_or_gt_of_ne hik with hlt | hlt
      · have := hsort i k hi1 hk1 hlt
        rw [hc] at this; omega
      · have := hsort k i hk1 hi1 hlt
        rw [hc] at this; omega
    exact hgi.2 (gam_unique hkh.node hun hgi.1 hg' ⟨w', hw'.symm⟩ (List.prefix_append _ _))

/-- C104: `validate` notices one wrong element exactly when the time of the key lies more than `j` levels
below the node of the sub key. Before that, and once the time has left the tree below that node, the
same error goes unnoticed. -/
theorem C104_one_element_noticed [DecidableEq GT] {E : Ext G1 G2 GT} (H : HashLaws E)
    (L : GroupLaws E) (pf : Profile) {pp : PubParam G1 G2} (W : ParamWF E pp)
    {pk : PublicKey G2} {x : Nat} (hpk : pk.pk = x • pp.g2) (hpc : pk.ciphersuite = pp.ciphersuite)
    {t : Nat} {sk : SecretKey G1 G2} (hk : KeyFor pp (x • pp.h) t sk) {i j : Nat} {e : G1}
    {s : SubSecretKey G1 G2} (hs : sk.ssk[i]? = some s) {g : List Nat}
    (hg : NodeAt pp.depth s.time g) (he : E.inSub1 e = true) (he0 : e ≠ 0)
    {us : List (Nat × Bytes)} {sk' : SecretKey G1 G2}
    (hus : Updates E.sha512 pf pp (withError sk i j e) us sk') {u : List Nat}
    (hu : NodeAt pp.depth (lastTime t us) u) :
    SecretKey.validate E pf sk' pk pp = .ok true ↔ ∀ w, u = g ++ w → w.length ≤ j := by
  have S := W.toParamShape
  have hxh := L.sub1_nsmul W.h_sub x
  obtain ⟨v, hv, hkh⟩ := keyFor_iff.1 hk
  have hun := nodeAt_isNode hu
  obtain ⟨his, hsi⟩ := List.getElem?_eq_some_iff.1 hs
  have hlen := hkh.ssk.length_eq
  -- a sub key of `sk`, before and after the change
  have hrow : ∀ k (hks : k < sk.ssk.length) g' w, ∀ rho : Nat, NodeAt pp.depth sk.ssk[k].time g' →
      IsNode pp.depth (g' ++ w) → sk.ssk[k].g2r = rho • pp.g2 →
      w.length ≤ sk.ssk[k].hvector.length ∧
      sk.ssk[k].hpoly + wsum w sk.ssk[k].hvector = x • pp.h + rho • nodePoint pp (g' ++ w) := by
    intro k hks g' w rho hg' hgn hr
    obtain ⟨rho', hsub⟩ : SubAt pp (x • pp.h) (gam v)[k] sk.ssk[k] := by
      have := hkh.ssk.get (by omega) hks
      simpa using this
    have hgg : (gam v)[k] = g' := num_inj (nodeAt_isNode hsub.node) (nodeAt_isNode hg') (by
      rw [nodeAt_num_eq hg', nodeAt_num_eq hsub.node])
    rw [hgg] at hsub
    have hb := bareSignature_honest S hsub hgn 0
    have hr' : rho • E.gen2 = rho' • E.gen2 := by rw [← W.g2_gen, ← hr, hsub.g2r]
    have hwl := hgn.1
    rw [List.length_append] at hwl
    have hsl := KeyFor.lengths S hk _ (List.getElem_mem hks) g' hsub.node
    rw [bareSignature_zero, sigPoint_zero,
      ← nsmul_congr L hr' (nodePoint_mem (K := sub1 L) W.hlist_sub _)] at hb
    exact ⟨by omega, hb⟩
  have hrow' : ∀ (hks : i < (withError sk i j e).ssk.length) w, w.length ≤ s.hvector.length →
      (withError sk i j e).ssk[i].hpoly + wsum w (withError sk i j e).ssk[i].hvector =
        s.hpoly + wsum w s.hvector + (w[j]?.getD 0) • e := by
    intro hks w hw
    simp only [withError, List.getElem_modify, if_true, hsi]
    rw [wsum_modify _ _ _ _ hw, add_assoc]
  rw [C104_validate H L pf W hpk hpc (withError_times (KeyFor.timesFor hk) i j e)
    (withError_lengths (KeyFor.lengths S hk) i j e)
    (withError_groups L (KeyFor.groups L W hxh hk) i j he) hus ((coverList_iff hu).2 rfl)]
  have hi' : i < (withError sk i j e).ssk.length := by simpa [withError] using his
  constructor
  · intro h w hw
    by_contra hjw
    obtain ⟨n, hn⟩ := L.gen2_gen _ (KeyFor.groups L W hxh hk s (hsi ▸ List.getElem_mem his)).1
    rw [← W.g2_gen] at hn
    have h1 := h u (by simp [gam]) (withError sk i j e).ssk[i] (List.getElem_mem hi') g w n
      (by simpa [withError, List.getElem_modify, hsi] using hg) hw
      (by simpa [withError, List.getElem_modify, hsi] using hn)
    have h2 := hrow i his g w n (hsi ▸ hg) (hw ▸ hun) (hsi ▸ hn)
    rw [hsi] at h2
    have h3 := hrow' hi' w h2.1
    change _ + wsum w _ = _ at h1
    rw [h3, h2.2, hw, add_eq_left, List.getElem?_eq_getElem (by omega)] at h1
    have h12 := hun.2 w[j] (by rw [hw]; exact List.mem_append_right _ (List.getElem_mem _))
    have := smul_ne_zero_of_order (L.sub1_order e he) he0 (n := w[j]) (by
      have : 2 < rOrder := by decide
      rcases h12 with h | h <;> omega) h1
    omega
  · intro h b hb s' hs' g' w rho hg' hbw hr
    have hbn := gam_isNode hun hb
    obtain ⟨k, hk', rfl⟩ := List.getElem_of_mem hs'
    have hks : k < sk.ssk.length := by simpa [withError] using hk'
    have h2 := hrow k hks g' w rho
      (by revert hg'; simp only [withError, List.getElem_modify]; split <;> exact id) (hbw ▸ hbn)
      (by revert hr; simp only [withError, List.getElem_modify]; split <;> exact id)
    rw [hbw]
    by_cases hik : i = k
    · subst hik
      rw [hsi] at h2
      have hgg : g = g' := num_inj (nodeAt_isNode hg) (nodeAt_isNode hg') (by
        rw [nodeAt_num_eq hg, nodeAt_num_eq hg']
        simp [withError, hsi])
      subst hgg
      have hwj : w.length ≤ j := by
        by_cases hw : w = []
        · simp [hw]
        · obtain ⟨w', h1, h3⟩ := gam_below hb hbw hw
          exact h3.trans (h w' h1)
      refine (hrow' hk' w h2.1).trans ?_
      rw [List.getElem?_eq_none hwj, h2.2]
      simp
    · have e1 : (withError sk i j e).ssk[k] = sk.ssk[k] := by simp [withError, hik]
      rw [e1]
      exact h2.2

/-- C104: the elements of every key read from bytes are in the subgroups. -/
theorem C104_read_groups {E : Ext G1 G2 GT} (C : CodecLaws E) {c : Bool} {inp rest : Bytes}
    {sk : SecretKey G1 G2} (h : SecretKey.deserialize E c inp = (.ok sk, rest)) : InGroups E sk := by
  have hv := (C39_only_well_formed C c inp rest).2.2.2 sk h
  exact fun s hs => ⟨(hv.ssk s hs).g2r, (hv.ssk s hs).hpoly, (hv.ssk s hs).hvector⟩

/-! ### Concrete cases -/

section Examples
open Pixel.Toy

/-- C104: the key for time 1 of a tree of depth 5 with its second element wrong.  It validates.  Updated
to time 2, one level down, its signatures are accepted; updated to time 3, two levels down, none is. -/
example (msg : Bytes) :
    SecretKey.validate (ext sha0) .release (withError (sk0 5 1) 0 1 (1, 0)) toyPkV (param 5 1) = .ok true ∧
    (∃ sk' sig, SecretKey.update (ext sha0).sha512 .release (param 5 1) 2 [7]
        (withError (sk0 5 1) 0 1 (1, 0)) = (.ok (), sk') ∧
      Signature.signPresent (ext sha0).sha512 .release 2 (param 5 1) msg sk' = (.ok sig, sk') ∧
      Signature.verifyBytes (ext sha0) .release sig toyPkV (param 5 1) msg = .ok true) ∧
    (∃ sk' sig, SecretKey.update (ext sha0).sha512 .release (param 5 1) 3 [7]
        (withError (sk0 5 1) 0 1 (1, 0)) = (.ok (), sk') ∧
      Signature.signPresent (ext sha0).sha512 .release 3 (param 5 1) msg sk' = (.ok sig, sk') ∧
      Signature.verifyBytes (ext sha0) .release sig toyPkV (param 5 1) msg ≠ .ok true) := by
  have W := param_wf sha0 (d := 5) (by omega) (by omega) 1
  have hk := keyFor_sk0 (d := 5) (by omega) 1
  obtain ⟨a1, a2⟩ := C104_one_element (E := ext sha0) hashLaws (groupLaws sha0) .release W
    (pk := toyPkV) (x := 3) (Or.inr rfl) rfl rfl hk (i := 0) (j := 1) (e := (1, 0)) (s := ssk0 5) rfl
    (g := []) (nodeAt_iff.2 ⟨⟨by decide +kernel, by decide +kernel⟩, by decide +kernel⟩) (by decide)
    (by decide +kernel) (by decide)
  have run : ∀ tar, (SecretKey.update (ext sha0).sha512 .release (param 5 1) tar [7]
      (withError (sk0 5 1) 0 1 (1, 0))).1 = .ok () → ∀ u, NodeAt (param 5 1).depth tar u →
      ∃ sk' sig, SecretKey.update (ext sha0).sha512 .release (param 5 1) tar [7]
          (withError (sk0 5 1) 0 1 (1, 0)) = (.ok (), sk') ∧
        Signature.signPresent (ext sha0).sha512 .release tar (param 5 1) msg sk' = (.ok sig, sk') ∧
        (Signature.verifyBytes (ext sha0) .release sig toyPkV (param 5 1) msg = .ok true ↔
          u.length ≤ 1) := by
    intro tar h u hu
    have e : SecretKey.update (ext sha0).sha512 .release (param 5 1) tar [7]
        (withError (sk0 5 1) 0 1 (1, 0)) = (.ok (), _) := Prod.ext h rfl
    obtain ⟨sig, b1, b2⟩ := a2 _ _ (.cons e (.nil _)) u hu msg
    refine ⟨_, sig, e, b1, b2.trans ⟨fun h => (h u rfl).1, fun h w hw => ⟨?_, fun hc => ?_⟩⟩⟩
    · rw [← show u = w from hw]; exact h
    · exact absurd hc (by decide)
  refine ⟨a1, ?_, ?_⟩
  · obtain ⟨sk', sig, b1, b2, b3⟩ := run 2 (by decide +kernel) [1]
      (nodeAt_iff.2 ⟨⟨by decide +kernel, by decide +kernel⟩, by decide +kernel⟩)
    exact ⟨sk', sig, b1, b2, b3.2 (by decide)⟩
  · obtain ⟨sk', sig, b1, b2, b3⟩ := run 3 (by decide +kernel) [1, 1]
      (nodeAt_iff.2 ⟨⟨by decide +kernel, by decide +kernel⟩, by decide +kernel⟩)
    exact ⟨sk', sig, b1, b2, fun hc => absurd (b3.1 hc) (by decide)⟩

/-- the same key: at time 2 it validates, at time 3 it does not, and at time 17, the right child of the
root, it does again -/
example :
    (∃ sk', SecretKey.update (ext sha0).sha512 .release (param 5 1) 2 [7]
        (withError (sk0 5 1) 0 1 (1, 0)) = (.ok (), sk') ∧
      SecretKey.validate (ext sha0) .release sk' toyPkV (param 5 1) = .ok true) ∧
    (∃ sk', SecretKey.update (ext sha0).sha512 .release (param 5 1) 3 [7]
        (withError (sk0 5 1) 0 1 (1, 0)) = (.ok (), sk') ∧
      SecretKey.validate (ext sha0) .release sk' toyPkV (param 5 1) ≠ .ok true) ∧
    (∃ sk', SecretKey.update (ext sha0).sha512 .release (param 5 1) 17 [7]
        (withError (sk0 5 1) 0 1 (1, 0)) = (.ok (), sk') ∧
      SecretKey.validate (ext sha0) .release sk' toyPkV (param 5 1) = .ok true) := by
  have W := param_wf sha0 (d := 5) (by omega) (by omega) 1
  have hk := keyFor_sk0 (d := 5) (by omega) 1
  have run : ∀ tar, (SecretKey.update (ext sha0).sha512 .release (param 5 1) tar [7]
      (withError (sk0 5 1) 0 1 (1, 0))).1 = .ok () → ∀ u, NodeAt (param 5 1).depth tar u →
      ∃ sk', SecretKey.update (ext sha0).sha512 .release (param 5 1) tar [7]
          (withError (sk0 5 1) 0 1 (1, 0)) = (.ok (), sk') ∧
        (SecretKey.validate (ext sha0) .release sk' toyPkV (param 5 1) = .ok true ↔
          u.length ≤ 1) := by
    intro tar h u hu
    have e : SecretKey.update (ext sha0).sha512 .release (param 5 1) tar [7]
        (withError (sk0 5 1) 0 1 (1, 0)) = (.ok (), _) := Prod.ext h rfl
    refine ⟨_, e, (C104_one_element_noticed (E := ext sha0) hashLaws (groupLaws sha0) .release W
      (pk := toyPkV) (x := 3) rfl rfl hk (i := 0) (j := 1) (e := (1, 0)) (s := ssk0 5) rfl
      (g := []) (nodeAt_iff.2 ⟨⟨by decide +kernel, by decide +kernel⟩, by decide +kernel⟩)
      (by decide +kernel) (by decide) (.cons e (.nil _)) hu).trans
      ⟨fun h => h u rfl, fun h w hw => by rw [← show u = w from hw]; exact h⟩⟩
  refine ⟨?_, ?_, ?_⟩
  · obtain ⟨sk', b1, b2⟩ := run 2 (by decide +kernel) [1]
      (nodeAt_iff.2 ⟨⟨by decide +kernel, by decide +kernel⟩, by decide +kernel⟩)
    exact ⟨sk', b1, b2.2 (by decide)⟩
  · obtain ⟨sk', b1, b2⟩ := run 3 (by decide +kernel) [1, 1]
      (nodeAt_iff.2 ⟨⟨by decide +kernel, by decide +kernel⟩, by decide +kernel⟩)
    exact ⟨sk', b1, fun hc => absurd (b2.1 hc) (by decide)⟩
  · obtain ⟨sk', b1, b2⟩ := run 17 (by decide +kernel) [2]
      (nodeAt_iff.2 ⟨⟨by decide +kernel, by decide +kernel⟩, by decide +kernel⟩)
    exact ⟨sk', b1, b2.2 (by decide)⟩

end Examples

end Pixel.Props
