import Verif.Proof.Document
import Verif.Props.Validate
import Verif.Props.Update
import Verif.Props.Keys
import Verif.Props.History
import Verif.Kat

/-!
# Property C59: the code does what `/repo/spec.md` says

`Pixel.Doc` (`Verif/Spec/Document.lean`) transcribes the document.
-/

namespace Pixel.Props

open Pixel Pixel.Spec

set_option linter.unusedSectionVars false

variable {G1 G2 GT : Type} [AddCommGroup G1] [AddCommGroup G2] [CommGroup GT]

/-! ## key generation -/

/-- C59: `keygen` returns what the document's `master_key_gen` and `SecretKey::init` return, and
fails where the document reports an error. -/
theorem C59_keygen {E : Ext G1 G2 GT} (H : HashLaws E) {pp : PubParam G1 G2} (S : ParamShape pp)
    (seed : Bytes) :
    (∃ pk alpha pop prng sk, Doc.masterKeyGen E seed pp = some (pk, alpha, pop, prng) ∧
      Doc.keyInit E.sha512 pp alpha prng = some sk ∧
      keygen E seed pp = .ok ({ ciphersuite := pp.ciphersuite, pk := pk }, sk, pop)) ∨
    (∃ e, Doc.masterKeyGen E seed pp = none ∧ keygen E seed pp = .err e) := by
  by_cases h : 32 ≤ seed.length ∧ (pp.ciphersuite = 0 ∨ pp.ciphersuite = 1)
  · left
    obtain ⟨s, h1, h2, h3⟩ := keygen_eq H S h.1 h.2
    refine ⟨_, _, _, _, _, by unfold Doc.masterKeyGen; rw [if_pos h],
      by unfold Doc.keyInit; rw [if_pos h.2], ?_⟩
    rw [h3]
    have e1 : Doc.prngInit E.sha512 seed (text "Pixel master key" ++ [pp.ciphersuite]) =
        (kgState E.sha512 seed pp.ciphersuite).seed := by
      rw [show text "Pixel master key" = DOM_SEP_MASTER_KEY by decide +kernel]; rfl
    have e2 : text "key initialization" = ascii "key initialization" := by decide +kernel
    have e3 : text "Pixel secret key init" ++ be32 1 = DOM_SEP_SK_INIT ++ [0, 0, 0, 1] := by
      decide +kernel
    rw [e1, e2, e3, Doc.sampleThenUpdate_eq]
    simp only []
    rw [show drawNext E.sha512 (kgState E.sha512 seed pp.ciphersuite) (ascii "key initialization") =
      kgNext E.sha512 seed pp.ciphersuite from rfl,
      show drawVal E.sha512 (kgState E.sha512 seed pp.ciphersuite) (ascii "key initialization") =
      kgSecret E.sha512 seed pp.ciphersuite from rfl, Doc.sampleThenUpdate_eq]
    have hs : s = Doc.subKeyInit pp (mulFr (kgSecret E.sha512 seed pp.ciphersuite) pp.h)
        (drawVal E.sha512 (kgNext E.sha512 seed pp.ciphersuite)
          (DOM_SEP_SK_INIT ++ [0, 0, 0, 1])) := by
      refine Py.subKeyFor_unique h2 ⟨?_, rfl, ?_, ?_⟩
      · exact (nodeAt_num (d := pp.depth) (v := [])
          (isNode_nil.2 (by have := S.depth_pos; omega))) |> fun h => by rwa [num_nil] at h
      · simp [Doc.subKeyInit, nodePoint]
      · simp [Doc.subKeyInit]
    rw [hs]
    simp only [Doc.proofOfPossession, blsCoreSign, mulFr,
      show text "Pixel public key POP" = DOM_SEP_POP by decide +kernel]
  · right
    have hn : Doc.masterKeyGen E seed pp = none := by unfold Doc.masterKeyGen; rw [if_neg h]
    by_cases hl : seed.length < 32
    · exact ⟨_, hn, keygen_short hl⟩
    · exact ⟨_, hn, keygen_suite (by omega) fun hs => h ⟨by omega, hs⟩⟩

/-! ## sub keys -/

/-- C59: delegation.  The document allows delegation to the key's own time, which changes nothing;
the code reports an error there.  Everywhere else they agree. -/
theorem C59_delegate (pf : Profile) {pp : PubParam G1 G2} (S : ParamShape pp) {alpha : G1}
    {v : List Nat} {rho : Nat} {s : SubSecretKey G1 G2} (h : SubKeyFor pp alpha v rho s) (tar : Nat) :
    (tar ≠ s.time →
      (∃ s', SubSecretKey.delegate pf tar pp.depth s = (.ok (), s') ∧
        Doc.delegate pp.depth s tar = some s') ∨
      (∃ e, SubSecretKey.delegate pf tar pp.depth s = (.err e, s) ∧
        Doc.delegate pp.depth s tar = none)) ∧
    (tar = s.time → (∃ e, SubSecretKey.delegate pf tar pp.depth s = (.err e, s)) ∧
      Doc.delegate pp.depth s tar = some s) := by
  have hv := h.isNode
  have ht := h.time_eq
  constructor
  · intro hne
    by_cases hex : ∃ u, NodeAt pp.depth tar u ∧ ProperAncestor v u
    · left
      obtain ⟨u, hu, w, hw, rfl⟩ := hex
      have hd := h.delegate_eq S pf (nodeAt_isNode hu) hw
      rw [nodeAt_num_eq hu] at hd
      refine ⟨_, hd, ?_⟩
      have := Doc.delegate_eq (s := s) hv (nodeAt_isNode hu) ht
      rwa [nodeAt_num_eq hu] at this
    · right
      obtain ⟨e, he, _⟩ := SubSecretKey.delegate_bad (pf := pf) (tar := tar) (s := s) S.depth_le (by
        rintro ⟨v', w, hv', hw, hne'⟩
        have : v' = v := by
          rw [(nodeAt_iff.1 hv').2, (nodeAt_iff.1 h.node).2]
        subst this
        exact hex ⟨_, hw, w, hne', rfl⟩)
      refine ⟨e, he, ?_⟩
      unfold Doc.delegate
      rw [ht, Doc.vecOf_num hv]
      cases hu : Doc.vecOf pp.depth tar with
      | none => rfl
      | some u =>
        simp only []
        rw [if_neg]
        rintro ⟨w, rfl⟩
        have hn := Doc.vecOf_iff.1 hu
        by_cases hw : w = []
        · subst hw
          rw [List.append_nil] at hn
          exact hne (by rw [ht, nodeAt_num_eq hn])
        · exact hex ⟨_, hn, w, hw, rfl⟩
  · rintro rfl
    constructor
    · obtain ⟨e, he, _⟩ := SubSecretKey.delegate_bad (pf := pf) (tar := s.time) (s := s)
        S.depth_le (by
        rintro ⟨v', w, hv', hw, hne'⟩
        have h1 := num_lt_of_append (nodeAt_isNode hw) hne'
        rw [nodeAt_num_eq hw, nodeAt_num_eq hv'] at h1
        omega)
      exact ⟨e, he⟩
    · have := Doc.delegate_eq (s := s) (w := []) hv (by simpa using hv) ht
      rw [List.append_nil, ← ht] at this
      rw [this]
      simp [SubSecretKey.delegated]

/-- C59: re-randomization. -/
theorem C59_randomization (pf : Profile) {pp : PubParam G1 G2} (S : ParamShape pp) {alpha : G1}
    {v : List Nat} {rho : Nat} {s : SubSecretKey G1 G2} (h : SubKeyFor pp alpha v rho s) (r : Fr) :
    ∃ s', SubSecretKey.randomization pf pp r s = (.ok (), s') ∧
      Doc.randomization pp s r = some s' :=
  ⟨_, h.randomization_eq S pf r, Doc.randomization_eq h.isNode h.time_eq r⟩

/-! ## update -/

/-- C59: the update agrees with the document, with the string `"Pixel secret key update"` for the
draws: same key, or an error on both sides.  The code's assertion on its generator state is not in
the document. -/
theorem C59_update {sha : Bytes → Bytes} (hsha : ∀ m, (sha m).length = 64) (pf : Profile)
    {pp : PubParam G1 G2} (S : ParamShape pp) {alpha : G1} {t : Nat} {sk : SecretKey G1 G2}
    (h : KeyFor pp alpha t sk) (tar : Nat) (seed : Bytes) :
    (∃ sk', SecretKey.update sha pf pp tar seed sk = (.ok (), sk') ∧
      Doc.update sha pp (text "Pixel secret key update") tar seed sk = some sk') ∨
    (SecretKey.update sha pf pp tar seed sk = (.err .timeStamp, sk) ∧
      Doc.update sha pp (text "Pixel secret key update") tar seed sk = none) ∨
    (SecretKey.update sha pf pp tar seed sk = (.panic .assertion, sk) ∧
      ∃ sk', Doc.update sha pp (text "Pixel secret key update") tar seed sk = some sk') := by
  obtain ⟨v, hv, hk⟩ := keyFor_iff.1 h
  have ht : sk.time = t := by rw [hk.time, nodeAt_num_eq hv]
  by_cases hr : t < tar ∧ tar ≤ 2 ^ pp.depth - 1
  · have hval : ValidTime pp.depth tar := ⟨by omega, hr.2⟩
    have hnt := num_path hval
    obtain ⟨k, h1, h2⟩ := Doc.update_eq hsha pf S hk (path_isNode hval)
      (by rw [hnt, nodeAt_num_eq hv]; exact hr.1) seed
    rw [hnt] at h1 h2
    rw [Doc.text_update]
    rcases h2 with h2 | h2
    · exact Or.inl ⟨k, h2, h1⟩
    · exact Or.inr (Or.inr ⟨h2, k, h1⟩)
  · refine Or.inr (Or.inl ⟨(C15_update_outcome hsha pf S h tar seed).1 hr, ?_⟩)
    unfold Doc.update
    rw [if_neg]
    rintro ⟨_, h1, h2⟩
    exact hr ⟨by omega, h2⟩

/-- C59: whatever string is used for the draws - in particular `"Pixel secret key update"` followed
by the time, as the document has it - the document's update is defined for the same times and gives
a key for the target time. -/
theorem C59_update_any_string {sha : Bytes → Bytes} (hsha : ∀ m, (sha m).length = 64)
    {pp : PubParam G1 G2} (S : ParamShape pp) {alpha : G1} {t : Nat} {sk : SecretKey G1 G2}
    (h : KeyFor pp alpha t sk) (info : Bytes) (tar : Nat) (seed : Bytes) :
    (t < tar ∧ tar ≤ 2 ^ pp.depth - 1 →
      ∃ sk', Doc.update sha pp info tar seed sk = some sk' ∧ KeyFor pp alpha tar sk') ∧
    (¬ (t < tar ∧ tar ≤ 2 ^ pp.depth - 1) → Doc.update sha pp info tar seed sk = none) := by
  obtain ⟨v, hv, hk⟩ := keyFor_iff.1 h
  have ht : sk.time = t := by rw [hk.time, nodeAt_num_eq hv]
  constructor
  · intro hr
    have hval : ValidTime pp.depth tar := ⟨by omega, hr.2⟩
    have hnt := num_path hval
    obtain ⟨k, h1, h2⟩ := Doc.update_key hsha info S hk (path_isNode hval)
      (by rw [hnt, nodeAt_num_eq hv]; exact hr.1) seed
    rw [hnt] at h1
    exact ⟨k, h1, keyFor_iff.2 ⟨_, nodeAt_iff.2 ⟨hval, rfl⟩, h2⟩⟩
  · intro hr
    unfold Doc.update
    rw [if_neg]
    rintro ⟨_, h1, h2⟩
    exact hr ⟨by omega, h2⟩

/-! ## signatures -/

/-- C59: signing at the key's own time. -/
theorem C59_sign {sha : Bytes → Bytes} (hsha : ∀ m, (sha m).length = 64) (pf : Profile)
    {pp : PubParam G1 G2} (S : ParamShape pp) (hsup : Supported pp.ciphersuite) {alpha : G1}
    {t : Nat} {sk : SecretKey G1 G2} (h : KeyFor pp alpha t sk) (tar : Nat) (msg : Bytes) :
    (tar = t → ∃ sig, Signature.signPresent sha pf tar pp msg sk = (.ok sig, sk) ∧
      Doc.sign sha sk tar pp msg = some sig) ∧
    (tar ≠ t → (∃ e, Signature.signPresent sha pf tar pp msg sk = (.err e, sk)) ∧
      Doc.sign sha sk tar pp msg = none) := by
  obtain ⟨v, hv, hk⟩ := keyFor_iff.1 h
  have ht : sk.time = t := by rw [hk.time, nodeAt_num_eq hv]
  constructor
  · rintro rfl
    exact Doc.sign_eq hsha pf S hsup hk ht msg
  · intro hne
    constructor
    · unfold Signature.signPresent
      rw [SM.get_bind]
      simp only []
      rw [if_pos (by rw [ht]; exact fun h => hne h.symm)]
      exact ⟨_, rfl⟩
    · unfold Doc.sign
      rw [if_neg]
      rintro ⟨h1, _⟩
      exact hne (by omega)

/-- C59: verification accepts exactly what the document's does, for every public key in the
subgroup. -/
theorem C59_verify [DecidableEq GT] {E : Ext G1 G2 GT} (H : HashLaws E) (L : GroupLaws E)
    (pf : Profile) {pp : PubParam G1 G2} (W : ParamWF E pp) (sig : Signature G1 G2)
    {pk : PublicKey G2} (hpk : E.inSub2 pk.pk = true) (msg : Bytes) :
    Signature.verifyBytes E pf sig pk pp msg = .ok true ↔ Doc.Verifies E sig pk.pk pp msg :=
  Doc.verifies_iff H L pf W sig hpk msg

/-- C59: aggregation succeeds exactly where the document's does, with the same signature. -/
theorem C59_aggregate (sigs : List (Signature G1 G2)) (s : Signature G1 G2) :
    Signature.aggregateWithoutValidate sigs = .ok s ↔ Doc.aggregate sigs = some s :=
  Doc.aggregate_iff sigs s

/-- C59: verification of aggregated signatures, for a non-empty list of public keys of the
subgroup. -/
theorem C59_verify_aggregated [DecidableEq GT] {E : Ext G1 G2 GT} (H : HashLaws E)
    (L : GroupLaws E) (pf : Profile) {pp : PubParam G1 G2} (W : ParamWF E pp)
    (sig : Signature G1 G2) {pks : List (PublicKey G2)} (hne : pks ≠ [])
    (hpk : ∀ pk ∈ pks, E.inSub2 pk.pk = true) (msg : Bytes) :
    Signature.verifyBytesAggregated E pf sig pks pp msg = .ok true ↔
      Doc.VerifiesAggregated E sig pks pp msg :=
  Doc.verifiesAggregated_iff H L pf W sig hne hpk msg

/-- C59: validation of a public key with its proof of possession. -/
theorem C59_pop [DecidableEq GT] {E : Ext G1 G2 GT} (L : GroupLaws E) (pk : PublicKey G2)
    (pop : ProofOfPossession G1) : pk.validate E pop = true ↔ Doc.PopValid E pk pop :=
  Doc.popValid_iff L pk pop

/-- C59: validation of a secret key (with elements of the subgroup).  The document compares the
list of sub keys with the whole gamma list, the code compares as many as there are: it accepts what
the document accepts, and, of the keys with the right number of sub keys, nothing else. -/
theorem C59_validate [DecidableEq GT] {E : Ext G1 G2 GT} (L : GroupLaws E) (pf : Profile)
    {pp : PubParam G1 G2} (W : ParamWF E pp) {pk : PublicKey G2} (hpk : E.inSub2 pk.pk = true)
    (sk : SecretKey G1 G2)
    (hsub : ∀ s ∈ sk.ssk, E.inSub2 s.g2r = true ∧ E.inSub1 s.hpoly = true) :
    Doc.KeyValid E pp pk sk ↔ SecretKey.validate E pf sk pk pp = .ok true ∧
      ∃ tv, Doc.vecOf pp.depth sk.time = some tv ∧
        sk.ssk.length = (Doc.gammaList tv).length := by
  obtain ⟨x, hx⟩ := L.gen2_gen _ hpk
  rw [← W.g2_gen] at hx
  rw [(C48_exact L pf W hx sk hsub).1]
  have hkey : ∀ s ∈ sk.ssk, ∀ v, NodeAt pp.depth s.time v →
      (Doc.SubKeyValid E pp pk s ↔ HeadFor pp (x • pp.h) v s) :=
    fun s hs v hv => Doc.subKeyValid_iff L W hx (hsub s hs).1 (hsub s hs).2 hv
  constructor
  · rintro ⟨h1, h2, h3, tv, h4, h5⟩
    have hn := Doc.vecOf_iff.1 h4
    have hval := (nodeAt_iff.1 hn).1
    have hlen : sk.ssk.length = (gam tv).length := by
      have := congrArg List.length h5
      simpa [Doc.gammaList_eq (nodeAt_isNode hn)] using this
    rw [Doc.gammaList_eq (nodeAt_isNode hn)] at h5
    refine ⟨⟨h1, h1.trans h2, hval, gam tv, (coverList_iff hn).2 rfl, ?_⟩, tv, h4,
      by rw [Doc.gammaList_eq (nodeAt_isNode hn)]; exact hlen⟩
    rw [hlen, List.take_length]
    rw [List.forall₂_iff_get]
    refine ⟨hlen.symm, fun i hi hi' => ?_⟩
    have hm : sk.ssk[i] ∈ sk.ssk := List.getElem_mem _
    have e : Doc.vecOf pp.depth sk.ssk[i].time = some (gam tv)[i] := by
      have := congrArg (fun l => l[i]?) h5
      simp only [List.getElem?_map, List.getElem?_eq_getElem hi, List.getElem?_eq_getElem hi',
        Option.map_some, Option.some.injEq] at this
      exact this
    exact (hkey _ hm _ (Doc.vecOf_iff.1 e)).1 (h3 _ hm)
  · rintro ⟨⟨h1, h2, hval, vs, hvs, hf⟩, tv, h4, hlen⟩
    have hn := Doc.vecOf_iff.1 h4
    have hvs' := (coverList_iff hn).1 hvs
    subst hvs'
    rw [Doc.gammaList_eq (nodeAt_isNode hn)] at hlen
    rw [hlen, List.take_length] at hf
    refine ⟨h1, h1.symm.trans h2, ?_, tv, h4, ?_⟩
    · intro s hs
      obtain ⟨v, _, hv⟩ := forall₂_mem_right hf hs
      exact (hkey s hs v hv.1).2 hv
    · rw [Doc.gammaList_eq (nodeAt_isNode hn)]
      generalize gam tv = vs at hf
      clear hlen hsub hkey hvs
      generalize sk.ssk = l at hf
      induction hf with
      | nil => rfl
      | cons h _ ih => rw [List.map_cons, List.map_cons, Doc.vecOf_iff.2 h.1, ih]

/-- C59: the document is correct by itself: keys made by its key generation and any sequence of its
updates, with whatever strings for the draws, are valid, and their signatures verify. -/
theorem C59_document_correct [DecidableEq GT] {E : Ext G1 G2 GT} (H : HashLaws E) (L : GroupLaws E)
    {pp : PubParam G1 G2} (W : ParamWF E pp) {seed prng : Bytes} {pk : G2} {alpha : G1}
    {pop : ProofOfPossession G1} {sk sk' : SecretKey G1 G2}
    (hm : Doc.masterKeyGen E seed pp = some (pk, alpha, pop, prng))
    (hi : Doc.keyInit E.sha512 pp alpha prng = some sk) (us : List (Bytes × Nat × Bytes))
    (hu : us.foldlM (fun k u => Doc.update E.sha512 pp u.1 u.2.1 u.2.2 k) sk = some sk') :
    Doc.PopValid E { ciphersuite := pp.ciphersuite, pk := pk } pop ∧
    Doc.KeyValid E pp { ciphersuite := pp.ciphersuite, pk := pk } sk' ∧
    ∀ msg, ∃ sig, Doc.sign E.sha512 sk' sk'.time pp msg = some sig ∧
      Doc.Verifies E sig pk pp msg := by
  have hk : keygen E seed pp = .ok ({ ciphersuite := pp.ciphersuite, pk := pk }, sk, pop) := by
    rcases C59_keygen H W.toParamShape seed with ⟨a, b, c, d, e, h1, h2, h3⟩ | ⟨e, h1, _⟩
    · rw [hm] at h1
      cases h1
      rw [hi] at h2
      cases h2
      exact h3
    · rw [hm] at h1; cases h1
  have hsup : Supported pp.ciphersuite := by
    by_contra hc
    by_cases hl : seed.length < 32
    · rw [keygen_short hl] at hk; cases hk
    · rw [keygen_suite (by omega) hc] at hk; cases hk
  have hlen : 32 ≤ seed.length := by
    by_contra hc
    rw [keygen_short (by omega)] at hk; cases hk
  obtain ⟨pk1, sk1, pop1, h1, _, _, ⟨x, hx, hkey⟩, _, _, hpop⟩ :=
    (C12_keygen_outcome H L .debug W seed).2.2 hlen hsup
  rw [hk] at h1
  cases h1
  have hkey' : ∃ t, KeyFor pp (x • pp.h) t sk' := by
    exact Doc.updates_keyFor H.sha_len W.toParamShape hkey us hu
  obtain ⟨t, hkt⟩ := hkey'
  have hsub2 : E.inSub2 pk = true := by
    have hx' : pk = x • pp.g2 := hx
    rw [hx', W.g2_gen]; exact L.sub2_nsmul L.gen2_sub x
  obtain ⟨v, hv, hh⟩ := keyFor_iff.1 hkt
  have hsub : ∀ s ∈ sk'.ssk, E.inSub2 s.g2r = true ∧ E.inSub1 s.hpoly = true := by
    intro s hs
    obtain ⟨u, _, rho, hr⟩ := forall₂_mem_right hh.ssk hs
    rw [hr.g2r, hr.hpoly, W.g2_gen]
    exact ⟨L.sub2_nsmul L.gen2_sub _, L.sub1_add _ _ (L.sub1_nsmul W.h_sub _)
      (L.sub1_nsmul (L.sub1_nodePoint W _) _)⟩
  refine ⟨(C59_pop L _ _).1 hpop, ?_, fun msg => ?_⟩
  · refine (C59_validate L .debug W hsub2 sk' hsub).2
      ⟨SecretKey.validate_honest L W .debug hh rfl hx, v, ?_, ?_⟩
    · rw [hh.time]; exact Doc.vecOf_num hh.node
    · rw [Doc.gammaList_eq hh.node]; exact hh.ssk.length_eq.symm
  · obtain ⟨s, _, h1, _, h3, _⟩ := C19_same_abilities H L .debug W hsup hkt hkt
      (pk := PublicKey.mk pp.ciphersuite pk) hx msg
    obtain ⟨sig, h4, h5⟩ := (C59_sign H.sha_len .debug W.toParamShape hsup hkt t msg).1 rfl
    rw [h1] at h4
    cases h4
    refine ⟨s, ?_, (C59_verify H L .debug W s hsub2 msg).1 h3⟩
    rw [hkt.time]; exact h5

/-! ## the string for the draws of an update, and concrete cases -/

section Examples

open Toy

/-- the generator states met in the update of `sk0 2 1` to time 2, with SHA-512 -/
theorem chain_doc : ∀ k < 2, 1 ≤ k →
    SecretKey.chain Sha512.sha512 (mixed Sha512.sha512 { seed := List.replicate 64 9 } []
      (SecretKey.reseedInfo 1)) k ≠ { seed := List.replicate 64 9 } := by
  decide +kernel

/-- C59: the document appends the key's time to the string for the draws; the code does not, and
this changes the result: with SHA-512, and for the time before as for the time after the update, the
code's key is not the document's. -/
theorem C59_update_as_written_differs : ∃ (pp : PubParam G G) (alpha : G) (sk : SecretKey G G),
    ParamShape pp ∧ KeyFor pp alpha 1 sk ∧
    ∃ a, SecretKey.update Sha512.sha512 .debug pp 2 [] sk = (.ok (), a) ∧
      ∀ t ∈ [1, 2], ∃ b,
        Doc.update Sha512.sha512 pp (text "Pixel secret key update" ++ be32 t) 2 [] sk = some b ∧
        a.prng ≠ b.prng := by
  have hs : ∀ m, (Sha512.sha512 m).length = 64 := Kat.sha512_length
  have S := (param_wf sha0 (d := 2) (by omega) (by omega) 1).toParamShape
  have hk : KeyFor (param 2 1) (3 • (param 2 1).h) 1 (sk0 2 1) := keyFor_sk0 (by omega) 1
  have hd : ∀ t ∈ [1, 2],
      (Doc.update Sha512.sha512 (param 2 1) (text "Pixel secret key update" ++ be32 t) 2 []
        (sk0 2 1)).map (fun k => k.prng.seed) ≠
      (Doc.update Sha512.sha512 (param 2 1) (text "Pixel secret key update") 2 []
        (sk0 2 1)).map (fun k => k.prng.seed) := by
    decide +kernel
  obtain ⟨a, ha⟩ : ∃ a, SecretKey.update Sha512.sha512 .debug (param 2 1) 2 [] (sk0 2 1) =
      (.ok (), a) := by
    rcases (C15_update_outcome hs .debug S hk 2 []).2 ⟨by omega, by decide⟩ with
      ⟨a, ha, _⟩ | ⟨_, k, h1, h2, h3⟩
    · exact ⟨a, ha⟩
    · rw [afterDraws_eq hs, reseeded_eq hs] at h3
      exact absurd h3 (chain_doc k h2 h1)
  have hdoc : Doc.update Sha512.sha512 (param 2 1) (text "Pixel secret key update") 2 []
      (sk0 2 1) = some a := by
    rcases C59_update hs .debug S hk 2 [] with ⟨a', h1, h2⟩ | ⟨h1, _⟩ | ⟨h1, _⟩
    · rw [ha] at h1
      rw [h2, (Prod.mk.inj h1).2]
    · rw [ha] at h1; cases (Prod.mk.inj h1).1
    · rw [ha] at h1; cases (Prod.mk.inj h1).1
  refine ⟨param 2 1, _, sk0 2 1, S, hk, a, ha, fun t ht => ?_⟩
  obtain ⟨b, hb, _⟩ := (C59_update_any_string hs S hk
    (text "Pixel secret key update" ++ be32 t) 2 []).1 ⟨by omega, by decide⟩
  refine ⟨b, hb, fun hc => hd t ht ?_⟩
  rw [hb, hdoc, Option.map_some, Option.map_some, hc]

/-- the document's example of a gamma list -/
example : (Doc.gammaList [1, 1, 1]).map (Doc.timeOf 4) = [4, 5, 6, 9] ∧
    Doc.vecOf 4 4 = some [1, 1, 1] := by
  decide +kernel

/-- `C59_update`: an update that draws, one that does not, and a refused one -/
example : ∃ k, Doc.update sha0 (param 5 1) (text "Pixel secret key update") 9 [] (sk0 5 1) =
    some k ∧ SecretKey.update sha0 .debug (param 5 1) 9 [] (sk0 5 1) = (.ok (), k) ∧
    SecretKey.update sha0 .debug (param 5 1) 40 [] (sk0 5 1) = (.err .timeStamp, sk0 5 1) := by
  have hs : ∀ m, (sha0 m).length = 64 := hashLaws.sha_len
  have S := (param_wf sha0 (d := 5) (by omega) (by omega) 1).toParamShape
  obtain ⟨c, hc, _⟩ := toy_update (tar := 9) (by omega) (by omega)
  refine ⟨c, ?_, hc, (C15_update_outcome hs .debug S (keyFor_sk0 (by omega) 1) 40 []).1 (by decide)⟩
  rcases C59_update hs .debug S (keyFor_sk0 (by omega) 1) 9 [] with ⟨a', h1, h2⟩ | ⟨h1, _⟩ | ⟨h1, _⟩
  · rw [hc] at h1
    rw [h2, (Prod.mk.inj h1).2]
  · rw [hc] at h1; cases (Prod.mk.inj h1).1
  · rw [hc] at h1; cases (Prod.mk.inj h1).1

/-- `C59_document_correct`: key generation, and updates to times 4 and 9 with the strings as
written in the document -/
example : ∃ pk alpha pop prng sk sk',
    Doc.masterKeyGen (ext sha0) (List.replicate 32 7) (param 5 0) = some (pk, alpha, pop, prng) ∧
    Doc.keyInit sha0 (param 5 0) alpha prng = some sk ∧
    [(text "Pixel secret key update" ++ be32 1, 4, [8]),
      (text "Pixel secret key update" ++ be32 4, 9, [])].foldlM
      (fun k u => Doc.update sha0 (param 5 0) u.1 u.2.1 u.2.2 k) sk = some sk' ∧ sk'.time = 9 := by
  have W := param_wf sha0 (d := 5) (by omega) (by omega) 0
  have hs : ∀ m, (sha0 m).length = 64 := hashLaws.sha_len
  rcases C59_keygen hashLaws W.toParamShape (List.replicate 32 7) with
    ⟨pk, alpha, pop, prng, sk, h1, h2, h3⟩ | ⟨e, h1, h2⟩
  · obtain ⟨x, _, _, hk⟩ := keygen_keyFor hashLaws W.toParamShape h3
    obtain ⟨a, ha, hka⟩ := (C59_update_any_string hs W.toParamShape hk
      (text "Pixel secret key update" ++ be32 1) 4 [8]).1 ⟨by omega, by decide⟩
    obtain ⟨b, hb, hkb⟩ := (C59_update_any_string hs W.toParamShape hka
      (text "Pixel secret key update" ++ be32 4) 9 []).1 ⟨by omega, by decide⟩
    refine ⟨pk, alpha, pop, prng, sk, b, h1, h2, ?_, hkb.time⟩
    simp only [List.foldlM_cons, List.foldlM_nil, ha, hb, Option.bind_eq_bind, Option.bind_some,
      Option.pure_def]
  · obtain ⟨s, _, _, h3⟩ := keygen_eq hashLaws W.toParamShape
      (seed := List.replicate 32 7) (by simp) (Or.inl rfl)
    rw [h3] at h2; cases h2

end Examples

end Pixel.Props
