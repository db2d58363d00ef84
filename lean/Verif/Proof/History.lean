import Verif.Proof.Verify

/-! # Lemmas on single calls and on histories of calls -/

namespace Pixel

open Spec

set_option linter.unusedSectionVars false

variable {G1 G2 GT : Type} [AddCommGroup G1] [AddCommGroup G2] [CommGroup GT]

namespace Signature

section
variable {sha : Bytes → Bytes} {pf : Profile} {pp : PubParam G1 G2} {sk : SecretKey G1 G2}
  {tar : Nat} {msg seed : Bytes}

theorem sign_past (h : tar < sk.time) : sign sha pf tar pp msg seed sk = (.err .timeStamp, sk) := by
  unfold sign
  rw [SM.get_bind]
  simp only [gt_iff_lt]
  rw [if_pos h]; rfl

theorem sign_now (h : sk.time = tar) :
    sign sha pf tar pp msg seed sk = (signBytes sha pf sk tar pp msg, sk) := by
  unfold sign
  rw [SM.get_bind]
  simp only [gt_iff_lt]
  rw [if_neg (by omega), if_neg (by omega)]; rfl

theorem sign_future (h : sk.time < tar) :
    sign sha pf tar pp msg seed sk = match SecretKey.update sha pf pp tar seed sk with
      | (.ok _, sk') => (signBytes sha pf sk' tar pp msg, sk')
      | (.err e, sk') => (.err e, sk')
      | (.panic p, sk') => (.panic p, sk') := by
  unfold sign
  rw [SM.get_bind]
  simp only [gt_iff_lt]
  rw [if_neg (by omega), if_pos h, SM.bind_run]
  rcases SecretKey.update sha pf pp tar seed sk with ⟨r, s'⟩
  cases r <;> rfl

theorem signPresent_ne (h : sk.time ≠ tar) :
    signPresent sha pf tar pp msg sk = (.err .timeStamp, sk) := by
  unfold signPresent
  rw [SM.get_bind]
  simp only []
  rw [if_pos h]; rfl

theorem signPresent_eq (h : sk.time = tar) :
    signPresent sha pf tar pp msg sk = (signBytes sha pf sk tar pp msg, sk) := by
  unfold signPresent
  rw [SM.get_bind]
  simp only []
  rw [if_neg (by simpa using h)]; rfl

theorem signThenUpdate_ne (h : sk.time ≠ tar) :
    signThenUpdate sha pf tar pp msg seed sk = (.err .timeStamp, sk) := by
  unfold signThenUpdate
  rw [SM.get_bind]
  simp only []
  rw [if_pos h]; rfl

theorem signThenUpdate_eq (h : sk.time = tar) :
    signThenUpdate sha pf tar pp msg seed sk = match signBytes sha pf sk tar pp msg with
      | .ok p => match add64 pf tar 1 with
        | .ok next => match SecretKey.update sha pf pp next seed sk with
          | (.ok _, sk') => (.ok p, sk')
          | (.err e, sk') => (.err e, sk')
          | (.panic q, sk') => (.panic q, sk')
        | .err e => (.err e, sk)
        | .panic q => (.panic q, sk)
      | .err e => (.err e, sk)
      | .panic q => (.panic q, sk) := by
  unfold signThenUpdate
  rw [SM.get_bind]
  simp only []
  rw [if_neg (by simpa using h)]
  cases signBytes sha pf sk tar pp msg with
  | ok p =>
    rw [SM.lift_ok_bind]
    cases add64 pf tar 1 with
    | ok n =>
      rw [SM.lift_ok_bind, SM.bind_run]
      simp only []
      rcases SecretKey.update sha pf pp n seed sk with ⟨r, s'⟩
      cases r <;> rfl
    | err e => rfl
    | panic q => rfl
  | err e => rfl
  | panic q => rfl

end

end Signature

/-- a call changes the key only through one successful update -/
theorem call_state (sha : Bytes → Bytes) (pf : Profile) (pp : PubParam G1 G2) (c : Call)
    (sk : SecretKey G1 G2) :
    (c.run sha pf pp sk).2 = sk ∨ ∃ tar seed sk',
      SecretKey.update sha pf pp tar seed sk = (.ok (), sk') ∧ (c.run sha pf pp sk).2 = sk' := by
  have upd : ∀ tar seed, (SecretKey.update sha pf pp tar seed sk).2 = sk ∨ ∃ sk',
      SecretKey.update sha pf pp tar seed sk = (.ok (), sk') := by
    intro tar seed
    cases hr : (SecretKey.update sha pf pp tar seed sk).1 with
    | ok u => exact Or.inr ⟨_, Prod.ext hr rfl⟩
    | err e => exact Or.inl (SecretKey.update_atomic sha pf pp tar seed sk (by rw [hr]; rfl))
    | panic p => exact Or.inl (SecretKey.update_atomic sha pf pp tar seed sk (by rw [hr]; rfl))
  cases c with
  | update tar seed =>
    rcases upd tar seed with h | ⟨sk', h⟩
    · exact Or.inl h
    · exact Or.inr ⟨tar, seed, sk', h, by simp [Call.run, h]⟩
  | sign tar msg seed =>
    simp only [Call.run]
    rcases Nat.lt_trichotomy sk.time tar with h | h | h
    · rw [Signature.sign_future h]
      rcases upd tar seed with h1 | ⟨sk', h1⟩
      · rcases hu : SecretKey.update sha pf pp tar seed sk with ⟨r, s'⟩
        rw [hu] at h1
        cases r with
        | ok u => exact Or.inr ⟨tar, seed, s', hu, rfl⟩
        | err e => exact Or.inl h1
        | panic p => exact Or.inl h1
      · exact Or.inr ⟨tar, seed, sk', h1, by rw [h1]⟩
    · rw [Signature.sign_now h]; exact Or.inl rfl
    · rw [Signature.sign_past h]; exact Or.inl rfl
  | signPresent tar msg =>
    simp only [Call.run]
    by_cases h : sk.time = tar
    · rw [Signature.signPresent_eq h]; exact Or.inl rfl
    · rw [Signature.signPresent_ne h]; exact Or.inl rfl
  | signThenUpdate tar msg seed =>
    simp only [Call.run]
    by_cases h : sk.time = tar
    · rw [Signature.signThenUpdate_eq h]
      cases Signature.signBytes sha pf sk tar pp msg with
      | err e => exact Or.inl rfl
      | panic q => exact Or.inl rfl
      | ok p =>
        cases add64 pf tar 1 with
        | err e => exact Or.inl rfl
        | panic q => exact Or.inl rfl
        | ok n =>
          rcases upd n seed with h1 | ⟨sk', h1⟩
          · rcases hu : SecretKey.update sha pf pp n seed sk with ⟨r, s'⟩
            rw [hu] at h1
            cases r with
            | ok u => exact Or.inr ⟨n, seed, s', hu, by simp [hu]⟩
            | err e => exact Or.inl (by simp [hu]; exact h1)
            | panic p => exact Or.inl (by simp [hu]; exact h1)
          · exact Or.inr ⟨n, seed, sk', h1, by simp [h1]⟩
    · rw [Signature.signThenUpdate_ne h]; exact Or.inl rfl

/-- one successful update of an honest key -/
theorem SecretKey.update_ok_keyFor {sha : Bytes → Bytes} (hsha : ∀ m, (sha m).length = 64)
    {pf : Profile} {pp : PubParam G1 G2} (S : ParamShape pp) {alpha : G1} {t tar : Nat}
    {seed : Bytes} {sk sk' : SecretKey G1 G2} (h : KeyFor pp alpha t sk)
    (hu : SecretKey.update sha pf pp tar seed sk = (.ok (), sk')) :
    t < tar ∧ tar ≤ 2 ^ pp.depth - 1 ∧ KeyFor pp alpha tar sk' := by
  obtain ⟨v, hv, hk⟩ := keyFor_iff.1 h
  have ht : sk.time = t := h.time
  have htime : t < tar ∧ tar ≤ 2 ^ pp.depth - 1 := by
    by_contra hc
    rw [SecretKey.update_time S.depth_le hk.suite (by omega)] at hu
    cases (Prod.mk.inj hu).1
  have hval : ValidTime pp.depth tar := ⟨by omega, htime.2⟩
  have hun := path_isNode hval
  have hnt := num_path hval
  have hlt : num pp.depth v < num pp.depth (path pp.depth tar) := by
    rw [hnt, ← hk.time, ht]; exact htime.1
  refine ⟨htime.1, htime.2, ?_⟩
  rcases SecretKey.update_honest hsha (pf := pf) S hk hun hlt seed with ⟨sk2, h3, h4⟩ | h3
  · rw [hnt, hu] at h3
    have h5 := (Prod.mk.inj h3).2
    subst h5
    have := h4.keyFor
    rwa [h4.time, hnt] at this
  · rw [hnt, hu] at h3
    cases (Prod.mk.inj h3).1

/-- one call on an honest key -/
theorem call_keyFor {sha : Bytes → Bytes} (hsha : ∀ m, (sha m).length = 64)
    {pf : Profile} {pp : PubParam G1 G2} (S : ParamShape pp) {alpha : G1} {t : Nat}
    {sk : SecretKey G1 G2} (h : KeyFor pp alpha t sk) (c : Call) :
    ∃ t', t ≤ t' ∧ KeyFor pp alpha t' (c.run sha pf pp sk).2 := by
  rcases call_state sha pf pp c sk with h1 | ⟨tar, seed, sk', h1, h2⟩
  · exact ⟨t, le_refl _, by rw [h1]; exact h⟩
  · obtain ⟨h3, _, h4⟩ := SecretKey.update_ok_keyFor hsha S h h1
    exact ⟨tar, by omega, by rw [h2]; exact h4⟩

theorem runAll_keyFor {sha : Bytes → Bytes} (hsha : ∀ m, (sha m).length = 64)
    {pf : Profile} {pp : PubParam G1 G2} (S : ParamShape pp) {alpha : G1} {t : Nat}
    {sk : SecretKey G1 G2} (h : KeyFor pp alpha t sk) (cs : List Call) :
    ∃ t', t ≤ t' ∧ KeyFor pp alpha t' (runAll sha pf pp sk cs) := by
  induction cs generalizing t sk with
  | nil => exact ⟨t, le_refl _, h⟩
  | cons c cs ih =>
    obtain ⟨t1, h1, h2⟩ := call_keyFor hsha (pf := pf) S h c
    obtain ⟨t2, h3, h4⟩ := ih h2
    exact ⟨t2, by omega, h4⟩

/-- `sign_bytes` in terms of `KeyFor` -/
theorem Signature.signBytes_keyFor {sha : Bytes → Bytes} (hsha : ∀ m, (sha m).length = 64)
    (pf : Profile) {pp : PubParam G1 G2} (S : ParamShape pp) (hc : Supported pp.ciphersuite)
    {alpha : G1} {t : Nat} {sk : SecretKey G1 G2} (h : KeyFor pp alpha t sk) (msg : Bytes) :
    ∃ sig v a, signBytes sha pf sk t pp msg = .ok sig ∧
      SigFor pp alpha v (msgField sha pp.ciphersuite msg) a sig ∧ sig.time = t := by
  obtain ⟨v, hv, hk⟩ := keyFor_iff.1 h
  obtain ⟨sig, a, h1, h2, h3⟩ := signBytes_eq hsha pf S hc hk msg
  rw [h.time] at h1 h3
  exact ⟨sig, v, a, h1, h2, h3⟩

/-- a signature returned by a call on an honest key -/
theorem call_sig {sha : Bytes → Bytes} (hsha : ∀ m, (sha m).length = 64)
    {pf : Profile} {pp : PubParam G1 G2} (S : ParamShape pp) (hc : Supported pp.ciphersuite)
    {alpha : G1} {t : Nat} {sk : SecretKey G1 G2} (h : KeyFor pp alpha t sk) (c : Call)
    {sig : Signature G1 G2} (hs : (c.run sha pf pp sk).1 = .ok (some sig)) :
    ∃ v a, SigFor pp alpha v (msgField sha pp.ciphersuite c.msg) a sig ∧ t ≤ sig.time := by
  have key : ∀ {t' : Nat} {sk' : SecretKey G1 G2} {msg : Bytes}, KeyFor pp alpha t' sk' → t ≤ t' →
      Signature.signBytes sha pf sk' t' pp msg = .ok sig →
      ∃ v a, SigFor pp alpha v (msgField sha pp.ciphersuite msg) a sig ∧ t ≤ sig.time := by
    intro t' sk' msg hk hle hsb
    obtain ⟨sig', v, a, h1, h2, h3⟩ := Signature.signBytes_keyFor hsha pf S hc hk msg
    rw [hsb] at h1
    cases Res.ok.inj h1
    exact ⟨v, a, h2, by omega⟩
  have inv : ∀ {r : Res (Signature G1 G2)}, some <$> r = .ok (some sig) → r = .ok sig := by
    intro r hr
    cases r with
    | ok s => simpa using hr
    | err e => cases hr
    | panic p => cases hr
  cases c with
  | update tar seed =>
    simp only [Call.run] at hs
    rcases hu : SecretKey.update sha pf pp tar seed sk with ⟨r, s'⟩
    rw [hu] at hs
    cases r <;> cases hs
  | sign tar msg seed =>
    simp only [Call.run] at hs
    have hs := inv hs
    rcases Nat.lt_trichotomy sk.time tar with h1 | h1 | h1
    · rw [Signature.sign_future h1] at hs
      rcases hu : SecretKey.update sha pf pp tar seed sk with ⟨r, s'⟩
      rw [hu] at hs
      cases r with
      | ok u =>
        obtain ⟨h3, _, h4⟩ := SecretKey.update_ok_keyFor hsha S h hu
        exact key h4 (by omega) hs
      | err e => cases hs
      | panic p => cases hs
    · rw [Signature.sign_now h1] at hs
      have : t = tar := by rw [← h.time, h1]
      subst this
      exact key h (le_refl _) hs
    · rw [Signature.sign_past h1] at hs
      cases hs
  | signPresent tar msg =>
    simp only [Call.run] at hs
    have hs := inv hs
    by_cases h1 : sk.time = tar
    · rw [Signature.signPresent_eq h1] at hs
      have : t = tar := by rw [← h.time, h1]
      subst this
      exact key h (le_refl _) hs
    · rw [Signature.signPresent_ne h1] at hs
      cases hs
  | signThenUpdate tar msg seed =>
    simp only [Call.run] at hs
    have hs := inv hs
    by_cases h1 : sk.time = tar
    · rw [Signature.signThenUpdate_eq h1] at hs
      have : t = tar := by rw [← h.time, h1]
      subst this
      cases hb : Signature.signBytes sha pf sk t pp msg with
      | err e => rw [hb] at hs; cases hs
      | panic q => rw [hb] at hs; cases hs
      | ok p =>
        rw [hb] at hs
        have hp : p = sig := by
          cases ha : add64 pf t 1 with
          | err e => rw [ha] at hs; cases hs
          | panic q => rw [ha] at hs; cases hs
          | ok n =>
            rw [ha] at hs
            rcases hu : SecretKey.update sha pf pp n seed sk with ⟨r, s'⟩
            simp only [hu] at hs
            cases r with
            | ok u => exact Res.ok.inj hs
            | err e => cases hs
            | panic p => cases hs
        rw [hp] at hb
        exact key h (le_refl _) hb
    · rw [Signature.signThenUpdate_ne h1] at hs
      cases hs

/-- general keys: times under a call -/
theorem call_time {sha : Bytes → Bytes} {pf : Profile} {pp : PubParam G1 G2}
    (hd : pp.depth ≤ 63) (c : Call) {sk : SecretKey G1 G2} (hI : SecretKey.TimeInv sk) :
    SecretKey.TimeInv (c.run sha pf pp sk).2 ∧ sk.time ≤ (c.run sha pf pp sk).2.time := by
  rcases call_state sha pf pp c sk with h1 | ⟨tar, seed, sk', h1, h2⟩
  · rw [h1]; exact ⟨hI, le_refl _⟩
  · obtain ⟨h3, _, _, _, h4, h5⟩ := SecretKey.update_times hd hI h1
    rw [h2]
    exact ⟨h5, by omega⟩

/-- key generation in terms of `KeyFor` -/
theorem keygen_supported {E : Ext G1 G2 GT} {pp : PubParam G1 G2} {seed : Bytes}
    {r : PublicKey G2 × SecretKey G1 G2 × ProofOfPossession G1}
    (h : keygen E seed pp = .ok r) : Supported pp.ciphersuite := by
  by_contra hc
  by_cases hl : seed.length < 32
  · rw [keygen_short hl] at h; cases h
  · rw [keygen_suite (by omega) hc] at h; cases h

theorem keygen_keyFor {E : Ext G1 G2 GT} (H : HashLaws E) {pp : PubParam G1 G2}
    (S : ParamShape pp) {seed : Bytes} {pk : PublicKey G2} {sk : SecretKey G1 G2}
    {pop : ProofOfPossession G1} (h : keygen E seed pp = .ok (pk, sk, pop)) :
    ∃ x : Nat, pk.pk = x • pp.g2 ∧ pk.ciphersuite = pp.ciphersuite ∧
      KeyFor pp (x • pp.h) 1 sk := by
  have hc := keygen_supported h
  have hl : 32 ≤ seed.length := by
    by_contra hl
    rw [keygen_short (by omega)] at h; cases h
  obtain ⟨s, _, h2, h3⟩ := keygen_eq H S hl hc
  rw [h] at h3
  have h4 := Res.ok.inj h3
  obtain ⟨h5, h6⟩ := Prod.mk.inj h4
  obtain ⟨h6, _⟩ := Prod.mk.inj h6
  subst h5 h6
  refine ⟨(kgSecret E.sha512 seed pp.ciphersuite).val, rfl, rfl, ?_⟩
  have hk : HKey pp ((kgSecret E.sha512 seed pp.ciphersuite).val • pp.h) []
      { ciphersuite := pp.ciphersuite, time := 1, ssk := [s]
        prng := drawNext E.sha512 (kgNext E.sha512 seed pp.ciphersuite)
          (DOM_SEP_SK_INIT ++ [0, 0, 0, 1]) } :=
    { suite := rfl
      time := by simp
      node := isNode_nil.2 S.depth_pos
      prng := drawNext_wf H.sha_len _ _
      ssk := .cons ⟨_, h2⟩ .nil }
  exact hk.keyFor

/-- a well-formed signature is accepted -/
theorem SigFor.verifies [DecidableEq GT] {E : Ext G1 G2 GT} (H : HashLaws E) (L : GroupLaws E)
    {pp : PubParam G1 G2} (W : ParamWF E pp) (pf : Profile) (hsup : Supported pp.ciphersuite)
    {x a : Nat} {v : List Nat} {msg : Bytes} {sig : Signature G1 G2}
    (h : SigFor pp (x • pp.h) v (msgField E.sha512 pp.ciphersuite msg) a sig)
    {pk : PublicKey G2} (hpk : pk.pk = x • pp.g2) :
    Signature.verifyBytes E pf sig pk pp msg = .ok true := by
  have h1 : E.inSub1 sig.sigma2 = true := by
    rw [h.sigma2]
    exact L.sub1_add _ _ (L.sub1_nsmul W.h_sub _) (L.sub1_nsmul (L.sub1_sigPoint W _ _) _)
  have h2 : E.inSub2 sig.sigma1 = true := by
    rw [h.sigma1, W.g2_gen]; exact L.sub2_nsmul L.gen2_sub _
  rw [Signature.verifyBytes_eq H W.toParamShape]
  exact congrArg Res.ok (@decide_eq_true _ (_)
    ⟨hsup, h.suite, h2, h1, v, h.node, (L.sig_check W h1 h.sigma1 hpk).2 h.sigma2⟩)

theorem forall₂_mem_left {α β : Type} {R : α → β → Prop} {A : List α} {B : List β}
    (h : List.Forall₂ R A B) {a : α} (ha : a ∈ A) : ∃ b ∈ B, R a b := by
  induction h with
  | nil => cases ha
  | cons h1 _ ih =>
    rcases List.mem_cons.1 ha with rfl | ha
    · exact ⟨_, by simp, h1⟩
    · obtain ⟨b, hb, hr⟩ := ih ha
      exact ⟨b, by simp [hb], hr⟩

/-- sub keys obtainable from an honest key are genuine and below one of its nodes -/
theorem obtainable_sub {pf : Profile} {pp : PubParam G1 G2} (S : ParamShape pp) {alpha : G1}
    {v : List Nat} {sk : SecretKey G1 G2} (hk : HKey pp alpha v sk) {s : SubSecretKey G1 G2}
    (hs : Obtainable pf pp sk.ssk s) :
    ∃ w, SubAt pp alpha w s ∧ ∃ g ∈ gam v, g <+: w := by
  induction hs with
  | start h =>
    obtain ⟨g, hg, hr⟩ := forall₂_mem_right hk.ssk h
    exact ⟨g, hr, g, hg, List.prefix_rfl⟩
  | delegate _ h' ih =>
    obtain ⟨w, ⟨rho, hw⟩, g, hg, hgw⟩ := ih
    obtain ⟨v1, w1, h1, h2, h3, _, h5⟩ := (SubSecretKey.delegate_ok_iff S.depth_le).1 h'
    have hv1 : v1 = w := num_inj (nodeAt_isNode h1) hw.isNode
      (by rw [nodeAt_num_eq h1, hw.time_eq])
    subst hv1
    have hn := nodeAt_isNode h2
    have hd := hw.delegated S hn
    rw [nodeAt_num_eq h2] at hd
    rw [h5]
    exact ⟨_, ⟨rho, hd⟩, g, hg, hgw.trans (List.prefix_append _ _)⟩
  | randomize _ h' ih =>
    obtain ⟨w, ⟨rho, hw⟩, g, hg, hgw⟩ := ih
    rename_i r s1 s2 _
    rw [hw.randomization_eq S pf r] at h'
    have h2 := (Prod.mk.inj h').2
    subst h2
    exact ⟨w, ⟨_, hw.rerand _⟩, g, hg, hgw⟩

/-- the first component of a signature -/
theorem Signature.signBytes_sigma1 {sha : Bytes → Bytes} (hsha : ∀ m, (sha m).length = 64)
    {pf : Profile} {pp : PubParam G1 G2} {sk : SecretKey G1 G2} {t : Nat} {msg : Bytes}
    {sig : Signature G1 G2} (h : Signature.signBytes sha pf sk t pp msg = .ok sig) :
    ∃ s0 r, sk.ssk.head? = some s0 ∧
      (Prng.sample sha (text "Pixel randomness for signing" ++ msg ++ be32 t) sk.prng).1 = .ok r ∧
      sig.sigma1 = s0.g2r + r.val • pp.g2 := by
  unfold Signature.signBytes at h
  simp only [] at h
  by_cases h1 : (!validCiphersuite.contains pp.ciphersuite) = true
  · rw [if_pos h1] at h; cases h
  rw [if_neg h1] at h
  by_cases h2 : sk.ciphersuite ≠ pp.ciphersuite
  · rw [if_pos h2] at h; cases h
  rw [if_neg h2] at h
  obtain ⟨_, _, h⟩ := Res.bind_eq_ok.1 h
  rw [sample_exec hsha, Res.ok_bind] at h
  obtain ⟨M, _, h⟩ := Res.bind_eq_ok.1 h
  unfold Signature.signFr at h
  obtain ⟨_, _, h⟩ := Res.bind_eq_ok.1 h
  obtain ⟨s0, hs0, h⟩ := Res.bind_eq_ok.1 h
  obtain ⟨tv, _, h⟩ := Res.bind_eq_ok.1 h
  simp only [] at h
  obtain ⟨_, _, h⟩ := Res.bind_eq_ok.1 h
  obtain ⟨_, _, h⟩ := Res.bind_eq_ok.1 h
  obtain ⟨_, _, h⟩ := Res.bind_eq_ok.1 h
  obtain ⟨_, _, h⟩ := Res.bind_eq_ok.1 h
  have h := Res.ok.inj h
  subst h
  refine ⟨s0, drawVal sha sk.prng (signInfo msg t), ?_, ?_, rfl⟩
  · unfold SecretKey.firstSsk at hs0
    cases hc : sk.ssk with
    | nil => rw [hc] at hs0; cases hs0
    | cons a l => rw [hc] at hs0; cases hs0; rfl
  · rw [← text_sig, ← timeBytes_eq, sample_eq hsha]; rfl

/-- equal first components give equal second components -/
theorem Spec.GroupLaws.sigma2_of_sigma1 {E : Ext G1 G2 GT} (L : GroupLaws E)
    {pp : PubParam G1 G2} (W : ParamWF E pp) {alpha : G1} {v : List Nat} {M : Fr} {a a' : Nat}
    {s s' : Signature G1 G2} (h : SigFor pp alpha v M a s) (h' : SigFor pp alpha v M a' s')
    (he : s.sigma1 = s'.sigma1) : s.sigma2 = s'.sigma2 := by
  have hF := L.sub1_sigPoint W v M
  have : a • sigPoint pp v M = a' • sigPoint pp v M := by
    rw [h.sigma1, h'.sigma1, W.g2_gen] at he
    have h1 := L.pair_nsmul L.gen2_sub hF a
    rw [he, L.pair_nsmul L.gen2_sub hF a'] at h1
    have ha := L.sub1_nsmul hF a
    have ha' := L.sub1_nsmul hF a'
    have h2 := L.pair_add_right E.gen2 (a • sigPoint pp v M) (-(a' • sigPoint pp v M)) L.gen2_sub ha
      (L.sub1_neg _ ha')
    rw [L.pair_neg_right L.gen2_sub ha', h1, mul_inv_cancel, ← sub_eq_add_neg] at h2
    exact sub_eq_zero.1 (L.pair_nondeg _ (L.sub1_sub ha ha') h2)
  rw [h.sigma2, h'.sigma2, this]

end Pixel
