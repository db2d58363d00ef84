import Verif.Proof.History
import Verif.Props.Update

/-!
# Properties C17–C20 and C23: what holds after any history of API calls

Vocabulary: `Verif/Spec/Key.lean`, `Verif/Spec/Sig.lean` (calls and histories).
-/

namespace Pixel.Props

open Pixel Pixel.Spec

set_option linter.unusedSectionVars false

variable {G1 G2 GT : Type} [AddCommGroup G1] [AddCommGroup G2] [CommGroup GT]

/-! ## C17 -/

/-- C17: for any key whose own time is its first sub key's and whose sub keys have distinct times,
and any history of calls, each with parameters of its own (of any shape, depth at most 63): the
time does not decrease, and the property of the key is kept. -/
theorem C17_time_monotone (sha : Bytes → Bytes) (pf : Profile) (sk : SecretKey G1 G2)
    (hhead : (sk.ssk.map SubSecretKey.time).head? = some sk.time)
    (hdist : (sk.ssk.map SubSecretKey.time).Nodup)
    (cs : List (PubParam G1 G2 × Call)) (hd : ∀ c ∈ cs, c.1.depth ≤ 63) :
    sk.time ≤ (runAllWith sha pf sk cs).time ∧
      ((runAllWith sha pf sk cs).ssk.map SubSecretKey.time).head? =
        some (runAllWith sha pf sk cs).time ∧
      ((runAllWith sha pf sk cs).ssk.map SubSecretKey.time).Nodup := by
  induction cs generalizing sk with
  | nil => exact ⟨le_refl _, hhead, hdist⟩
  | cons c cs ih =>
    obtain ⟨h1, h2⟩ := call_time (sha := sha) (pf := pf) (hd c (by simp)) c.2
      (⟨hhead, hdist⟩ : SecretKey.TimeInv sk)
    obtain ⟨h3, h4, h5⟩ := ih _ h1.head h1.nodup (fun x hx => hd x (by simp [hx]))
    exact ⟨by simp only [runAllWith]; omega, h4, h5⟩

/-- C17: a call either leaves the whole key as it was, or its effect on the key is that of one
successful update to a later time, which becomes the key's time.  In particular the time changes
only that way. -/
theorem C17_time_changes_only_by_update (sha : Bytes → Bytes) (pf : Profile)
    (pp : PubParam G1 G2) (hd : pp.depth ≤ 63) (sk : SecretKey G1 G2)
    (hhead : (sk.ssk.map SubSecretKey.time).head? = some sk.time)
    (hdist : (sk.ssk.map SubSecretKey.time).Nodup) (c : Call) :
    (c.run sha pf pp sk).2 = sk ∨ ∃ tar seed, sk.time < tar ∧
      SecretKey.update sha pf pp tar seed sk = (.ok (), (c.run sha pf pp sk).2) ∧
      (c.run sha pf pp sk).2.time = tar := by
  rcases call_state sha pf pp c sk with h | ⟨tar, seed, sk', h1, h2⟩
  · exact Or.inl h
  · obtain ⟨h3, _, _, _, h4, _⟩ := SecretKey.update_times hd
      (⟨hhead, hdist⟩ : SecretKey.TimeInv sk) h1
    exact Or.inr ⟨tar, seed, h3, by rw [h2]; exact h1, by rw [h2]; exact h4⟩

/-- the sub keys of a malformed key: times 2, 1, 3, 2 -/
def badSsk : List (SubSecretKey G1 G2) :=
  [2, 1, 3, 2].map (fun t => { time := t, g2r := 0, hpoly := 0, hvector := [] })

/-- C17: without distinct times the claim fails.  A key that repeats a time stamp (deserialisation
accepts it, `validate` does not) goes back from time 2 to time 1 in an update to time 3 that reports
success. -/
theorem C17_malformed_key_goes_back {sha : Bytes → Bytes} (hsha : ∀ m, (sha m).length = 64)
    (pf : Profile) (pp : PubParam G1 G2) (hd : pp.depth = 3) (seed : Bytes) (p : Prng) :
    let sk : SecretKey G1 G2 :=
      { ciphersuite := pp.ciphersuite, time := 2, ssk := badSsk, prng := p }
    (sk.ssk.map SubSecretKey.time).head? = some sk.time ∧
    (SecretKey.update sha pf pp 3 seed sk).1 = .ok () ∧
    (SecretKey.update sha pf pp 3 seed sk).2.time = 1 := by
  have h3 : IsNode pp.depth [1, 1] := by rw [hd]; exact ⟨by simp, by simp⟩
  have hn3 : num pp.depth [1, 1] = 3 := by rw [hd]; rfl
  have hgl : ∀ pf, TimeVec.init pf 3 pp.depth = .ok (tvOf pp.depth [1, 1]) := by
    intro pf
    have := init_num (pf := pf) (by omega) h3
    rwa [hn3] at this
  have hgam := gammaList_eq (pf := pf) (by omega) h3
  obtain ⟨hm1, hm2⟩ := SecretKey.maxTime_eq pf (d := pp.depth) (by omega)
  have hu : SecretKey.update sha pf pp 3 seed
      { ciphersuite := pp.ciphersuite, time := 2, ssk := badSsk, prng := p } =
      (.ok (), { ciphersuite := pp.ciphersuite
                 time := 1
                 ssk := (badSsk : List (SubSecretKey G1 G2)).tail
                 prng := mixed sha p seed (SecretKey.reseedInfo 2) }) := by
    unfold SecretKey.update
    rw [SM.get_bind]
    simp only []
    rw [if_neg (by simp), hm1, SM.lift_ok_bind, hm2, SM.lift_ok_bind,
      if_neg (by rw [hd]; omega)]
    have hfa : SecretKey.findAncestor ({ ciphersuite := pp.ciphersuite, time := 2
                                         ssk := badSsk, prng := p } : SecretKey G1 G2) 3
        = .ok 2 := rfl
    rw [hfa, SM.lift_ok_bind]
    have hr := rerandomize_exec hsha seed (SecretKey.reseedInfo 2) p
    unfold SecretKey.reseedInfo at hr
    rw [hr, SM.lift_ok_bind]
    simp only []
    have hdu : SecretKey.dropUntil 2 (badSsk : List (SubSecretKey G1 G2)) = .ok badSsk := rfl
    rw [hdu, SM.lift_ok_bind]
    rw [if_neg (by simp [badSsk]), if_neg (by omega)]
    rw [hgl, SM.lift_ok_bind, hgam, SM.lift_ok_bind]
    have hul : ∀ (rest : List TimeVec) (q : Prng), SecretKey.updateLoop sha pf pp p 0
        (tvOf pp.depth [1, 1] :: rest)
        ({ ciphersuite := pp.ciphersuite, time := 2, ssk := badSsk, prng := q } :
          SecretKey G1 G2) =
        .ok { ciphersuite := pp.ciphersuite, time := 2, ssk := badSsk, prng := q } := by
      intro rest q
      have hsc : SecretKey.scanDup pf pp.depth (tvOf pp.depth [1, 1])
          (badSsk : List (SubSecretKey G1 G2)) [1, 2, 3] = .ok true := by
        have h1n : TimeVec.init pf 1 pp.depth = .ok (tvOf pp.depth []) := by
          have := init_num (pf := pf) (d := pp.depth) (v := []) (by omega)
            (isNode_nil.2 (by omega))
          simpa using this
        simp only [SecretKey.scanDup, badSsk, List.map_cons, List.map_nil, idx_succ_cons,
          idx_zero_cons, Res.ok_bind, SubSecretKey.timeVec, h1n, hgl]
        simp [tvOf]
      rw [SecretKey.updateLoop]
      simp only []
      have hr' : List.range' (0 + 1) ((badSsk : List (SubSecretKey G1 G2)).length - (0 + 1)) =
        [1, 2, 3] := rfl
      rw [hr', hsc, Res.ok_bind, if_pos rfl]
    have hg2 : (gam [1, 1]).map (tvOf pp.depth) =
        tvOf pp.depth [1, 1] :: (sibs [1, 1]).map (tvOf pp.depth) := rfl
    rw [hg2, hul, SM.lift_ok_bind]
    rfl
  simp only [hu]
  exact ⟨rfl, trivial, trivial⟩

/-! ## C18 -/

/-- C18: after any history of calls starting from key generation the key belongs to the time it
claims and the master secret of the public key, passes `validate`, has between 1 and `d` sub keys,
whose times are those of the model-independent cover of its time, and the sub key at a node of
level `l` has `d - l` elements left. -/
theorem C18_reachable_keys [DecidableEq GT] {E : Ext G1 G2 GT} (H : HashLaws E) (L : GroupLaws E)
    (pf : Profile) {pp : PubParam G1 G2} (W : ParamWF E pp) {seed : Bytes} {pk : PublicKey G2}
    {sk : SecretKey G1 G2} {pop : ProofOfPossession G1}
    (hk : keygen E seed pp = .ok (pk, sk, pop)) (cs : List Call) :
    let sk' := runAll E.sha512 pf pp sk cs
    SecretKey.validate E pf sk' pk pp = .ok true ∧
    (∃ x : Nat, pk.pk = x • pp.g2 ∧ KeyFor pp (x • pp.h) sk'.time sk') ∧
    1 ≤ sk'.ssk.length ∧ sk'.ssk.length ≤ pp.depth ∧
    (∃ vs, CoverList pp.depth sk'.time vs ∧ List.Forall₂ (fun v s =>
      NodeAt pp.depth (SubSecretKey.time s) v ∧
        s.hvector.length = pp.depth - List.length v) vs sk'.ssk) ∧
    (∃ tv gl, TimeVec.init pf sk'.time pp.depth = .ok tv ∧
      TimeVec.gammaList pf tv pp.depth = .ok gl ∧
      gl.map TimeVec.time = sk'.ssk.map SubSecretKey.time) := by
  obtain ⟨x, hx, hcs, hk0⟩ := keygen_keyFor H W.toParamShape hk
  obtain ⟨t', _, h'⟩ := runAll_keyFor H.sha_len (pf := pf) W.toParamShape hk0 cs
  intro sk'
  have ht : sk'.time = t' := h'.time
  rw [← ht] at h'
  obtain ⟨v, hv, hh⟩ := keyFor_iff.1 h'
  have hlen : sk'.ssk.length = (gam v).length := hh.ssk.length_eq.symm
  refine ⟨SecretKey.validate_honest L W pf hh hcs hx, ⟨x, hx, h'⟩, ?_, ?_, ?_, ?_⟩
  · rw [hlen]; simp [gam]
  · rw [hlen]
    have h1 := sibs_length_le v
    have h2 := hh.node.1
    simp only [gam, List.length_cons]; omega
  · refine ⟨gam v, (coverList_iff hv).2 rfl, hh.ssk.imp ?_⟩
    rintro w s ⟨rho, hr⟩
    exact ⟨hr.node, hr.hvector_length W.toParamShape⟩
  · refine ⟨_, _, by rw [hh.time]; exact init_num W.depth_le hh.node,
      gammaList_eq W.depth_le hh.node, ?_⟩
    rw [List.map_map]
    have : ∀ {A : List (List Nat)} {B : List (SubSecretKey G1 G2)},
        List.Forall₂ (SubAt pp (x • pp.h)) A B →
        A.map (TimeVec.time ∘ tvOf pp.depth) = B.map SubSecretKey.time := by
      intro A B h
      induction h with
      | nil => rfl
      | cons h1 _ ih => simp only [List.map_cons, ih, h1.time_eq]; rfl
    exact this hh.ssk

/-! ## C19 -/

/-- C19: two keys for the same master secret and time, however they were reached (and with whatever
seeds), agree on everything but randomness: sub-key times and shapes, sizes, and - under the public
key of the master secret - `validate`. -/
theorem C19_route_independent [DecidableEq GT] {E : Ext G1 G2 GT} (L : GroupLaws E)
    (pf : Profile) {pp : PubParam G1 G2} (W : ParamWF E pp) {x t : Nat}
    {sk sk' : SecretKey G1 G2} (h : KeyFor pp (x • pp.h) t sk) (h' : KeyFor pp (x • pp.h) t sk')
    {pk : PublicKey G2} (hc : pk.ciphersuite = pp.ciphersuite) (hpk : pk.pk = x • pp.g2) :
    sk.ssk.map (fun s => (s.time, s.hvector.length)) =
        sk'.ssk.map (fun s => (s.time, s.hvector.length)) ∧
      sk.size = sk'.size ∧
      SecretKey.validate E pf sk pk pp = .ok true ∧ SecretKey.validate E pf sk' pk pp = .ok true := by
  obtain ⟨v, hv, hh⟩ := keyFor_iff.1 h
  obtain ⟨v', hv', hh'⟩ := keyFor_iff.1 h'
  have hvv : v = v' :=
    num_inj (nodeAt_isNode hv) (nodeAt_isNode hv') (by rw [nodeAt_num_eq hv, nodeAt_num_eq hv'])
  subst hvv
  have hmap : ∀ {A : List (List Nat)} {B C : List (SubSecretKey G1 G2)},
      List.Forall₂ (SubAt pp (x • pp.h)) A B → List.Forall₂ (SubAt pp (x • pp.h)) A C →
      B.map (fun s => (s.time, s.hvector.length)) = C.map (fun s => (s.time, s.hvector.length)) := by
    intro A B C hB
    induction hB generalizing C with
    | nil => intro hC; cases hC; rfl
    | cons h1 _ ih =>
      intro hC
      cases hC with
      | cons h2 h3 =>
        obtain ⟨r1, hr1⟩ := h1
        obtain ⟨r2, hr2⟩ := h2
        simp only [List.map_cons, ih h3, hr1.time_eq, hr2.time_eq,
          hr1.hvector_length W.toParamShape, hr2.hvector_length W.toParamShape]
  have hm := hmap hh.ssk hh'.ssk
  refine ⟨hm, ?_, SecretKey.validate_honest L W pf hh hc hpk,
    SecretKey.validate_honest L W pf hh' hc hpk⟩
  have hsz : ∀ (l : List (SubSecretKey G1 G2)) (n : Nat), l.foldl (fun len e => len + e.size) n =
      (l.map (fun s => (s.time, s.hvector.length))).foldl (fun len e => len + (5 + 144 + e.2 * 96)) n := by
    intro l
    induction l with
    | nil => intro n; rfl
    | cons a l ih => intro n; simp only [List.foldl_cons, List.map_cons, ih]; rfl
  unfold SecretKey.size
  rw [hsz, hsz, hm]

/-- C19: both keys sign validly at the present, and updates to the same times are refused for both. -/
theorem C19_same_abilities [DecidableEq GT] {E : Ext G1 G2 GT} (H : HashLaws E) (L : GroupLaws E)
    (pf : Profile) {pp : PubParam G1 G2} (W : ParamWF E pp) (hsup : Supported pp.ciphersuite)
    {x t : Nat} {sk sk' : SecretKey G1 G2} (h : KeyFor pp (x • pp.h) t sk)
    (h' : KeyFor pp (x • pp.h) t sk') {pk : PublicKey G2} (hpk : pk.pk = x • pp.g2)
    (msg : Bytes) :
    ∃ s s', Signature.signPresent E.sha512 pf t pp msg sk = (.ok s, sk) ∧
      Signature.signPresent E.sha512 pf t pp msg sk' = (.ok s', sk') ∧
      Signature.verifyBytes E pf s pk pp msg = .ok true ∧
      Signature.verifyBytes E pf s' pk pp msg = .ok true ∧
      (∀ tar seed seed', ¬ (t < tar ∧ tar ≤ 2 ^ pp.depth - 1) →
        SecretKey.update E.sha512 pf pp tar seed sk = (.err .timeStamp, sk) ∧
        SecretKey.update E.sha512 pf pp tar seed' sk' = (.err .timeStamp, sk')) := by
  obtain ⟨s, v, a, h1, h2, h3⟩ := Signature.signBytes_keyFor H.sha_len pf W.toParamShape hsup h msg
  obtain ⟨s', v', a', h1', h2', h3'⟩ :=
    Signature.signBytes_keyFor H.sha_len pf W.toParamShape hsup h' msg
  refine ⟨s, s', ?_, ?_, SigFor.verifies H L W pf hsup h2 hpk, SigFor.verifies H L W pf hsup h2' hpk,
    fun tar seed seed' hn => ⟨(C15_update_outcome H.sha_len pf W.toParamShape h tar seed).1 hn,
      (C15_update_outcome H.sha_len pf W.toParamShape h' tar seed').1 hn⟩⟩
  · rw [Signature.signPresent_eq h.time, h1]
  · rw [Signature.signPresent_eq h'.time, h1']

/-! ## C20 -/

/-- C20: from a key for time `t`, delegations and re-randomisations - in any order and number -
give a sub key for time `u` if and only if `u` is a time of the tree and not in the past. -/
theorem C20_obtainable_iff (pf : Profile) {pp : PubParam G1 G2} (S : ParamShape pp) {alpha : G1}
    {t : Nat} {sk : SecretKey G1 G2} (h : KeyFor pp alpha t sk) (u : Nat) :
    (∃ s, Obtainable pf pp sk.ssk s ∧ s.time = u) ↔ t ≤ u ∧ u ≤ 2 ^ pp.depth - 1 := by
  obtain ⟨v, hv, hk⟩ := keyFor_iff.1 h
  have htv := nodeAt_num_eq hv
  constructor
  · rintro ⟨s, hs, rfl⟩
    obtain ⟨w, ⟨rho, hw⟩, g, hg, hgw⟩ := obtainable_sub S hk hs
    rw [hw.time_eq]
    have hle := (gam_cover hk.node hw.isNode).2 ⟨g, hg, hgw⟩
    exact ⟨by omega, (num_bounds hw.isNode).2⟩
  · rintro ⟨h1, h2⟩
    have hval : ValidTime pp.depth u := ⟨by have := num_pos hk.node; omega, h2⟩
    have hun := path_isNode hval
    have hnt := num_path hval
    obtain ⟨g, hg, w, hw⟩ := (gam_cover hk.node hun).1 (by rw [hnt, htv]; exact h1)
    obtain ⟨s, hs, rho, hr⟩ := forall₂_mem_left hk.ssk hg
    by_cases hw0 : w = []
    · subst hw0
      rw [List.append_nil] at hw
      exact ⟨s, .start hs, by rw [hr.time_eq, hw, hnt]⟩
    · rw [← hw] at hun hnt
      refine ⟨_, .delegate (.start hs) (hr.delegate_eq S pf hun hw0), ?_⟩
      simp only [SubSecretKey.delegated]
      exact hnt

/-- C20: and every sub key so obtained is a genuine one, for the same master secret. -/
theorem C20_obtainable_genuine (pf : Profile) {pp : PubParam G1 G2} (S : ParamShape pp) {alpha : G1}
    {t : Nat} {sk : SecretKey G1 G2} (h : KeyFor pp alpha t sk) {s : SubSecretKey G1 G2}
    (hs : Obtainable pf pp sk.ssk s) : ∃ v rho, SubKeyFor pp alpha v rho s := by
  obtain ⟨v, _, hk⟩ := keyFor_iff.1 h
  obtain ⟨w, ⟨rho, hw⟩, _⟩ := obtainable_sub S hk hs
  exact ⟨w, rho, hw⟩

/-- C20: after any history of calls starting from key generation, what the secret key can still be
turned into is exactly the sub keys of the times from its own on; nothing earlier. -/
theorem C20_after_history {E : Ext G1 G2 GT} (H : HashLaws E) (pf : Profile)
    {pp : PubParam G1 G2} (S : ParamShape pp) {seed : Bytes} {pk : PublicKey G2}
    {sk : SecretKey G1 G2} {pop : ProofOfPossession G1}
    (hk : keygen E seed pp = .ok (pk, sk, pop)) (cs : List Call) (u : Nat) :
    (∃ s, Obtainable pf pp (runAll E.sha512 pf pp sk cs).ssk s ∧ s.time = u) ↔
      (runAll E.sha512 pf pp sk cs).time ≤ u ∧ u ≤ 2 ^ pp.depth - 1 := by
  obtain ⟨x, _, _, hk0⟩ := keygen_keyFor H S hk
  obtain ⟨t', _, h'⟩ := runAll_keyFor H.sha_len (pf := pf) S hk0 cs
  rw [h'.time]
  exact C20_obtainable_iff pf S h' u

/-- C20: a successful update to `tar` takes away exactly the times before `tar`. -/
theorem C20_after_update {sha : Bytes → Bytes} (hsha : ∀ m, (sha m).length = 64) (pf : Profile)
    {pp : PubParam G1 G2} (S : ParamShape pp) {alpha : G1} {t tar : Nat} {seed : Bytes}
    {sk sk' : SecretKey G1 G2} (h : KeyFor pp alpha t sk)
    (hu : SecretKey.update sha pf pp tar seed sk = (.ok (), sk')) (u : Nat) :
    (∃ s, Obtainable pf pp sk'.ssk s ∧ s.time = u) ↔
      (∃ s, Obtainable pf pp sk.ssk s ∧ s.time = u) ∧ tar ≤ u := by
  obtain ⟨h1, _, h2⟩ := SecretKey.update_ok_keyFor hsha S h hu
  rw [C20_obtainable_iff pf S h2, C20_obtainable_iff pf S h]
  omega

/-! ## C23 -/

/-- C23: whatever history of calls precedes it, a signature returned by a call on the key verifies
under the public key for the message of that call, and is not for a time before the key's. -/
theorem C23_history_signatures_verify [DecidableEq GT] {E : Ext G1 G2 GT} (H : HashLaws E)
    (L : GroupLaws E) (pf pf' : Profile) {pp : PubParam G1 G2} (W : ParamWF E pp) {seed : Bytes}
    {pk : PublicKey G2} {sk : SecretKey G1 G2} {pop : ProofOfPossession G1}
    (hk : keygen E seed pp = .ok (pk, sk, pop)) (cs : List Call) (c : Call)
    {sig : Signature G1 G2}
    (hs : (c.run E.sha512 pf pp (runAll E.sha512 pf pp sk cs)).1 = .ok (some sig)) :
    Signature.verifyBytes E pf' sig pk pp c.msg = .ok true ∧
      (runAll E.sha512 pf pp sk cs).time ≤ sig.time := by
  obtain ⟨x, hx, _, hk0⟩ := keygen_keyFor H W.toParamShape hk
  have hsup := keygen_supported hk
  obtain ⟨t', _, h'⟩ := runAll_keyFor H.sha_len (pf := pf) W.toParamShape hk0 cs
  obtain ⟨v, a, h1, h2⟩ := call_sig H.sha_len W.toParamShape hsup h' c hs
  exact ⟨SigFor.verifies H L W pf' hsup h1 hx, by rw [h'.time]; exact h2⟩

/-- C23: and signing does succeed: on an honest key, `sign` for the present or a later valid time
returns a signature for that time which verifies, unless the update inside it stops with the
"prng not updated" panic, which leaves the key as it was and needs a collision. -/
theorem C23_sign_succeeds [DecidableEq GT] {E : Ext G1 G2 GT} (H : HashLaws E) (L : GroupLaws E)
    (pf pf' : Profile) {pp : PubParam G1 G2} (W : ParamWF E pp) (hsup : Supported pp.ciphersuite)
    {x t tar : Nat} {sk : SecretKey G1 G2} (h : KeyFor pp (x • pp.h) t sk) (h1 : t ≤ tar)
    (h2 : tar ≤ 2 ^ pp.depth - 1) {pk : PublicKey G2} (hpk : pk.pk = x • pp.g2)
    (msg seed : Bytes) :
    (∃ sig sk', Signature.sign E.sha512 pf tar pp msg seed sk = (.ok sig, sk') ∧
      KeyFor pp (x • pp.h) tar sk' ∧ sig.time = tar ∧
      Signature.verifyBytes E pf' sig pk pp msg = .ok true) ∨
    (Signature.sign E.sha512 pf tar pp msg seed sk = (.panic .assertion, sk) ∧ t < tar ∧
      ∃ k, 1 ≤ k ∧ k < pp.depth ∧
        afterDraws E.sha512 (reseeded E.sha512 sk.prng seed t) k = sk.prng) := by
  have key : ∀ {sk' : SecretKey G1 G2}, KeyFor pp (x • pp.h) tar sk' →
      ∃ sig, Signature.signBytes E.sha512 pf sk' tar pp msg = .ok sig ∧ sig.time = tar ∧
        Signature.verifyBytes E pf' sig pk pp msg = .ok true := by
    intro sk' hk
    obtain ⟨sig, v, a, h1, h2, h3⟩ :=
      Signature.signBytes_keyFor H.sha_len pf W.toParamShape hsup hk msg
    exact ⟨sig, h1, h3, SigFor.verifies H L W pf' hsup h2 hpk⟩
  by_cases he : t = tar
  · subst he
    obtain ⟨sig, h3, h4, h5⟩ := key h
    exact Or.inl ⟨sig, sk, by rw [Signature.sign_now h.time, h3], h, h4, h5⟩
  · have hlt : t < tar := by omega
    rcases (C15_update_outcome H.sha_len pf W.toParamShape h tar seed).2 ⟨hlt, h2⟩ with
      ⟨sk', h3, h4⟩ | ⟨h3, h4⟩
    · obtain ⟨sig, h5, h6, h7⟩ := key h4
      refine Or.inl ⟨sig, sk', ?_, h4, h6, h7⟩
      rw [Signature.sign_future (by rw [h.time]; exact hlt), h3]
      simp only [h5]
    · refine Or.inr ⟨?_, hlt, h4⟩
      rw [Signature.sign_future (by rw [h.time]; exact hlt), h3]

/-- C19: and both sign validly for every later time of the tree, whatever the seeds, unless the PRNG
assertion stops one of them, which takes a state that comes back. -/
theorem C19_same_future [DecidableEq GT] {E : Ext G1 G2 GT} (H : HashLaws E) (L : GroupLaws E)
    (pf pf' : Profile) {pp : PubParam G1 G2} (W : ParamWF E pp) (hsup : Supported pp.ciphersuite)
    {x t tar : Nat} {sk sk' : SecretKey G1 G2} (h : KeyFor pp (x • pp.h) t sk)
    (h' : KeyFor pp (x • pp.h) t sk') (h1 : t ≤ tar) (h2 : tar ≤ 2 ^ pp.depth - 1)
    {pk : PublicKey G2} (hpk : pk.pk = x • pp.g2) (msg seed seed' : Bytes)
    (hs : t < tar → ∀ k, 1 ≤ k → k < pp.depth →
      afterDraws E.sha512 (reseeded E.sha512 sk.prng seed t) k ≠ sk.prng ∧
      afterDraws E.sha512 (reseeded E.sha512 sk'.prng seed' t) k ≠ sk'.prng) :
    ∃ s s' a a', Signature.sign E.sha512 pf tar pp msg seed sk = (.ok s, a) ∧
      Signature.sign E.sha512 pf tar pp msg seed' sk' = (.ok s', a') ∧
      s.time = tar ∧ s'.time = tar ∧
      Signature.verifyBytes E pf' s pk pp msg = .ok true ∧
      Signature.verifyBytes E pf' s' pk pp msg = .ok true ∧
      a.ssk.map (fun s => (s.time, s.hvector.length)) =
        a'.ssk.map (fun s => (s.time, s.hvector.length)) := by
  rcases C23_sign_succeeds H L pf pf' W hsup h h1 h2 hpk msg seed with
    ⟨s, a, b1, b2, b3, b4⟩ | ⟨_, ht, k, k1, k2, k3⟩
  · rcases C23_sign_succeeds H L pf pf' W hsup h' h1 h2 hpk msg seed' with
      ⟨s', a', c1, c2, c3, c4⟩ | ⟨_, ht, k, k1, k2, k3⟩
    · exact ⟨s, s', a, a', b1, c1, b3, c3, b4, c4,
        (C19_route_independent L pf W b2 c2 (pk := ⟨pp.ciphersuite, pk.pk⟩) rfl hpk).1⟩
    · exact absurd k3 (hs ht k k1 k2).2
  · exact absurd k3 (hs ht k k1 k2).1

/-! ### Concrete cases -/

section Examples
open Pixel.Toy

/-- C19: two different routes to time 12, via 9 and directly -/
example : ∃ a b, runAll sha0 .debug (param 5 1) (sk0 5 1) [.update 9 [], .update 12 []] = a ∧
    runAll sha0 .debug (param 5 1) (sk0 5 1) [.update 12 []] = b ∧
    KeyFor (param 5 1) (3 • (param 5 1).h) 12 a ∧ KeyFor (param 5 1) (3 • (param 5 1).h) 12 b := by
  have hs : ∀ m, (sha0 m).length = 64 := hashLaws.sha_len
  have S := (param_wf sha0 (d := 5) (by omega) (by omega) 1).toParamShape
  obtain ⟨b, hb, hkb⟩ := toy_update (tar := 12) (by omega) (by omega)
  obtain ⟨c, hc, hkc⟩ := toy_update (tar := 9) (by omega) (by omega)
  obtain ⟨j, hj, hp⟩ := C45_prng_after_update hs .debug S (keyFor_sk0 (by omega) 1) hc
  rcases (C15_update_outcome hs .debug S hkc 12 []).2 ⟨by omega, by decide⟩ with
    ⟨a, ha, hka⟩ | ⟨_, k, hk1, hk2, hk3⟩
  · refine ⟨a, b, ?_, ?_, hka, hkb⟩
    · simp only [runAll, Call.run, hc, ha]
    · simp only [runAll, Call.run, hb]
  · rw [hp, afterDraws_eq hs, reseeded_eq hs, afterDraws_eq hs, reseeded_eq hs] at hk3
    exact absurd hk3 (chain2_sk0 1 j hj k hk1 hk2)

/-- C19: two signers with one key sign for time 9 -/
example : ∃ s s' a a', Signature.sign sha0 .debug 9 (param 5 1) [1] [] (sk0 5 1) = (.ok s, a) ∧
    Signature.sign sha0 .debug 9 (param 5 1) [1] [] (sk0 5 1) = (.ok s', a') ∧
    s.time = 9 ∧ s'.time = 9 := by
  have hs : ∀ m, (sha0 m).length = 64 := hashLaws.sha_len
  have hne : ∀ k, 1 ≤ k → k < (param 5 1).depth →
      afterDraws sha0 (reseeded sha0 (sk0 5 1).prng [] 1) k ≠ (sk0 5 1).prng := by
    intro k h1 h2 h3
    rw [afterDraws_eq hs, reseeded_eq hs] at h3
    exact chain_sk0 1 k h1 h2 h3
  have key := C19_same_future hashLaws (groupLaws sha0) .debug .release
    (param_wf sha0 (d := 5) (by omega) (by omega) 1) (Or.inr rfl) (keyFor_sk0 (by omega) 1)
    (keyFor_sk0 (by omega) 1) (tar := 9) (by omega) (by decide)
    (pk := { ciphersuite := 1, pk := 3 • (param 5 1).g2 }) rfl [1] [] []
  rw [ext_sha] at key
  obtain ⟨s, s', a, a', h1, h2, h3, h4, _⟩ := key (fun _ k h1 h2 => ⟨hne k h1 h2, hne k h1 h2⟩)
  exact ⟨s, s', a, a', h1, h2, h3, h4⟩

/-- C17, C23: a signing call that moves the key from time 1 to time 9 and succeeds -/
example : ∃ sig sk', Signature.sign sha0 .debug 9 (param 5 1) [1, 2, 3] [] (sk0 5 1) = (.ok sig, sk') ∧
    sk'.time = 9 ∧
    Signature.verifyBytes (ext sha0) .release sig { ciphersuite := 1, pk := 3 • (param 5 1).g2 }
      (param 5 1) [1, 2, 3] = .ok true := by
  have W := param_wf sha0 (d := 5) (by omega) (by omega) 1
  have key := C23_sign_succeeds hashLaws (groupLaws sha0) .debug .release W (Or.inr rfl)
    (keyFor_sk0 (by omega) 1) (tar := 9) (by omega) (by decide)
    (pk := { ciphersuite := 1, pk := 3 • (param 5 1).g2 }) rfl [1, 2, 3] []
  rw [ext_sha] at key
  rcases key with
    ⟨sig, sk', h1, h2, _, h4⟩ | ⟨_, _, k, hk1, hk2, hk3⟩
  · exact ⟨sig, sk', h1, h2.time, h4⟩
  · have hs : ∀ m, (sha0 m).length = 64 := hashLaws.sha_len
    exact absurd (by rw [afterDraws_eq hs, reseeded_eq hs] at hk3; exact hk3)
      (chain_sk0 1 k hk1 hk2)

/-- C18, C23: a key pair, so that histories can start -/
example : ∃ pk sk pop, keygen (ext sha0) (List.replicate 32 7) (param 5 1) = .ok (pk, sk, pop) ∧
    ∃ sig, ((Call.signPresent 1 [4]).run sha0 .debug (param 5 1)
      (runAll sha0 .debug (param 5 1) sk [.update 0 [], .signPresent 1 [9]])).1 = .ok (some sig) := by
  have W := param_wf sha0 (d := 5) (by omega) (by omega) 1
  have hs : ∀ m, (sha0 m).length = 64 := hashLaws.sha_len
  obtain ⟨s, _, _, h3⟩ := keygen_eq hashLaws W.toParamShape
    (seed := List.replicate 32 7) (by simp) (Or.inr rfl)
  refine ⟨_, _, _, h3, ?_⟩
  obtain ⟨x, _, _, hk⟩ := keygen_keyFor hashLaws W.toParamShape h3
  have h0 := (C15_update_outcome hs .debug W.toParamShape hk 0 []).1 (by omega)
  obtain ⟨sig, v, a, h1, _⟩ := Signature.signBytes_keyFor hs .debug W.toParamShape (Or.inr rfl) hk [4]
  refine ⟨sig, ?_⟩
  simp only [runAll]
  have e1 : ∀ k : SecretKey G G, KeyFor (param 5 1) (x • (param 5 1).h) 1 k →
      ((Call.update 0 []).run sha0 .debug (param 5 1) k).2 = k := by
    intro k hk
    simp only [Call.run, (C15_update_outcome hs .debug W.toParamShape hk 0 []).1 (by omega)]
  have e2 : ∀ k : SecretKey G G, KeyFor (param 5 1) (x • (param 5 1).h) 1 k →
      ((Call.signPresent 1 [9]).run sha0 .debug (param 5 1) k).2 = k := by
    intro k hk
    simp only [Call.run, Signature.signPresent_eq hk.time]
  rw [e1 _ hk, e2 _ hk]
  simp only [Call.run, Signature.signPresent_eq hk.time, h1]
  rfl

/-- C20: a key for time 9 in the tree of depth 5: time 10 can be reached, time 8 cannot -/
example : ∃ sk, KeyFor (param 5 1) (3 • (param 5 1).h) 9 sk ∧
    (∃ s, Obtainable .debug (param 5 1) sk.ssk s ∧ s.time = 10) ∧
    ¬ ∃ s, Obtainable .debug (param 5 1) sk.ssk s ∧ s.time = 8 := by
  have S := (param_wf sha0 (d := 5) (by omega) (by omega) 1).toParamShape
  obtain ⟨c, _, hkc⟩ := toy_update (tar := 9) (by omega) (by omega)
  exact ⟨c, hkc, (C20_obtainable_iff .debug S hkc 10).2 ⟨by omega, by decide⟩,
    fun h => by have := ((C20_obtainable_iff .debug S hkc 8).1 h).1; omega⟩

/-- C20: an update from time 1 to time 9, before which time 8 could be reached and after which it
cannot -/
example : ∃ sk', SecretKey.update sha0 .debug (param 5 1) 9 [] (sk0 5 1) = (.ok (), sk') ∧
    (∃ s, Obtainable .debug (param 5 1) (sk0 5 1).ssk s ∧ s.time = 8) ∧
    ¬ ∃ s, Obtainable .debug (param 5 1) sk'.ssk s ∧ s.time = 8 := by
  have hs : ∀ m, (sha0 m).length = 64 := hashLaws.sha_len
  have S := (param_wf sha0 (d := 5) (by omega) (by omega) 1).toParamShape
  obtain ⟨c, hc, _⟩ := toy_update (tar := 9) (by omega) (by omega)
  have k0 := keyFor_sk0 (d := 5) (by omega) 1
  exact ⟨c, hc, (C20_obtainable_iff .debug S k0 8).2 ⟨by omega, by decide⟩,
    fun h => by have := ((C20_after_update hs .debug S k0 hc 8).1 h).2; omega⟩

/-- C17: the hypothesis of the malformed case is met -/
example : (param 3 0).depth = 3 := rfl

end Examples

end Pixel.Props
