import Verif.Props.History

/-!
# Properties C24–C30 and C50: signing and verification

Vocabulary: `Verif/Spec/Key.lean`, `Verif/Spec/Sig.lean`; assumptions: `Verif/Spec/Laws.lean`.
-/

namespace Pixel.Props

open Pixel Pixel.Spec

set_option linter.unusedSectionVars false

variable {G1 G2 GT : Type} [AddCommGroup G1] [AddCommGroup G2] [CommGroup GT]

/-! ## C24 -/

/-- C24: for the public key `x·g2`, verification returns a Boolean, and exactly when it is `true`. -/
theorem C24_accept_iff [DecidableEq GT] {E : Ext G1 G2 GT} (H : HashLaws E) (L : GroupLaws E)
    {pp : PubParam G1 G2} (W : ParamWF E pp) (pf : Profile) (sig : Signature G1 G2)
    {pk : PublicKey G2} {x : Nat} (hpk : pk.pk = x • pp.g2) (msg : Bytes) :
    ∃ b, Signature.verifyBytes E pf sig pk pp msg = .ok b ∧
      (b = true ↔ Supported pp.ciphersuite ∧ sig.ciphersuite = pp.ciphersuite ∧
        E.inSub2 sig.sigma1 = true ∧ E.inSub1 sig.sigma2 = true ∧
        ∃ (v : List Nat) (a : Nat), NodeAt pp.depth sig.time v ∧ sig.sigma1 = a • pp.g2 ∧
          sig.sigma2 = x • pp.h + a • sigPoint pp v (msgField E.sha512 pp.ciphersuite msg)) := by
  refine ⟨_, Signature.verifyBytes_eq H W.toParamShape pf sig pk msg, ?_⟩
  rw [@decide_eq_true_iff _ (_)]
  constructor
  · rintro ⟨h1, h2, h3, h4, v, h5, h6⟩
    obtain ⟨a, ha⟩ := L.gen2_gen _ h3
    rw [← W.g2_gen] at ha
    exact ⟨h1, h2, h3, h4, v, a, h5, ha, (L.sig_check W h4 ha hpk).1 h6⟩
  · rintro ⟨h1, h2, h3, h4, v, a, h5, ha, h6⟩
    exact ⟨h1, h2, h3, h4, v, h5, (L.sig_check W h4 ha hpk).2 h6⟩

/-- C24: the same in terms of `SigFor`: accepted means being a signature of that master secret. -/
theorem C24_accept_sigFor [DecidableEq GT] {E : Ext G1 G2 GT} (H : HashLaws E) (L : GroupLaws E)
    {pp : PubParam G1 G2} (W : ParamWF E pp) (pf : Profile) (sig : Signature G1 G2)
    {pk : PublicKey G2} {x : Nat} (hpk : pk.pk = x • pp.g2) (msg : Bytes) :
    Signature.verifyBytes E pf sig pk pp msg = .ok true ↔ Supported pp.ciphersuite ∧
      ∃ v a, SigFor pp (x • pp.h) v (msgField E.sha512 pp.ciphersuite msg) a sig := by
  obtain ⟨b, hb, hiff⟩ := C24_accept_iff H L W pf sig hpk msg
  constructor
  · intro h
    rw [hb] at h
    obtain ⟨h1, h2, _, _, v, a, h5, h6, h7⟩ := hiff.1 (Res.ok.inj h)
    exact ⟨h1, v, a, h2, h5, h6, h7⟩
  · rintro ⟨h1, v, a, hs⟩
    exact SigFor.verifies H L W pf h1 hs hpk

/-- C24: verification never panics and never returns an error, for any signature, any public key
(even outside the subgroup), any group and pairing, as long as the depth is at most 63. -/
theorem C24_total [DecidableEq GT] {E : Ext G1 G2 GT} (H : HashLaws E) {pp : PubParam G1 G2}
    (S : ParamShape pp) (pf : Profile) (sig : Signature G1 G2) (pk : PublicKey G2) (msg : Bytes) :
    ∃ b, Signature.verifyBytes E pf sig pk pp msg = .ok b :=
  ⟨_, Signature.verifyBytes_eq H S pf sig pk msg⟩

/-! ## C25 -/

/-- C25: for every key whatsoever: `sign` for a past time and `sign_present` for any other time
fail with the time-stamp error, without touching the key. -/
theorem C25_wrong_time_refused (sha : Bytes → Bytes) (pf : Profile) (pp : PubParam G1 G2)
    (sk : SecretKey G1 G2) (tar : Nat) (msg seed : Bytes) :
    (tar < sk.time → Signature.sign sha pf tar pp msg seed sk = (.err .timeStamp, sk)) ∧
    (tar ≠ sk.time → Signature.signPresent sha pf tar pp msg sk = (.err .timeStamp, sk)) ∧
    (tar ≠ sk.time → Signature.signThenUpdate sha pf tar pp msg seed sk =
      (.err .timeStamp, sk)) :=
  ⟨Signature.sign_past, fun h => Signature.signPresent_ne h.symm,
    fun h => Signature.signThenUpdate_ne h.symm⟩

/-- C25: `sign_present`, and `sign` at the key's own time, never modify the key, whatever they
return; and they return the same. -/
theorem C25_present_keeps_key (sha : Bytes → Bytes) (pf : Profile) (pp : PubParam G1 G2)
    (sk : SecretKey G1 G2) (tar : Nat) (msg seed : Bytes) :
    (Signature.signPresent sha pf tar pp msg sk).2 = sk ∧
      Signature.sign sha pf sk.time pp msg seed sk =
        Signature.signPresent sha pf sk.time pp msg sk := by
  constructor
  · by_cases h : sk.time = tar
    · rw [Signature.signPresent_eq h]
    · rw [Signature.signPresent_ne h]
  · rw [Signature.signPresent_eq rfl, Signature.sign_now rfl]

/-! ## C26 -/

/-- C26: on an honest key before the last time stamp, `sign_then_update` returns a signature for
the key's time which verifies, and leaves the key at the next time; the only other outcome is the
collision panic, which releases nothing and changes nothing. -/
theorem C26_signs_and_moves_on [DecidableEq GT] {E : Ext G1 G2 GT} (H : HashLaws E)
    (L : GroupLaws E) (pf pf' : Profile) {pp : PubParam G1 G2} (W : ParamWF E pp)
    (hsup : Supported pp.ciphersuite) {x t : Nat} {sk : SecretKey G1 G2}
    (h : KeyFor pp (x • pp.h) t sk) (hlt : t < 2 ^ pp.depth - 1)
    {pk : PublicKey G2} (hpk : pk.pk = x • pp.g2) (msg seed : Bytes) :
    (∃ sig sk', Signature.signThenUpdate E.sha512 pf t pp msg seed sk = (.ok sig, sk') ∧
      sig.time = t ∧ Signature.verifyBytes E pf' sig pk pp msg = .ok true ∧
      KeyFor pp (x • pp.h) (t + 1) sk') ∨
    (Signature.signThenUpdate E.sha512 pf t pp msg seed sk = (.panic .assertion, sk) ∧
      ∃ k, 1 ≤ k ∧ k < pp.depth ∧
        afterDraws E.sha512 (reseeded E.sha512 sk.prng seed t) k = sk.prng) := by
  obtain ⟨sig, v, a, h1, h2, h3⟩ :=
    Signature.signBytes_keyFor H.sha_len pf W.toParamShape hsup h msg
  have hpow : 2 ^ pp.depth ≤ 2 ^ 63 := Nat.pow_le_pow_right (by omega) W.depth_le
  have hadd : add64 pf t 1 = .ok (t + 1) := add64_lt (by omega)
  rcases (C15_update_outcome H.sha_len pf W.toParamShape h (t + 1) seed).2
    ⟨by omega, by omega⟩ with ⟨sk', h4, h5⟩ | ⟨h4, h5⟩
  · left
    refine ⟨sig, sk', ?_, h3, SigFor.verifies H L W pf' hsup h2 hpk, h5⟩
    rw [Signature.signThenUpdate_eq h.time, h1]
    simp only [hadd, h4]
  · right
    refine ⟨?_, h5⟩
    rw [Signature.signThenUpdate_eq h.time, h1]
    simp only [hadd, h4]

/-- C26: from the key left behind, no history of further calls yields a signature for time `t`
again: every signature it returns is for a later time. -/
theorem C26_no_second_signature {sha : Bytes → Bytes} (hsha : ∀ m, (sha m).length = 64)
    (pf : Profile) {pp : PubParam G1 G2} (S : ParamShape pp) (hsup : Supported pp.ciphersuite)
    {alpha : G1} {t : Nat} {sk sk' : SecretKey G1 G2} (h : KeyFor pp alpha t sk)
    {msg seed : Bytes} {sig : Signature G1 G2}
    (hs : Signature.signThenUpdate sha pf t pp msg seed sk = (.ok sig, sk'))
    (cs : List Call) (c : Call) {sig' : Signature G1 G2}
    (hs' : (c.run sha pf pp (runAll sha pf pp sk' cs)).1 = .ok (some sig')) :
    sig.time = t ∧ t < sig'.time := by
  obtain ⟨sg, v, a, h1, _, h3⟩ := Signature.signBytes_keyFor hsha pf S hsup h msg
  have hle : t ≤ 2 ^ pp.depth - 1 := h.valid.2
  have hpow : 2 ^ pp.depth ≤ 2 ^ 63 := Nat.pow_le_pow_right (by omega) S.depth_le
  have hadd : add64 pf t 1 = .ok (t + 1) := add64_lt (by omega)
  rw [Signature.signThenUpdate_eq h.time, h1] at hs
  simp only [hadd] at hs
  rcases hu : SecretKey.update sha pf pp (t + 1) seed sk with ⟨r, s'⟩
  rw [hu] at hs
  cases r with
  | ok u =>
    obtain ⟨hsg, hsk⟩ := Prod.mk.inj hs
    have hsg := Res.ok.inj hsg
    subst hsg hsk
    obtain ⟨_, _, h4⟩ := SecretKey.update_ok_keyFor hsha S h hu
    obtain ⟨t', h5, h6⟩ := runAll_keyFor hsha (pf := pf) S h4 cs
    obtain ⟨_, _, _, h7⟩ := call_sig hsha S hsup h6 c hs'
    exact ⟨h3, by omega⟩
  | err e => cases (Prod.mk.inj hs).1
  | panic p => cases (Prod.mk.inj hs).1

/-- C26: at the last time stamp it returns the time-stamp error: no signature is released, and the
key stays. -/
theorem C26_last_time_stamp {sha : Bytes → Bytes} (hsha : ∀ m, (sha m).length = 64)
    (pf : Profile) {pp : PubParam G1 G2} (S : ParamShape pp) (hsup : Supported pp.ciphersuite)
    {alpha : G1} {t : Nat} {sk : SecretKey G1 G2} (h : KeyFor pp alpha t sk)
    (hlast : t = 2 ^ pp.depth - 1) (msg seed : Bytes) :
    Signature.signThenUpdate sha pf t pp msg seed sk = (.err .timeStamp, sk) := by
  obtain ⟨sg, v, a, h1, _, h3⟩ := Signature.signBytes_keyFor hsha pf S hsup h msg
  have hpow : 2 ^ pp.depth ≤ 2 ^ 63 := Nat.pow_le_pow_right (by omega) S.depth_le
  have hadd : add64 pf t 1 = .ok (t + 1) := add64_lt (by omega)
  rw [Signature.signThenUpdate_eq h.time, h1]
  simp only [hadd, (C15_update_outcome hsha pf S h (t + 1) seed).1 (by omega)]

/-! ## C27 -/

/-- C27: signing twice the same message at the same time gives the same signature: the first call
leaves no trace in the key. -/
theorem C27_repeatable (sha : Bytes → Bytes) (pf : Profile) (pp : PubParam G1 G2)
    (sk : SecretKey G1 G2) (t : Nat) (msg msg' : Bytes) :
    Signature.signPresent sha pf t pp msg (Signature.signPresent sha pf t pp msg' sk).2 =
      Signature.signPresent sha pf t pp msg sk := by
  rw [(C25_present_keeps_key sha pf pp sk t msg' []).1]

/-- C27: the randomness added to the sub key's own is one PRNG sample for the documented string:
tag, message, time. -/
theorem C27_randomness {sha : Bytes → Bytes} (hsha : ∀ m, (sha m).length = 64) {pf : Profile}
    {pp : PubParam G1 G2} {sk : SecretKey G1 G2} {t : Nat} {msg : Bytes} {sig : Signature G1 G2}
    (h : Signature.signPresent sha pf t pp msg sk = (.ok sig, sk)) :
    ∃ s0 r, sk.ssk.head? = some s0 ∧
      (Prng.sample sha (text "Pixel randomness for signing" ++ msg ++ be32 t) sk.prng).1 = .ok r ∧
      sig.sigma1 = s0.g2r + r.val • pp.g2 := by
  by_cases ht : sk.time = t
  · rw [Signature.signPresent_eq ht] at h
    have h := (Prod.mk.inj h).1
    refine Signature.signBytes_sigma1 hsha h
  · rw [Signature.signPresent_ne ht] at h
    cases (Prod.mk.inj h).1

/-- C27: below `2 ^ 32` that string determines the message and the time. -/
theorem C27_string_injective {msg msg' : Bytes} {t t' : Nat} (ht : t < 2 ^ 32) (ht' : t' < 2 ^ 32)
    (h : text "Pixel randomness for signing" ++ msg ++ be32 t =
      text "Pixel randomness for signing" ++ msg' ++ be32 t') : msg = msg' ∧ t = t' := by
  obtain ⟨h1, h2⟩ := List.append_inj' h rfl
  refine ⟨List.append_cancel_left h1, ?_⟩
  have := congrArg beNat h2
  rwa [beNat_be32, beNat_be32, Nat.mod_eq_of_lt ht, Nat.mod_eq_of_lt ht'] at this

/-- C27: from depth 33 on there are different valid time stamps sharing the string, for every
message. -/
theorem C27_string_truncates {d : Nat} (hd : 33 ≤ d) (msg : Bytes) :
    ∃ t t', t ≠ t' ∧ ValidTime d t ∧ ValidTime d t' ∧
      text "Pixel randomness for signing" ++ msg ++ be32 t =
        text "Pixel randomness for signing" ++ msg ++ be32 t' := by
  have hpow : 2 ^ 33 ≤ 2 ^ d := Nat.pow_le_pow_right (by omega) hd
  refine ⟨1, 2 ^ 32 + 1, by omega, ⟨by omega, by omega⟩, ⟨by omega, by omega⟩, ?_⟩
  have : be32 1 = be32 (2 ^ 32 + 1) := by decide +kernel
  rw [this]

/-! ## C28 -/

/-- C28: the rejections: wrong ciphersuite, time out of range, element outside the subgroup. -/
theorem C28_rejections [DecidableEq GT] {E : Ext G1 G2 GT} (H : HashLaws E) {pp : PubParam G1 G2}
    (S : ParamShape pp) (pf : Profile) (sig : Signature G1 G2) (pk : PublicKey G2) (msg : Bytes)
    (h : sig.ciphersuite ≠ pp.ciphersuite ∨ ¬ Supported pp.ciphersuite ∨ sig.time = 0 ∨
      2 ^ pp.depth - 1 < sig.time ∨ E.inSub2 sig.sigma1 = false ∨ E.inSub1 sig.sigma2 = false) :
    Signature.verifyBytes E pf sig pk pp msg = .ok false := by
  rw [Signature.verifyBytes_eq H S]
  refine congrArg Res.ok (@decide_eq_false _ (_) ?_)
  rintro ⟨h1, h2, h3, h4, v, h5, _⟩
  have hval := (nodeAt_iff.1 h5).1
  rcases h with h | h | h | h | h | h
  · exact h h2
  · exact h h1
  · have := hval.1; omega
  · have := hval.2; omega
  · rw [h] at h3; cases h3
  · rw [h] at h4; cases h4

/-- C28: single verification does not look at the ciphersuite of the public key. -/
theorem C28_key_suite_ignored [DecidableEq GT] (E : Ext G1 G2 GT) (pf : Profile)
    (sig : Signature G1 G2) (pk : PublicKey G2) (c : UInt8) (pp : PubParam G1 G2) (msg : Bytes) :
    Signature.verifyBytes E pf sig { pk with ciphersuite := c } pp msg =
      Signature.verifyBytes E pf sig pk pp msg := rfl

/-- C28: aggregated verification does: one key with another ciphersuite and the answer is no. -/
theorem C28_aggregated_checks_suite [DecidableEq GT] (E : Ext G1 G2 GT) (pf : Profile)
    (sig : Signature G1 G2) (pks : List (PublicKey G2)) (pp : PubParam G1 G2) (msg : Bytes)
    (h : ∃ pk ∈ pks, pk.ciphersuite ≠ pp.ciphersuite) :
    Signature.verifyBytesAggregated E pf sig pks pp msg = .ok false := by
  unfold Signature.verifyBytesAggregated
  simp only []
  rw [if_pos]
  obtain ⟨pk, h1, h2⟩ := h
  rw [List.any_eq_true]
  exact ⟨pk, h1, decide_eq_true (fun h => h2 h.symm)⟩

/-! ## C29, C30 -/

/-- C29: two accepted signatures for one public key, time and message differ by `(a·g2, a·F)` for
one `a`; so the first component determines the second. -/
theorem C29_sigma2_determined [DecidableEq GT] {E : Ext G1 G2 GT} (H : HashLaws E)
    (L : GroupLaws E) {pp : PubParam G1 G2} (W : ParamWF E pp) (pf : Profile)
    {s s' : Signature G1 G2} {pk : PublicKey G2} (hpk : E.inSub2 pk.pk = true) {msg : Bytes}
    (ht : s.time = s'.time) (h : Signature.verifyBytes E pf s pk pp msg = .ok true)
    (h' : Signature.verifyBytes E pf s' pk pp msg = .ok true) :
    (∃ (v : List Nat) (a : Nat), NodeAt pp.depth s.time v ∧ s'.sigma1 = s.sigma1 + a • pp.g2 ∧
      s'.sigma2 = s.sigma2 + a • sigPoint pp v (msgField E.sha512 pp.ciphersuite msg)) ∧
    (s.sigma1 = s'.sigma1 → s.sigma2 = s'.sigma2) := by
  obtain ⟨x, hx⟩ := L.gen2_gen _ hpk
  rw [← W.g2_gen] at hx
  obtain ⟨_, v, a, ha⟩ := (C24_accept_sigFor H L W pf s hx msg).1 h
  obtain ⟨_, v', a', ha'⟩ := (C24_accept_sigFor H L W pf s' hx msg).1 h'
  have hvv : v' = v := num_inj (nodeAt_isNode ha'.node) (nodeAt_isNode ha.node)
    (by rw [nodeAt_num_eq ha'.node, nodeAt_num_eq ha.node, ht])
  subst hvv
  set F := sigPoint pp v' (msgField E.sha512 pp.ciphersuite msg) with hF
  have hF0 : rOrder • F = 0 := L.sub1_order _ (L.sub1_sigPoint W _ _)
  have hg0 : rOrder • pp.g2 = 0 := by rw [W.g2_gen]; exact L.sub2_order _ L.gen2_sub
  constructor
  · -- the difference of the exponents, made non-negative with a multiple of the order
    have hle : a ≤ rOrder * a := Nat.le_mul_of_pos_left _ (by decide)
    have e : a + (rOrder * a - a + a') = a' + a * rOrder := by
      rw [Nat.mul_comm a rOrder]; omega
    refine ⟨v', rOrder * a - a + a', ha.node, ?_, ?_⟩
    · rw [ha.sigma1, ha'.sigma1, ← add_smul, e, add_smul, mul_smul, hg0, smul_zero, add_zero]
    · rw [ha.sigma2, ha'.sigma2, add_assoc, ← add_smul, e, add_smul, mul_smul, hF0, smul_zero,
        add_zero]
  · intro he
    exact L.sigma2_of_sigma1 W ha ha' he

/-- C30: anyone can re-randomise an accepted signature, and the result is another signature as soon
as `a·g2` is not zero. -/
theorem C30_rerandomisable [DecidableEq GT] {E : Ext G1 G2 GT} (H : HashLaws E)
    (L : GroupLaws E) {pp : PubParam G1 G2} (W : ParamWF E pp) (pf : Profile)
    {s : Signature G1 G2} {pk : PublicKey G2} (hpk : E.inSub2 pk.pk = true) {msg : Bytes}
    (h : Signature.verifyBytes E pf s pk pp msg = .ok true) {v : List Nat}
    (hv : NodeAt pp.depth s.time v) (a : Nat) :
    let s' := { s with
      sigma1 := s.sigma1 + a • pp.g2
      sigma2 := s.sigma2 + a • sigPoint pp v (msgField E.sha512 pp.ciphersuite msg) }
    Signature.verifyBytes E pf s' pk pp msg = .ok true ∧ (a • pp.g2 ≠ 0 → s' ≠ s) := by
  obtain ⟨x, hx⟩ := L.gen2_gen _ hpk
  rw [← W.g2_gen] at hx
  obtain ⟨hsup, v', b, hb⟩ := (C24_accept_sigFor H L W pf s hx msg).1 h
  have hvv : v' = v := num_inj (nodeAt_isNode hb.node) (nodeAt_isNode hv)
    (by rw [nodeAt_num_eq hb.node, nodeAt_num_eq hv])
  subst hvv
  intro s'
  constructor
  · refine (C24_accept_sigFor H L W pf s' hx msg).2 ⟨hsup, v', b + a, hb.suite, hb.node, ?_, ?_⟩
    · simp only [s']; rw [hb.sigma1, add_smul]
    · simp only [s']; rw [hb.sigma2, add_smul, add_assoc]
  · intro h1 h2
    have := congrArg Signature.sigma1 h2
    simp only [s'] at this
    exact h1 (by simpa using this)

/-! ## C50 -/

/-- C50: on a key and parameters sharing an unsupported ciphersuite, `sign` for a later time moves
the key to that time and then fails with the ciphersuite error - unless the update panicked. -/
theorem C50_sign_advances_and_fails {sha : Bytes → Bytes} (hsha : ∀ m, (sha m).length = 64)
    (pf : Profile) {pp : PubParam G1 G2} (S : ParamShape pp) (hsup : ¬ Supported pp.ciphersuite)
    {alpha : G1} {t tar : Nat} {sk : SecretKey G1 G2} (h : KeyFor pp alpha t sk) (h1 : t < tar)
    (h2 : tar ≤ 2 ^ pp.depth - 1) (msg seed : Bytes) :
    (∃ sk', Signature.sign sha pf tar pp msg seed sk = (.err .ciphersuite, sk') ∧
      KeyFor pp alpha tar sk' ∧ sk'.time ≠ sk.time) ∨
    (Signature.sign sha pf tar pp msg seed sk = (.panic .assertion, sk) ∧
      ∃ k, 1 ≤ k ∧ k < pp.depth ∧ afterDraws sha (reseeded sha sk.prng seed t) k = sk.prng) := by
  have hc : validCiphersuite.contains pp.ciphersuite = false := by
    rw [← Bool.not_eq_true, validCiphersuite_contains]; exact hsup
  rw [Signature.sign_future (by rw [h.time]; exact h1)]
  rcases (C15_update_outcome hsha pf S h tar seed).2 ⟨h1, h2⟩ with ⟨sk', h3, h4⟩ | ⟨h3, h4⟩
  · refine Or.inl ⟨sk', ?_, h4, by rw [h4.time, h.time]; omega⟩
    rw [h3]
    simp only []
    unfold Signature.signBytes
    simp only [hc]
    rfl
  · exact Or.inr ⟨by rw [h3], h4⟩

/-- C50: with a supported ciphersuite, `sign` on an honest key returns a signature or leaves the
key unchanged. -/
theorem C50_sign_atomic {sha : Bytes → Bytes} (hsha : ∀ m, (sha m).length = 64)
    (pf : Profile) {pp : PubParam G1 G2} (S : ParamShape pp) (hsup : Supported pp.ciphersuite)
    {alpha : G1} {t : Nat} {sk : SecretKey G1 G2} (h : KeyFor pp alpha t sk)
    (tar : Nat) (msg seed : Bytes)
    (hf : ∀ sig, (Signature.sign sha pf tar pp msg seed sk).1 ≠ .ok sig) :
    (Signature.sign sha pf tar pp msg seed sk).2 = sk := by
  rcases Nat.lt_trichotomy sk.time tar with h1 | h1 | h1
  · rw [Signature.sign_future h1] at hf ⊢
    rcases hu : SecretKey.update sha pf pp tar seed sk with ⟨r, s'⟩
    have hat := SecretKey.update_atomic sha pf pp tar seed sk
    unfold AtomicAt at hat
    rw [hu] at hat hf
    cases r with
    | ok u =>
      obtain ⟨_, _, h4⟩ := SecretKey.update_ok_keyFor hsha S h hu
      obtain ⟨sig, _, _, h5, _⟩ := Signature.signBytes_keyFor hsha pf S hsup h4 msg
      exact absurd h5 (hf sig)
    | err e => exact hat rfl
    | panic p => exact hat rfl
  · rw [Signature.sign_now h1]
  · rw [Signature.sign_past h1]

/-! ### Concrete cases -/

section Examples
open Pixel.Toy

/-- the public key of `sk0` -/
def toyPk : PublicKey G := { ciphersuite := 1, pk := 3 • (param 5 1).g2 }

/-- an accepted signature of the concrete key -/
theorem toy_sig : ∃ sig, Signature.signPresent sha0 .debug 1 (param 5 1) [1, 2, 3] (sk0 5 1) =
      (.ok sig, sk0 5 1) ∧ sig.time = 1 ∧
    Signature.verifyBytes (ext sha0) .debug sig toyPk (param 5 1) [1, 2, 3] = .ok true := by
  have W := param_wf sha0 (d := 5) (by omega) (by omega) 1
  have hk := keyFor_sk0 (d := 5) (by omega) 1
  have hs : ∀ m, (sha0 m).length = 64 := hashLaws.sha_len
  obtain ⟨sig, v, a, h1, h2, h3⟩ :=
    Signature.signBytes_keyFor hs .debug W.toParamShape (Or.inr rfl) hk [1, 2, 3]
  refine ⟨sig, ?_, h3, ?_⟩
  · rw [Signature.signPresent_eq hk.time, h1]
  · exact SigFor.verifies hashLaws (groupLaws sha0) W .debug (Or.inr rfl) h2 rfl

/-- C24, C27, C29: hypotheses met; C30: by a really different signature -/
example : ∃ sig sig' : Signature G G, sig ≠ sig' ∧ sig.time = sig'.time ∧
    (ext sha0).inSub2 toyPk.pk = true ∧
    Signature.verifyBytes (ext sha0) .debug sig toyPk (param 5 1) [1, 2, 3] = .ok true ∧
    Signature.verifyBytes (ext sha0) .debug sig' toyPk (param 5 1) [1, 2, 3] = .ok true := by
  have W := param_wf sha0 (d := 5) (by omega) (by omega) 1
  obtain ⟨sig, _, ht, hv⟩ := toy_sig
  have hpk : (ext sha0).inSub2 toyPk.pk = true := by
    unfold toyPk
    exact (groupLaws sha0).sub2_nsmul (by simp [ext, param]) 3
  have hn : NodeAt (param 5 1).depth sig.time [] := by
    rw [ht]
    exact ⟨by omega, by decide⟩
  have h := C30_rerandomisable hashLaws (groupLaws sha0) W .debug hpk hv hn 2
  refine ⟨sig, _, fun he => h.2 ?_ he.symm, rfl, hpk, hv, h.1⟩
  decide +kernel

/-- C26: the concrete key at time 1 signs and moves to time 2 -/
example : ∃ sig sk', Signature.signThenUpdate sha0 .debug 1 (param 5 1) [1] [] (sk0 5 1) =
    (.ok sig, sk') ∧ sig.time = 1 ∧ sk'.time = 2 := by
  have W := param_wf sha0 (d := 5) (by omega) (by omega) 1
  have hs : ∀ m, (sha0 m).length = 64 := hashLaws.sha_len
  have key := C26_signs_and_moves_on hashLaws (groupLaws sha0) .debug .debug W (Or.inr rfl)
    (keyFor_sk0 (by omega) 1) (by decide) (pk := toyPk) rfl [1] []
  rw [ext_sha] at key
  rcases key with ⟨sig, sk', h1, h2, _, h4⟩ | ⟨_, k, hk1, hk2, hk3⟩
  · exact ⟨sig, sk', h1, h2, h4.time⟩
  · exact absurd (by rw [afterDraws_eq hs, reseeded_eq hs] at hk3; exact hk3)
      (chain_sk0 1 k hk1 hk2)

/-- C26: a key at the last time stamp -/
example : ∃ sk, KeyFor (param 5 1) (3 • (param 5 1).h) 31 sk := by
  obtain ⟨sk, _, h⟩ := toy_update (tar := 31) (by omega) (by omega)
  exact ⟨sk, h⟩

/-- C50: with ciphersuite 2 the key moves to time 9 although signing fails -/
example : ∃ sk', Signature.sign sha0 .debug 9 (param 5 2) [1] [] (sk0 5 2) =
    (.err .ciphersuite, sk') ∧ sk'.time = 9 := by
  have W := param_wf sha0 (d := 5) (by omega) (by omega) 2
  have hs : ∀ m, (sha0 m).length = 64 := hashLaws.sha_len
  rcases C50_sign_advances_and_fails hs .debug W.toParamShape
    (by rintro (h | h) <;> exact absurd h (by decide)) (keyFor_sk0 (by omega) 2) (tar := 9)
    (by omega) (by decide) [1] [] with ⟨sk', h1, h2, _⟩ | ⟨_, k, hk1, hk2, hk3⟩
  · exact ⟨sk', h1, h2.time⟩
  · exact absurd (by rw [afterDraws_eq hs, reseeded_eq hs] at hk3; exact hk3)
      (chain_sk0 2 k hk1 hk2)

/-- C25, C28: an out-of-range time -/
example : Signature.verifyBytes (ext sha0) .debug
    ({ ciphersuite := 1, time := 32, sigma1 := 0, sigma2 := 0 } : Signature G G) toyPk (param 5 1) []
      = .ok false :=
  C28_rejections hashLaws (param_wf sha0 (d := 5) (by omega) (by omega) 1).toParamShape _ _ _ _
    (Or.inr (Or.inr (Or.inr (Or.inl (by decide)))))

end Examples

end Pixel.Props
