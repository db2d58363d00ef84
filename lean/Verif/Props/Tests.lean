import Verif.Proof.Tests
import Verif.Props.Ffi
import Verif.Props.FfiExact
import Verif.ToyKey

/-!
# C67: when the unit tests of the repository pass

`PassesIff x P`: the test `x` passes if `P` holds and panics if not.
-/

namespace Pixel.Props

open Pixel Pixel.Spec Pixel.Tests

set_option linter.unusedSectionVars false

variable {G1 G2 GT : Type} [AddCommGroup G1] [AddCommGroup G2] [CommGroup GT] [DecidableEq GT]
  {E : Ext G1 G2 GT} {pp : PubParam G1 G2}

/-! ## tests on keys -/

/-- C67: `test_quick_key_update` passes exactly if the updates from time 1 to each of the times, and
the updates one after the other, are possible.  (Its assertion that the PRNG state has changed adds
nothing, for times in the left half of the tree.) -/
theorem C67_quick_key_update (H : HashLaws E) (L : GroupLaws E) (pf : Profile) (W : ParamWF E pp)
    (hc : Supported pp.ciphersuite) {seed : Bytes} (hs : 32 ≤ seed.length) (useed : Bytes) {n : Nat}
    (hn : n ≤ 2 ^ (pp.depth - 1) + 1) :
    PassesIff (quickKeyUpdate E pf pp seed useed n)
      (OneStep E.sha512 pp.depth seed pp.ciphersuite useed n ∧
        InARow E.sha512 pp.depth seed pp.ciphersuite useed n) := by
  obtain ⟨pk, sk, x, e1, e2, e3, e4, e5⟩ := newKey_ok H L W hs hc
  have hd := W.depth_pos
  have hpow : 2 ^ pp.depth = 2 * 2 ^ (pp.depth - 1) := by
    rw [← Nat.pow_succ', Nat.succ_eq_add_one, Nat.sub_add_cancel hd]
  have hone := Nat.one_le_two_pow (n := pp.depth - 1)
  refine PassesIff.bind_ok e1 (PassesIff.seq ?_ fun _ => ?_)
  · refine PassesIff.forRange fun j hj1 hj2 => ?_
    refine (PassesIff.updated (Q := fun _ => True) H pf W e4 (by omega) (by omega) useed
      fun sk' h1 h2 => ?_).congr ?_
    · have hne : sk.prng.eq sk'.prng = false := by
        rw [Bool.eq_false_iff]
        intro h
        exact prngStep_ne h2 (draws_pos hj1 (by omega)) ((Prng.eq_iff e4.prng h1.prng).1 h)
      rw [hne]
      show PassesIff (subKeysValid E pf pp pk sk') True
      rw [subKeysValid_ok L pf W h1 e3]
      exact PassesIff.ok
    · rw [runs_one, ← e5]; simp
  · have := passes_row (g := fun sk _ => subKeysValid E pf pp pk sk >>= fun _ => .ok sk) H pf W useed
      (fun j sk h => by rw [subKeysValid_ok L pf W h e3]; rfl) (n - 2) e4 (by omega)
    rw [e5] at this
    exact this

/-- C67: `test_long_key_update` passes exactly if the updates from time 1 to each of the times, and
from there to each later one, are possible. -/
theorem C67_long_key_update (H : HashLaws E) (L : GroupLaws E) (pf : Profile) (W : ParamWF E pp)
    (hc : Supported pp.ciphersuite) {seed : Bytes} (hs : 32 ≤ seed.length) (useed : Bytes) {n : Nat}
    (hn : n ≤ 2 ^ pp.depth) :
    PassesIff (longKeyUpdate E pf pp seed useed n)
      (TwoSteps E.sha512 pp.depth seed pp.ciphersuite useed n) := by
  obtain ⟨pk, sk, x, e1, e2, e3, e4, e5⟩ := newKey_ok H L W hs hc
  refine PassesIff.bind_ok e1 (PassesIff.forRange fun j hj1 hj2 => ?_)
  refine (PassesIff.updated H pf W e4 (by omega) (by omega) useed
    (Q := fun q => ∀ i, j + 1 ≤ i → i < n → ∃ q', prngStep E.sha512 pp.depth q j i useed = some q')
    fun sk' h1 h2 => ?_).congr ?_
  · refine (PassesIff.seq (PassesIff.forRange fun i hi1 hi2 =>
      (PassesIff.updated (Q := fun _ => True) H pf W h1 (by omega) (by omega) useed
        fun sk'' h3 h4 => ?_)) fun _ => (?_ : PassesIff _ True)).congr ?_
    · rw [subKeysValid_ok L pf W h3 e3]; exact PassesIff.ok
    · show PassesIff (subKeysValid E pf pp pk sk') True
      rw [subKeysValid_ok L pf W h1 e3]; exact PassesIff.ok
    · simp only [and_true]
  · exact twoSteps_iff e5

/-- C67: `test_sk_validation` passes exactly if the updates from time 1 to each of the times are
possible. -/
theorem C67_sk_validation (H : HashLaws E) (L : GroupLaws E) (pf : Profile) (W : ParamWF E pp)
    (hc : Supported pp.ciphersuite) {seed : Bytes} (hs : 32 ≤ seed.length) (useed : Bytes) {n : Nat}
    (hn : n ≤ 2 ^ pp.depth) :
    PassesIff (skValidation E pf pp seed useed n)
      (OneStep E.sha512 pp.depth seed pp.ciphersuite useed n) := by
  obtain ⟨pk, sk, x, e1, e2, e3, e4, e5⟩ := newKey_ok H L W hs hc
  refine PassesIff.bind_ok e1 (PassesIff.bind_ok (validate_ok L pf W e4 e2 e3)
    (PassesIff.forRange fun j hj1 hj2 => ?_))
  refine (PassesIff.updated (Q := fun _ => True) H pf W e4 (by omega) (by omega) useed
    fun sk' h1 h2 => ?_).congr ?_
  · rw [validate_ok L pf W h1 e2 e3]; exact PassesIff.ok
  · rw [runs_one, ← e5]; simp

/-- C67: `test_long_sk_validation` passes exactly if the updates from time 1 to each of the times,
and from there to each later one, are possible. -/
theorem C67_long_sk_validation (H : HashLaws E) (L : GroupLaws E) (pf : Profile) (W : ParamWF E pp)
    (hc : Supported pp.ciphersuite) {seed : Bytes} (hs : 32 ≤ seed.length) (useed : Bytes) {n : Nat}
    (hn : n ≤ 2 ^ pp.depth) :
    PassesIff (longSkValidation E pf pp seed useed n)
      (TwoSteps E.sha512 pp.depth seed pp.ciphersuite useed n) := by
  obtain ⟨pk, sk, x, e1, e2, e3, e4, e5⟩ := newKey_ok H L W hs hc
  refine PassesIff.bind_ok e1 (PassesIff.bind_ok (validate_ok L pf W e4 e2 e3)
    (PassesIff.forRange fun j hj1 hj2 => ?_))
  refine (PassesIff.updated H pf W e4 (by omega) (by omega) useed
    (Q := fun q => ∀ i, j + 1 ≤ i → i < n → ∃ q', prngStep E.sha512 pp.depth q j i useed = some q')
    fun sk' h1 h2 => ?_).congr ?_
  · refine PassesIff.bind_ok (validate_ok L pf W h1 e2 e3) ?_
    refine (PassesIff.forRange fun i hi1 hi2 =>
      (PassesIff.updated (Q := fun _ => True) H pf W h1 (by omega) (by omega) useed
        fun sk'' h3 h4 => ?_)).congr ?_
    · rw [validate_ok L pf W h3 e2 e3]; exact PassesIff.ok
    · simp only [and_true]
  · exact twoSteps_iff e5

/-- C67: the tests on keys that pass whatever the hash function: key generation with an empty seed is
refused, a generated key is not valid for the public key with ciphersuite 1 and point 0, a master key
is valid, the two ways to make a root sub key agree, a re-randomised sub key is valid. -/
theorem C67_key_tests [DecidableEq G1] [DecidableEq G2] (H : HashLaws E) (L : GroupLaws E)
    (pf : Profile) (W : ParamWF E pp) (hc : pp.ciphersuite = 0) {seed : Bytes}
    (hs : 32 ≤ seed.length) (msk r r2 : Fr) :
    negativeKeyGen E pp = .ok () ∧ negativeSk E pf pp seed = .ok () ∧ masterKey E pp seed = .ok () ∧
      Tests.keyGen E pf pp msk r = .ok () ∧ randomizationTest E pf pp msk r r2 = .ok () := by
  have hsup : Supported pp.ciphersuite := Or.inl hc
  refine ⟨?_, ?_, ?_, ?_, ?_⟩
  · unfold negativeKeyGen
    rw [(C12_keygen_outcome H L pf W []).1 (by simp)]
    rfl
  · obtain ⟨pk, sk, pop, h1, h2, _, ⟨x, h3, h4⟩, _, _, h5⟩ :=
      (C12_keygen_outcome H L .debug W seed).2.2 hs hsup
    unfold negativeSk
    rw [h1]
    show mustNot (SecretKey.validate E pf sk { ciphersuite := 1, pk := 0 } pp) = _
    have : SecretKey.validate E pf sk { ciphersuite := 1, pk := 0 } pp = .ok false := by
      unfold SecretKey.validate
      rw [if_pos (Or.inl (by rw [h4.suite, hc]; exact (by decide : (0 : UInt8) ≠ 1)))]
    rw [this]
    rfl
  · obtain ⟨x, prng, pop, h1⟩ := masterKeyGen_ok H (E := E) (pp := pp) hs hsup
    unfold masterKey
    rw [h1]
    show assertRes (validateMasterKey E (mulFr x pp.g2) (mulFr x pp.h) pp) = _
    rw [validateMasterKey_ok L W]
    rfl
  · obtain ⟨s, h1, h2⟩ := C09_init_is_randomization pf W.toParamShape (mulFr msk pp.h) r
    obtain ⟨s', h3, h4⟩ := SubSecretKey.init_for W.toParamShape (mulFr msk pp.h) r
    rw [h1] at h3
    obtain rfl := Res.ok.inj h3
    have ht : s.time ≤ 2 ^ 32 := by
      have := nodeAt_num_eq h4.node
      rw [num_nil] at this
      omega
    have hser := SubSecretKey.serialize_eq E true s
    rw [if_pos ht] at hser
    unfold Tests.keyGen
    simp [h1, h2, mustOk, hser, assertRes]
  · obtain ⟨s, h3, h4⟩ := SubSecretKey.init_for W.toParamShape (mulFr msk pp.h) r
    have hi : PublicKey.init pp (mulFr msk pp.g2) =
        .ok { ciphersuite := pp.ciphersuite, pk := mulFr msk pp.g2 } := by
      unfold PublicKey.init
      rw [hc]
      rfl
    have er := SubKeyFor.randomization_eq W.toParamShape h4 pf r2
    have h5 := h4.rerand r2.val
    unfold randomizationTest
    simp [hi, h3, mustOk, SM.exec, er,
      must_ok (SubSecretKey.validate_honest L W (pf := pf) (x := msk.val)
        (pk := { ciphersuite := pp.ciphersuite, pk := mulFr msk pp.g2 }) h4 rfl),
      must_ok (SubSecretKey.validate_honest L W (pf := pf) (x := msk.val)
        (pk := { ciphersuite := pp.ciphersuite, pk := mulFr msk pp.g2 }) h5 rfl)]

/-- C67: `test_delegate`, with the loops `for i in 2..n`, passes exactly if all times `2, …, n - 1`
are on the leftmost path of the tree, whatever the scalars. -/
theorem C67_delegate (L : GroupLaws E) (pf : Profile) (W : ParamWF E pp)
    (hc : Supported pp.ciphersuite) (msk r r2 : Fr) (n : Nat) :
    PassesIff (delegateTest E pf pp msk r r2 n) (n ≤ pp.depth + 1) := by
  obtain ⟨s, h3, h4⟩ := SubSecretKey.init_for W.toParamShape (mulFr msk pp.h) r
  have hi : PublicKey.init pp (mulFr msk pp.g2) =
      .ok { ciphersuite := pp.ciphersuite, pk := mulFr msk pp.g2 } := by
    unfold PublicKey.init
    rcases hc with h | h <;> rw [h] <;> rfl
  have er := SubKeyFor.randomization_eq W.toParamShape h4 pf r2
  have h5 := h4.rerand r2.val
  have hd := W.depth_pos
  unfold delegateTest
  simp only [hi, h3, mustOk, Res.ok_bind, SM.exec, er,
      must_ok (SubSecretKey.validate_honest L W (pf := pf) (x := msk.val)
        (pk := { ciphersuite := pp.ciphersuite, pk := mulFr msk pp.g2 }) h4 rfl),
      must_ok (SubSecretKey.validate_honest L W (pf := pf) (x := msk.val)
        (pk := { ciphersuite := pp.ciphersuite, pk := mulFr msk pp.g2 }) h5 rfl)]
  obtain ⟨l1, l2⟩ := spine_loop L pf W (x := msk.val)
    (pk := { ciphersuite := pp.ciphersuite, pk := mulFr msk pp.g2 }) rfl r2 (n - 2) (k := 0) h5
    (by omega)
  by_cases hn : n ≤ pp.depth + 1
  · obtain ⟨s', e⟩ := l1 (by omega)
    refine PassesIff.bind_ok e ((PassesIff.forRange (P := fun _ => True) fun i hi1 hi2 => ?_).congr
      (by simp [hn]))
    obtain ⟨s2, rho, e2, _⟩ := delegateRound_ok L pf W (x := msk.val) (k := 0) (k' := i - 1) h4
      (by omega) (by omega) (pk := { ciphersuite := pp.ciphersuite, pk := mulFr msk pp.g2 }) rfl r2
    rw [Nat.sub_add_cancel (by omega)] at e2
    exact PassesIff.bind_ok e2 PassesIff.ok
  · obtain ⟨p, e⟩ := l2 (by omega)
    refine ⟨fun h => absurd h hn, fun _ => ⟨p, ?_⟩⟩
    show (List.foldlM _ _ (List.range' 2 (n - 2)) >>= _) = _
    rw [e]
    rfl

/-- C67: the last assertion of `negative_test_pop` is an assertion about the hash-to-curve: the test
passes exactly if the generator of the first group is not the proof of possession of the secret key
1. -/
theorem C67_negative_pop (L : GroupLaws E) (one : G1) :
    PassesIff (negativePop E one)
      (one ≠ E.hashToG1 (text "Pixel public key POP" ++ E.encG2 true E.gen2) [0]) := by
  have h1 : PublicKey.validate E { ciphersuite := 1, pk := E.gen2 }
      { ciphersuite := 0, pop := one } = false :=
    C13_pop_rejected E _ _ (Or.inl (by decide : (0 : UInt8) ≠ 1))
  have h2 : PublicKey.validate E { ciphersuite := 0, pk := E.gen2 }
      { ciphersuite := 1, pop := one } = false :=
    C13_pop_rejected E _ _ (Or.inl (by decide : (1 : UInt8) ≠ 0))
  unfold negativePop
  simp only [h1, h2]
  refine (passes_assert _).congr ?_
  have h3 := C13_pop_exact L (pk := { ciphersuite := 0, pk := E.gen2 }) (x := 1)
    (by simp) { ciphersuite := 0, pop := one }
  simp only [one_smul, true_and] at h3
  rw [Bool.not_eq_true', Bool.eq_false_iff, ne_eq, h3]
  simp [Supported]

/-! ## tests on signatures -/

/-- C67: `test_quick_signature_tests` passes exactly if the updates from time 1 to each of the times
are possible. -/
theorem C67_quick_signature (H : HashLaws E) (L : GroupLaws E) (pf : Profile) (W : ParamWF E pp)
    (hc : Supported pp.ciphersuite) {seed : Bytes} (hs : 32 ≤ seed.length) (useed msg : Bytes)
    {n : Nat} (hn : n ≤ 2 ^ pp.depth) :
    PassesIff (quickSignature E pf pp seed useed msg n)
      (OneStep E.sha512 pp.depth seed pp.ciphersuite useed n) := by
  obtain ⟨pk, sk, x, e1, e2, e3, e4, e5⟩ := newKey_ok H L W hs hc
  obtain ⟨sig, e6, _⟩ := signed_ok H L pf W hc e4 e3 msg
  refine PassesIff.bind_ok e1 (PassesIff.bind_ok e6 (PassesIff.forRange fun j hj1 hj2 => ?_))
  refine (PassesIff.updated (Q := fun _ => True) H pf W e4 (by omega) (by omega) useed
    fun sk' h1 h2 => ?_).congr ?_
  · obtain ⟨sig', e7, _⟩ := signed_ok H L pf W hc h1 e3 msg
    rw [h1.time]
    exact PassesIff.bind_ok e7 PassesIff.ok
  · rw [runs_one, ← e5]; simp

/-- C67: `test_long_signature_tests` passes exactly if the updates from time 1 to each of the times,
and from there to each later one, are possible. -/
theorem C67_long_signature (H : HashLaws E) (L : GroupLaws E) (pf : Profile) (W : ParamWF E pp)
    (hc : Supported pp.ciphersuite) {seed : Bytes} (hs : 32 ≤ seed.length) (useed msg : Bytes)
    {n : Nat} (hn : n ≤ 2 ^ pp.depth) :
    PassesIff (longSignature E pf pp seed useed msg n)
      (TwoSteps E.sha512 pp.depth seed pp.ciphersuite useed n) := by
  obtain ⟨pk, sk, x, e1, e2, e3, e4, e5⟩ := newKey_ok H L W hs hc
  obtain ⟨sig, e6, _⟩ := signed_ok H L pf W hc e4 e3 msg
  refine PassesIff.bind_ok e1 (PassesIff.bind_ok e6 (PassesIff.forRange fun j hj1 hj2 => ?_))
  refine (PassesIff.updated H pf W e4 (by omega) (by omega) useed
    (Q := fun q => ∀ i, j + 1 ≤ i → i < n → ∃ q', prngStep E.sha512 pp.depth q j i useed = some q')
    fun sk' h1 h2 => ?_).congr ?_
  · refine PassesIff.bind_ok (validate_ok L pf W h1 e2 e3) ?_
    refine (PassesIff.seq (PassesIff.forRange fun i hi1 hi2 =>
      (PassesIff.updated (Q := fun _ => True) H pf W h1 (by omega) (by omega) useed
        fun sk'' h3 h4 => ?_)) fun _ => (?_ : PassesIff _ True)).congr ?_
    · obtain ⟨sig', e7, _⟩ := signed_ok H L pf W hc h3 e3 msg
      rw [h3.time]
      exact PassesIff.bind_ok (validate_ok L pf W h3 e2 e3) (PassesIff.bind_ok e7 PassesIff.ok)
    · obtain ⟨sig', e7, _⟩ := signed_ok H L pf W hc h1 e3 msg
      rw [h1.time]
      exact PassesIff.bind_ok e7 PassesIff.ok
    · simp only [and_true]
  · exact twoSteps_iff e5

/-- C67: `test_quick_aggregated_signature_tests` and `test_long_aggregated_signature_tests` pass
exactly if the updates of each of the keys from time 1 to each of the times are possible. -/
theorem C67_aggregated_signatures (H : HashLaws E) (L : GroupLaws E) (pf : Profile)
    (W : ParamWF E pp) (hc : Supported pp.ciphersuite) {seeds : List Bytes} (hne : seeds ≠ [])
    (hs : ∀ seed ∈ seeds, 32 ≤ seed.length) (useed msg : Bytes) {n : Nat} (hn : n ≤ 2 ^ pp.depth) :
    PassesIff (aggregatedSignatures E pf pp seeds useed msg n)
      (∀ seed ∈ seeds, OneStep E.sha512 pp.depth seed pp.ciphersuite useed n) := by
  obtain ⟨keys, h1, h2⟩ := collect_ok (l := seeds) (f := newKey E pp)
    (R := fun seed k => ∃ x : Nat, k.1.ciphersuite = pp.ciphersuite ∧ k.1.pk = x • pp.g2 ∧
      KeyFor pp (x • pp.h) 1 k.2 ∧ k.2.prng = firstState E.sha512 seed pp.ciphersuite)
    fun seed hseed => by
      obtain ⟨pk, sk, x, e1, e2, e3, e4, e5⟩ := newKey_ok H L W (hs seed hseed) hc
      exact ⟨(pk, sk), e1, x, e2, e3, e4, e5⟩
  have hkey : ∀ k ∈ keys, ∃ seed ∈ seeds, ∃ x : Nat, k.1.ciphersuite = pp.ciphersuite ∧
      k.1.pk = x • pp.g2 ∧ KeyFor pp (x • pp.h) 1 k.2 ∧
      k.2.prng = firstState E.sha512 seed pp.ciphersuite := by
    clear h1 hne hs
    induction h2 with
    | nil => intro k hk; cases hk
    | cons h _ ih =>
      intro k hk
      rcases List.mem_cons.1 hk with rfl | hk
      · exact ⟨_, by simp, h⟩
      · obtain ⟨s, h3, h4⟩ := ih k hk
        exact ⟨s, by simp [h3], h4⟩
  have hkey' : ∀ seed ∈ seeds, ∃ k ∈ keys, k.2.prng = firstState E.sha512 seed pp.ciphersuite := by
    clear h1 hne hs hkey
    induction h2 with
    | nil => intro k hk; cases hk
    | cons h _ ih =>
      intro k hk
      rcases List.mem_cons.1 hk with rfl | hk
      · obtain ⟨x, _, _, _, h⟩ := h
        exact ⟨_, by simp, h⟩
      · obtain ⟨s, h3, h4⟩ := ih k hk
        exact ⟨s, by simp [h3], h4⟩
  obtain ⟨sigs, h3, h4⟩ := collect_ok (l := keys) (f := fun k => signed E pf pp k.1 k.2 1 msg)
    (R := fun k sig => (E.inSub2 k.1.pk = true ∧ k.1.ciphersuite = pp.ciphersuite) ∧
      sig.time = 1 ∧ sig.verifyBytes E pf k.1 pp msg = .ok true)
    fun k hk => by
      obtain ⟨_, _, x, e1, e2, e3, _⟩ := hkey k hk
      obtain ⟨sig, e4, e5, _, e6⟩ := signed_ok H L pf W hc e3 e2 msg
      refine ⟨sig, e4, ⟨?_, e1⟩, e5, e6⟩
      rw [e2, W.g2_gen]
      exact L.sub2_nsmul L.gen2_sub x
  have hagg : aggregated E pf pp (keys.map (·.1)) sigs msg = .ok () := by
    have hl : keys.length = sigs.length := h4.length_eq
    have hz : ∀ p ∈ keys.zip sigs, (E.inSub2 p.1.1.pk = true ∧ p.1.1.ciphersuite = pp.ciphersuite) ∧
      p.2.time = 1 ∧ p.2.verifyBytes E pf p.1.1 pp msg = .ok true :=
      fun p hp => (List.forall₂_iff_zip.1 h4).2 hp
    have hkne : keys ≠ [] := by
      rintro rfl
      exact hne (List.length_eq_zero_iff.1 h2.length_eq)
    obtain ⟨s, a1, _, _, a2⟩ := C31_aggregate_verifies H L W pf msg 1
      ((keys.zip sigs).map fun p => (p.1.1, p.2)) (by
        intro h
        rw [List.map_eq_nil_iff, List.zip_eq_nil_iff, ← List.length_eq_zero_iff (l := sigs), ← hl,
          List.length_eq_zero_iff, or_self] at h
        exact hkne h)
      (by simp only [List.mem_map]; rintro _ ⟨p, hp, rfl⟩; exact (hz p hp).1)
      (by simp only [List.mem_map]; rintro _ ⟨p, hp, rfl⟩; exact (hz p hp).2.1)
      (by simp only [List.mem_map]; rintro _ ⟨p, hp, rfl⟩; exact (hz p hp).2.2)
    have m1 : ((keys.zip sigs).map fun p => (p.1.1, p.2)).map (·.2) = sigs := by
      rw [List.map_map]
      exact List.map_snd_zip hl.ge
    have m2 : ((keys.zip sigs).map fun p => (p.1.1, p.2)).map (·.1) = keys.map (·.1) := by
      rw [List.map_map, ← List.map_fst_zip hl.le, List.map_map]
      simp only [List.map_fst_zip hl.le]
      rfl
    rw [m1] at a1
    rw [m2] at a2
    unfold aggregated
    rw [a1]
    exact must_ok a2
  refine PassesIff.bind_ok h1 (PassesIff.bind_ok h3 (PassesIff.bind_ok hagg ?_))
  refine (PassesIff.forRange (P := fun j => ∀ seed ∈ seeds,
    Runs E.sha512 pp.depth seed pp.ciphersuite [(j, useed)]) fun j hj1 hj2 => ?_).congr
    ⟨fun h seed hseed j a b => h j a b seed hseed, fun h j a b seed hseed => h seed hseed j a b⟩
  rw [hagg]
  refine (PassesIff.seq (Q := True) (PassesIff.forEach (P := fun k => ∃ q,
      prngStep E.sha512 pp.depth k.2.prng 1 j useed = some q) fun k hk => ?_)
      fun _ => PassesIff.ok).congr ?_
  · obtain ⟨_, _, x, f1, f2, f3, _⟩ := hkey k hk
    refine (PassesIff.updated (Q := fun _ => True) H pf W f3 (by omega) (by omega) useed
      fun sk' g1 g2 => ?_).congr (by simp)
    obtain ⟨sig', e7, _⟩ := signed_ok H L pf W hc g1 f2 msg
    rw [g1.time]
    exact PassesIff.bind_ok e7 PassesIff.ok
  · simp only [and_true, runs_one]
    constructor
    · intro h seed hseed
      obtain ⟨k, hk, e⟩ := hkey' seed hseed
      rw [← e]; exact h k hk
    · intro h k hk
      obtain ⟨seed, hseed, _, _, _, _, e⟩ := hkey k hk
      rw [e]; exact h seed hseed

/-- C67: `test_must_fails_time_stamp`, with `tar` for its time 10, passes exactly if the one update it
needs is possible: every call with a wrong time is refused. -/
theorem C67_must_fail_time (H : HashLaws E) (L : GroupLaws E) (pf : Profile) (W : ParamWF E pp)
    (hc : Supported pp.ciphersuite) {seed : Bytes} (hs : 32 ≤ seed.length) (useed msg : Bytes)
    {tar : Nat} (h1 : 2 ≤ tar) (h2 : tar < 2 ^ pp.depth) :
    PassesIff (mustFailTime E pf pp seed msg useed tar)
      (Runs E.sha512 pp.depth seed pp.ciphersuite [(tar, useed)]) := by
  obtain ⟨pk, sk, pop, e1, _, _, ⟨x, e3, e4⟩, _⟩ := (C12_keygen_outcome H L .debug W seed).2.2 hs hc
  have e5 := C62_first_state H W.toParamShape e1
  have w := fun sk' tar' => C25_wrong_time_refused E.sha512 pf pp sk' tar' msg useed
  rw [runs_one, ← e5]
  unfold mustFailTime
  rw [e1]
  simp only [Ffi.unwrap, Res.ok_bind]
  rw [(w sk 2).2.1 (by rw [e4.time]; omega)]
  rcases update_step H.sha_len pf W.toParamShape (tar := tar) e4 (by omega) (by omega) useed with
    ⟨f1, f2⟩ | ⟨sk', f1, f2, f3⟩
  · rw [f1]
    refine ⟨fun ⟨_, h⟩ => (by cases h), fun _ => ⟨.assertion, ?_⟩⟩
    simp [SM.exec, f2, mustOk, mustErr]
  · rw [f1]
    refine ⟨fun _ => ?_, fun h => absurd ⟨_, rfl⟩ h⟩
    have ht := f3.time
    have a1 := (w sk' 0).2.1 (by omega)
    have a2 := (w sk' (tar - 1)).2.1 (by omega)
    have a3 := (w sk' (tar + 1)).2.1 (by omega)
    have a4 := (w sk' 0).1 (by omega)
    have a5 := (w sk' (tar - 1)).1 (by omega)
    obtain ⟨sig, v, a, a7, _⟩ := Signature.signBytes_keyFor H.sha_len pf W.toParamShape hc f3 msg
    have a8 : Signature.sign E.sha512 pf tar pp msg useed sk' = (.ok sig, sk') := by
      rw [Signature.sign_now ht, a7]
    have b := fun tar' (h : tar' ≤ tar) =>
      (C15_update_outcome H.sha_len pf W.toParamShape f3 tar' useed).1 (by omega)
    simp [SM.exec, f2, mustOk, mustErr, a1, a2, a3, a4, a5, a8, b 0 (by omega),
      b (tar - 1) (by omega), b tar (by omega)]

/-- C67: what `test_must_fails_mismatch` depends on.  Let the key pairs have master secrets `x1`, `x2`
(both for the parameter `pp1`) and `x3` (for `pp3`), and let `aij` be the randomness of the signature
of key pair `i` on message `j`.  The test passes exactly if the three proofs of possession differ
and, for each of the wrong combinations it tries, the second part of the signature is not what it
would have been for the wrong key, parameter or message. -/
theorem C67_mismatch (H : HashLaws E) (L : GroupLaws E) (pf : Profile) {pp1 pp3 : PubParam G1 G2}
    (W1 : ParamWF E pp1) (W3 : ParamWF E pp3) (hc : Supported pp1.ciphersuite)
    (he : pp3.ciphersuite = pp1.ciphersuite) {seed1 seed2 seed3 msg1 msg2 : Bytes}
    (hs1 : 32 ≤ seed1.length) (hs2 : 32 ≤ seed2.length) (hs3 : 32 ≤ seed3.length) :
    ∃ (pk1 pk2 pk3 : PublicKey G2) (sk1 sk2 sk3 : SecretKey G1 G2)
      (pop1 pop2 pop3 : ProofOfPossession G1) (sig11 sig12 sig21 sig22 : Signature G1 G2)
      (x1 x2 x3 a11 a12 a21 a22 : Nat),
      keygen E seed1 pp1 = .ok (pk1, sk1, pop1) ∧ keygen E seed2 pp1 = .ok (pk2, sk2, pop2) ∧
      keygen E seed3 pp3 = .ok (pk3, sk3, pop3) ∧
      pk1.pk = x1 • E.gen2 ∧ pk2.pk = x2 • E.gen2 ∧ pk3.pk = x3 • E.gen2 ∧
      Signature.signBytes E.sha512 pf sk1 1 pp1 msg1 = .ok sig11 ∧ sig11.sigma1 = a11 • E.gen2 ∧
      Signature.signBytes E.sha512 pf sk1 1 pp1 msg2 = .ok sig12 ∧ sig12.sigma1 = a12 • E.gen2 ∧
      Signature.signBytes E.sha512 pf sk2 1 pp1 msg1 = .ok sig21 ∧ sig21.sigma1 = a21 • E.gen2 ∧
      Signature.signBytes E.sha512 pf sk2 1 pp1 msg2 = .ok sig22 ∧ sig22.sigma1 = a22 • E.gen2 ∧
      let pop := fun (x : Nat) (k : G2) =>
        x • E.hashToG1 (text "Pixel public key POP" ++ E.encG2 true k) [pp1.ciphersuite]
      let m1 := msgField E.sha512 pp1.ciphersuite msg1
      let m2 := msgField E.sha512 pp1.ciphersuite msg2
      let p1 := sigPoint pp1 []
      let p3 := sigPoint pp3 []
      PassesIff (mismatch E pf pp1 pp3 seed1 seed2 seed3 msg1 msg2)
        (pop x1 pk1.pk ≠ pop x2 pk2.pk ∧ pop x1 pk1.pk ≠ pop x3 pk3.pk ∧
          pop x2 pk2.pk ≠ pop x3 pk3.pk ∧
          x1 • pp1.h + a11 • p1 m1 ≠ x2 • pp1.h + a11 • p1 m1 ∧
          x1 • pp1.h + a11 • p1 m1 ≠ x1 • pp3.h + a11 • p3 m1 ∧
          x1 • pp1.h + a11 • p1 m1 ≠ x1 • pp1.h + a11 • p1 m2 ∧
          x1 • pp1.h + a12 • p1 m2 ≠ x1 • pp1.h + a12 • p1 m1 ∧
          x2 • pp1.h + a21 • p1 m1 ≠ x1 • pp1.h + a21 • p1 m1 ∧
          x2 • pp1.h + a21 • p1 m1 ≠ x1 • pp3.h + a21 • p3 m1 ∧
          x2 • pp1.h + a21 • p1 m1 ≠ x1 • pp1.h + a21 • p1 m2 ∧
          x2 • pp1.h + a22 • p1 m2 ≠ x1 • pp1.h + a22 • p1 m1) := by
  have hc3 : Supported pp3.ciphersuite := he ▸ hc
  obtain ⟨pk1, sk1, pop1, k1, u1, w1, ⟨x1, y1, z1⟩, _, _, v1⟩ :=
    (C12_keygen_outcome H L pf W1 seed1).2.2 hs1 hc
  obtain ⟨pk2, sk2, pop2, k2, u2, w2, ⟨x2, y2, z2⟩, _, _, v2⟩ :=
    (C12_keygen_outcome H L pf W1 seed2).2.2 hs2 hc
  obtain ⟨pk3, sk3, pop3, k3, u3, w3, ⟨x3, y3, z3⟩, _, _, v3⟩ :=
    (C12_keygen_outcome H L pf W3 seed3).2.2 hs3 hc3
  have hsig : ∀ {sk : SecretKey G1 G2} {x : Nat}, KeyFor pp1 (x • pp1.h) 1 sk → ∀ msg,
      ∃ (sig : Signature G1 G2) (a : Nat), Signature.signBytes E.sha512 pf sk 1 pp1 msg = .ok sig ∧
        SigFor pp1 (x • pp1.h) [] (msgField E.sha512 pp1.ciphersuite msg) a sig ∧ sig.time = 1 := by
    intro sk x h msg
    obtain ⟨sig, v, a, h1, h2, h3⟩ := Signature.signBytes_keyFor H.sha_len pf W1.toParamShape hc h msg
    have hn := h2.node
    rw [h3] at hn
    obtain rfl : v = [] := nodeAt_unique hn (spine_node (k := 0) W1.depth_pos)
    exact ⟨sig, a, h1, h2, h3⟩
  obtain ⟨sig11, a11, s11, f11, t11⟩ := hsig z1 msg1
  obtain ⟨sig12, a12, s12, f12, t12⟩ := hsig z1 msg2
  obtain ⟨sig21, a21, s21, f21, t21⟩ := hsig z2 msg1
  obtain ⟨sig22, a22, s22, f22, t22⟩ := hsig z2 msg2
  have g := W1.g2_gen
  have g3 := W3.g2_gen
  refine ⟨pk1, pk2, pk3, sk1, sk2, sk3, pop1, pop2, pop3, sig11, sig12, sig21, sig22, x1, x2, x3,
    a11, a12, a21, a22, k1, k2, k3, by rw [y1, g], by rw [y2, g], by rw [y3, g3],
    s11, by rw [f11.sigma1, g], s12, by rw [f12.sigma1, g], s21, by rw [f21.sigma1, g],
    s22, by rw [f22.sigma1, g], ?_⟩
  intro pop m1 m2 p1 p3
  have hp : PassesIff (mismatchPops E (pk1, pop1) (pk2, pop2) (pk3, pop3))
      (pop x1 pk1.pk ≠ pop x2 pk2.pk ∧ pop x1 pk1.pk ≠ pop x3 pk3.pk ∧
        pop x2 pk2.pk ≠ pop x3 pk3.pk) := by
    have q := fun {k k' : PublicKey G2} {p p' : ProofOfPossession G1} {x x' : Nat}
      (hk : k.pk = x • E.gen2) (hk' : k'.pk = x' • E.gen2) (h1 : k.ciphersuite = pp1.ciphersuite)
      (h2 : k'.ciphersuite = pp1.ciphersuite) (hp : k.validate E p = true)
      (hp' : k'.validate E p' = true) =>
      (show PassesIff (assertRes (!k.validate E p')) (pop x k.pk ≠ pop x' k'.pk) by
        have := pop_other L hk hk' (h1.trans h2.symm) hp hp'
        rwa [h1, h2] at this)
    have e1 : pk1.pk = x1 • E.gen2 := by rw [y1, g]
    have e2 : pk2.pk = x2 • E.gen2 := by rw [y2, g]
    have e3 : pk3.pk = x3 • E.gen2 := by rw [y3, g3]
    have u3' := u3.trans he
    have ok : ∀ {k : PublicKey G2} {p : ProofOfPossession G1}, k.validate E p = true →
      assertRes (k.validate E p) = .ok () := fun h => by rw [h]; rfl
    unfold mismatchPops
    refine PassesIff.bind_ok (ok v1) ((PassesIff.seq (q e1 e2 u1 u2 v1 v2) fun _ =>
      PassesIff.seq (q e1 e3 u1 u3' v1 v3) fun _ => PassesIff.bind_ok (ok v2) (PassesIff.seq
      (q e2 e1 u2 u1 v2 v1) fun _ => PassesIff.seq (q e2 e3 u2 u3' v2 v3) fun _ =>
      PassesIff.bind_ok (ok v3) (PassesIff.seq (q e3 e1 u3' u1 v3 v1) fun _ =>
      q e3 e2 u3' u2 v3 v2))).congr ?_)
    simp only [ne_comm (a := pop x2 pk2.pk) (b := pop x1 pk1.pk),
      ne_comm (a := pop x3 pk3.pk)]
    tauto
  have o1 := fun {x x' a : Nat} {M : Fr} {s : Signature G1 G2} {k : PublicKey G2}
    (h : SigFor pp1 (x • pp1.h) [] M a s) (ht : s.time = 1) (hk : k.pk = x' • pp1.g2) msg =>
    accept_other H L pf W1 W1 hc rfl h ht hk msg
  have o3 := fun {x x' a : Nat} {M : Fr} {s : Signature G1 G2} {k : PublicKey G2}
    (h : SigFor pp1 (x • pp1.h) [] M a s) (ht : s.time = 1) (hk : k.pk = x' • pp3.g2) msg =>
    he ▸ accept_other H L pf W1 W3 hc3 he h ht hk msg
  have y1' : pk1.pk = x1 • pp3.g2 := by rw [y1, g, g3]
  have n1 := must_ok (SigFor.verifies H L W1 pf hc f11 y1)
  have n2 := must_ok (SigFor.verifies H L W1 pf hc f21 y2)
  have r1 := o1 f11 t11 y2 msg1
  have r2 := o3 f11 t11 y1' msg1
  have r3 := o1 f11 t11 y1 msg2
  have r4 := o1 f12 t12 y1 msg1
  have r5 := o1 f21 t21 y1 msg1
  have r6 := o3 f21 t21 y1' msg1
  have r7 := o1 f21 t21 y1 msg2
  have r8 := o1 f22 t22 y1 msg1
  clear o1 o3 hsig
  unfold mismatch
  simp only [k1, k2, k3, Ffi.unwrap, Res.ok_bind, s11, s12, s21, s22, mustOk, n1, n2]
  exact (PassesIff.seq hp fun _ => PassesIff.seq r1 fun _ => PassesIff.seq r2 fun _ =>
    PassesIff.seq r3 fun _ => PassesIff.seq r4 fun _ => PassesIff.seq r5 fun _ =>
    PassesIff.seq r6 fun _ => PassesIff.seq r7 fun _ => r8).congr
    ⟨fun h => ⟨h.1.1, h.1.2.1, h.1.2.2, h.2⟩, fun h => ⟨⟨h.1, h.2.1, h.2.2.1⟩, h.2.2.2⟩⟩

/-! ## tests on serialization -/

/-- C67: `test_sk_serialization_rand` passes exactly if the updates from time 1 to each of the times
are possible. -/
theorem C67_sk_serialization [DecidableEq G1] [DecidableEq G2] (H : HashLaws E) (L : GroupLaws E)
    (C : CodecLaws E) (pf : Profile) (W : ParamWF E pp) (hd : pp.depth ≤ 32)
    (hc : Supported pp.ciphersuite) {seed : Bytes} (hs : 32 ≤ seed.length) (useed : Bytes) {n : Nat}
    (hn : n ≤ 2 ^ pp.depth) :
    PassesIff (skRand E pf pp seed useed n)
      (OneStep E.sha512 pp.depth seed pp.ciphersuite useed n) := by
  obtain ⟨pk, sk, x, e1, e2, e3, e4, e5⟩ := newKey_ok H L W hs hc
  have hw := fun t sk (h : KeyFor pp (x • pp.h) t sk) =>
    skWrite_ok C pf W.toParamShape h (KeyFor.skValid L W hd hc (L.sub1_nsmul W.h_sub x) h)
  refine PassesIff.bind_ok e1 (PassesIff.bind_ok (hw 1 sk e4) (PassesIff.forRange fun j hj1 hj2 => ?_))
  refine (PassesIff.updated (Q := fun _ => True) H pf W e4 (by omega) (by omega) useed
    fun sk' h1 h2 => ?_).congr ?_
  · refine PassesIff.bind_ok (validate_ok L pf W h1 e2 e3) ?_
    rw [hw j sk' h1]
    exact PassesIff.ok
  · rw [runs_one, ← e5]; simp

/-- C67: the other three serialization tests pass whatever the hash function. -/
theorem C67_serialization [DecidableEq G1] [DecidableEq G2] (H : HashLaws E) (L : GroupLaws E)
    (C : CodecLaws E) (pf : Profile) (W : ParamWF E pp) (hd : pp.depth ≤ 32)
    (hc : Supported pp.ciphersuite) {seed : Bytes} (hs : 32 ≤ seed.length) (msg : Bytes)
    (msk r : Fr) :
    sskRand E pp msk r = .ok () ∧ pkRand E pp seed = .ok () ∧ sigRand E pf pp seed msg = .ok () := by
  obtain ⟨pk, sk, x, e1, e2, e3, e4, e5⟩ := newKey_ok H L W hs hc
  refine ⟨?_, ?_, ?_⟩
  · obtain ⟨s, h1, h2⟩ := SubSecretKey.init_for W.toParamShape (mulFr msk pp.h) r
    have hv : SubValid E s := subValid L W hd (L.sub1_nsmul W.h_sub msk.val) h2
    have ht : s.time ≤ 2 ^ 32 := hv.time_lt.le
    have hser := SubSecretKey.serialize_eq E true s
    rw [if_pos ht] at hser
    have hde := SubSecretKey.deserialize_layout C true hv []
    rw [List.append_nil] at hde
    have hl := subLayout_length C s
    unfold sskRand
    simp [h1, hser, mustOk, hl, reread, hde, SecretKey.sskEq, assertRes, Ffi.unwrap]
  · have hv : PkValid E pk := ⟨by rw [e2]; exact hc, by
      rw [e3, W.g2_gen]; exact L.sub2_nsmul L.gen2_sub x⟩
    obtain ⟨s1, s2⟩ := C36_public_key C true hv []
    rw [List.append_nil] at s2
    have hl := ((C37_fixed_sizes C).1 _ _ s1).1
    unfold pkRand
    simp [e1, s1, mustOk, hl, reread, s2, (C49_public_key_eq pk pk).2 rfl, assertRes, Ffi.unwrap]
  · obtain ⟨sig, h1, h2, h3, h4⟩ := signed_ok H L pf W hc e4 e3 msg
    have hv := C36_accepted_signature H W.toParamShape hd pf h4
    obtain ⟨s1, s2⟩ := C36_signature C hv []
    rw [List.append_nil] at s2
    have hl := (C37_fixed_sizes C).2.1 _ _ s1
    unfold sigRand
    simp [e1, h1, s1, mustOk, hl, reread, s2, (C49_signature_eq sig sig).2 ⟨rfl, rfl⟩, assertRes,
      Ffi.unwrap]

/-! ## the tests of the API, of the C interface and of the getters -/

/-- C67: `test_pixel_api` passes exactly if the updates one after the other, and the updates from
time 1 to each of the times, are possible. -/
theorem C67_api (H : HashLaws E) (L : GroupLaws E) (pf : Profile) (W : ParamWF E pp)
    (hc : Supported pp.ciphersuite) {seed : Bytes} (hs : 32 ≤ seed.length) (useed msg : Bytes)
    {n : Nat} (hn : n ≤ 2 ^ pp.depth) :
    PassesIff (api E pf pp seed useed msg n)
      (InARow E.sha512 pp.depth seed pp.ciphersuite useed n ∧
        OneStep E.sha512 pp.depth seed pp.ciphersuite useed n) := by
  obtain ⟨pk, sk, x, e1, e2, e3, e4, e5⟩ := newKey_ok H L W hs hc
  have hd := W.depth_pos
  have h1 := Nat.one_le_two_pow (n := pp.depth - 1)
  have hpow : 2 ^ pp.depth = 2 * 2 ^ (pp.depth - 1) := by
    rw [← Nat.pow_succ', Nat.succ_eq_add_one, Nat.sub_add_cancel hd]
  refine PassesIff.bind_ok e1 (PassesIff.bind_ok (apiSign_now H L pf W hc e4 e3 useed msg) ?_)
  have hrow := passes_row (g := fun sk j => apiSign E pf pp pk useed msg sk j) H pf W useed
      (fun j sk h => apiSign_now H L pf W hc h e3 useed msg) (n - 2) e4 (by omega)
  rw [e5] at hrow
  have hloop : PassesIff (forRange 2 n fun j => apiSign E pf pp pk useed msg sk j >>= fun _ => .ok ())
      (OneStep E.sha512 pp.depth seed pp.ciphersuite useed n) := by
    refine PassesIff.forRange fun j hj1 hj2 => ?_
    rw [runs_one, ← e5]
    exact apiSign_later H L pf W hc e4 (by omega) (by omega) e3 useed msg
  have := PassesIff.seq (y := fun _ => forRange 2 n fun j =>
    apiSign E pf pp pk useed msg sk j >>= fun _ => .ok ()) hrow fun _ => hloop
  rwa [bind_assoc'] at this

/-- C67: `test_pixel_ffi_basic` passes exactly if the updates from time 1 to each of the times, with
the key generation seed for update seed, are possible. -/
theorem C67_ffi_basic (H : HashLaws E) (L : GroupLaws E) (C : CodecLaws E) (D : DefaultLaws E)
    (pf : Profile) {seed : Bytes} (hs : 32 ≤ seed.length) (msg : Bytes) {n : Nat}
    (hn : n ≤ 2 ^ 32) :
    PassesIff (ffiBasic E pf seed msg n)
      (OneStep E.sha512 32 seed E.defaultParam.ciphersuite seed n) := by
  obtain ⟨keys, sk, x, e1, e2, e3, e4, e5, e6, e7⟩ := cKeygen_ok H L C D pf hs
  have hsign := fun us b (hb : cUpdates E pf keys.sk us = .ok b) =>
    (C46_end_to_end H L C D pf e1 hb msg).1
  obtain ⟨sig, s1, _, _, s2⟩ := hsign [] keys.sk rfl
  refine PassesIff.bind_ok e6 (PassesIff.bind_ok e1 (PassesIff.bind_ok (must_ok e7)
    (PassesIff.bind_ok s1 (PassesIff.bind_ok (must_ok s2) (PassesIff.forRange fun j hj1 hj2 => ?_)))))
  rw [runs_one, ← e5]
  have hex := C62_c_program_exact H L C D pf e4 [(j, seed)]
  rw [← e3] at hex
  simp only [cUpdates, prngStream, Increasing, and_true] at hex
  have hr : 1 < j ∧ j ≤ 2 ^ 32 - 1 := by omega
  have hup := Ffi.cSkUpdate_honest H L C D pf e4 seed j []
  rw [List.append_nil, ← e3] at hup
  rcases hup.2 hr with ⟨sk', _, h2⟩ | ⟨h2, _⟩
  · have h3 : ∃ q, prngStep E.sha512 32 sk.prng 1 j seed = some q := by
      rw [h2] at hex
      have := (hex.1 ⟨_, rfl⟩).2
      cases h : prngStep E.sha512 32 sk.prng 1 j seed with
      | none => rw [h] at this; simp at this
      | some q => exact ⟨q, rfl⟩
    obtain ⟨sig', s3, _, _, s4⟩ := hsign [(j, seed)] _ (by rw [cUpdates, h2]; rfl)
    refine (PassesIff.bind_ok h2 (PassesIff.bind_ok s3 ?_)).congr (iff_of_true trivial h3)
    rw [must_ok s4]
    exact PassesIff.ok
  · refine ⟨fun ⟨q, hq⟩ => ?_, fun _ => ⟨.assertion, by rw [h2]; rfl⟩⟩
    rw [hq, h2] at hex
    obtain ⟨b, hb⟩ := hex.2 ⟨hr, rfl⟩
    cases hb

/-- C67: `test_pixel_ffi_aggregation` passes whatever the hash function. -/
theorem C67_ffi_aggregation (H : HashLaws E) (L : GroupLaws E) (C : CodecLaws E) (D : DefaultLaws E)
    (pf : Profile) {seed1 seed2 : Bytes} (h1 : 32 ≤ seed1.length) (h2 : 32 ≤ seed2.length)
    (msg : Bytes) : ffiAggregation E pf seed1 seed2 msg = .ok () := by
  obtain ⟨k1, sk1, x1, a1, a2, a3, _⟩ := cKeygen_ok H L C D pf h1
  obtain ⟨k2, sk2, x2, b1, b2, b3, _⟩ := cKeygen_ok H L C D pf h2
  obtain ⟨sig1, a4, _, a5, a6⟩ := (C46_end_to_end H L C D pf a1 (us := []) rfl msg).1
  obtain ⟨sig2, b4, _, b5, b6⟩ := (C46_end_to_end H L C D pf b1 (us := []) rfl msg).1
  obtain ⟨agg, c1, _, c2⟩ := C46_aggregate H L C D pf msg 1 [(k1.pk, sig1), (k2.pk, sig2)] (by simp)
    (by
      intro p hp
      simp only [List.mem_cons, List.not_mem_nil, or_false] at hp
      rcases hp with rfl | rfl
      · simp only [a2]; rfl
      · simp only [b2]; rfl)
    (by
      intro p hp
      simp only [List.mem_cons, List.not_mem_nil, or_false] at hp
      rcases hp with rfl | rfl
      · simp only [a5]; decide
      · simp only [b5]; decide)
    (by
      intro p hp
      simp only [List.mem_cons, List.not_mem_nil, or_false] at hp
      rcases hp with rfl | rfl
      · exact a6
      · exact b6)
  simp only [List.map_cons, List.map_nil] at c1 c2
  rw [lastTime] at a4 b4
  unfold ffiAggregation
  simp [a1, b1, a4, b4, c1, must_ok c2]

/-- C67: `test_ssk_getter` passes, and `test_sk_getter` passes exactly if the parameter has
ciphersuite 0. -/
theorem C67_getters (H : HashLaws E) (L : GroupLaws E) (C : CodecLaws E) (W : ParamWF E pp)
    (hd : pp.depth ≤ 32) (hc : Supported pp.ciphersuite) {seed : Bytes} (hs : 32 ≤ seed.length) :
    sskGetter E pp seed = .ok () ∧ PassesIff (skGetter E pp seed) (pp.ciphersuite = 0) := by
  obtain ⟨pk, sk, pop, e1, _, _, ⟨x, e3, e4⟩, _⟩ := (C12_keygen_outcome H L .debug W seed).2.2 hs hc
  constructor
  · obtain ⟨vs, hvs, h2⟩ := e4.ssk
    have := (C15_no_past e4).2.1
    unfold sskGetter
    rw [e1]
    cases hl : sk.ssk with
    | nil => rw [hl] at this; simp at this
    | cons s l =>
      rw [hl] at this
      simp at this
      simp [Ffi.unwrap, SecretKey.firstSsk, hl, this, assertRes]
  · have hv := KeyFor.skValid L W hd hc (L.sub1_nsmul W.h_sub x) e4
    obtain ⟨s1, _⟩ := C36_secret_key C true hv []
    have hdig := (C41_digest C hv.seed s1).1
    unfold skGetter
    rw [e1]
    refine ((passes_assert _).seq (Q := True) fun _ => ?_).congr
      (by rw [decide_eq_true_iff, e4.suite, and_true])
    simp [e4.time, hdig, mustOk, assertRes, PassesIff.ok]

end Pixel.Props
