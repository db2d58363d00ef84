import Verif.Fast.UnitTests
import Verif.Props.Runs
import Verif.Props.Tests

/-!
# C67: the unit tests with their own constants, SHA-512 and BLS12-381
-/

namespace Pixel.Props

open Pixel Pixel.Spec Pixel.Curve Pixel.Tests

set_option linter.unusedSectionVars false

variable {GT : Type} [CommGroup GT] [DecidableEq GT]

/-- `b"message to sign"`, `/repo/src/test/sig.rs` 82, 136, 169, 236, 303, `serdes.rs` 153, `api.rs` 21,
`ffi.rs` 8, 36 -/
def testMsg : Bytes := text "message to sign"

/-- C67: the tests on keys pass, with the seeds and the loop bounds of the repository, for every
well-formed parameter of depth 32 with ciphersuite 0 and every choice of their random scalars. -/
theorem C67_keys_pass {R : Rest GT} [DecidableEq P1] [DecidableEq P2] (h : Real R) (pf : Profile)
    {pp : PubParam P1 P2} (W : ParamWF (bls R) pp) (hd : pp.depth = 32) (hc : pp.ciphersuite = 0)
    (msk r r2 : Fr) :
    negativeKeyGen (bls R) pp = .ok () ∧
    negativeSk (bls R) pf pp Fast.testSeed = .ok () ∧
    masterKey (bls R) pp Fast.testSeed = .ok () ∧
    quickKeyUpdate (bls R) pf pp Fast.testSeed [] 16 = .ok () ∧
    longKeyUpdate (bls R) pf pp Fast.testSeed [] 16 = .ok () ∧
    skValidation (bls R) pf pp Fast.testSeed [] 16 = .ok () ∧
    longSkValidation (bls R) pf pp Fast.testSeed [] 16 = .ok () ∧
    Tests.keyGen (bls R) pf pp msk r = .ok () ∧
    randomizationTest (bls R) pf pp msk r r2 = .ok () ∧
    delegateTest (bls R) pf pp msk r r2 5 = .ok () := by
  obtain ⟨H, L, C, D⟩ := C65_assumptions h.sha h.pairing h.hash h.param
  have hsup : Supported pp.ciphersuite := Or.inl hc
  have hs : 32 ≤ Fast.testSeed.length := by rw [Fast.testSeed_length]; omega
  have hsha : (bls R).sha512 = Sha512.sha512 := h.sha
  have hn : 16 ≤ 2 ^ pp.depth := by rw [hd]; decide
  have one : OneStep (bls R).sha512 pp.depth Fast.testSeed pp.ciphersuite [] 16 := by
    rw [hsha, hd, hc]; exact Fast.oneStep_of Fast.test_15
  have two : TwoSteps (bls R).sha512 pp.depth Fast.testSeed pp.ciphersuite [] 16 := by
    rw [hsha, hd, hc]; exact Fast.twoSteps_of Fast.test_15 Fast.test_two
  have row : InARow (bls R).sha512 pp.depth Fast.testSeed pp.ciphersuite [] 16 := by
    rw [hsha, hd, hc]; exact Fast.test_row
  obtain ⟨t1, t2, t3, t4, t5⟩ := C67_key_tests H L pf W hc hs msk r r2
  exact ⟨t1, t2, t3,
    (C67_quick_key_update H L pf W hsup hs [] (by rw [hd]; decide)).1 ⟨one, row⟩,
    (C67_long_key_update H L pf W hsup hs [] hn).1 two,
    (C67_sk_validation H L pf W hsup hs [] hn).1 one,
    (C67_long_sk_validation H L pf W hsup hs [] hn).1 two, t4, t5,
    (C67_delegate L pf W hsup msk r r2 5).1 (by rw [hd]; decide)⟩

/-- C67: so do the tests on signatures, on serialization, on the API and the getters. -/
theorem C67_signatures_pass {R : Rest GT} [DecidableEq P1] [DecidableEq P2] (h : Real R)
    (pf : Profile) {pp : PubParam P1 P2} (W : ParamWF (bls R) pp) (hd : pp.depth = 32)
    (hc : pp.ciphersuite = 0) (msk r : Fr) :
    mustFailTime (bls R) pf pp Fast.testSeed testMsg [] 10 = .ok () ∧
    quickSignature (bls R) pf pp Fast.testSeed [] testMsg 16 = .ok () ∧
    longSignature (bls R) pf pp Fast.testSeed [] testMsg 16 = .ok () ∧
    aggregatedSignatures (bls R) pf pp Fast.aggSeeds [] testMsg 16 = .ok () ∧
    sskRand (bls R) pp msk r = .ok () ∧
    skRand (bls R) pf pp Fast.testSeed [] 16 = .ok () ∧
    pkRand (bls R) pp Fast.testSeed = .ok () ∧
    sigRand (bls R) pf pp Fast.testSeed testMsg = .ok () ∧
    api (bls R) pf pp Fast.apiSeed [] testMsg 16 = .ok () ∧
    skGetter (bls R) pp Fast.testSeed = .ok () ∧
    sskGetter (bls R) pp Fast.testSeed = .ok () := by
  obtain ⟨H, L, C, D⟩ := C65_assumptions h.sha h.pairing h.hash h.param
  have hsup : Supported pp.ciphersuite := Or.inl hc
  have hs : 32 ≤ Fast.testSeed.length := by rw [Fast.testSeed_length]; omega
  have hs' : 32 ≤ Fast.apiSeed.length := by rw [Fast.apiSeed_length]; omega
  have hsha : (bls R).sha512 = Sha512.sha512 := h.sha
  have hn : 16 ≤ 2 ^ pp.depth := by rw [hd]; decide
  have one : OneStep (bls R).sha512 pp.depth Fast.testSeed pp.ciphersuite [] 16 := by
    rw [hsha, hd, hc]; exact Fast.oneStep_of Fast.test_15
  have two : TwoSteps (bls R).sha512 pp.depth Fast.testSeed pp.ciphersuite [] 16 := by
    rw [hsha, hd, hc]; exact Fast.twoSteps_of Fast.test_15 Fast.test_two
  have agg : ∀ s ∈ Fast.aggSeeds, OneStep (bls R).sha512 pp.depth s pp.ciphersuite [] 16 := by
    intro s hs
    rw [hsha, hd, hc]; exact Fast.oneStep_of (Fast.agg_15 s hs)
  have aone : OneStep (bls R).sha512 pp.depth Fast.apiSeed pp.ciphersuite [] 16 := by
    rw [hsha, hd, hc]; exact Fast.oneStep_of Fast.api_15
  have arow : InARow (bls R).sha512 pp.depth Fast.apiSeed pp.ciphersuite [] 16 := by
    rw [hsha, hd, hc]; exact Fast.api_row
  obtain ⟨t1, t2, t3⟩ := C67_serialization H L C pf W (by omega) hsup hs testMsg msk r
  obtain ⟨t4, t5⟩ := C67_getters H L C W (by omega) hsup hs
  exact ⟨(C67_must_fail_time H L pf W hsup hs [] testMsg (by omega) (by rw [hd]; decide)).1
      (one 10 (by omega) (by omega)),
    (C67_quick_signature H L pf W hsup hs [] testMsg hn).1 one,
    (C67_long_signature H L pf W hsup hs [] testMsg hn).1 two,
    (C67_aggregated_signatures H L pf W hsup (by decide)
      (fun s hs => by rw [Fast.aggSeeds_length s hs]; omega) [] testMsg hn).1 agg,
    t1, (C67_sk_serialization H L C pf W (by omega) hsup hs [] hn).1 one, t2, t3,
    (C67_api H L pf W hsup hs' [] testMsg hn).1 ⟨arow, aone⟩, t5.1 hc, t4⟩

/-- `let seed2 = "This is another very very long seed for testing"`, `/repo/src/test/ffi.rs` 35 -/
def ffiSeed2 : Bytes := text "This is another very very long seed for testing"

/-- C67: so do the tests of the C interface. -/
theorem C67_ffi_pass {R : Rest GT} (h : Real R) (pf : Profile) :
    ffiBasic (bls R) pf Fast.ffiSeed testMsg 16 = .ok () ∧
    ffiAggregation (bls R) pf Fast.ffiSeed ffiSeed2 testMsg = .ok () := by
  obtain ⟨H, L, C, D⟩ := C65_assumptions h.sha h.pairing h.hash h.param
  have hs : 32 ≤ Fast.ffiSeed.length := by rw [Fast.ffiSeed_length]; omega
  refine ⟨(C67_ffi_basic H L C D pf hs testMsg (by decide)).1 ?_,
    C67_ffi_aggregation H L C D pf hs (by decide +kernel) testMsg⟩
  rw [show (bls R).defaultParam.ciphersuite = 0 from h.suite,
    show (bls R).sha512 = Sha512.sha512 from h.sha]
  exact Fast.oneStep_of Fast.ffi_15

/-! ### concrete cases -/

open Toy

/-- the assumptions of `C67_keys_pass` and `C67_signatures_pass` are met by the default parameter -/
example {R : Rest GT} (h : Real R) : ParamWF (bls R) R.defaultParam ∧ R.defaultParam.depth = 32 ∧
    R.defaultParam.ciphersuite = 0 := by
  obtain ⟨H, L, C, D⟩ := C65_assumptions h.sha h.pairing h.hash h.param
  exact ⟨D.wf, D.depth, h.suite⟩

/-- with a constant hash function the same tests panic: they do depend on the hash function -/
example (sha : Bytes → Bytes) (e : sha = fun _ => List.replicate 64 0) :
    (∃ p, quickSignature (ext sha) .debug (param 5 0) (List.replicate 32 7) [] testMsg 3 = .panic p) ∧
    ∃ p, mustFailTime (ext sha) .debug (param 5 0) (List.replicate 32 7) testMsg [] 10 = .panic p := by
  subst e
  have H : HashLaws (ext fun _ => List.replicate 64 0) := ⟨fun _ => by simp [ext]⟩
  have W : ParamWF (ext fun _ => List.replicate 64 0) (param 5 0) :=
    param_wf _ (by omega) (by omega) 0
  refine ⟨(C67_quick_signature H (groupLaws _) .debug W (Or.inl rfl) (by simp) [] testMsg
    (by simp [param])).2 fun h => ?_, (C67_must_fail_time H (groupLaws _) .debug W (Or.inl rfl)
    (by simp) [] testMsg (by omega) (by simp [param])).2 fun h => ?_⟩
  · have := h 2 (by omega) (by omega)
    revert this
    unfold Runs
    decide +kernel
  · revert h
    unfold Runs
    decide +kernel

/-- the test on delegation fails in a tree with 3 levels -/
example : ∃ p, delegateTest (ext sha0) .debug (param 3 0) 1 1 1 5 = .panic p :=
  (C67_delegate (groupLaws sha0) .debug (param_wf sha0 (by omega) (by omega) 0) (Or.inl rfl) 1 1 1 5).2
    (by simp [param])

end Pixel.Props
