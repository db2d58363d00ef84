import Verif.Fast.MakeTest
import Verif.Props.Param
import Verif.Props.Vectors

/-!
# C66: `make test` with its own constants, SHA-512 and BLS12-381
-/

namespace Pixel.Props

open Pixel Pixel.Spec Pixel.Curve Pixel.Vectors

set_option linter.unusedSectionVars false

variable {GT : Type} [CommGroup GT] [DecidableEq GT]

/-- The message of the test-vector programs, `/repo/test_vector/src/main.rs` 43. -/
def vectorMsg : Bytes := text "this is the message we want pixel to sign"

/-- What is left of the assumptions: the pairing is bilinear and not trivial on the subgroups, the
hash-to-curve ends in the subgroup, the default parameter is the one of `param.py`. -/
structure Real (R : Rest GT) : Prop where
  sha : R.sha512 = Sha512.sha512
  pairing : PairingOk R
  hash : ∀ m c, rOrder • R.hashToG1 m c = 0
  param : Py.paramGen (bls R) Py.paramSeed 0 32 = .ok R.defaultParam

theorem Real.suite {R : Rest GT} (h : Real R) : R.defaultParam.ciphersuite = 0 := by
  obtain ⟨pp, e, hp⟩ := (C65_generation (bls R) Py.paramSeed 0 32).1 (by omega)
  have h1 := h.param
  rw [e] at h1
  rw [← Res.ok.inj h1]
  exact hp.suite

/-- C66: with the seed, the update seed, the message and the loop bound of the three programs, SHA-512
and BLS12-381, `make test` passes on every disk, in both build profiles, whatever the times of
modification.  No assumption on the hash function's output is left. -/
theorem C66_make_test {R : Rest GT} (h : Real R) (pf : Profile) (mtime : Bytes → Bytes → Bool)
    (d0 : Disk) :
    ∃ d1 d2 d3, rustMain (bls R) pf Fast.vectorSeed [] vectorMsg 64 d0 = (.ok (), d1) ∧
      pyMain (bls R) mtime Fast.vectorSeed [] vectorMsg 64 d1 = (.ok (), d2) ∧
      cMain (bls R) pf Fast.vectorSeed [] vectorMsg 64 d2 = (.ok (), d3) ∧
      compareMain mtime 64 d3 = (.ok (), d3) := by
  obtain ⟨H, L, C, D⟩ := C65_assumptions h.sha h.pairing h.hash h.param
  refine C61_make_test H L C D h.suite (by rw [Fast.vectorSeed_length]; omega) (by omega) (by omega)
    ?_ mtime d0
  rw [show (bls R).defaultParam.ciphersuite = 0 from h.suite,
    show (bls R).sha512 = Sha512.sha512 from h.sha]
  exact Fast.vector_streams

/-- C66: so the Rust program writes honest keys and verifying signatures for the times 1 … 63 and the
triangular numbers 3, 6, …, 2016. -/
theorem C66_files {R : Rest GT} (h : Real R) (pf : Profile) (d : Disk) :
    ∃ d', rustMain (bls R) pf Fast.vectorSeed [] vectorMsg 64 d = (.ok (), d') ∧
      ∃ x pk pop, pk.pk = x • R.defaultParam.g2 ∧ pk.validate (bls R) pop = true ∧
        (∀ i, 1 ≤ i → i < 64 →
          HonestFiles (bls R) x pk vectorMsg i d' (skFile rustDir i) (sigFile rustDir i)) ∧
        ∀ i, 2 ≤ i → i < 64 →
          HonestFiles (bls R) x pk vectorMsg (tri i) d' (skFileFF rustDir (tri (i - 1)) (tri i))
            (sigFileFF rustDir (tri (i - 1)) (tri i)) := by
  obtain ⟨H, L, C, D⟩ := C65_assumptions h.sha h.pairing h.hash h.param
  have hS : StreamsDefined (bls R).sha512 Fast.vectorSeed [] (bls R).defaultParam.ciphersuite 64 := by
    rw [show (bls R).defaultParam.ciphersuite = 0 from h.suite,
      show (bls R).sha512 = Sha512.sha512 from h.sha]
    exact Fast.vector_streams
  obtain ⟨d', e, -, x, pk, pop, e1, e2, -, -, e3, e4⟩ := (C61_rust_program H L C D pf
    (by rw [Fast.vectorSeed_length]; omega) [] vectorMsg (n := 64) (by decide) d).2 hS
  exact ⟨d', e, x, pk, pop, e1, e2, e3, e4⟩

/-- C66: the PRNG states stored in the last key files of the two loops. -/
theorem C66_last_states :
    (∃ q, prngStream Sha512.sha512 32 (firstState Sha512.sha512 Fast.vectorSeed 0) 1
      (sequentialUpdates 64 []) = some q ∧ q.seed = natToBE 64
        0x712bb211763f5b8cb3557ce7aeed4936f15a52e4a5fe9718d8cdcc16672b3b4106cbb40d03b07a246045539f0939fec8b1d8e676682613ef95679965446fab11) ∧
    ∃ q, prngStream Sha512.sha512 32 (firstState Sha512.sha512 Fast.vectorSeed 0) 1
      (fastForwardUpdates 64 []) = some q ∧ q.seed = natToBE 64
        0xfd72ac4beba4f408097787ea34c9826eb27bf86eb4cdc1560c9b73c74953e10aaeea53c38c8eff8c5ce27205fb168c901efefd5ccbfc1863083c88d46995bcb3 := by
  have key : ∀ {us : List (Nat × Bytes)} {q : Prng} {p : Prng} {t : Nat}, p.WF →
      prngStream Sha512.sha512 32 p t us = some q → q.WF := by
    intro us
    induction us with
    | nil => intro q p t hp h; cases h; exact hp
    | cons u us ih =>
      intro q p t hp h
      rw [prngStream] at h
      rcases e : prngStep Sha512.sha512 32 p t u.1 u.2 with _ | p'
      · rw [e] at h; cases h
      · rw [e] at h; exact ih (Fast.prngStep_wf e) h
  have fin : ∀ {q : Prng} {n : Nat}, q.WF → beNat q.seed = n → q.seed = natToBE 64 n := by
    intro q n hq e
    refine Fast.beNat_inj (hq.trans (natToBE_length _ _).symm) ?_
    have hlt := beNat_lt q.seed
    rw [show q.seed.length = 64 from hq] at hlt
    rw [beNat_natToBE, ← e, Nat.mod_eq_of_lt hlt]
  obtain ⟨q, h1, h2⟩ := Fast.seq_stream
  obtain ⟨q', h3, h4⟩ := Fast.ff_stream
  exact ⟨⟨q, h1, fin (key (Fast.firstState_wf _ _) h1) h2⟩,
    q', h3, fin (key (Fast.firstState_wf _ _) h3) h4⟩

/-- C66: the assumptions can be met -/
example : Real restGen :=
  have h := C65_hypotheses_met
  ⟨h.1, h.2.1, h.2.2.1, h.2.2.2.1⟩

end Pixel.Props
