import Verif.Proof.Benches
import Verif.Props.UnitTests

/-!
# C71: when the benchmarks run to their end
-/

namespace Pixel.Props

open Pixel Pixel.Spec Pixel.Curve Pixel.Tests Pixel.Benches

set_option linter.unusedSectionVars false

variable {G1 G2 GT : Type} [AddCommGroup G1] [AddCommGroup G2] [CommGroup GT] [DecidableEq GT]
  {E : Ext G1 G2 GT} {pp : PubParam G1 G2}

/-- C71: `bench_key_update_next` runs to its end exactly if no random time is 0 or 1, each key can be
updated to its time, and from there to the next one if a round works on it. -/
theorem C71_key_update_next (H : HashLaws E) (L : GroupLaws E) (pf : Profile) (W : ParamWF E pp)
    (hc : Supported pp.ciphersuite) (hd : 2 ≤ pp.depth) {samples : List (Bytes × Nat)}
    (hne : samples ≠ []) (hs : ∀ s ∈ samples, 32 ≤ s.1.length) (n : Nat) :
    PassesIff (keyUpdateNext E pf pp samples n)
      ((∀ s ∈ samples, Prepared E.sha512 pp.depth pp.ciphersuite (2 ^ pp.depth - 2) s) ∧
        ∀ i < n, AtRound samples i fun s =>
          let t := sampleTime (2 ^ pp.depth - 2) s
          Runs E.sha512 pp.depth s.1 pp.ciphersuite [(t, []), (t + 1, [])]) := by
  have h4 : 2 ^ 2 ≤ 2 ^ pp.depth := Nat.pow_le_pow_right (by omega) hd
  rw [show 2 ^ pp.depth - 2 = maxTime pp - 1 by unfold maxTime; omega]
  have hhi : 0 < maxTime pp - 1 := by unfold maxTime; omega
  have hhi2 : maxTime pp - 1 ≤ 2 ^ pp.depth - 1 := by unfold maxTime; omega
  have hp := fun (s : Bytes × Nat) (h : s ∈ samples) =>
    sampleKey_cases H L pf W hc hhi hhi2 (hs s h)
  unfold keyUpdateNext
  refine passes_collect hp fun bs hbs => ?_
  refine passes_rounds hbs hne fun i s sk h => ?_
  have ht : sampleTime (maxTime pp - 1) s < maxTime pp - 1 := Nat.mod_lt _ hhi
  rw [h.1.choose_spec.time]
  exact passes_next H pf W h (by omega) (by unfold maxTime at *; omega)

/-- C71: `bench_key_update_random`: the same with a random later time in each round. -/
theorem C71_key_update_random (H : HashLaws E) (L : GroupLaws E) (pf : Profile) (W : ParamWF E pp)
    (hc : Supported pp.ciphersuite) (hd : 2 ≤ pp.depth) {samples : List (Bytes × Nat)}
    (hne : samples ≠ []) (hs : ∀ s ∈ samples, 32 ≤ s.1.length) (draw : Nat → Nat) (n : Nat) :
    PassesIff (keyUpdateRandom E pf pp samples draw n)
      ((∀ s ∈ samples, Prepared E.sha512 pp.depth pp.ciphersuite (2 ^ pp.depth - 3) s) ∧
        ∀ i < n, AtRound samples i fun s =>
          let t := sampleTime (2 ^ pp.depth - 3) s
          Runs E.sha512 pp.depth s.1 pp.ciphersuite
            [(t, []), (t + 1 + draw i % (2 ^ pp.depth - 2 - (t + 1)), [])]) := by
  have h4 : 2 ^ 2 ≤ 2 ^ pp.depth := Nat.pow_le_pow_right (by omega) hd
  rw [show 2 ^ pp.depth - 3 = maxTime pp - 2 by unfold maxTime; omega,
    show 2 ^ pp.depth - 2 = maxTime pp - 1 by unfold maxTime; omega]
  have hhi : 0 < maxTime pp - 2 := by unfold maxTime; omega
  have hhi2 : maxTime pp - 2 ≤ 2 ^ pp.depth - 1 := by unfold maxTime; omega
  have hp := fun (s : Bytes × Nat) (h : s ∈ samples) =>
    sampleKey_cases H L pf W hc hhi hhi2 (hs s h)
  unfold keyUpdateRandom
  refine passes_collect hp fun bs hbs => ?_
  refine passes_rounds hbs hne fun i s sk h => ?_
  have ht : sampleTime (maxTime pp - 2) s < maxTime pp - 2 := Nat.mod_lt _ hhi
  rw [h.1.choose_spec.time]
  have hlt : sampleTime (maxTime pp - 2) s + 1 < maxTime pp - 1 := by omega
  refine PassesIff.bind_ok (genRange_ok hlt) (passes_next H pf W h (by omega) ?_)
  have := Nat.mod_lt (draw i) (Nat.sub_pos_of_lt hlt)
  unfold maxTime at *
  omega

/-- C71: `bench_sign` depends on the same updates as `bench_key_update_random`. -/
theorem C71_sign (H : HashLaws E) (L : GroupLaws E) (pf : Profile) (W : ParamWF E pp)
    (hc : Supported pp.ciphersuite) (hd : 2 ≤ pp.depth) (msg : Bytes) {samples : List (Bytes × Nat)}
    (hne : samples ≠ []) (hs : ∀ s ∈ samples, 32 ≤ s.1.length) (draw : Nat → Nat) (n : Nat) :
    PassesIff (Benches.sign E pf pp msg samples draw n)
      ((∀ s ∈ samples, Prepared E.sha512 pp.depth pp.ciphersuite (2 ^ pp.depth - 3) s) ∧
        ∀ i < n, AtRound samples i fun s =>
          let t := sampleTime (2 ^ pp.depth - 3) s
          Runs E.sha512 pp.depth s.1 pp.ciphersuite
            [(t, []), (t + 1 + draw i % (2 ^ pp.depth - 2 - (t + 1)), [])]) := by
  have h4 : 2 ^ 2 ≤ 2 ^ pp.depth := Nat.pow_le_pow_right (by omega) hd
  rw [show 2 ^ pp.depth - 3 = maxTime pp - 2 by unfold maxTime; omega,
    show 2 ^ pp.depth - 2 = maxTime pp - 1 by unfold maxTime; omega]
  have hhi : 0 < maxTime pp - 2 := by unfold maxTime; omega
  have hhi2 : maxTime pp - 2 ≤ 2 ^ pp.depth - 1 := by unfold maxTime; omega
  have hp := fun (s : Bytes × Nat) (h : s ∈ samples) =>
    sampleKey_cases H L pf W hc hhi hhi2 (hs s h)
  unfold Benches.sign
  refine passes_collect hp fun bs hbs => ?_
  refine passes_rounds hbs hne fun i s sk h => ?_
  have ht : sampleTime (maxTime pp - 2) s < maxTime pp - 2 := Nat.mod_lt _ hhi
  rw [h.1.choose_spec.time]
  have hlt : sampleTime (maxTime pp - 2) s + 1 < maxTime pp - 1 := by omega
  refine PassesIff.bind_ok (genRange_ok hlt) (passes_sign H pf W hc h (by omega) ?_ msg)
  have := Nat.mod_lt (draw i) (Nat.sub_pos_of_lt hlt)
  unfold maxTime at *
  omega

/-- C71: `bench_sign_present` needs only the keys: a key signs for its time in every round. -/
theorem C71_sign_present (H : HashLaws E) (L : GroupLaws E) (pf : Profile) (W : ParamWF E pp)
    (hc : Supported pp.ciphersuite) (hd : 2 ≤ pp.depth) (msg : Bytes) {samples : List (Bytes × Nat)}
    (hne : samples ≠ []) (hs : ∀ s ∈ samples, 32 ≤ s.1.length) (n : Nat) :
    PassesIff (Benches.signPresent E pf pp msg samples n)
      (∀ s ∈ samples, Prepared E.sha512 pp.depth pp.ciphersuite (2 ^ pp.depth - 3) s) := by
  have h4 : 2 ^ 2 ≤ 2 ^ pp.depth := Nat.pow_le_pow_right (by omega) hd
  rw [show 2 ^ pp.depth - 3 = maxTime pp - 2 by unfold maxTime; omega]
  have hhi : 0 < maxTime pp - 2 := by unfold maxTime; omega
  have hhi2 : maxTime pp - 2 ≤ 2 ^ pp.depth - 1 := by unfold maxTime; omega
  have hp := fun (s : Bytes × Nat) (h : s ∈ samples) =>
    sampleKey_cases H L pf W hc hhi hhi2 (hs s h)
  unfold Benches.signPresent
  refine (passes_collect (Q := True) hp fun bs hbs => ?_).congr (by simp)
  refine (passes_rounds (P := fun _ _ => True) hbs hne fun i s sk h => ?_).congr
    (by simp [AtRound])
  obtain ⟨x, hk⟩ := h.1
  obtain ⟨sig, v, a, e, _⟩ := Signature.signBytes_keyFor H.sha_len pf W.toParamShape hc hk msg
  rw [hk.time, SM.exec, Signature.signPresent_eq hk.time, e]
  exact PassesIff.ok

/-- C71: `bench_sign_then_update` depends on the same updates as `bench_key_update_next`; its last
assertion, that the time has advanced by one, never fails. -/
theorem C71_sign_then_update (H : HashLaws E) (L : GroupLaws E) (pf : Profile) (W : ParamWF E pp)
    (hc : Supported pp.ciphersuite) (hd : 2 ≤ pp.depth) (msg : Bytes) {samples : List (Bytes × Nat)}
    (hne : samples ≠ []) (hs : ∀ s ∈ samples, 32 ≤ s.1.length) (n : Nat) :
    PassesIff (Benches.signThenUpdate E pf pp msg samples n)
      ((∀ s ∈ samples, Prepared E.sha512 pp.depth pp.ciphersuite (2 ^ pp.depth - 3) s) ∧
        ∀ i < n, AtRound samples i fun s =>
          let t := sampleTime (2 ^ pp.depth - 3) s
          Runs E.sha512 pp.depth s.1 pp.ciphersuite [(t, []), (t + 1, [])]) := by
  have h4 : 2 ^ 2 ≤ 2 ^ pp.depth := Nat.pow_le_pow_right (by omega) hd
  rw [show 2 ^ pp.depth - 3 = maxTime pp - 2 by unfold maxTime; omega]
  have hhi : 0 < maxTime pp - 2 := by unfold maxTime; omega
  have hhi2 : maxTime pp - 2 ≤ 2 ^ pp.depth - 1 := by unfold maxTime; omega
  have hp := fun (s : Bytes × Nat) (h : s ∈ samples) =>
    sampleKey_cases H L pf W hc hhi hhi2 (hs s h)
  unfold Benches.signThenUpdate
  refine passes_collect hp fun bs hbs => ?_
  refine passes_rounds hbs hne fun i s sk h => ?_
  have ht : sampleTime (maxTime pp - 2) s < maxTime pp - 2 := Nat.mod_lt _ hhi
  exact passes_signThenUpdate H pf W hc h (by unfold maxTime at *; omega) msg

/-- C71: the benchmarks above panic as soon as one of the random times is 0 or 1, whatever the hash
function: `gen_range(0, ..)` starts at 0, but a new key is at time 1 and cannot be updated to 0 or 1. -/
theorem C71_early_times_panic (H : HashLaws E) (L : GroupLaws E) (pf : Profile) (W : ParamWF E pp)
    (hc : Supported pp.ciphersuite) (hd : 3 ≤ pp.depth) (msg : Bytes) {samples : List (Bytes × Nat)}
    (hs : ∀ s ∈ samples, 32 ≤ s.1.length) (draw : Nat → Nat) (n : Nat) {s : Bytes × Nat}
    (h : s ∈ samples) (he : s.2 ≤ 1) :
    (∃ p, keyUpdateNext E pf pp samples n = .panic p) ∧
    (∃ p, keyUpdateRandom E pf pp samples draw n = .panic p) ∧
    (∃ p, Benches.sign E pf pp msg samples draw n = .panic p) ∧
    (∃ p, Benches.signPresent E pf pp msg samples n = .panic p) ∧
    (∃ p, Benches.signThenUpdate E pf pp msg samples n = .panic p) := by
  have h4 : 2 ^ 3 ≤ 2 ^ pp.depth := Nat.pow_le_pow_right (by omega) hd
  have hne : samples ≠ [] := List.ne_nil_of_mem h
  have bad : ∀ high, 2 ≤ high → ¬ ∀ s ∈ samples, Prepared E.sha512 pp.depth pp.ciphersuite high s := by
    intro high hh hp
    have := (hp s h).1
    unfold sampleTime at this
    rw [Nat.mod_eq_of_lt (by omega)] at this
    omega
  have b2 := bad (2 ^ pp.depth - 2) (by omega)
  have b3 := bad (2 ^ pp.depth - 3) (by omega)
  have hd2 : 2 ≤ pp.depth := by omega
  exact ⟨(C71_key_update_next H L pf W hc hd2 hne hs n).2 fun x => b2 x.1,
    (C71_key_update_random H L pf W hc hd2 hne hs draw n).2 fun x => b3 x.1,
    (C71_sign H L pf W hc hd2 msg hne hs draw n).2 fun x => b3 x.1,
    (C71_sign_present H L pf W hc hd2 msg hne hs n).2 b3,
    (C71_sign_then_update H L pf W hc hd2 msg hne hs n).2 fun x => b3 x.1⟩

/-- C71: `bench_verify` runs to its end exactly if no random time is 0, and the keys with a time
above 1 can be updated to it: then the proofs of possession and the signatures verify in all
rounds. -/
theorem C71_verify (H : HashLaws E) (L : GroupLaws E) (pf : Profile) (W : ParamWF E pp)
    (hc : Supported pp.ciphersuite) (hd : 2 ≤ pp.depth) (msg : Bytes) {samples : List (Bytes × Nat)}
    (hne : samples ≠ []) (hs : ∀ s ∈ samples, 32 ≤ s.1.length) (n m : Nat) :
    PassesIff (Benches.verify E pf pp msg samples n m)
      (∀ s ∈ samples, let t := sampleTime (2 ^ pp.depth - 3) s
        t ≠ 0 ∧ (2 ≤ t → Runs E.sha512 pp.depth s.1 pp.ciphersuite [(t, [])])) := by
  have h4 : 2 ^ 2 ≤ 2 ^ pp.depth := Nat.pow_le_pow_right (by omega) hd
  rw [show 2 ^ pp.depth - 3 = maxTime pp - 2 by unfold maxTime; omega]
  have hhi : 0 < maxTime pp - 2 := by unfold maxTime; omega
  have hhi2 : maxTime pp - 2 ≤ 2 ^ pp.depth - 1 := by unfold maxTime; omega
  refine (passes_collect (Q := True) (R := fun _ a => a.1.validate E a.2.1 = true ∧
      a.2.2.verifyBytes E pf a.1 pp msg = .ok true)
    (fun s h => sampleSig_cases H L pf W hc hhi hhi2 msg (hs s h))
    fun bs hbs => ?_).congr (by simp)
  refine (PassesIff.seq (P := True) (Q := True) ?_ fun _ => ?_).congr (by simp)
  · refine (passes_rounds (P := fun _ _ => True) hbs hne fun i s a h => ?_).congr (by simp [AtRound])
    rw [h.1]
    exact PassesIff.ok
  · refine (passes_rounds (P := fun _ _ => True) hbs hne fun i s a h => ?_).congr (by simp [AtRound])
    rw [must_ok h.2]
    exact PassesIff.ok

/-- C71: `bench_aggregation` and `bench_keygen` always run to their end. -/
theorem C71_aggregation_keygen (H : HashLaws E) (L : GroupLaws E) (pf : Profile) (W : ParamWF E pp)
    (hc : Supported pp.ciphersuite) (msg : Bytes) {seeds : List Bytes} (hne : seeds ≠ [])
    (hs : ∀ seed ∈ seeds, 32 ≤ seed.length) (n m : Nat) :
    aggregation E pf pp msg seeds n m = .ok () ∧ keygenBench E pp seeds = .ok () := by
  constructor
  · obtain ⟨list, h1, h2⟩ := collect_ok (l := seeds) (f := fun seed => do
        let (pk, sk, _) ← Ffi.unwrap (keygen E seed pp)
        let (sig, _) ← mustOk ((Signature.sign E.sha512 pf 1 pp msg []).exec sk)
        Res.ok (pk, sig))
      (R := fun _ a => (E.inSub2 a.1.pk = true ∧ a.1.ciphersuite = pp.ciphersuite) ∧
        a.2.time = 1 ∧ a.2.verifyBytes E pf a.1 pp msg = .ok true)
      fun seed hseed => by
        obtain ⟨pk, sk, pop, x, e1, e2, e3, e4, _⟩ := keygen_ok H L W hc (hs seed hseed)
        obtain ⟨sig, v, a, k1, k2, k3⟩ :=
          Signature.signBytes_keyFor H.sha_len pf W.toParamShape hc e4 msg
        refine ⟨(pk, sig), ?_, ⟨?_, e2⟩, k3, SigFor.verifies H L W pf hc k2 e3⟩
        · rw [e1]
          simp [Ffi.unwrap, SM.exec, Signature.sign_now e4.time, k1, mustOk]
        · rw [e3, W.g2_gen]
          exact L.sub2_nsmul L.gen2_sub x
    have hall : ∀ a ∈ list, (E.inSub2 a.1.pk = true ∧ a.1.ciphersuite = pp.ciphersuite) ∧
        a.2.time = 1 ∧ a.2.verifyBytes E pf a.1 pp msg = .ok true := by
      clear h1 hne hs
      induction h2 with
      | nil => intro a ha; cases ha
      | cons h _ ih =>
        intro a ha
        rcases List.mem_cons.1 ha with rfl | ha
        · exact h
        · exact ih a ha
    have hlne : list ≠ [] := by
      rintro rfl
      exact hne (List.length_eq_zero_iff.1 h2.length_eq)
    obtain ⟨s, a1, _, _, a2⟩ := C31_aggregate_verifies H L W pf msg 1 list hlne
      (fun p hp => (hall p hp).1) (fun p hp => (hall p hp).2.1) (fun p hp => (hall p hp).2.2)
    unfold aggregation
    rw [h1, Res.ok_bind]
    simp only [a1, mustOk, Ffi.unwrap, Res.ok_bind, must_ok a2]
    rw [passes_const fun _ => rfl, Res.ok_bind, passes_const fun _ => rfl]
  · refine forEach_ok fun seed hseed => ?_
    obtain ⟨pk, sk, pop, x, e1, _⟩ := keygen_ok H L W hc (hs seed hseed)
    rw [e1]
    rfl

/-- C71: `bench_sk_update_seq`, with `k` for its 64, runs to its end exactly if all keys can be
updated from time to time; the rounds in between add nothing. -/
theorem C71_sk_update_seq (H : HashLaws E) (L : GroupLaws E) (pf : Profile) (W : ParamWF E pp)
    (hc : Supported pp.ciphersuite) {seeds : List Bytes} (hne : seeds ≠ [])
    (hs : ∀ seed ∈ seeds, 32 ≤ seed.length) {k : Nat} (hk : k ≤ seeds.length)
    (hk2 : k + 1 ≤ 2 ^ pp.depth - 1) (n : Nat) :
    PassesIff (skUpdateSeq E pf pp seeds k n)
      (∀ seed ∈ seeds, InARow E.sha512 pp.depth seed pp.ciphersuite [] (k + 2)) := by
  obtain ⟨sklist, h1, h2⟩ := collect_ok (l := seeds) (f := fun seed => do
      let (_, sk, _) ← Ffi.unwrap (keygen E seed pp)
      Res.ok sk)
    (R := fun seed sk => (∃ x : Nat, KeyFor pp (x • pp.h) 1 sk) ∧
      sk.prng = firstState E.sha512 seed pp.ciphersuite)
    fun seed hseed => by
      obtain ⟨pk, sk, pop, x, e1, e2, e3, e4, e5, _⟩ := keygen_ok H L W hc (hs seed hseed)
      exact ⟨sk, by rw [e1]; rfl, ⟨x, e4⟩, e5⟩
  refine PassesIff.bind_ok h1 ?_
  have hl := h2.length_eq
  have hkeys : ∀ sk ∈ sklist, ∃ x : Nat, KeyFor pp (x • pp.h) 1 sk := fun sk h => by
    obtain ⟨seed, _, h⟩ := forall₂_right h2 h
    exact h.1
  refine (passes_seq H pf W n k hkeys (by rintro rfl; exact hne (List.length_eq_zero_iff.1 hl))
    (by omega : 0 + k ≤ sklist.length) (by omega)).congr ?_
  unfold InARow Runs sequentialUpdates
  constructor
  · intro h seed hseed
    obtain ⟨sk, hsk, _, h3⟩ := forall₂_left h2 hseed
    rw [← h3]
    exact h sk hsk
  · intro h sk hsk
    obtain ⟨seed, hseed, _, h3⟩ := forall₂_right h2 hsk
    rw [h3]
    exact h seed hseed

/-- C71: `bench_sk_update_leaf`, with `t` for its 31, runs to its end exactly if each key can be
updated to `t`, and from there to the next time if a round works on it; digests never fail. -/
theorem C71_sk_update_leaf (H : HashLaws E) (L : GroupLaws E) (C : CodecLaws E) (pf : Profile)
    (W : ParamWF E pp) (hd : pp.depth ≤ 32) (hc : Supported pp.ciphersuite) {seeds : List Bytes}
    (hne : seeds ≠ []) (hs : ∀ seed ∈ seeds, 32 ≤ seed.length) {t : Nat} (ht : 2 ≤ t)
    (ht2 : t + 1 ≤ 2 ^ pp.depth - 1) (n m : Nat) :
    PassesIff (skUpdateLeaf E pf pp seeds t n m)
      ((∀ seed ∈ seeds, Runs E.sha512 pp.depth seed pp.ciphersuite [(t, [])]) ∧
        ∀ i < m, AtRound seeds i fun seed =>
          Runs E.sha512 pp.depth seed pp.ciphersuite [(t, []), (t + 1, [])]) := by
  refine passes_collect (R := fun seed sk => KeyOf E pp seed t sk) (fun seed hseed => ?_)
    fun bs hbs => ?_
  · obtain ⟨pk, sk, pop, x, e1, e2, e3, e4, e5, _⟩ := keygen_ok H L W hc (hs seed hseed)
    have hu : (do
        let (_, sk, _) ← Ffi.unwrap (keygen E seed pp)
        updated E pf pp sk t []) = updated E pf pp sk t [] := by
      rw [e1]; rfl
    rw [hu, runs_one, ← e5]
    rcases updated_cases H pf W e4 (by omega : 1 < t) (by omega) [] with ⟨f1, f2⟩ | ⟨sk', f1, f2, f3⟩
    · rw [f1]
      exact Or.inr ⟨by simp, _, f2⟩
    · exact Or.inl ⟨⟨_, f1⟩, sk', f2, ⟨x, f3⟩, e5 ▸ f1⟩
  · have hb : bs ≠ [] := by
      rintro rfl
      exact hne (List.length_eq_zero_iff.1 hbs.length_eq)
    obtain ⟨b, l, rfl⟩ := List.exists_cons_of_ne_nil hb
    refine PassesIff.bind_ok (a := b) rfl ((PassesIff.seq (P := True) ?_ fun _ =>
      passes_rounds (P := fun _ seed =>
        Runs E.sha512 pp.depth seed pp.ciphersuite [(t, []), (t + 1, [])]) hbs hne
      fun i seed sk h => ?_).congr (by simp))
    · refine (passes_rounds (P := fun _ _ => True) hbs hne fun i s sk h => ?_).congr
        (by simp [AtRound])
      obtain ⟨x, hk⟩ := h.1
      have hv := KeyFor.skValid L W hd hc (L.sub1_nsmul W.h_sub x) hk
      obtain ⟨s1, _⟩ := C36_secret_key C true hv []
      rw [(C41_digest C hv.seed s1).1]
      exact PassesIff.ok
    · rw [h.1.choose_spec.time]
      exact passes_next H pf W h (by omega) ht2

/-- C71: the benchmarks on sub keys and on the gamma list always run to their end: the leftmost path
can be delegated step by step down to the leaf, or at once, and every sub key on it can be
re-randomised any number of times. -/
theorem C71_sub_keys_and_times (H : HashLaws E) (L : GroupLaws E) (pf : Profile) (W : ParamWF E pp)
    (hc : Supported pp.ciphersuite) (hd : 2 ≤ pp.depth) {seeds : List Bytes}
    (hlen : pp.depth - 1 ≤ seeds.length) (hs : ∀ seed ∈ seeds, 32 ≤ seed.length) {seed : Bytes}
    (hseed : 32 ≤ seed.length) (r : Fr) (n : Nat) {d k : Nat} (hd2 : d ≤ 63) (hk : k ≤ 2 ^ d) :
    sskDelegate E pf pp seeds n = .ok () ∧
    sskLeveledRandomization E pf pp seed r n = .ok () ∧
    sskLeafRandomization E pf pp seed r n = .ok () ∧
    gammaListBench pf d k n = .ok () := by
  refine ⟨?_, ?_, ?_, ?_⟩
  · obtain ⟨list, h1, h2⟩ := collect_ok (l := seeds) (f := rootSsk E pp)
      (R := fun _ s => ∃ x rho : Nat, SubKeyFor pp (x • pp.h) (List.replicate 0 1) rho s)
      fun seed h => by
        obtain ⟨s, x, rho, e, h⟩ := rootSsk_ok H L W hc (hs seed h)
        exact ⟨s, e, x, rho, h⟩
    have hinv : list.length = seeds.length ∧ ∀ s ∈ list, ∃ x rho : Nat,
        SubKeyFor pp (x • pp.h) (List.replicate 0 1) rho s :=
      ⟨h2.length_eq.symm, fun s h => by obtain ⟨_, _, h⟩ := forall₂_right h2 h; exact h⟩
    obtain ⟨list', e, _⟩ := forRangeWith_ok (f := fun (ssklist : List (SubSecretKey G1 G2)) i => do
        let _ ← idx ssklist i
        rounds n ssklist fun _ s => do
          let _ ← delegateNext pf pp s
          .ok ()
        collect ssklist (delegateNext pf pp))
      (I := fun i (list : List (SubSecretKey G1 G2)) => list.length = seeds.length ∧
        ∀ s ∈ list, ∃ x rho : Nat, SubKeyFor pp (x • pp.h) (List.replicate i 1) rho s)
      (pp.depth - 1) hinv fun i list _ hi ⟨g1, g2⟩ => by
        have hi' : i < list.length := by omega
        obtain ⟨l', e1, e2⟩ := collect_ok (l := list) (f := delegateNext pf pp)
          (R := fun _ s => ∃ x rho : Nat, SubKeyFor pp (x • pp.h) (List.replicate (i + 1) 1) rho s)
          fun s h => by
            obtain ⟨x, rho, h⟩ := g2 s h
            obtain ⟨s', e, h'⟩ := delegateNext_ok pf W h (by omega)
            exact ⟨s', e, x, rho, h'⟩
        refine ⟨l', ?_, e2.length_eq.symm.trans g1, fun s h => by
          obtain ⟨_, _, h⟩ := forall₂_right e2 h; exact h⟩
        have hr : (rounds n list fun _ s => do
            let _ ← delegateNext pf pp s
            Res.ok ()) = .ok () := by
          refine (passes_rounds (R := fun a b => a = b ∧ a ∈ list) (P := fun _ _ => True)
            (n := n) (l := list) (bs := list) ?_ (List.ne_nil_of_length_pos (by omega))
            fun j s s' h => ?_).1 (by simp [AtRound])
          · exact List.forall₂_iff_get.2 ⟨rfl, fun j h _ => ⟨rfl, List.get_mem _ _⟩⟩
          · obtain ⟨rfl, h⟩ := h
            obtain ⟨x, rho, h⟩ := g2 s h
            obtain ⟨s', e, h'⟩ := delegateNext_ok pf W h (by omega)
            rw [e]
            exact PassesIff.ok
        simp only [idx, List.getElem?_eq_getElem hi', Res.ok_bind, hr, e1]
    unfold sskDelegate forRangeWith
    rw [h1, Res.ok_bind, Nat.sub_zero, e]
    rfl
  · obtain ⟨s, x, rho, e, h⟩ := rootSsk_ok H L W hc hseed
    obtain ⟨s', e', _⟩ := forRangeWith_ok (f := fun (ssk : SubSecretKey G1 G2) (_ : Nat) => do
        forRange 0 n fun _ => do
          let _ ← mustOk ((SubSecretKey.randomization pf pp r).exec ssk)
          .ok ()
        delegateNext pf pp ssk)
      (I := fun i s => SubKeyFor pp (x • pp.h) (List.replicate i 1) rho s)
      (pp.depth - 1) h fun i s _ hi h => by
        obtain ⟨s', e, h'⟩ := delegateNext_ok pf W h (by omega)
        refine ⟨s', ?_, h'⟩
        have er := SubKeyFor.randomization_eq W.toParamShape h pf r
        simp only [SM.exec, er, mustOk, Res.ok_bind]
        rw [passes_const fun _ => rfl, Res.ok_bind, e]
    unfold sskLeveledRandomization forRangeWith
    rw [e, Res.ok_bind, Nat.sub_zero, e']
    rfl
  · obtain ⟨s, x, rho, e, h⟩ := rootSsk_ok H L W hc hseed
    obtain ⟨s', e1, h1⟩ := spine_delegate pf W h (k' := pp.depth - 1) (by omega) (by omega)
    rw [Nat.sub_add_cancel (by omega)] at e1
    obtain ⟨s2, e2, _⟩ := forRangeWith_ok (f := fun (ssk : SubSecretKey G1 G2) (_ : Nat) => do
        let (_, ssk) ← mustOk ((SubSecretKey.randomization pf pp r).exec ssk)
        Res.ok ssk)
      (I := fun _ s => ∃ rho, SubKeyFor pp (x • pp.h) (List.replicate (pp.depth - 1) 1) rho s)
      (a := 0) n ⟨_, h1⟩ fun i s _ _ ⟨rho, h⟩ => by
        have er := SubKeyFor.randomization_eq W.toParamShape h pf r
        refine ⟨_, ?_, _, h.rerand r.val⟩
        simp [SM.exec, er, mustOk]
    unfold sskLeafRandomization forRangeWith
    rw [e, Res.ok_bind]
    simp only [SM.exec, e1, mustOk, Res.ok_bind, Nat.sub_zero]
    simp only [SM.exec, mustOk] at e2
    rw [e2]
    rfl
  · refine forEach_ok fun t ht => ?_
    rw [mem_range'] at ht
    have hv := (C01_init_outcome pf d t hd2).1.2 ⟨ht.1, by omega⟩
    obtain ⟨tv, e⟩ := Res.isOk_iff.1 hv
    obtain ⟨l, e2, _⟩ := C04_gamma_wf pf d t hd2 tv e
    simp only [e, Ffi.unwrap, Res.ok_bind, e2, mustOk]
    exact passes_const fun _ => rfl

/-! ### concrete cases -/

open Toy

/-- C71: with SHA-512, BLS12-381 and the default parameter, the key of `/repo/src/test/keys.rs`
brought to any time from 2 to 14 lets five of the benchmarks run through any number of rounds. -/
theorem C71_real {R : Rest GT} (h : Real R) (pf : Profile) (msg : Bytes) (n m : Nat) {t : Nat}
    (h1 : 2 ≤ t) (h2 : t < 15) :
    keyUpdateNext (bls R) pf R.defaultParam [(Fast.testSeed, t)] n = .ok () ∧
    keyUpdateRandom (bls R) pf R.defaultParam [(Fast.testSeed, t)] (fun _ => 0) n = .ok () ∧
    Benches.sign (bls R) pf R.defaultParam msg [(Fast.testSeed, t)] (fun _ => 0) n = .ok () ∧
    Benches.signThenUpdate (bls R) pf R.defaultParam msg [(Fast.testSeed, t)] n = .ok () ∧
    Benches.verify (bls R) pf R.defaultParam msg [(Fast.testSeed, t)] n m = .ok () := by
  obtain ⟨H, L, C, D⟩ := C65_assumptions h.sha h.pairing h.hash h.param
  have hc : R.defaultParam.ciphersuite = 0 := h.suite
  have hsup : Supported R.defaultParam.ciphersuite := Or.inl hc
  have hd : R.defaultParam.depth = 32 := D.depth
  have hsha : (bls R).sha512 = Sha512.sha512 := h.sha
  have hs : ∀ s ∈ [(Fast.testSeed, t)], 32 ≤ s.1.length := by
    simp only [List.mem_singleton, forall_eq, Fast.testSeed_length]
    omega
  have one : OneStep (bls R).sha512 R.defaultParam.depth Fast.testSeed
      R.defaultParam.ciphersuite [] 16 := by
    rw [hsha, hd, hc]; exact Fast.oneStep_of Fast.test_15
  have two : TwoSteps (bls R).sha512 R.defaultParam.depth Fast.testSeed
      R.defaultParam.ciphersuite [] 16 := by
    rw [hsha, hd, hc]; exact Fast.twoSteps_of Fast.test_15 Fast.test_two
  have st : ∀ k, k ≤ 3 → sampleTime (2 ^ R.defaultParam.depth - k) (Fast.testSeed, t) = t := by
    intro k hk
    rw [hd]
    exact Nat.mod_eq_of_lt (by omega)
  have prep : ∀ k, k ≤ 3 → ∀ s ∈ [(Fast.testSeed, t)], Prepared (bls R).sha512
      R.defaultParam.depth R.defaultParam.ciphersuite (2 ^ R.defaultParam.depth - k) s := by
    intro k hk s hs
    rw [List.mem_singleton.1 hs]
    unfold Prepared
    rw [st k hk]
    exact ⟨h1, one t h1 (by omega)⟩
  have next : ∀ k, k ≤ 3 → ∀ i, AtRound [(Fast.testSeed, t)] i fun s =>
      Runs (bls R).sha512 R.defaultParam.depth s.1 R.defaultParam.ciphersuite
        [(sampleTime (2 ^ R.defaultParam.depth - k) s, []),
          (sampleTime (2 ^ R.defaultParam.depth - k) s + 1, [])] := by
    intro k hk i s hi
    have hi : s = (Fast.testSeed, t) := by simpa [Nat.mod_one] using hi.symm
    rw [hi, st k hk]
    exact (two t h1 (by omega)).2 (t + 1) (by omega) (by omega)
  have hd2 : 2 ≤ R.defaultParam.depth := by omega
  refine ⟨(C71_key_update_next H L pf D.wf hsup hd2 (by simp) hs n).1
      ⟨prep 2 (by omega), fun i _ => next 2 (by omega) i⟩,
    (C71_key_update_random H L pf D.wf hsup hd2 (by simp) hs _ n).1
      ⟨prep 3 (by omega), fun i _ => ?_⟩,
    (C71_sign H L pf D.wf hsup hd2 msg (by simp) hs _ n).1 ⟨prep 3 (by omega), fun i _ => ?_⟩,
    (C71_sign_then_update H L pf D.wf hsup hd2 msg (by simp) hs n).1
      ⟨prep 3 (by omega), fun i _ => next 3 (by omega) i⟩,
    (C71_verify H L pf D.wf hsup hd2 msg (by simp) hs n m).1 fun s hm => ?_⟩
  · simp only [Nat.zero_mod, Nat.add_zero]
    exact next 3 (by omega) i
  · simp only [Nat.zero_mod, Nat.add_zero]
    exact next 3 (by omega) i
  · obtain ⟨p1, p2⟩ := prep 3 (by omega) s hm
    exact ⟨Nat.ne_of_gt (Nat.lt_of_lt_of_le Nat.zero_lt_two p1), fun _ => p2⟩

/-- the assumptions of `C71_early_times_panic` are met: a sample whose random number is 1 -/
example : ∃ p, keyUpdateNext (ext sha0) .debug (param 4 0) [(List.replicate 32 7, 1)] 5 = .panic p :=
  (C71_early_times_panic hashLaws (groupLaws sha0) .debug
    (param_wf sha0 (by omega) (by omega) 0) (Or.inl rfl) (by simp [param]) [] (by simp) (fun _ => 0) 5
    (List.mem_singleton.2 rfl) (by omega)).1

/-- `bench_verify` runs through with this sample, and panics if the random number is 0 -/
example : Benches.verify (ext sha0) .debug (param 4 0) [] [(List.replicate 32 7, 1)] 5 5 = .ok () ∧
    ∃ p, Benches.verify (ext sha0) .debug (param 4 0) [] [(List.replicate 32 7, 0)] 5 5 = .panic p := by
  have W : ParamWF (ext sha0) (param 4 0) := param_wf sha0 (by omega) (by omega) 0
  exact ⟨(C71_verify hashLaws (groupLaws sha0) .debug W (Or.inl rfl) (by simp [param]) []
      (by simp) (by simp) 5 5).1 (by simp [sampleTime, param]),
    (C71_verify hashLaws (groupLaws sha0) .debug W (Or.inl rfl) (by simp [param]) []
      (by simp) (by simp) 5 5).2 (by simp [sampleTime, param])⟩

/-- the benchmarks that always run through, in a tree with 4 levels -/
example : aggregation (ext sha0) .debug (param 4 0) [1] [List.replicate 32 7, List.replicate 40 1] 3 3
      = .ok () ∧
    sskDelegate (ext sha0) .release (param 4 0) (List.replicate 3 (List.replicate 32 7)) 9 = .ok () :=
  have W : ParamWF (ext sha0) (param 4 0) := param_wf sha0 (by omega) (by omega) 0
  ⟨(C71_aggregation_keygen hashLaws (groupLaws sha0) .debug W (Or.inl rfl) [1] (by simp)
      (by simp) 3 3).1,
    (C71_sub_keys_and_times hashLaws (groupLaws sha0) .release W (Or.inl rfl)
      (by simp [param]) (by simp [param]) (by simp) (seed := List.replicate 32 7) (by simp) 1 9
      (d := 1) (k := 1) (by omega) (by omega)).1⟩

end Pixel.Props
