import Verif.Proof.Ffi

/-!
# Properties C46 and C47: the C interface, on bytes

All theorems are about the functions of `/repo/src/ffi.rs` with the default parameters;
`DefaultLaws` (depth 32, well formed) is what is assumed of these.
-/

namespace Pixel.Props

open Pixel Pixel.Spec

set_option linter.unusedSectionVars false

variable {G1 G2 GT : Type} [AddCommGroup G1] [AddCommGroup G2] [CommGroup GT]

/-! ## C46 -/

/-- C46: key generation on bytes: sizes, an accepted proof, an honest secret-key blob. -/
theorem C46_keygen [DecidableEq GT] {E : Ext G1 G2 GT} (H : HashLaws E) (L : GroupLaws E)
    (C : CodecLaws E) (D : DefaultLaws E) (pf : Profile) (seed : Bytes) :
    (seed.length < 32 → Ffi.cKeygen E seed = .panic .explicit) ∧
    (32 ≤ seed.length → ∃ (keys : Ffi.Keys) (x : Nat), Ffi.cKeygen E seed = .ok keys ∧
      keys.pk.length = 49 ∧ keys.pop.length = 97 ∧
      Ffi.cEstimateSkSize pf 1 Ffi.cGetDepth = .ok keys.sk.length ∧
      keys.pk = pkLayout E true
        { ciphersuite := E.defaultParam.ciphersuite, pk := x • E.defaultParam.g2 } ∧
      BlobFor E (x • E.defaultParam.h) 1 keys.sk ∧
      Ffi.cVerifyPop E keys.pk keys.pop = .ok true) := by
  constructor
  · intro hs
    unfold Ffi.cKeygen
    simp only [keygen_short hs, Ffi.unwrap, Res.panic_bind]
  · intro hs
    obtain ⟨pk, sk, pop, h1, h2, h3, ⟨x, h4, h5⟩, _, _, h6⟩ :=
      (C12_keygen_outcome H L pf D.wf seed).2.2 hs D.suite
    obtain ⟨hpk, hpop⟩ := C36_keygen H L D.wf h1
    have e1 := (C36_public_key C true hpk []).1
    have e2 := D.serialize_sk L C h5
    have e3 := (C36_pop C true hpop []).1
    have l1 := ((C37_fixed_sizes C).1 _ _ e1).1
    have l3 := (C37_fixed_sizes C).2.2 _ _ e3
    refine ⟨{ pk := pkLayout E true pk, sk := skLayout E true sk, pop := popLayout E true pop }, x,
      ?_, l1, l3, ?_, ?_, ⟨sk, h5, rfl⟩, ?_⟩
    · unfold Ffi.cKeygen
      simp only [h1, Ffi.unwrap, Res.ok_bind, e1, e2, e3, Ffi.toArray_ok l1, Ffi.toArray_ok l3]
    · have he := C37_estimate_exact D.wf.toParamShape pf h5
      rw [D.depth] at he
      unfold Ffi.cEstimateSkSize
      rw [show Ffi.cGetDepth = 32 from rfl, he, C37_secret_key_size C (D.skValid L h5).seed e2]
      rfl
    · cases pk
      simp only at h2 h4
      rw [← h2, ← h4]
    · have p1 := Ffi.parse_pk C hpk []
      have p2 := Ffi.parse_pop C hpop []
      rw [List.append_nil] at p1 p2
      unfold Ffi.cVerifyPop
      simp only [p1, p2, Res.ok_bind, h6]

/-- C46: end to end: generate keys, update any number of times, sign at the time reached: the
signature blob has 149 bytes and is accepted; the key blob has exactly the announced size; signing
for any other time aborts. -/
theorem C46_end_to_end [DecidableEq GT] {E : Ext G1 G2 GT} (H : HashLaws E) (L : GroupLaws E)
    (C : CodecLaws E) (D : DefaultLaws E) (pf : Profile) {seed : Bytes} {keys : Ffi.Keys}
    (hg : Ffi.cKeygen E seed = .ok keys) {us : List (Nat × Bytes)} {blob : Bytes}
    (hu : cUpdates E pf keys.sk us = .ok blob) (msg : Bytes) :
    (∃ sig, Ffi.cSignPresent E pf blob msg (lastTime 1 us) = .ok sig ∧ sig.length = 149 ∧
      (sig.drop 1).take 4 = be32 (lastTime 1 us) ∧
      Ffi.cVerify E pf keys.pk msg sig = .ok true) ∧
    Ffi.cEstimateSkSize pf (lastTime 1 us) Ffi.cGetDepth = .ok blob.length ∧
    ∀ t, t ≠ lastTime 1 us → Ffi.cSignPresent E pf blob msg t = .panic .explicit := by
  have hl : 32 ≤ seed.length := by
    by_contra hc
    rw [(C46_keygen H L C D pf seed).1 (by omega)] at hg
    cases hg
  obtain ⟨keys', x, h1, _, _, _, h5, h6, _⟩ := (C46_keygen H L C D pf seed).2 hl
  rw [hg] at h1
  cases Res.ok.inj h1
  obtain ⟨⟨sk, hk, rfl⟩, _⟩ := cUpdates_blobFor H L C D pf h6 hu
  refine ⟨?_, ?_, ?_⟩
  · obtain ⟨sig, hv, ht, hs, hver⟩ := Ffi.cSignPresent_honest H L C D pf hk msg []
    rw [List.append_nil] at hs
    refine ⟨_, hs, (C37_fixed_sizes C).2.1 sig _ (C36_signature C hv []).1, ?_, ?_⟩
    · rw [sigLayout, ht, List.drop_succ_cons, List.drop_zero]
      exact List.take_left' (by rw [be32_length])
    · have p1 := Ffi.parse_pk C (k := { ciphersuite := E.defaultParam.ciphersuite
                                        pk := x • E.defaultParam.g2 })
        ⟨D.suite, by rw [D.wf.g2_gen]; exact L.sub2_nsmul L.gen2_sub x⟩ []
      have p2 := Ffi.parse_sig C hv []
      rw [List.append_nil] at p1 p2
      unfold Ffi.cVerify
      have p3 := hver { ciphersuite := E.defaultParam.ciphersuite, pk := x • E.defaultParam.g2 }
        rfl pf
      simp only [h5, p1, p2, Res.ok_bind, p3]
  · have he := C37_estimate_exact D.wf.toParamShape pf hk
    rw [D.depth] at he
    unfold Ffi.cEstimateSkSize
    rw [show Ffi.cGetDepth = 32 from rfl, he,
      C37_secret_key_size C (D.skValid L hk).seed (D.serialize_sk L C hk)]
    rfl
  · intro t ht
    have hp := Ffi.parse_sk C (D.skValid L hk) []
    rw [List.append_nil] at hp
    unfold Ffi.cSignPresent
    simp only [hp, Res.ok_bind, Signature.signPresent_ne (by rw [hk.time]; exact fun h => ht h.symm),
      Ffi.unwrap, Res.panic_bind]

/-- C46: a program of updates with times strictly increasing up to `2^32 - 1` runs through, unless
an update hits the "prng not updated" assertion, which needs a cycle in the PRNG. -/
theorem C46_updates_succeed {E : Ext G1 G2 GT} (H : HashLaws E) (L : GroupLaws E)
    (C : CodecLaws E) (D : DefaultLaws E) (pf : Profile) {x t : Nat} {b : Bytes}
    (hb : BlobFor E (x • E.defaultParam.h) t b) (us : List (Nat × Bytes)) :
    ((∃ b', cUpdates E pf b us = .ok b') ∨
      cUpdates E pf b us = .panic .explicit ∨
      (∃ (p : Prng) (u : Nat × Bytes) (s k : Nat), u ∈ us ∧ 1 ≤ k ∧ k < 32 ∧
        cUpdates E pf b us = .panic .assertion ∧
        afterDraws E.sha512 (reseeded E.sha512 p u.2 s) k = p)) ∧
    (cUpdates E pf b us = .panic .explicit → ¬ Increasing (2 ^ 32 - 1) t us) ∧
    (∀ b', cUpdates E pf b us = .ok b' → Increasing (2 ^ 32 - 1) t us ∧
      BlobFor E (x • E.defaultParam.h) (lastTime t us) b') := by
  refine ⟨?_, ?_, fun b' h => ⟨(cUpdates_blobFor H L C D pf hb h).2,
    (cUpdates_blobFor H L C D pf hb h).1⟩⟩
  · induction us generalizing t b with
    | nil => exact Or.inl ⟨b, rfl⟩
    | cons u us ih =>
      obtain ⟨tar, seed⟩ := u
      obtain ⟨sk, hk, rfl⟩ := hb
      have hs := Ffi.cSkUpdate_honest H L C D pf hk seed tar []
      rw [List.append_nil] at hs
      rw [cUpdates]
      by_cases hr : t < tar ∧ tar ≤ 2 ^ 32 - 1
      · rcases hs.2 hr with ⟨sk', h1, h2⟩ | ⟨h1, k, k1, k2, k3⟩
        · rw [h2]
          rcases ih ⟨sk', h1, rfl⟩ with h | h | ⟨p, u, s, k, hu, h⟩
          · exact Or.inl h
          · exact Or.inr (Or.inl h)
          · exact Or.inr (Or.inr ⟨p, u, s, k, List.mem_cons_of_mem _ hu, h⟩)
        · rw [h1]
          exact Or.inr (Or.inr ⟨sk.prng, (tar, seed), t, k, by simp, k1, k2, rfl, k3⟩)
      · rw [hs.1 hr]
        exact Or.inr (Or.inl rfl)
  · induction us generalizing t b with
    | nil => intro h; cases h
    | cons u us ih =>
      obtain ⟨tar, seed⟩ := u
      obtain ⟨sk, hk, rfl⟩ := hb
      have hs := Ffi.cSkUpdate_honest H L C D pf hk seed tar []
      rw [List.append_nil] at hs
      rw [cUpdates]
      intro h hi
      rcases hs.2 ⟨hi.1, hi.2.1⟩ with ⟨sk', h1, h2⟩ | ⟨h1, _⟩
      · rw [h2] at h
        exact ih ⟨sk', h1, rfl⟩ h hi.2.2
      · rw [h1] at h
        cases h

/-- C46: aggregation on bytes: signature blobs that `c_verify` accepts for one message and carry one
time aggregate to a blob that `c_verify_agg` accepts. -/
theorem C46_aggregate [DecidableEq GT] {E : Ext G1 G2 GT} (H : HashLaws E) (L : GroupLaws E)
    (C : CodecLaws E) (D : DefaultLaws E) (pf : Profile) (msg : Bytes) (t : Nat)
    (l : List (Bytes × Bytes)) (hne : l ≠ [])
    (hcs : ∀ p ∈ l, p.1.head? = some E.defaultParam.ciphersuite)
    (ht : ∀ p ∈ l, beNat ((p.2.drop 1).take 4) = t)
    (hv : ∀ p ∈ l, Ffi.cVerify E pf p.1 msg p.2 = .ok true) :
    ∃ agg, Ffi.cAggregation E (l.map (·.2)) = .ok agg ∧ agg.length = 149 ∧
      Ffi.cVerifyAgg E pf (l.map (·.1)) msg agg = .ok true := by
  -- what each pair of blobs decodes to
  have one : ∀ p ∈ l, ∃ q : PublicKey G2 × Signature G1 G2,
      Ffi.parse (PublicKey.deserialize E true) p.1 = .ok q.1 ∧
      Ffi.parse (Signature.deserialize E true) p.2 = .ok q.2 ∧
      (E.inSub2 q.1.pk = true ∧ q.1.ciphersuite = E.defaultParam.ciphersuite) ∧
      q.2.time = t ∧ Signature.verifyBytes E pf q.2 q.1 E.defaultParam msg = .ok true := by
    intro p hp
    have h := hv p hp
    unfold Ffi.cVerify at h
    simp only [] at h
    obtain ⟨k, h1, h2⟩ := Res.bind_eq_ok.1 h
    obtain ⟨s, h3, h4⟩ := Res.bind_eq_ok.1 h2
    refine ⟨(k, s), h1, h3, ?_, ?_, h4⟩
    · rcases hr : PublicKey.deserialize E true p.1 with ⟨r, rest⟩
      simp only [Ffi.parse, hr] at h1
      cases r with
      | ok k' =>
        cases Res.ok.inj h1
        obtain ⟨e1, e2⟩ := PublicKey.deserialize_ok C hr
        refine ⟨e2.sub, ?_⟩
        have := hcs p hp
        rw [e1, pkLayout] at this
        simpa using this
      | err e => cases h1
      | panic q => cases h1
    · rcases hr : Signature.deserialize E true p.2 with ⟨r, rest⟩
      simp only [Ffi.parse, hr] at h3
      cases r with
      | ok k' =>
        cases Res.ok.inj h3
        obtain ⟨_, e1, e2⟩ := Signature.deserialize_ok C hr
        have := ht p hp
        rw [e1, sigLayout, List.cons_append, List.drop_succ_cons, List.drop_zero,
          List.append_assoc, List.take_left' (by rw [be32_length]), beNat_be32_lt e2.time_lt] at this
        exact this
      | err e => cases h3
      | panic q => cases h3
  -- the list of decoded pairs
  have all : ∀ l : List (Bytes × Bytes), (∀ p ∈ l, ∃ q : PublicKey G2 × Signature G1 G2,
      Ffi.parse (PublicKey.deserialize E true) p.1 = .ok q.1 ∧
      Ffi.parse (Signature.deserialize E true) p.2 = .ok q.2 ∧
      (E.inSub2 q.1.pk = true ∧ q.1.ciphersuite = E.defaultParam.ciphersuite) ∧
      q.2.time = t ∧ Signature.verifyBytes E pf q.2 q.1 E.defaultParam msg = .ok true) →
      ∃ qs : List (PublicKey G2 × Signature G1 G2), qs.length = l.length ∧
        Ffi.parseAll (PublicKey.deserialize E true) (l.map (·.1)) = .ok (qs.map (·.1)) ∧
        Ffi.parseAll (Signature.deserialize E true) (l.map (·.2)) = .ok (qs.map (·.2)) ∧
        ∀ q ∈ qs, (E.inSub2 q.1.pk = true ∧ q.1.ciphersuite = E.defaultParam.ciphersuite) ∧
          q.2.time = t ∧ Signature.verifyBytes E pf q.2 q.1 E.defaultParam msg = .ok true := by
    intro l
    induction l with
    | nil => intro _; exact ⟨[], rfl, rfl, rfl, by simp⟩
    | cons p l ih =>
      intro h
      obtain ⟨q, h1, h2, h3⟩ := h p (by simp)
      obtain ⟨qs, g1, g2, g3, g4⟩ := ih fun p' hp' => h p' (by simp [hp'])
      refine ⟨q :: qs, by simp [g1], ?_, ?_, ?_⟩
      · simp only [List.map_cons, Ffi.parseAll, h1, g2, Res.ok_bind]
      · simp only [List.map_cons, Ffi.parseAll, h2, g3, Res.ok_bind]
      · intro q' hq'
        rcases List.mem_cons.1 hq' with rfl | hq'
        · exact h3
        · exact g4 q' hq'
  obtain ⟨qs, h1, h2, h3, h4⟩ := all l one
  have hqne : qs ≠ [] := by
    intro h
    rw [h] at h1
    exact hne (List.length_eq_zero_iff.1 h1.symm)
  obtain ⟨s, e1, _, _, e4⟩ := C31_aggregate_verifies H L D.wf pf msg t qs hqne
    (fun q hq => (h4 q hq).1) (fun q hq => (h4 q hq).2.1) (fun q hq => (h4 q hq).2.2)
  have hval : SigValid E s := by
    obtain ⟨x, y⟩ := e4 |> fun h => (by
      rw [Signature.verifyBytesAggregated_eq E pf _ _ _ msg (by simpa using hqne) (by
        intro pk hpk'
        obtain ⟨q, hq, rfl⟩ := List.mem_map.1 hpk'
        exact (h4 q hq).1.2)] at h
      exact (⟨h, trivial⟩ : _ ∧ True))
    exact C36_accepted_signature H D.wf.toParamShape (by rw [D.depth]) pf x
  have hser := (C36_signature C hval []).1
  have hlen := (C37_fixed_sizes C).2.1 _ _ hser
  refine ⟨sigLayout E true s, ?_, hlen, ?_⟩
  · unfold Ffi.cAggregation
    simp only [h3, Res.ok_bind, e1, Ffi.unwrap, hser, Ffi.toArray_ok hlen]
  · have p2 := Ffi.parse_sig C hval []
    rw [List.append_nil] at p2
    unfold Ffi.cVerifyAgg
    simp only [h2, Res.ok_bind, p2, e4]

/-! ## C47 -/

/-- C47: `c_verify` never returns `false` for bytes that do not decode: it panics.  Undecodable are
for instance: an unsupported first byte, a time field 0, too short an array. -/
theorem C47_verify_aborts [DecidableEq GT] {E : Ext G1 G2 GT} (C : CodecLaws E) (pf : Profile)
    (pk msg sig : Bytes) :
    ((PublicKey.deserialize E true pk).1.isErr = true →
      Ffi.cVerify E pf pk msg sig = .panic .explicit) ∧
    ((Signature.deserialize E true sig).1.isErr = true →
      Ffi.cVerify E pf pk msg sig = .panic .explicit) ∧
    ((sig.drop 1).take 4 = [0, 0, 0, 0] → Ffi.cVerify E pf pk msg sig = .panic .explicit) ∧
    (∀ b, sig.head? = some b → ¬ Supported b →
      Ffi.cVerify E pf pk msg sig = .panic .explicit) := by
  have a1 : (PublicKey.deserialize E true pk).1.isErr = true →
      Ffi.cVerify E pf pk msg sig = .panic .explicit := by
    intro h
    unfold Ffi.cVerify
    simp only [Ffi.parse_err h, Res.panic_bind]
  have a2 : (Signature.deserialize E true sig).1.isErr = true →
      Ffi.cVerify E pf pk msg sig = .panic .explicit := by
    intro h
    have hk := PublicKey.deserialize_noPanic C true pk
    rcases hr : PublicKey.deserialize E true pk with ⟨r, rest⟩
    cases r with
    | ok k =>
      unfold Ffi.cVerify
      simp only [Ffi.parse_ok hr, Ffi.parse_err h, Res.ok_bind, Res.panic_bind]
    | err e => exact a1 (by rw [hr]; rfl)
    | panic p => rw [hr] at hk; cases hk
  refine ⟨a1, a2, fun h => a2 ?_, fun b h hb => a2 ?_⟩
  · match sig, h with
    | cs :: a :: b :: c :: d :: rest, h =>
      simp only [List.drop_succ_cons, List.drop_zero, List.take_succ_cons, List.take_zero,
        List.cons.injEq, and_true] at h
      obtain ⟨rfl, rfl, rfl, rfl⟩ := h
      exact (C39_refused C true cs rest).2.1
    | [], h | [_], h | [_, _], h | [_, _, _], h | [_, _, _, _], h => simp at h
  · match sig, h with
    | c :: rest, h =>
      cases Option.some.inj h
      exact (C39_suite_checked C true b rest hb).2.2.1

/-- C47: `c_verify` returns a verdict (it does not panic) exactly when both inputs decode. -/
theorem C47_verify_returns_iff [DecidableEq GT] {E : Ext G1 G2 GT} (H : HashLaws E)
    (C : CodecLaws E) (D : DefaultLaws E) (pf : Profile) (pk msg sig : Bytes) :
    (∃ r, Ffi.cVerify E pf pk msg sig = .ok r) ↔
      ((PublicKey.deserialize E true pk).1.isOk = true ∧
        (Signature.deserialize E true sig).1.isOk = true) := by
  constructor
  · rintro ⟨r, h⟩
    constructor
    · have hk := PublicKey.deserialize_noPanic C true pk
      cases hr : (PublicKey.deserialize E true pk).1 with
      | ok k => rfl
      | err e => rw [(C47_verify_aborts C pf pk msg sig).1 (by rw [hr]; rfl)] at h; cases h
      | panic p => rw [hr] at hk; cases hk
    · have hk := Signature.deserialize_noPanic C true sig
      cases hr : (Signature.deserialize E true sig).1 with
      | ok k => rfl
      | err e => rw [(C47_verify_aborts C pf pk msg sig).2.1 (by rw [hr]; rfl)] at h; cases h
      | panic p => rw [hr] at hk; cases hk
  · rintro ⟨h1, h2⟩
    obtain ⟨k, hk⟩ := Res.isOk_iff.1 h1
    obtain ⟨s, hs⟩ := Res.isOk_iff.1 h2
    have p1 : Ffi.parse (PublicKey.deserialize E true) pk = .ok k := by
      simp only [Ffi.parse, hk, Ffi.unwrap]
    have p2 : Ffi.parse (Signature.deserialize E true) sig = .ok s := by
      simp only [Ffi.parse, hs, Ffi.unwrap]
    unfold Ffi.cVerify
    simp only [p1, p2, Res.ok_bind]
    exact C24_total H D.wf.toParamShape pf s k msg

/-- C47: updating to a time that is not later, or out of range, aborts. -/
theorem C47_update_aborts {E : Ext G1 G2 GT} (H : HashLaws E) (L : GroupLaws E) (C : CodecLaws E)
    (D : DefaultLaws E) (pf : Profile) {x t : Nat} {b : Bytes}
    (hb : BlobFor E (x • E.defaultParam.h) t b) (seed : Bytes) (tar : Nat)
    (h : tar ≤ t ∨ 2 ^ 32 ≤ tar) : Ffi.cSkUpdate E pf b seed tar = .panic .explicit := by
  obtain ⟨sk, hk, rfl⟩ := hb
  have := (Ffi.cSkUpdate_honest H L C D pf hk seed tar []).1 (by omega)
  rwa [List.append_nil] at this

/-- C47: an update does not consume the caller's blob: after any updates, the blob from before still
signs for its old time, and the signature is accepted. -/
theorem C47_old_blob_still_signs [DecidableEq GT] {E : Ext G1 G2 GT} (H : HashLaws E)
    (L : GroupLaws E) (C : CodecLaws E) (D : DefaultLaws E) (pf : Profile) {seed : Bytes}
    {keys : Ffi.Keys} (hg : Ffi.cKeygen E seed = .ok keys) {us us' : List (Nat × Bytes)}
    {blob blob' : Bytes} (hu : cUpdates E pf keys.sk us = .ok blob)
    (hu' : cUpdates E pf blob us' = .ok blob') (hne : us' ≠ []) (msg : Bytes) :
    lastTime 1 us < lastTime 1 (us ++ us') ∧
    ∃ sig sig', Ffi.cSignPresent E pf blob msg (lastTime 1 us) = .ok sig ∧
      Ffi.cVerify E pf keys.pk msg sig = .ok true ∧
      Ffi.cSignPresent E pf blob' msg (lastTime 1 (us ++ us')) = .ok sig' ∧
      Ffi.cVerify E pf keys.pk msg sig' = .ok true := by
  have happ : ∀ (us : List (Nat × Bytes)) (b : Bytes), cUpdates E pf b us = .ok blob →
      cUpdates E pf b (us ++ us') = .ok blob' := by
    intro us
    induction us with
    | nil =>
      intro b h
      cases Res.ok.inj h
      exact hu'
    | cons u us ih =>
      intro b h
      obtain ⟨tar, sd⟩ := u
      rw [cUpdates] at h
      rw [List.cons_append, cUpdates]
      cases hc : Ffi.cSkUpdate E pf b sd tar with
      | ok b' => rw [hc] at h; exact ih b' h
      | err e => rw [hc] at h; cases h
      | panic p => rw [hc] at h; cases h
  have hlt : ∀ (us : List (Nat × Bytes)) (t : Nat), lastTime t (us ++ us') =
      lastTime (lastTime t us) us' := by
    intro us
    induction us with
    | nil => intro t; rfl
    | cons u us ih => intro t; exact ih u.1
  have hinc : ∀ (us : List (Nat × Bytes)) (t : Nat), Increasing (2 ^ 32 - 1) t us →
      t ≤ lastTime t us ∧ (us ≠ [] → t < lastTime t us) := by
    intro us
    induction us with
    | nil => intro t _; exact ⟨le_refl _, fun h => absurd rfl h⟩
    | cons u us ih =>
      intro t h
      obtain ⟨h1, _, h3⟩ := h
      have := (ih u.1 h3).1
      have h4 : t < lastTime t (u :: us) := by
        change t < lastTime u.1 us
        omega
      exact ⟨by omega, fun _ => h4⟩
  obtain ⟨s, a1, _, _, a2⟩ := (C46_end_to_end H L C D pf hg hu msg).1
  obtain ⟨s', b1, _, _, b2⟩ := (C46_end_to_end H L C D pf hg (happ us _ hu) msg).1
  refine ⟨?_, s, s', a1, a2, b1, b2⟩
  have hl : 32 ≤ seed.length := by
    by_contra hc
    rw [(C46_keygen H L C D pf seed).1 (by omega)] at hg
    cases hg
  obtain ⟨keys', x, h1, _, _, _, _, h6, _⟩ := (C46_keygen H L C D pf seed).2 hl
  rw [hg] at h1
  cases Res.ok.inj h1
  have hb := (cUpdates_blobFor H L C D pf h6 hu).1
  have hi := (cUpdates_blobFor H L C D pf hb hu').2
  rw [hlt]
  exact (hinc us' _ hi).2 hne

/-- C47: empty lists abort as well: `c_aggregation` with no signatures, `c_verify_agg` with no keys
on a signature blob with the default ciphersuite. -/
theorem C47_empty_lists [DecidableEq GT] {E : Ext G1 G2 GT} (C : CodecLaws E) (pf : Profile)
    (msg sig : Bytes) :
    (Ffi.cAggregation E []).isPanic = true ∧
    (sig.head? = some E.defaultParam.ciphersuite →
      (Ffi.cVerifyAgg E pf [] msg sig).isPanic = true) := by
  constructor
  · rfl
  · intro h
    unfold Ffi.cVerifyAgg
    have hk := Signature.deserialize_noPanic C true sig
    rcases hr : Signature.deserialize E true sig with ⟨r, rest⟩
    cases r with
    | ok s =>
      obtain ⟨_, h1, _⟩ := Signature.deserialize_ok C hr
      rw [h1, sigLayout] at h
      have hc : s.ciphersuite = E.defaultParam.ciphersuite := by simpa using h
      simp only [Ffi.parse_ok hr, Ffi.parseAll, Res.ok_bind, C34_verify_empty, if_pos hc]
      rfl
    | err e =>
      simp only [Ffi.parse_err (p := Signature.deserialize E true) (b := sig) (by rw [hr]; rfl),
        Ffi.parseAll, Res.ok_bind, Res.panic_bind]
      rfl
    | panic p => rw [hr] at hk; cases hk

/-! ### Concrete cases -/

section Examples
open Pixel.Toy

/-- the PRNG state after key generation from 32 bytes 7 -/
def kgToy : Prng := drawNext sha0 (kgNext sha0 (List.replicate 32 7) 0) (DOM_SEP_SK_INIT ++ [0, 0, 0, 1])

/-- C46, C47: a run of the C interface: key generation and an update to any later time -/
theorem toy_c_run {tar : Nat} (h1 : 1 < tar) (h2 : tar ≤ 2 ^ 32 - 1) :
    ∃ keys blob, Ffi.cKeygen (ext sha0) (List.replicate 32 7) = .ok keys ∧
      cUpdates (ext sha0) .debug keys.sk [(tar, [])] = .ok blob := by
  have hs : ∀ m, (sha0 m).length = 64 := hashLaws.sha_len
  have D := defaultLaws sha0
  have L := groupLaws sha0
  have C := codecLaws sha0
  have hnc : ∀ k < 32, 1 ≤ k →
      SecretKey.chain sha0 (mixed sha0 kgToy [] (SecretKey.reseedInfo 1)) k ≠ kgToy := by
    decide +kernel
  obtain ⟨s, _, hsk, hkg⟩ := keygen_eq hashLaws D.wf.toParamShape
    (seed := List.replicate 32 7) (by simp) D.suite
  obtain ⟨keys, x', e1, _⟩ :=
    (C46_keygen hashLaws L C D .debug (List.replicate 32 7)).2 (by simp)
  obtain ⟨x, SK, hk, hprng, hsk⟩ : ∃ (x : Nat) (SK : SecretKey G G),
      KeyFor (ext sha0).defaultParam (x • (ext sha0).defaultParam.h) 1 SK ∧ SK.prng = kgToy ∧
      keys.sk = skLayout (ext sha0) true SK := by
    obtain ⟨x, hx, _, hk⟩ := keygen_keyFor hashLaws D.wf.toParamShape hkg
    refine ⟨x, _, hk, rfl, ?_⟩
    unfold Ffi.cKeygen at e1
    simp only [hkg, Ffi.unwrap, Res.ok_bind] at e1
    obtain ⟨a, _, e1⟩ := Res.bind_eq_ok.1 e1
    obtain ⟨b, hb, e1⟩ := Res.bind_eq_ok.1 e1
    obtain ⟨c, _, e1⟩ := Res.bind_eq_ok.1 e1
    obtain ⟨d, _, e1⟩ := Res.bind_eq_ok.1 e1
    obtain ⟨e, _, e1⟩ := Res.bind_eq_ok.1 e1
    rw [← Res.ok.inj e1]
    have := D.serialize_sk L C hk
    rw [this] at hb
    exact (Res.ok.inj hb).symm
  have hu := (Ffi.cSkUpdate_honest hashLaws L C D .debug hk [] tar []).2 ⟨h1, h2⟩
  rw [List.append_nil] at hu
  rcases hu with ⟨sk', _, h3⟩ | ⟨_, k, k1, k2, k3⟩
  · refine ⟨keys, skLayout (ext sha0) true sk', e1, ?_⟩
    rw [hsk, cUpdates, h3]
    rfl
  · exfalso
    rw [ext_sha, afterDraws_eq hs, reseeded_eq hs, hprng] at k3
    exact hnc k k2 k1 k3

/-- C46: so there are accepted signature blobs to aggregate, and C47: old blobs that still sign -/
example : ∃ keys sig, Ffi.cKeygen (ext sha0) (List.replicate 32 7) = .ok keys ∧
    Ffi.cVerify (ext sha0) .debug keys.pk [1, 2] sig = .ok true := by
  obtain ⟨keys, blob, h1, h2⟩ := toy_c_run (tar := 9) (by omega) (by omega)
  obtain ⟨⟨sig, _, _, _, h3⟩, _⟩ := C46_end_to_end hashLaws (groupLaws sha0) (codecLaws sha0)
    (defaultLaws sha0) .debug h1 h2 [1, 2]
  exact ⟨keys, sig, h1, h3⟩

/-- C47: bytes with time field 0 -/
example : ((([0, 0, 0, 0, 0] ++ List.replicate 144 1 : Bytes)).drop 1).take 4 = [0, 0, 0, 0] := rfl

end Examples

end Pixel.Props
