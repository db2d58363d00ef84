import Verif.Proof.Serdes
import Verif.Props.Sig

/-!
# Properties C36–C41: serialisation

Vocabulary: the documented layouts in `Verif/Spec/Wire.lean`; assumptions on the point codec:
`CodecLaws` in `Verif/Spec/Laws.lean`.
-/

namespace Pixel.Props

open Pixel Pixel.Spec

set_option linter.unusedSectionVars false

variable {G1 G2 GT : Type} [AddCommGroup G1] [AddCommGroup G2] [CommGroup GT]

/-! ## C36 -/

/-- C36: a public key is written in the documented layout and read back, in both modes, whatever
follows in the stream. -/
theorem C36_public_key {E : Ext G1 G2 GT} (C : CodecLaws E) (c : Bool) {k : PublicKey G2}
    (h : PkValid E k) (rest : Bytes) :
    k.serialize E c = .ok (pkLayout E c k) ∧
      PublicKey.deserialize E c (pkLayout E c k ++ rest) = (.ok k, rest) := by
  refine ⟨?_, PublicKey.deserialize_layout C c h rest⟩
  rw [PublicKey.serialize_eq, validCiphersuite_contains.2 h.suite]
  rfl

/-- C36: the same for a proof of possession. -/
theorem C36_pop {E : Ext G1 G2 GT} (C : CodecLaws E) (c : Bool) {p : ProofOfPossession G1}
    (h : PopValid E p) (rest : Bytes) :
    p.serialize E c = .ok (popLayout E c p) ∧
      ProofOfPossession.deserialize E c (popLayout E c p ++ rest) = (.ok p, rest) := by
  refine ⟨?_, ProofOfPossession.deserialize_layout C c h rest⟩
  rw [ProofOfPossession.serialize_eq, validCiphersuite_contains.2 h.suite]
  rfl

/-- C36: the same for a signature, in compressed mode. -/
theorem C36_signature {E : Ext G1 G2 GT} (C : CodecLaws E) {s : Signature G1 G2}
    (h : SigValid E s) (rest : Bytes) :
    s.serialize E true = .ok (sigLayout E true s) ∧
      Signature.deserialize E true (sigLayout E true s ++ rest) = (.ok s, rest) := by
  refine ⟨?_, Signature.deserialize_layout C h rest⟩
  rw [Signature.serialize_eq, validCiphersuite_contains.2 h.suite, if_pos rfl, if_pos h.time_lt]

/-- C36: the same for a secret key. -/
theorem C36_secret_key {E : Ext G1 G2 GT} (C : CodecLaws E) (c : Bool) {k : SecretKey G1 G2}
    (h : SkValid E k) (rest : Bytes) :
    k.serialize E c = .ok (skLayout E c k) ∧
      SecretKey.deserialize E c (skLayout E c k ++ rest) = (.ok k, rest) := by
  refine ⟨?_, SecretKey.deserialize_layout C c h rest⟩
  rw [SecretKey.serialize_eq, validCiphersuite_contains.2 h.suite, if_pos rfl,
    if_pos fun s hs => Nat.le_of_lt (h.ssk s hs).time_lt]

/-- C36: secret keys made by the API, at depth at most 32, are of that kind: whatever the history,
writing and reading back gives the same key. -/
theorem C36_honest_key {E : Ext G1 G2 GT} (H : HashLaws E) (L : GroupLaws E) (C : CodecLaws E)
    {pp : PubParam G1 G2} (W : ParamWF E pp) (hd : pp.depth ≤ 32) (pf : Profile) (c : Bool)
    {seed : Bytes} {pk : PublicKey G2} {sk0 : SecretKey G1 G2} {pop : ProofOfPossession G1}
    (hg : keygen E seed pp = .ok (pk, sk0, pop)) (cs : List Call) (rest : Bytes) :
    ∃ b, (runAll E.sha512 pf pp sk0 cs).serialize E c = .ok b ∧
      SecretKey.deserialize E c (b ++ rest) = (.ok (runAll E.sha512 pf pp sk0 cs), rest) := by
  obtain ⟨x, _, _, h2⟩ := keygen_keyFor H W.toParamShape hg
  obtain ⟨t', _, h4⟩ := runAll_keyFor H.sha_len (pf := pf) W.toParamShape h2 cs
  have hsup := keygen_supported hg
  have hv := KeyFor.skValid L W hd hsup (L.sub1_nsmul W.h_sub _) h4
  exact ⟨_, C36_secret_key C c hv rest⟩

/-- C36: the public key and the proof made by key generation are of that kind. -/
theorem C36_keygen {E : Ext G1 G2 GT} (H : HashLaws E) (L : GroupLaws E)
    {pp : PubParam G1 G2} (W : ParamWF E pp)
    {seed : Bytes} {pk : PublicKey G2} {sk : SecretKey G1 G2} {pop : ProofOfPossession G1}
    (hg : keygen E seed pp = .ok (pk, sk, pop)) : PkValid E pk ∧ PopValid E pop := by
  have hsup := keygen_supported hg
  have hl : 32 ≤ seed.length := by
    by_contra hc
    rw [keygen_short (by omega)] at hg
    cases hg
  obtain ⟨s, _, _, h3⟩ := keygen_eq H W.toParamShape hl hsup
  rw [h3] at hg
  obtain ⟨rfl, h4⟩ := Prod.mk.inj (Res.ok.inj hg)
  obtain ⟨_, rfl⟩ := Prod.mk.inj h4
  refine ⟨⟨hsup, ?_⟩, ⟨hsup, ?_⟩⟩
  · simp only [mulFr, W.g2_gen]
    exact L.sub2_nsmul L.gen2_sub _
  · exact L.sub1_nsmul (L.hash_sub _ _) _

/-- C36: accepted signatures are of that kind, up to depth 32. -/
theorem C36_accepted_signature [DecidableEq GT] {E : Ext G1 G2 GT} (H : HashLaws E)
    {pp : PubParam G1 G2} (S : ParamShape pp) (hd : pp.depth ≤ 32) (pf : Profile)
    {s : Signature G1 G2} {pk : PublicKey G2} {msg : Bytes}
    (h : Signature.verifyBytes E pf s pk pp msg = .ok true) : SigValid E s := by
  rw [Signature.verifyBytes_eq H S] at h
  obtain ⟨h1, h2, h3, h4, v, h5, _⟩ := @of_decide_eq_true _ (_) (Res.ok.inj h)
  have hv := (nodeAt_iff.1 h5).1
  have hpow : 2 ^ pp.depth ≤ 2 ^ 32 := Nat.pow_le_pow_right (by omega) hd
  exact ⟨by rw [h2]; exact h1, hv.1, by have := hv.2; omega, h3, h4⟩

/-! ## C37 -/

/-- C37: the fixed sizes; `size()` of a public key is that of its compressed form. -/
theorem C37_fixed_sizes {E : Ext G1 G2 GT} (C : CodecLaws E) :
    (∀ (k : PublicKey G2) b, k.serialize E true = .ok b → b.length = 49 ∧ k.size = b.length) ∧
    (∀ (s : Signature G1 G2) b, s.serialize E true = .ok b → b.length = 149) ∧
    (∀ (p : ProofOfPossession G1) b, p.serialize E true = .ok b → b.length = 97) := by
  refine ⟨fun k b h => ?_, fun s b h => ?_, fun p b h => ?_⟩
  · rw [PublicKey.serialize_eq] at h
    split at h
    · rw [← Res.ok.inj h]
      simp [pkLayout, C.enc2_len, PublicKey.size]
    · cases h
  · rw [Signature.serialize_eq] at h
    split at h
    · split at h
      · rw [← Res.ok.inj h]
        simp [sigLayout, C.enc2_len, C.enc1_len, be32_length]
      · cases h
    · cases h
  · rw [ProofOfPossession.serialize_eq] at h
    split at h
    · rw [← Res.ok.inj h]
      simp [popLayout, C.enc1_len]
    · cases h

/-- C37: whatever secret key is written, `size()` bytes are written. -/
theorem C37_secret_key_size {E : Ext G1 G2 GT} (C : CodecLaws E) {k : SecretKey G1 G2}
    (hp : k.prng.seed.length = 64) {b : Bytes} (h : k.serialize E true = .ok b) :
    b.length = k.size := by
  rw [SecretKey.serialize_eq] at h
  split at h
  · split at h
    · rw [← Res.ok.inj h]
      exact skLayout_length C hp
    · cases h
  · cases h

/-- C37: for a key at time `t` reached by honest use, `estimate_size(t, depth)` is `size()`, with
either build profile. -/
theorem C37_estimate_exact {pp : PubParam G1 G2} (S : ParamShape pp) (pf : Profile) {alpha : G1}
    {t : Nat} {sk : SecretKey G1 G2} (h : KeyFor pp alpha t sk) :
    SecretKey.estimateSize pf t pp.depth = .ok sk.size :=
  KeyFor.estimateSize S pf h

/-! ## C38 -/

/-- C38: what is read is written back as exactly the bytes that were consumed, in either mode for
public keys, proofs and secret keys. -/
theorem C38_canonical {E : Ext G1 G2 GT} (C : CodecLaws E) (c : Bool) (inp rest : Bytes) :
    (∀ k : PublicKey G2, PublicKey.deserialize E c inp = (.ok k, rest) →
      ∃ b, k.serialize E c = .ok b ∧ inp = b ++ rest) ∧
    (∀ p : ProofOfPossession G1, ProofOfPossession.deserialize E c inp = (.ok p, rest) →
      ∃ b, p.serialize E c = .ok b ∧ inp = b ++ rest) ∧
    (∀ s : Signature G1 G2, Signature.deserialize E c inp = (.ok s, rest) →
      ∃ b, s.serialize E c = .ok b ∧ inp = b ++ rest) ∧
    (∀ k : SecretKey G1 G2, SecretKey.deserialize E c inp = (.ok k, rest) →
      ∃ b, k.serialize E c = .ok b ∧ inp = b ++ rest) := by
  refine ⟨fun k h => ?_, fun p h => ?_, fun s h => ?_, fun k h => ?_⟩
  · obtain ⟨h1, h2⟩ := PublicKey.deserialize_ok C h
    exact ⟨_, (C36_public_key C c h2 rest).1, h1⟩
  · obtain ⟨h1, h2⟩ := ProofOfPossession.deserialize_ok C h
    exact ⟨_, (C36_pop C c h2 rest).1, h1⟩
  · obtain ⟨rfl, h1, h2⟩ := Signature.deserialize_ok C h
    exact ⟨_, (C36_signature C h2 rest).1, h1⟩
  · obtain ⟨h1, h2⟩ := SecretKey.deserialize_ok C h
    exact ⟨_, (C36_secret_key C c h2 rest).1, h1⟩

/-- C38: so two byte strings that decode to one signature (a secret key, …) with nothing left over
are equal. -/
theorem C38_unique {E : Ext G1 G2 GT} (C : CodecLaws E) (c : Bool) (b b' : Bytes) :
    (∀ k : PublicKey G2, PublicKey.deserialize E c b = (.ok k, []) →
      PublicKey.deserialize E c b' = (.ok k, []) → b = b') ∧
    (∀ p : ProofOfPossession G1, ProofOfPossession.deserialize E c b = (.ok p, []) →
      ProofOfPossession.deserialize E c b' = (.ok p, []) → b = b') ∧
    (∀ s : Signature G1 G2, Signature.deserialize E c b = (.ok s, []) →
      Signature.deserialize E c b' = (.ok s, []) → b = b') ∧
    (∀ k : SecretKey G1 G2, SecretKey.deserialize E c b = (.ok k, []) →
      SecretKey.deserialize E c b' = (.ok k, []) → b = b') := by
  refine ⟨fun k h h' => ?_, fun p h h' => ?_, fun s h h' => ?_, fun k h h' => ?_⟩
  · rw [(PublicKey.deserialize_ok C h).1, (PublicKey.deserialize_ok C h').1]
  · rw [(ProofOfPossession.deserialize_ok C h).1, (ProofOfPossession.deserialize_ok C h').1]
  · rw [(Signature.deserialize_ok C h).2.1, (Signature.deserialize_ok C h').2.1]
  · rw [(SecretKey.deserialize_ok C h).1, (SecretKey.deserialize_ok C h').1]

/-! ## C39 -/

/-- C39: reading never panics, whatever the bytes and the mode. -/
theorem C39_total {E : Ext G1 G2 GT} (C : CodecLaws E) (c : Bool) (inp : Bytes) :
    (PublicKey.deserialize E c inp).1.isPanic = false ∧
    (ProofOfPossession.deserialize E c inp).1.isPanic = false ∧
    (Signature.deserialize E c inp).1.isPanic = false ∧
    (SecretKey.deserialize E c inp).1.isPanic = false :=
  ⟨PublicKey.deserialize_noPanic C c inp, ProofOfPossession.deserialize_noPanic C c inp,
    Signature.deserialize_noPanic C c inp, SecretKey.deserialize_noPanic C c inp⟩

/-- C39: whatever is read without an error is well formed: supported ciphersuite, elements in the
subgroup, time stamps from 1, at least one sub key; signatures are read in compressed mode only. -/
theorem C39_only_well_formed {E : Ext G1 G2 GT} (C : CodecLaws E) (c : Bool) (inp rest : Bytes) :
    (∀ k : PublicKey G2, PublicKey.deserialize E c inp = (.ok k, rest) → PkValid E k) ∧
    (∀ p : ProofOfPossession G1, ProofOfPossession.deserialize E c inp = (.ok p, rest) →
      PopValid E p) ∧
    (∀ s : Signature G1 G2, Signature.deserialize E c inp = (.ok s, rest) →
      c = true ∧ SigValid E s) ∧
    (∀ k : SecretKey G1 G2, SecretKey.deserialize E c inp = (.ok k, rest) → SkValid E k) :=
  ⟨fun _ h => (PublicKey.deserialize_ok C h).2, fun _ h => (ProofOfPossession.deserialize_ok C h).2,
    fun _ h => ⟨(Signature.deserialize_ok C h).1, (Signature.deserialize_ok C h).2.2⟩,
    fun _ h => (SecretKey.deserialize_ok C h).2⟩

/-- C39: the first byte of everything must be a supported ciphersuite. -/
theorem C39_suite_checked {E : Ext G1 G2 GT} (C : CodecLaws E) (c : Bool) (b : UInt8) (inp : Bytes)
    (h : ¬ Supported b) :
    (PublicKey.deserialize E c (b :: inp)).1.isErr = true ∧
    (ProofOfPossession.deserialize E c (b :: inp)).1.isErr = true ∧
    (Signature.deserialize E c (b :: inp)).1.isErr = true ∧
    (SecretKey.deserialize E c (b :: inp)).1.isErr = true := by
  obtain ⟨t1, t2, t3, t4⟩ := C39_total C c (b :: inp)
  refine ⟨?_, ?_, ?_, ?_⟩
  · rcases hr : PublicKey.deserialize E c (b :: inp) with ⟨r, s⟩
    rw [hr] at t1
    cases r with
    | ok k =>
      obtain ⟨h1, h2⟩ := PublicKey.deserialize_ok C hr
      rw [(List.cons.inj h1).1] at h
      exact absurd h2.suite h
    | err e => rfl
    | panic p => cases t1
  · rcases hr : ProofOfPossession.deserialize E c (b :: inp) with ⟨r, s⟩
    rw [hr] at t2
    cases r with
    | ok k =>
      obtain ⟨h1, h2⟩ := ProofOfPossession.deserialize_ok C hr
      rw [(List.cons.inj h1).1] at h
      exact absurd h2.suite h
    | err e => rfl
    | panic p => cases t2
  · rcases hr : Signature.deserialize E c (b :: inp) with ⟨r, s⟩
    rw [hr] at t3
    cases r with
    | ok k =>
      obtain ⟨_, h1, h2⟩ := Signature.deserialize_ok C hr
      rw [(List.cons.inj h1).1] at h
      exact absurd h2.suite h
    | err e => rfl
    | panic p => cases t3
  · rcases hr : SecretKey.deserialize E c (b :: inp) with ⟨r, s⟩
    rw [hr] at t4
    cases r with
    | ok k =>
      obtain ⟨h1, h2⟩ := SecretKey.deserialize_ok C hr
      rw [(List.cons.inj h1).1] at h
      exact absurd h2.suite h
    | err e => rfl
    | panic p => cases t4

/-- an input that is a proper prefix of something readable is not readable -/
theorem truncated {α : Type} {p : SM Bytes α} {enc : α → Bytes} {P : α → Prop}
    (hno : NoPanic p) (h1 : ∀ inp x rest, p inp = (.ok x, rest) → inp = enc x ++ rest ∧ P x)
    (h2 : ∀ x, P x → ∀ rest, p (enc x ++ rest) = (.ok x, rest))
    {x : α} (hx : P x) {pre suf : Bytes} (he : enc x = pre ++ suf) (hs : suf ≠ []) :
    (p pre).1.isErr = true := by
  have hn := hno pre
  rcases hr : p pre with ⟨r, s⟩
  rw [hr] at hn
  cases r with
  | ok y =>
    obtain ⟨e1, e2⟩ := h1 _ _ _ hr
    have a1 := h2 x hx []
    have a2 := h2 y e2 (s ++ suf)
    rw [List.append_nil, he, e1, List.append_assoc] at a1
    rw [a1] at a2
    have := (Prod.mk.inj a2).2
    exact absurd (List.append_eq_nil_iff.1 this.symm).2 hs
  | err e => rfl
  | panic q => cases hn

/-- C39: every proper prefix of an encoding is refused. -/
theorem C39_truncated {E : Ext G1 G2 GT} (C : CodecLaws E) (c : Bool) (pre suf : Bytes)
    (hs : suf ≠ []) :
    (∀ k : PublicKey G2, PkValid E k → pkLayout E c k = pre ++ suf →
      (PublicKey.deserialize E c pre).1.isErr = true) ∧
    (∀ p : ProofOfPossession G1, PopValid E p → popLayout E c p = pre ++ suf →
      (ProofOfPossession.deserialize E c pre).1.isErr = true) ∧
    (∀ s : Signature G1 G2, SigValid E s → sigLayout E true s = pre ++ suf →
      (Signature.deserialize E true pre).1.isErr = true) ∧
    (∀ k : SecretKey G1 G2, SkValid E k → skLayout E c k = pre ++ suf →
      (SecretKey.deserialize E c pre).1.isErr = true) := by
  refine ⟨fun k hk he => ?_, fun k hk he => ?_, fun k hk he => ?_, fun k hk he => ?_⟩
  · exact truncated (PublicKey.deserialize_noPanic C c) (fun _ _ _ h => PublicKey.deserialize_ok C h)
      (fun _ h => PublicKey.deserialize_layout C c h) hk he hs
  · exact truncated (ProofOfPossession.deserialize_noPanic C c)
      (fun _ _ _ h => ProofOfPossession.deserialize_ok C h)
      (fun _ h => ProofOfPossession.deserialize_layout C c h) hk he hs
  · exact truncated (Signature.deserialize_noPanic C true)
      (fun _ _ _ h => (Signature.deserialize_ok C h).2)
      (fun _ h => Signature.deserialize_layout C h) hk he hs
  · exact truncated (SecretKey.deserialize_noPanic C c) (fun _ _ _ h => SecretKey.deserialize_ok C h)
      (fun _ h => SecretKey.deserialize_layout C c h) hk he hs

/-- C39: a signature is never read in uncompressed mode, a time stamp 0 is refused, a key without
sub keys is refused. -/
theorem C39_refused {E : Ext G1 G2 GT} (C : CodecLaws E) (c : Bool) (cs : UInt8) (rest : Bytes) :
    (∀ inp, (Signature.deserialize E false inp).1.isErr = true) ∧
    (Signature.deserialize E c (cs :: 0 :: 0 :: 0 :: 0 :: rest)).1.isErr = true ∧
    (∀ seed : Bytes, seed.length = 64 →
      (SecretKey.deserialize E c (cs :: 0 :: (seed ++ rest))).1.isErr = true) := by
  refine ⟨fun inp => ?_, ?_, fun seed hseed => ?_⟩
  · have t := Signature.deserialize_noPanic C false inp
    rcases hr : Signature.deserialize E false inp with ⟨r, s⟩
    rw [hr] at t
    cases r with
    | ok k => cases (Signature.deserialize_ok C hr).1
    | err e => rfl
    | panic p => cases t
  · have t := Signature.deserialize_noPanic C c (cs :: 0 :: 0 :: 0 :: 0 :: rest)
    rcases hr : Signature.deserialize E c (cs :: 0 :: 0 :: 0 :: 0 :: rest) with ⟨r, s⟩
    rw [hr] at t
    cases r with
    | ok k =>
      obtain ⟨_, h1, h2⟩ := Signature.deserialize_ok C hr
      have h3 : be32 k.time = [0, 0, 0, 0] := by
        have := congrArg (fun l : Bytes => (l.drop 1).take 4) h1
        simpa [sigLayout, be32] using this.symm
      have h4 := congrArg beNat h3
      rw [beNat_be32_lt h2.time_lt] at h4
      have h5 := h2.time_pos
      rw [h4] at h5
      exact absurd h5 (by decide)
    | err e => rfl
    | panic p => cases t
  · have t := SecretKey.deserialize_noPanic C c (cs :: 0 :: (seed ++ rest))
    rcases hr : SecretKey.deserialize E c (cs :: 0 :: (seed ++ rest)) with ⟨r, s⟩
    rw [hr] at t
    cases r with
    | ok k =>
      obtain ⟨h1, h2⟩ := SecretKey.deserialize_ok C hr
      have h3 : (0 : UInt8) = UInt8.ofNat k.ssk.length := (List.cons.inj (List.cons.inj h1).2).1
      have h4 := congrArg UInt8.toNat h3
      rw [toNat_ofNat_lt h2.len] at h4
      have h5 := h2.len_pos
      rw [← h4] at h5
      exact absurd h5 (by decide)
    | err e => rfl
    | panic p => cases t

/-! ## C40 -/

/-- C40: a sub key with time `2 ^ 32` is written, but what is written is refused by every reader:
its time field is 0. -/
theorem C40_time_wraps {E : Ext G1 G2 GT} (c : Bool) {s : SubSecretKey G1 G2}
    (h : s.time = 2 ^ 32) :
    ∃ b, s.serialize E c = .ok b ∧ b.take 4 = [0, 0, 0, 0] ∧
      ∀ rest, (SubSecretKey.deserialize E c (b ++ rest)).1 = .err .timeStamp := by
  have h0 : be32 s.time = [0, 0, 0, 0] := by rw [h]; decide +kernel
  refine ⟨subLayout E c s, ?_, ?_, fun rest => ?_⟩
  · rw [SubSecretKey.serialize_eq, if_pos (by omega)]
  · rw [subLayout, h0]; rfl
  · have hi : readExact 4 (subLayout E c s ++ rest) = (.ok [0, 0, 0, 0],
        UInt8.ofNat s.hvector.length :: (E.encG2 c s.g2r ++ (E.encG1 c s.hpoly ++
          ((s.hvector.map (E.encG1 c)).flatten ++ rest)))) := by
      rw [subLayout, h0]
      have := readExact_eq (b := ([0, 0, 0, 0] : Bytes)) (n := 4)
        (rest := UInt8.ofNat s.hvector.length :: (E.encG2 c s.g2r ++ (E.encG1 c s.hpoly ++
          ((s.hvector.map (E.encG1 c)).flatten ++ rest)))) rfl
      simpa using this
    unfold SubSecretKey.deserialize
    rw [SM.bind_run_ok hi]
    have hz : beNat [0, 0, 0, 0] = 0 := by decide
    simp only [hz, if_true]
    rfl

/-- C40: counts of 256 or more are written modulo 256, and such a key does not read back, whatever
follows; a count that is a multiple of 256 is refused. -/
theorem C40_counts_wrap {E : Ext G1 G2 GT} (C : CodecLaws E) (c : Bool) {k : SecretKey G1 G2}
    {b : Bytes} (hb : k.serialize E c = .ok b)
    (h : 256 ≤ k.ssk.length ∨ ∃ s ∈ k.ssk, 256 ≤ s.hvector.length) :
    (b[1]?).map UInt8.toNat = some (k.ssk.length % 256) ∧
    (∀ rest rest', SecretKey.deserialize E c (b ++ rest) ≠ (.ok k, rest')) := by
  have hb' : b = skLayout E c k := by
    rw [SecretKey.serialize_eq] at hb
    split at hb
    · split at hb
      · exact (Res.ok.inj hb).symm
      · cases hb
    · cases hb
  constructor
  · rw [hb', skLayout]
    simp
  · intro rest rest' hr
    obtain ⟨_, hv⟩ := SecretKey.deserialize_ok C hr
    rcases h with h | ⟨s, hs, h⟩
    · have := hv.len; omega
    · have := (hv.ssk s hs).len; omega

/-- C40: a key with a multiple of 256 sub keys is written and refused. -/
theorem C40_count_zero {E : Ext G1 G2 GT} (C : CodecLaws E) (c : Bool) {k : SecretKey G1 G2}
    (hp : k.prng.seed.length = 64) {b : Bytes} (hb : k.serialize E c = .ok b)
    (h : k.ssk.length % 256 = 0) (rest : Bytes) :
    (SecretKey.deserialize E c (b ++ rest)).1.isErr = true := by
  have hb' : b = skLayout E c k := by
    rw [SecretKey.serialize_eq] at hb
    split at hb
    · split at hb
      · exact (Res.ok.inj hb).symm
      · cases hb
    · cases hb
  have h0 : UInt8.ofNat k.ssk.length = 0 := by
    apply UInt8.toNat_inj.1
    rw [UInt8.toNat_ofNat']
    exact h
  have := (C39_refused C c k.ciphersuite ((k.ssk.map (subLayout E c)).flatten ++ rest)).2.2
    k.prng.seed hp
  rw [hb', skLayout, h0]
  simpa using this

/-- C40: times of `2 ^ 32` and more: signatures are refused from `2 ^ 32` on, secret keys as soon
as some sub key is beyond `2 ^ 32`. -/
theorem C40_large_times {E : Ext G1 G2 GT} (c : Bool) :
    (∀ s : Signature G1 G2, Supported s.ciphersuite → 2 ^ 32 ≤ s.time →
      s.serialize E c = .err .serial) ∧
    (∀ k : SecretKey G1 G2, Supported k.ciphersuite → (∃ s ∈ k.ssk, 2 ^ 32 < s.time) →
      k.serialize E c = .err .serial) := by
  constructor
  · intro s hs ht
    rw [Signature.serialize_eq, validCiphersuite_contains.2 hs, if_pos rfl, if_neg (by omega)]
  · rintro k hk ⟨s, hs, ht⟩
    rw [SecretKey.serialize_eq, validCiphersuite_contains.2 hk, if_pos rfl, if_neg]
    intro h
    have := h s hs
    omega

/-- C40: so with a depth beyond 32, which the time arithmetic supports, an honest key can be
written only before its first update. -/
theorem C40_deep_trees {E : Ext G1 G2 GT} (c : Bool) {pp : PubParam G1 G2}
    (hd : 33 ≤ pp.depth) (hsup : Supported pp.ciphersuite) {alpha : G1} {t : Nat}
    {sk : SecretKey G1 G2} (h : KeyFor pp alpha t sk) (ht : 1 < t) :
    sk.serialize E c = .err .serial :=
  (C40_large_times c).2 sk (by rw [h.suite]; exact hsup) (KeyFor.time_too_large hd h ht)

/-- C40: keys reachable at depth at most 32 never meet the limits. -/
theorem C40_reachable_fits {E : Ext G1 G2 GT} (H : HashLaws E) (L : GroupLaws E)
    {pp : PubParam G1 G2} (W : ParamWF E pp) (hd : pp.depth ≤ 32) (pf : Profile)
    {seed : Bytes} {pk : PublicKey G2} {sk0 : SecretKey G1 G2} {pop : ProofOfPossession G1}
    (hg : keygen E seed pp = .ok (pk, sk0, pop)) (cs : List Call) :
    (runAll E.sha512 pf pp sk0 cs).ssk.length ≤ 32 ∧
      ∀ s ∈ (runAll E.sha512 pf pp sk0 cs).ssk, s.time < 2 ^ 32 ∧ s.hvector.length ≤ 32 := by
  obtain ⟨x, _, _, h2⟩ := keygen_keyFor H W.toParamShape hg
  obtain ⟨t', _, h4⟩ := runAll_keyFor H.sha_len (pf := pf) W.toParamShape h2 cs
  obtain ⟨v, hv, hk⟩ := keyFor_iff.1 h4
  have hl := hk.ssk.length_eq
  have hgl := gam_length_le hk.node
  refine ⟨by omega, fun s hs => ?_⟩
  have hval := KeyFor.skValid L W hd (keygen_supported hg) (L.sub1_nsmul W.h_sub _) h4
  obtain ⟨g, hg', rho, hr⟩ := forall₂_mem_right hk.ssk hs
  refine ⟨(hval.ssk s hs).time_lt, ?_⟩
  rw [SubKeyFor.hvector_length W.toParamShape hr]
  omega

/-! ## C41 -/

/-- C41: the digest of a key is SHA-512 of as many zero bytes as the serialised key is long,
followed by the serialised key. -/
theorem C41_digest {E : Ext G1 G2 GT} (C : CodecLaws E) {k : SecretKey G1 G2}
    (hp : k.prng.seed.length = 64) {b : Bytes} (h : k.serialize E true = .ok b) :
    k.digest E = .ok (E.sha512 (List.replicate b.length 0 ++ b)) ∧
      List.replicate b.length 0 ++ b ≠ b := by
  constructor
  · unfold SecretKey.digest
    simp only [h, C37_secret_key_size C hp h]
  · intro he
    have hl := congrArg List.length he
    rw [List.length_append, List.length_replicate] at hl
    have hs := C37_secret_key_size C hp h
    rw [SecretKey.size_eq] at hs
    omega

/-- C41: it fails, and then with the serialisation error, exactly when serialising fails. -/
theorem C41_digest_fails {E : Ext G1 G2 GT} {k : SecretKey G1 G2} :
    (∀ e, k.serialize E true = .err e → k.digest E = .err .serial) ∧
    (∀ d, k.digest E = .ok d → ∃ b, k.serialize E true = .ok b) := by
  constructor
  · intro e h
    unfold SecretKey.digest
    simp only [h]
  · intro d h
    unfold SecretKey.digest at h
    cases hb : k.serialize E true with
    | ok b => exact ⟨b, rfl⟩
    | err e => rw [hb] at h; cases h
    | panic p => rw [hb] at h; cases h

/-- C41: two valid keys with the same digest are equal, or exhibit a SHA-512 collision. -/
theorem C41_digest_binds {E : Ext G1 G2 GT} (C : CodecLaws E) {k k' : SecretKey G1 G2}
    (h : SkValid E k) (h' : SkValid E k') {d : Bytes} (hd : k.digest E = .ok d)
    (hd' : k'.digest E = .ok d) :
    k = k' ∨ ∃ m m' : Bytes, m ≠ m' ∧ E.sha512 m = E.sha512 m' := by
  have e1 := (C36_secret_key C true h []).1
  have e2 := (C36_secret_key C true h' []).1
  rw [(C41_digest C h.seed e1).1] at hd
  rw [(C41_digest C h'.seed e2).1] at hd'
  by_cases he : List.replicate (skLayout E true k).length 0 ++ skLayout E true k =
      List.replicate (skLayout E true k').length 0 ++ skLayout E true k'
  · left
    have hl := congrArg List.length he
    simp only [List.length_append, List.length_replicate] at hl
    have hlay := (List.append_inj' he (by omega)).2
    have a1 := (C36_secret_key C true h []).2
    have a2 := (C36_secret_key C true h' []).2
    rw [hlay, a2] at a1
    exact (Res.ok.inj (Prod.mk.inj a1).1).symm
  · right
    exact ⟨_, _, he, (Res.ok.inj hd).trans (Res.ok.inj hd').symm⟩

/-! ### Concrete cases -/

section Examples
open Pixel.Toy

/-- C36, C37, C41: the concrete key at time 1, and a key at time 9 with several sub keys -/
example : SkValid (ext sha0) (sk0 5 1) ∧
    ∃ sk, SkValid (ext sha0) sk ∧ sk.time = 9 ∧ 1 < sk.ssk.length := by
  have W := param_wf sha0 (d := 5) (by omega) (by omega) 1
  have ha : (ext sha0).inSub1 (3 • (param 5 1).h) = true :=
    (groupLaws sha0).sub1_nsmul W.h_sub 3
  refine ⟨KeyFor.skValid (groupLaws sha0) W (by decide) (Or.inr rfl) ha
    (keyFor_sk0 (by omega) 1), ?_⟩
  obtain ⟨sk, _, h⟩ := toy_update (tar := 9) (by omega) (by omega)
  refine ⟨sk, KeyFor.skValid (groupLaws sha0) W (by decide) (Or.inr rfl) ha h, h.time, ?_⟩
  obtain ⟨v, hv, hk⟩ := keyFor_iff.1 h
  have hl := hk.ssk.length_eq
  have hv9 : v = [1, 1, 2, 2] := by
    have hn : NodeAt (param 5 1).depth 9 [1, 1, 2, 2] := ⟨by omega, by decide +kernel⟩
    exact num_inj hk.node (nodeAt_isNode hn) (by rw [nodeAt_num_eq hv, nodeAt_num_eq hn])
  rw [hv9] at hl
  simp [gam, sibs] at hl
  omega

/-- C36: a signature with a wire format -/
example : ∃ s : Signature G G, SigValid (ext sha0) s := by
  have W := param_wf sha0 (d := 5) (by omega) (by omega) 1
  obtain ⟨sig, _, _, hv⟩ := toy_sig
  exact ⟨sig, C36_accepted_signature hashLaws W.toParamShape (by decide) _ hv⟩

/-- C40: a sub key at time `2 ^ 32`, a key with 256 sub keys -/
example : (∃ s : SubSecretKey G G, s.time = 2 ^ 32) ∧
    ∃ (k : SecretKey G G) (b : Bytes), k.serialize (ext sha0) true = .ok b ∧
      k.ssk.length = 256 ∧ k.prng.seed.length = 64 := by
  refine ⟨⟨{ time := 2 ^ 32, g2r := 0, hpoly := 0, hvector := [] }, rfl⟩,
    ⟨{ sk0 5 1 with ssk := List.replicate 256 (ssk0 5) },
      skLayout (ext sha0) true { sk0 5 1 with ssk := List.replicate 256 (ssk0 5) }, ?_, ?_, ?_⟩⟩
  · rw [SecretKey.serialize_eq, if_pos (by decide), if_pos]
    intro s hs
    rw [List.eq_of_mem_replicate hs]
    decide
  · exact List.length_replicate
  · rfl

/-- C40: a deep tree: the key of depth 40 is fine at time 1, its successors are not writable -/
example : (∃ b, (sk0 40 1).serialize (ext sha0) true = .ok b) ∧
    ∀ sk, KeyFor (param 40 1) (3 • (param 40 1).h) 2 sk →
      sk.serialize (ext sha0) true = .err .serial := by
  constructor
  · refine ⟨skLayout (ext sha0) true (sk0 40 1), ?_⟩
    rw [SecretKey.serialize_eq, if_pos (by decide), if_pos]
    intro s hs
    simp only [sk0, List.mem_singleton] at hs
    subst hs
    simp [ssk0]
  · intro sk h
    exact C40_deep_trees true (by decide) (Or.inr rfl) h (by omega)

end Examples

end Pixel.Props
