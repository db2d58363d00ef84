import Verif.Proof.Io
import Verif.Props.Serdes
import Verif.ToyKey

/-!
# Property C60: readers and writers other than byte vectors

`serialize` and `deserialize` are generic over `Write` and `Read`; files, sockets and pipes deliver
and take bytes in pieces, can be interrupted, fail, or report the end of the input and go on later.
Vocabulary: `Verif/Spec/Io.lean`.
-/

namespace Pixel.Props

open Pixel Pixel.Spec

set_option linter.unusedSectionVars false

variable {G1 G2 GT : Type} [AddCommGroup G1] [AddCommGroup G2] [CommGroup GT]

/-! ## Reading -/

/-- C60: public keys, proofs of possession and signatures are read from *any* reader exactly as from
the bytes it delivers: pieces and interruptions make no difference, what is cut off by a failure is
refused. -/
theorem C60_public_objects {E : Ext G1 G2 GT} (C : CodecLaws E) (c : Bool) :
    (NeverMisreads (fun _ => True) (PublicKey.deserializeR E c) (PublicKey.deserialize E c) ∧
      ReadsAll (fun _ => True) (PublicKey.deserializeR E c) (PublicKey.deserialize E c)) ∧
    (NeverMisreads (fun _ => True) (ProofOfPossession.deserializeR E c)
        (ProofOfPossession.deserialize E c) ∧
      ReadsAll (fun _ => True) (ProofOfPossession.deserializeR E c)
        (ProofOfPossession.deserialize E c)) ∧
    NeverMisreads (fun _ => True) (Signature.deserializeR E c) (Signature.deserialize E c) ∧
      ReadsAll (fun _ => True) (Signature.deserializeR E c) (Signature.deserialize E c) := by
  have hQ : Closed fun _ => True := fun _ _ => trivial
  refine ⟨⟨fun r _ a r' h => ?_, fun r _ a rest h => ?_⟩,
    ⟨fun r _ a r' h => ?_, fun r _ a rest h => ?_⟩, fun r _ a r' h => ?_, fun r _ a rest h => ?_⟩
  · exact (PublicKey.deserializeR_sound hQ C c r (fun _ _ => trivial) a r' h).2
  · obtain ⟨r', h1, _, h2⟩ := PublicKey.deserializeR_complete hQ C c r (fun _ _ => trivial) a rest h
    exact ⟨r', h1, h2⟩
  · exact (ProofOfPossession.deserializeR_sound hQ C c r (fun _ _ => trivial) a r' h).2
  · obtain ⟨r', h1, _, h2⟩ :=
      ProofOfPossession.deserializeR_complete hQ C c r (fun _ _ => trivial) a rest h
    exact ⟨r', h1, h2⟩
  · exact (Signature.deserializeR_sound hQ C c r (fun _ _ => trivial) a r' h).2
  · obtain ⟨r', h1, _, h2⟩ := Signature.deserializeR_complete hQ C c r (fun _ _ => trivial) a rest h
    exact ⟨r', h1, h2⟩

/-- C60: secret keys and sub keys are never misread from a reader that does not report the end of
the input before it, and they are read from it if in addition it is never interrupted. -/
theorem C60_keys {E : Ext G1 G2 GT} (C : CodecLaws E) (c : Bool) :
    (NeverMisreads NeverEmpty (SecretKey.deserializeR E c) (SecretKey.deserialize E c) ∧
      ReadsAll (fun r => NeverEmpty r ∧ Uninterrupted r) (SecretKey.deserializeR E c)
        (SecretKey.deserialize E c)) ∧
    NeverMisreads NeverEmpty (SubSecretKey.deserializeR E c) (SubSecretKey.deserialize E c) ∧
      ReadsAll (fun r => NeverEmpty r ∧ Uninterrupted r) (SubSecretKey.deserializeR E c)
        (SubSecretKey.deserialize E c) := by
  refine ⟨⟨fun r hr a r' h => ?_, fun r hr a rest h => ?_⟩, fun r hr a r' h => ?_,
    fun r hr a rest h => ?_⟩
  · exact (SecretKey.deserializeR_sound notEmpty_closed (fun _ h => h) C c r hr a r' h).2
  · obtain ⟨r', h1, _, h2⟩ := SecretKey.deserializeR_complete smooth_closed (fun _ h => h) C c r
      (fun s hs => ⟨hr.1 s hs, hr.2 s hs⟩) a rest h
    exact ⟨r', h1, h2⟩
  · exact (SubSecretKey.deserializeR_sound notEmpty_closed (fun _ h => h) C c r hr a r' h).2
  · obtain ⟨r', h1, _, h2⟩ := SubSecretKey.deserializeR_complete smooth_closed (fun _ h => h) C c r
      (fun s hs => ⟨hr.1 s hs, hr.2 s hs⟩) a rest h
    exact ⟨r', h1, h2⟩

/-- C60: reading never panics, whatever the reader does. -/
theorem C60_total {E : Ext G1 G2 GT} (C : CodecLaws E) (c : Bool) (r : Reader) :
    (PublicKey.deserializeR E c r).1.isPanic = false ∧
    (ProofOfPossession.deserializeR E c r).1.isPanic = false ∧
    (Signature.deserializeR E c r).1.isPanic = false ∧
    (SubSecretKey.deserializeR E c r).1.isPanic = false ∧
    (SecretKey.deserializeR E c r).1.isPanic = false :=
  ⟨PublicKey.deserializeR_calm C c r, ProofOfPossession.deserializeR_calm C c r,
    Signature.deserializeR_calm C c r, SubSecretKey.deserializeR_calm C c r,
    SecretKey.deserializeR_calm C c r⟩

/-- C60: an interruption of the reader keeps a sub key from being read exactly when it comes after
the fourth byte; anywhere else it makes no difference. -/
theorem C60_sub_key_interruptions {E : Ext G1 G2 GT} (C : CodecLaws E) (c : Bool) {r : Reader}
    (hr : NeverEmpty r) {s : SubSecretKey G1 G2} {rest : Bytes}
    (h : SubSecretKey.deserialize E c (delivered r) = (.ok s, rest)) :
    (QuietAt 4 r → ∃ r', SubSecretKey.deserializeR E c r = (.ok s, r') ∧ delivered r' = rest) ∧
    (¬ QuietAt 4 r → (SubSecretKey.deserializeR E c r).1 = .err .deserial) := by
  obtain ⟨h1, h2⟩ := SubSecretKey.deserializeR_quiet C c hr h
  refine ⟨fun hq => ?_, h2⟩
  obtain ⟨r', h3, _, h4⟩ := h1 hq
  exact ⟨r', h3, h4⟩

/-- C60: an interruption or failure of the reader at that place is reported as a malformed sub key,
whatever follows. -/
theorem C60_interrupted_sub_key {E : Ext G1 G2 GT} (c : Bool) {r1 r2 : Reader} (h1 : Plain r1)
    (hl : (delivered r1).length = 4) (ht : beNat (delivered r1) ≠ 0) {x : ReadStep}
    (hx : x = .interrupted ∨ x = .fail) :
    SubSecretKey.deserializeR E c (r1 ++ x :: r2) = (.err .deserial, r2) := by
  unfold SubSecretKey.deserializeR
  rw [SM.bind_run_ok (readExactR_all h1 hl _)]
  simp only [if_neg ht]
  rcases hx with rfl | rfl <;> rfl

/-- C60: the same for every secret key, after its byte 70. -/
theorem C60_interrupted_key {E : Ext G1 G2 GT} (c : Bool) {r1 r2 : Reader} (h1 : Plain r1)
    {k : SecretKey G1 G2} (hk : SkValid E k) (hl : delivered r1 = (skLayout E c k).take 70)
    {x : ReadStep} (hx : x = .interrupted ∨ x = .fail) :
    SecretKey.deserializeR E c (r1 ++ x :: r2) = (.err .deserial, r2) := by
  obtain ⟨cs, t, ssk, prng⟩ := k
  cases ssk with
  | nil => exact absurd hk.len_pos (by simp)
  | cons s ssk =>
    have hs := hk.ssk s (List.mem_cons_self ..)
    have hseed : prng.seed.length = 64 := hk.seed
    have hsplit : delivered r1 = [cs, UInt8.ofNat (ssk.length + 1)] ++ (prng.seed ++ be32 s.time) := by
      rw [hl]
      have e1 : skLayout E c ⟨cs, t, s :: ssk, prng⟩ =
          ([cs, UInt8.ofNat (ssk.length + 1)] ++ (prng.seed ++ be32 s.time)) ++
            (UInt8.ofNat s.hvector.length :: (E.encG2 c s.g2r ++ (E.encG1 c s.hpoly ++
              (s.hvector.map (E.encG1 c)).flatten)) ++ (ssk.map (subLayout E c)).flatten) := by
        simp [skLayout, subLayout]
      rw [e1]
      exact List.take_left' (by simp [hseed, be32])
    obtain ⟨r3, p3, d3, e3⟩ := readExactR_plain r1 h1 2 (by rw [hsplit]; simp)
    rw [hsplit] at d3
    have d3 : delivered r3 = prng.seed ++ be32 s.time := d3
    obtain ⟨r4, p4, d4, e4⟩ := readExactR_plain r3 p3 64 (by rw [d3]; simp [hseed])
    rw [d3, List.drop_left' hseed] at d4
    unfold SecretKey.deserializeR
    rw [SM.bind_run_ok (e3 _), SM.bind_run_ok (e4 _), hsplit]
    simp only [List.cons_append, List.nil_append, List.take_succ_cons, List.take_zero,
      idx_zero_cons, idx_succ_cons, SM.lift_ok_bind, validCiphersuite_contains.2 hk.suite,
      Bool.not_true, Bool.false_eq_true, if_false]
    have hn : UInt8.ofNat (ssk.length + 1) ≠ 0 := by
      intro h0
      have h2 := toNat_ofNat_lt hk.len
      have h3 : (UInt8.ofNat (ssk.length + 1)).toNat = ssk.length + 1 := h2
      rw [h0] at h3
      have : (0 : UInt8).toNat = 0 := rfl
      omega
    rw [if_neg hn]
    refine SM.bind_run_err ?_
    refine C60_interrupted_sub_key c p4 (by rw [d4]; simp [be32]) ?_ hx
    rw [d4, beNat_be32_lt hs.time_lt]
    exact Nat.pos_iff_ne_zero.1 hs.time_pos

/-- C60: a reader that reports the end of the input at that place and goes on afterwards makes the
code read a sub key from bytes that are the encoding of none: the length byte is skipped. -/
theorem C60_empty_read {E : Ext G1 G2 GT} (C : CodecLaws E) (c : Bool) {s : SubSecretKey G1 G2}
    (hs : SubValid E s) :
    let r : Reader := [.data (be32 s.time), .data [],
      .data (E.encG2 c s.g2r ++ E.encG1 c s.hpoly)]
    (SubSecretKey.deserializeR E c r).1 = .ok { s with hvector := [] } ∧
      (SubSecretKey.deserialize E c (allBytes r)).1.isErr = true := by
  intro r
  have h4 : (be32 s.time).length = 4 := by simp [be32]
  have hne : be32 s.time ≠ [] := by simp [be32]
  constructor
  · have hp : Plain [.data (be32 s.time)] := by
      intro x hx
      rw [List.mem_singleton.1 hx]
      exact ⟨_, hne, rfl⟩
    have hd : delivered [.data (be32 s.time)] = be32 s.time := by
      rw [delivered_data hne]; exact List.append_nil _
    have e1 : readExactR 4 r = _ := readExactR_all hp (n := 4) (by rw [hd, h4])
      [.data [], .data (E.encG2 c s.g2r ++ E.encG1 c s.hpoly)]
    unfold SubSecretKey.deserializeR
    rw [SM.bind_run_ok e1, hd, beNat_be32_lt hs.time_lt]
    simp only [if_neg (Nat.pos_iff_ne_zero.1 hs.time_pos)]
    have hne2 : E.encG2 c s.g2r ++ E.encG1 c s.hpoly ≠ [] := by
      intro h0
      have := congrArg List.length h0
      rw [List.length_append, C.enc2_len] at this
      cases c <;> simp at this
    have e2 : readByteLaxR [.data [], .data (E.encG2 c s.g2r ++ E.encG1 c s.hpoly)] =
        (.ok 0, [.data (E.encG2 c s.g2r ++ E.encG1 c s.hpoly)]) := rfl
    rw [SM.bind_run_ok e2]
    have hQ : Closed fun _ => True := fun _ _ => trivial
    obtain ⟨r3, e3, _, d3⟩ := decR2_complete (Q := fun _ => True) hQ C c
      [.data (E.encG2 c s.g2r ++ E.encG1 c s.hpoly)] (fun _ _ => trivial) s.g2r
      (E.encG1 c s.hpoly) (by
        rw [delivered_data hne2]
        have := C.dec2_enc c s.g2r (E.encG1 c s.hpoly) hs.g2r
        simpa [delivered] using this)
    rw [SM.bind_run_ok e3]
    obtain ⟨r4, e4, _, d4⟩ := decR1_complete (Q := fun _ => True) hQ C c r3 (fun _ _ => trivial)
      s.hpoly [] (by
        rw [d3]
        have := C.dec1_enc c s.hpoly [] hs.hpoly
        simpa using this)
    rw [SM.bind_run_ok e4]
    rfl
  · have hn := SubSecretKey.deserialize_noPanic C c (allBytes r)
    rcases hr : SubSecretKey.deserialize E c (allBytes r) with ⟨x, rest⟩
    rw [hr] at hn
    cases x with
    | ok s' =>
      have h1 := congrArg List.length (SubSecretKey.deserialize_ok C hr).1
      simp only [allBytes, r, subLayout, List.length_append, List.length_cons, C.enc1_len, C.enc2_len,
        be32, List.length_nil] at h1
      omega
    | err e => rfl
    | panic p => cases hn

/-! ## Writing -/

/-- the common part of the five writers -/
theorem write_spec {x : Res Bytes} (w : Writer) :
    (∀ b, x = .ok b → (∃ s, (SM.lift x >>= writeAll) w = (.ok (), ⟨s, w.written ++ b⟩)) ∨
      (¬ Willing w ∧ ∃ s n, n < b.length ∧
        (SM.lift x >>= writeAll) w = (.err .io, ⟨s, w.written ++ b.take n⟩))) ∧
    (∀ e, x = .err e → (SM.lift x >>= writeAll) w = (.err e, w)) := by
  constructor
  · rintro b rfl
    rw [SM.lift_ok_bind]
    rcases writeAll_spec w.script b w.written with h | ⟨⟨y, hy, hy'⟩, h⟩
    · exact .inl h
    · refine .inr ⟨fun hw => ?_, h⟩
      rcases hy' with rfl | rfl
      · exact (hw _ hy).1 rfl
      · exact (hw _ hy).2 rfl
  · rintro e rfl
    rfl

/-- C60: whatever the writer does, each of the five objects is written completely, or the error is
reported; nothing is written of an object that has no encoding. -/
theorem C60_write (E : Ext G1 G2 GT) (c : Bool) (w : Writer) :
    (∀ k : PublicKey G2, WritesWhole w (k.serializeW E c w) (k.serialize E c)) ∧
    (∀ p : ProofOfPossession G1, WritesWhole w (p.serializeW E c w) (p.serialize E c)) ∧
    (∀ s : Signature G1 G2, WritesWhole w (s.serializeW E c w) (s.serialize E c)) ∧
    (∀ s : SubSecretKey G1 G2, WritesWhole w (s.serializeW E c w) (s.serialize E c)) ∧
    (∀ k : SecretKey G1 G2, WritesWhole w (k.serializeW E c w) (k.serialize E c)) :=
  ⟨fun _ => write_spec w, fun _ => write_spec w, fun _ => write_spec w, fun _ => write_spec w,
    fun _ => write_spec w⟩

/-- an encoding on its own is read -/
theorem read_whole {E : Ext G1 G2 GT} (C : CodecLaws E) (c : Bool) {k : SecretKey G1 G2}
    (h : SkValid E k) : SecretKey.deserialize E c (skLayout E c k) = (.ok k, []) := by
  have := (C36_secret_key C c h []).2
  rwa [List.append_nil] at this

/-- C60: what was written to any writer (without an error) is read back from any reader that
delivers those bytes; for secret keys the reader must not be interrupted. -/
theorem C60_pipe {E : Ext G1 G2 GT} (C : CodecLaws E) (c : Bool) (w w' : Writer) (r : Reader)
    (hw : w.written = []) (hd : delivered r = w'.written) :
    (∀ k : PublicKey G2, PkValid E k → k.serializeW E c w = (.ok (), w') →
      ∃ r', PublicKey.deserializeR E c r = (.ok k, r') ∧ delivered r' = []) ∧
    (∀ p : ProofOfPossession G1, PopValid E p → p.serializeW E c w = (.ok (), w') →
      ∃ r', ProofOfPossession.deserializeR E c r = (.ok p, r') ∧ delivered r' = []) ∧
    (∀ s : Signature G1 G2, SigValid E s → s.serializeW E true w = (.ok (), w') →
      ∃ r', Signature.deserializeR E true r = (.ok s, r') ∧ delivered r' = []) ∧
    (∀ k : SecretKey G1 G2, SkValid E k → k.serializeW E c w = (.ok (), w') →
      NeverEmpty r → Uninterrupted r →
      ∃ r', SecretKey.deserializeR E c r = (.ok k, r') ∧ delivered r' = []) := by
  have key : ∀ {x : Res Bytes} {b : Bytes}, x = .ok b → (SM.lift x >>= writeAll) w = (.ok (), w') →
      w'.written = b := by
    intro x b hx h
    rcases (write_spec (x := x) w).1 b hx with ⟨s, h1⟩ | ⟨_, s, n, _, h1⟩
    · rw [h] at h1
      rw [(Prod.mk.inj h1).2, hw]
      rfl
    · rw [h] at h1
      cases (Prod.mk.inj h1).1
  refine ⟨fun k hk h => ?_, fun k hk h => ?_, fun k hk h => ?_, fun k hk h h1 h2 => ?_⟩
  · obtain ⟨e1, e2⟩ := C36_public_key C c hk []
    refine (C60_public_objects C c).1.2 r trivial k [] ?_
    rw [hd, key e1 h, ← List.append_nil (pkLayout E c k)]
    exact e2
  · obtain ⟨e1, e2⟩ := C36_pop C c hk []
    refine (C60_public_objects C c).2.1.2 r trivial k [] ?_
    rw [hd, key e1 h, ← List.append_nil (popLayout E c k)]
    exact e2
  · obtain ⟨e1, e2⟩ := C36_signature C hk []
    refine (C60_public_objects C true).2.2.2 r trivial k [] ?_
    rw [hd, key e1 h, ← List.append_nil (sigLayout E true k)]
    exact e2
  · obtain ⟨e1, e2⟩ := C36_secret_key C c hk []
    refine (C60_keys C c).1.2 r ⟨h1, h2⟩ k [] ?_
    rw [hd, key e1 h, ← List.append_nil (skLayout E c k)]
    exact e2

/-- C60: what a failed write left behind is refused by the reader. -/
theorem C60_torn_write {E : Ext G1 G2 GT} (C : CodecLaws E) (c : Bool) (w w' : Writer) (e : Err)
    (r : Reader) (hw : w.written = []) (hd : delivered r = w'.written) :
    (∀ k : PublicKey G2, PkValid E k → k.serializeW E c w = (.err e, w') →
      (PublicKey.deserializeR E c r).1.isErr = true) ∧
    (∀ p : ProofOfPossession G1, PopValid E p → p.serializeW E c w = (.err e, w') →
      (ProofOfPossession.deserializeR E c r).1.isErr = true) ∧
    (∀ s : Signature G1 G2, SigValid E s → s.serializeW E true w = (.err e, w') →
      (Signature.deserializeR E true r).1.isErr = true) ∧
    (∀ k : SecretKey G1 G2, SkValid E k → k.serializeW E c w = (.err e, w') →
      NeverEmpty r → (SecretKey.deserializeR E c r).1.isErr = true) := by
  have key : ∀ {x : Res Bytes} {b : Bytes}, x = .ok b → (SM.lift x >>= writeAll) w = (.err e, w') →
      ∃ suf, suf ≠ [] ∧ b = w'.written ++ suf := by
    intro x b hx h
    rcases (write_spec (x := x) w).1 b hx with ⟨s, h1⟩ | ⟨_, s, n, hn, h1⟩
    · rw [h] at h1
      cases (Prod.mk.inj h1).1
    · rw [h] at h1
      refine ⟨b.drop n, fun h0 => ?_, ?_⟩
      · have := congrArg List.length h0
        simp at this
        omega
      · rw [(Prod.mk.inj h1).2, hw, List.nil_append, List.take_append_drop]
  have fin : ∀ {α : Type} {P : Reader → Prop} {p : SM Reader α} {q : SM Bytes α},
      NeverMisreads P p q → (p r).1.isPanic = false → P r → (q w'.written).1.isErr = true →
      (p r).1.isErr = true := by
    intro α P p q h1 h2 h3 h4
    rcases hr : p r with ⟨x, r'⟩
    rw [hr] at h2
    cases x with
    | ok a =>
      have := h1 r h3 a r' hr
      rw [hd] at this
      rw [this] at h4
      cases h4
    | err e => rfl
    | panic p => cases h2
  obtain ⟨t1, t2, t3, _, t5⟩ := C60_total C c r
  refine ⟨fun k hk h => ?_, fun k hk h => ?_, fun k hk h => ?_, fun k hk h hne => ?_⟩
  · obtain ⟨suf, h1, h2⟩ := key (C36_public_key C c hk []).1 h
    exact fin (C60_public_objects C c).1.1 t1 trivial ((C39_truncated C c _ suf h1).1 k hk h2)
  · obtain ⟨suf, h1, h2⟩ := key (C36_pop C c hk []).1 h
    exact fin (C60_public_objects C c).2.1.1 t2 trivial ((C39_truncated C c _ suf h1).2.1 k hk h2)
  · obtain ⟨suf, h1, h2⟩ := key (C36_signature C hk []).1 h
    exact fin (C60_public_objects C true).2.2.1 (C60_total C true r).2.2.1 trivial
      ((C39_truncated C c _ suf h1).2.2.1 k hk h2)
  · obtain ⟨suf, h1, h2⟩ := key (C36_secret_key C c hk []).1 h
    exact fin (C60_keys C c).1.1 t5 hne ((C39_truncated C c _ suf h1).2.2.2 k hk h2)

/-! ## Concrete cases -/

open Pixel.Toy

/-- A key of depth 5 in the toy instance has a wire format, so the theorems on keys apply to it: in
pieces it is read, with an interruption after byte 70 it is refused. -/
example : ∃ k : SecretKey G G, k = sk0 5 1 ∧ SkValid (ext sha0) k ∧
    (∃ r', SecretKey.deserializeR (ext sha0) true [.data ((skLayout (ext sha0) true k).take 70),
      .data ((skLayout (ext sha0) true k).drop 70)] = (.ok k, r') ∧ delivered r' = []) ∧
    SecretKey.deserializeR (ext sha0) true [.data ((skLayout (ext sha0) true k).take 70),
      .interrupted, .data ((skLayout (ext sha0) true k).drop 70)] =
      (.err .deserial, [.data ((skLayout (ext sha0) true k).drop 70)]) := by
  have W := param_wf sha0 (d := 5) (by omega) (by omega) 1
  have hv : SkValid (ext sha0) (sk0 5 1) :=
    KeyFor.skValid (groupLaws sha0) W (by decide) (Or.inr rfl)
      ((groupLaws sha0).sub1_nsmul W.h_sub _) (keyFor_sk0 (by omega) 1)
  have hlen : 70 < (skLayout (ext sha0) true (sk0 5 1)).length := by
    rw [skLayout_length (codecLaws sha0) hv.seed]
    decide
  have h1 : (skLayout (ext sha0) true (sk0 5 1)).take 70 ≠ [] := by
    intro h0
    have := congrArg List.length h0
    rw [List.length_take, List.length_nil] at this
    omega
  have h2 : (skLayout (ext sha0) true (sk0 5 1)).drop 70 ≠ [] := by
    intro h0
    have := congrArg List.length h0
    rw [List.length_drop, List.length_nil] at this
    omega
  refine ⟨_, rfl, hv, ?_, ?_⟩
  · refine (C60_keys (codecLaws sha0) true).1.2 _ ⟨?_, ?_⟩ _ _ ?_
    · intro s hs
      rcases List.mem_cons.1 hs with rfl | hs
      · exact notEmpty_closed _ h1
      · rw [List.mem_singleton.1 hs]
        exact notEmpty_closed _ h2
    · intro s hs
      rcases List.mem_cons.1 hs with rfl | hs
      · nofun
      · rw [List.mem_singleton.1 hs]
        nofun
    · rw [delivered_data h1, delivered_data h2, delivered, List.append_nil, List.take_append_drop]
      exact read_whole (codecLaws sha0) true hv
  · refine C60_interrupted_key (r1 := [.data ((skLayout (ext sha0) true (sk0 5 1)).take 70)]) true
      ?_ hv ?_ (.inl rfl)
    · intro s hs
      rw [List.mem_singleton.1 hs]
      exact ⟨_, h1, rfl⟩
    · rw [delivered_data h1, delivered, List.append_nil]

/-- A sub key to which the theorem on empty reads applies. -/
example : SubValid (ext sha0) (ssk0 5) := by
  have W := param_wf sha0 (d := 5) (by omega) (by omega) 1
  have hv : SkValid (ext sha0) (sk0 5 1) :=
    KeyFor.skValid (groupLaws sha0) W (by decide) (Or.inr rfl)
      ((groupLaws sha0).sub1_nsmul W.h_sub _) (keyFor_sk0 (by omega) 1)
  exact hv.ssk _ (List.mem_singleton.2 rfl)

/-- A reader interrupted in a harmless place, and in the wrong one. -/
example : QuietAt 4 [.data [0, 0], .interrupted, .data [0, 1, 3, 7]] ∧
    ¬ QuietAt 4 [.data [0, 0], .data [0, 1], .interrupted, .data [3, 7]] := by
  simp [QuietAt]

/-- A writer that takes three bytes, is interrupted, takes two more and fails; and a willing one. -/
example :
    writeAll [1, 2, 3, 4, 5, 6] ⟨[.take 3, .interrupted, .take 2, .fail], []⟩ =
      (.err .io, ⟨[], [1, 2, 3, 4, 5]⟩) ∧
    writeAll [1, 2, 3, 4, 5, 6] ⟨[.take 3, .interrupted, .take 2], []⟩ =
      (.ok (), ⟨[], [1, 2, 3, 4, 5, 6]⟩) ∧ Willing ⟨[.take 3, .interrupted, .take 2], []⟩ := by
  refine ⟨by decide +kernel, by decide +kernel, ?_⟩
  intro s hs
  simp at hs
  rcases hs with rfl | rfl | rfl <;> simp

end Pixel.Props
