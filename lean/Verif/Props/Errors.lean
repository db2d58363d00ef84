import Verif.Proof.Errors
import Verif.Proof.Update
import Verif.Props.Serdes

/-!
# Property C102: which error

The errors as the specification has them: `Verif/Spec/Errors.lean`.  Nothing is assumed of the point
decoders here: their errors are passed on as they are.
-/

namespace Pixel.Props

open Pixel Pixel.Spec

set_option linter.unusedSectionVars false

variable {G1 G2 GT : Type} [AddCommGroup G1] [AddCommGroup G2] [CommGroup GT]

/-- C102: reading a public key or a proof of possession fails with an error exactly for the reason
that the error names. -/
theorem C102_read_public (E : Ext G1 G2 GT) (c : Bool) (inp : Bytes) (e : Err) :
    ((∃ r, PublicKey.deserialize E c inp = (.err e, r)) ↔ PkRefused E c inp e) ∧
    ((∃ r, ProofOfPossession.deserialize E c inp = (.err e, r)) ↔ PopRefused E c inp e) := by
  constructor
  · refine (fails_suited (E.decG2 c) (fun c0 x => ({ ciphersuite := c0, pk := x } : PublicKey G2))
      |>.trans ?_)
    constructor
    · rintro (⟨rfl, rfl⟩ | ⟨b, r, rfl, ⟨hb, rfl⟩ | ⟨hb, r', h⟩⟩)
      exacts [.short, .suite hb, .point hb h]
    · intro h
      cases h with
      | short => exact .inl ⟨rfl, rfl⟩
      | suite hb => exact .inr ⟨_, _, rfl, .inl ⟨hb, rfl⟩⟩
      | point hb h => exact .inr ⟨_, _, rfl, .inr ⟨hb, _, h⟩⟩
  · refine (fails_suited (E.decG1 c)
      (fun c0 x => ({ ciphersuite := c0, pop := x } : ProofOfPossession G1)) |>.trans ?_)
    constructor
    · rintro (⟨rfl, rfl⟩ | ⟨b, r, rfl, ⟨hb, rfl⟩ | ⟨hb, r', h⟩⟩)
      exacts [.short, .suite hb, .point hb h]
    · intro h
      cases h with
      | short => exact .inl ⟨rfl, rfl⟩
      | suite hb => exact .inr ⟨_, _, rfl, .inl ⟨hb, rfl⟩⟩
      | point hb h => exact .inr ⟨_, _, rfl, .inr ⟨hb, _, h⟩⟩

/-- C102: the same for signatures. -/
theorem C102_read_signature (E : Ext G1 G2 GT) (c : Bool) (inp : Bytes) (e : Err) :
    (∃ r, Signature.deserialize E c inp = (.err e, r)) ↔ SigRefused E c inp e := by
  show Fails _ _ _ ↔ _
  unfold Signature.deserialize
  constructor
  · intro hh
    rcases fails_bind.1 hh with h | ⟨a, s, h1, h0⟩
    · obtain ⟨h1, rfl⟩ := fails_readExact.1 h
      exact .short (by omega)
    obtain ⟨h3, rfl⟩ := readExact_ok.1 h1
    obtain ⟨b, rfl⟩ := List.length_eq_one_iff.1 h3
    rcases fails_bind.1 h0 with h | ⟨t, s, h4, h⟩
    · obtain ⟨h1, rfl⟩ := fails_readExact.1 h
      exact .short (by simp; omega)
    obtain ⟨h5, rfl⟩ := readExact_ok.1 h4
    obtain ⟨t0, t1, t2, t3, rfl⟩ : ∃ t0 t1 t2 t3, t = [t0, t1, t2, t3] := by
      match t, h5 with
      | [t0, t1, t2, t3], _ => exact ⟨t0, t1, t2, t3, rfl⟩
    simp only at h
    by_cases ht : [t0, t1, t2, t3] = [0, 0, 0, 0]
    · rw [if_pos (beNat_four.2 ht)] at h
      rw [ht, fails_err.1 h]
      exact .time
    · rw [if_neg (fun h => ht (beNat_four.1 h)), idx_zero_cons, SM.lift_ok_bind] at h
      by_cases hb : Supported b
      · rw [if_neg (suite_pos hb)] at h
        rcases fails_bind.1 h with ⟨r, h⟩ | ⟨x, r, h6, h⟩
        · exact .sigma1 ht hb h
        cases c with
        | false =>
          rw [if_pos (by decide)] at h
          rw [fails_err.1 h]
          exact .mode ht hb h6 rfl
        | true =>
          rw [if_neg (by simp)] at h
          rcases fails_bind.1 h with ⟨r', h⟩ | ⟨y, r', h7, h⟩
          · exact .sigma2 ht hb h6 rfl h
          · rw [if_neg (by simp)] at h
            exact absurd h fails_pure
      · rw [if_pos (suite_neg hb)] at h
        rw [fails_err.1 h]
        exact .suite ht hb
  · have key : ∀ (b t0 t1 t2 t3 : UInt8) (r : Bytes) (f : Bytes → Bytes → SM Bytes (Signature G1 G2)),
        Fails (f [b] [t0, t1, t2, t3]) r e →
        Fails (readExact 1 >>= fun a => readExact 4 >>= fun t => f a t)
          (b :: t0 :: t1 :: t2 :: t3 :: r) e := by
      intro b t0 t1 t2 t3 r f h
      exact fails_bind.2 (.inr ⟨[b], _, readExact_ok.2 ⟨rfl, rfl⟩,
        fails_bind.2 (.inr ⟨[t0, t1, t2, t3], r, readExact_ok.2 ⟨rfl, rfl⟩, h⟩)⟩)
    intro h
    cases h with
    | short h =>
      match inp, h with
      | [], _ => exact fails_bind.2 (.inl (fails_readExact.2 ⟨by simp, rfl⟩))
      | b :: r, h =>
        exact fails_bind.2 (.inr ⟨[b], r, readExact_ok.2 ⟨rfl, rfl⟩,
          fails_bind.2 (.inl (fails_readExact.2 ⟨by simp at h; omega, rfl⟩))⟩)
    | time =>
      refine key _ _ _ _ _ _ _ ?_
      simp only
      rw [if_pos (beNat_four.2 rfl)]
      exact fails_err.2 rfl
    | suite ht hb =>
      refine key _ _ _ _ _ _ _ ?_
      simp only
      rw [if_neg (fun h => ht (beNat_four.1 h)), idx_zero_cons, SM.lift_ok_bind,
        if_pos (suite_neg hb)]
      exact fails_err.2 rfl
    | sigma1 ht hb h =>
      refine key _ _ _ _ _ _ _ ?_
      simp only
      rw [if_neg (fun h => ht (beNat_four.1 h)), idx_zero_cons, SM.lift_ok_bind,
        if_neg (suite_pos hb)]
      exact fails_bind.2 (.inl ⟨_, h⟩)
    | mode ht hb h hc =>
      refine key _ _ _ _ _ _ _ ?_
      simp only
      rw [if_neg (fun h => ht (beNat_four.1 h)), idx_zero_cons, SM.lift_ok_bind,
        if_neg (suite_pos hb)]
      refine fails_bind.2 (.inr ⟨_, _, h, ?_⟩)
      rw [if_pos (by simp [hc])]
      exact fails_err.2 rfl
    | sigma2 ht hb h hc h' =>
      refine key _ _ _ _ _ _ _ ?_
      simp only
      rw [if_neg (fun h => ht (beNat_four.1 h)), idx_zero_cons, SM.lift_ok_bind,
        if_neg (suite_pos hb)]
      refine fails_bind.2 (.inr ⟨_, _, h, ?_⟩)
      rw [if_neg (by simp [hc])]
      exact fails_bind.2 (.inl ⟨_, h'⟩)

/-- C102: the same for the sub keys of a secret key. -/
theorem C102_read_sub_key (E : Ext G1 G2 GT) (c : Bool) (inp : Bytes) (e : Err) :
    (∃ r, SubSecretKey.deserialize E c inp = (.err e, r)) ↔ SubRefused E c inp e := by
  show Fails _ _ _ ↔ _
  unfold SubSecretKey.deserialize
  constructor
  · intro hh
    rcases fails_bind.1 hh with h | ⟨t, s, h4, h⟩
    · obtain ⟨h1, rfl⟩ := fails_readExact.1 h
      exact .short h1
    obtain ⟨h5, rfl⟩ := readExact_ok.1 h4
    obtain ⟨t0, t1, t2, t3, rfl⟩ : ∃ t0 t1 t2 t3, t = [t0, t1, t2, t3] := by
      match t, h5 with
      | [t0, t1, t2, t3], _ => exact ⟨t0, t1, t2, t3, rfl⟩
    simp only at h
    by_cases ht : [t0, t1, t2, t3] = [0, 0, 0, 0]
    · rw [if_pos (beNat_four.2 ht)] at h
      rw [ht, fails_err.1 h]
      exact .time
    · rw [if_neg (fun h => ht (beNat_four.1 h))] at h
      unfold Fails at h
      rw [SM.bind_run_ok (readByteLax_eq s)] at h
      rcases fails_bind.1 h with ⟨r, h⟩ | ⟨x, r, h6, h⟩
      · exact .g2r ht h
      rcases fails_bind.1 h with ⟨r', h⟩ | ⟨y, r', h7, h⟩
      · exact .hpoly ht h6 h
      rcases fails_bind.1 h with h | ⟨_, _, _, h⟩
      · exact .hvector ht h6 h7 ((fails_readMany _).1 h)
      · exact absurd h fails_pure
  · have key : ∀ (t0 t1 t2 t3 : UInt8) (r : Bytes) (f : Bytes → SM Bytes (SubSecretKey G1 G2)),
        Fails (f [t0, t1, t2, t3]) r e →
        Fails (readExact 4 >>= fun t => f t) (t0 :: t1 :: t2 :: t3 :: r) e := by
      intro t0 t1 t2 t3 r f h
      exact fails_bind.2 (.inr ⟨[t0, t1, t2, t3], r, readExact_ok.2 ⟨rfl, rfl⟩, h⟩)
    intro h
    cases h with
    | short h => exact fails_bind.2 (.inl (fails_readExact.2 ⟨h, rfl⟩))
    | time =>
      refine key _ _ _ _ _ _ ?_
      simp only
      rw [if_pos (beNat_four.2 rfl)]
      exact fails_err.2 rfl
    | g2r ht h =>
      refine key _ _ _ _ _ _ ?_
      simp only
      rw [if_neg (fun h => ht (beNat_four.1 h))]
      exact fails_bind.2 (.inr ⟨_, _, readByteLax_eq _, fails_bind.2 (.inl ⟨_, h⟩)⟩)
    | hpoly ht h h' =>
      refine key _ _ _ _ _ _ ?_
      simp only
      rw [if_neg (fun h => ht (beNat_four.1 h))]
      exact fails_bind.2 (.inr ⟨_, _, readByteLax_eq _, fails_bind.2 (.inr ⟨_, _, h,
        fails_bind.2 (.inl ⟨_, h'⟩)⟩)⟩)
    | hvector ht h h' hm =>
      refine key _ _ _ _ _ _ ?_
      simp only
      rw [if_neg (fun h => ht (beNat_four.1 h))]
      exact fails_bind.2 (.inr ⟨_, _, readByteLax_eq _, fails_bind.2 (.inr ⟨_, _, h,
        fails_bind.2 (.inr ⟨_, _, h', fails_bind.2 (.inl ((fails_readMany _).2 hm))⟩)⟩)⟩)

/-- C102: the same for secret keys: the error of the first sub key that is refused. -/
theorem C102_read_secret_key (E : Ext G1 G2 GT) (c : Bool) (inp : Bytes) (e : Err) :
    (∃ r, SecretKey.deserialize E c inp = (.err e, r)) ↔
      SkRefused (fun i => SubSecretKey.deserialize E c i) inp e := by
  show Fails _ _ _ ↔ _
  unfold SecretKey.deserialize
  constructor
  · intro hh
    rcases fails_bind.1 hh with h | ⟨a, s, h1, h0⟩
    · obtain ⟨h1, rfl⟩ := fails_readExact.1 h
      exact .short (by omega)
    obtain ⟨h3, rfl⟩ := readExact_ok.1 h1
    obtain ⟨b, n, rfl⟩ := List.length_eq_two.1 h3
    rcases fails_bind.1 h0 with h | ⟨seed, s, h4, h⟩
    · obtain ⟨h1, rfl⟩ := fails_readExact.1 h
      exact .short (by simp; omega)
    obtain ⟨h5, rfl⟩ := readExact_ok.1 h4
    rw [idx_zero_cons, SM.lift_ok_bind] at h
    by_cases hb : Supported b
    · rw [if_neg (suite_pos hb), show idx [b, n] 1 = .ok n from rfl, SM.lift_ok_bind] at h
      by_cases hn : n = 0
      · rw [if_pos hn] at h
        rw [fails_err.1 h, hn]
        exact .none (seed := seed) (inp := s) h5 hb
      · rw [if_neg hn] at h
        refine .sub (seed := seed) (inp := s) h5 hb ?_
        have hn' : n.toNat = n.toNat - 1 + 1 := by
          have : n.toNat ≠ 0 := fun h => hn (UInt8.toNat_inj.1 h)
          omega
        rw [hn']
        rcases fails_bind.1 h with ⟨r, h⟩ | ⟨x, r, h6, h⟩
        · exact .here h
        rcases fails_bind.1 h with h | ⟨l, r', _, h⟩
        · exact .later h6 ((fails_readMany _).1 h)
        · simp only [idx_zero_cons, SM.lift_ok_bind] at h
          exact absurd h fails_pure
    · rw [if_pos (suite_neg hb)] at h
      rw [fails_err.1 h]
      exact .suite (seed := seed) (inp := s) h5 hb
  · have key : ∀ (b n : UInt8) (seed r : Bytes) (f : Bytes → Bytes → SM Bytes (SecretKey G1 G2)),
        seed.length = 64 → Fails (f [b, n] seed) r e →
        Fails (readExact 2 >>= fun a => readExact 64 >>= fun t => f a t)
          (b :: n :: (seed ++ r)) e := by
      intro b n seed r f hs h
      exact fails_bind.2 (.inr ⟨[b, n], _, readExact_ok.2 ⟨rfl, rfl⟩,
        fails_bind.2 (.inr ⟨seed, r, readExact_ok.2 ⟨hs, rfl⟩, h⟩)⟩)
    intro h
    cases h with
    | short h =>
      match inp, h with
      | [], _ => exact fails_bind.2 (.inl (fails_readExact.2 ⟨by simp, rfl⟩))
      | [_], _ => exact fails_bind.2 (.inl (fails_readExact.2 ⟨by simp, rfl⟩))
      | b :: n :: r, h =>
        exact fails_bind.2 (.inr ⟨[b, n], r, readExact_ok.2 ⟨rfl, rfl⟩,
          fails_bind.2 (.inl (fails_readExact.2 ⟨by simp at h; omega, rfl⟩))⟩)
    | suite hs hb =>
      refine key _ _ _ _ _ hs ?_
      rw [idx_zero_cons, SM.lift_ok_bind, if_pos (suite_neg hb)]
      exact fails_err.2 rfl
    | none hs hb =>
      refine key _ _ _ _ _ hs ?_
      rw [idx_zero_cons, SM.lift_ok_bind, if_neg (suite_pos hb)]
      exact fails_err.2 rfl
    | @sub b n seed inp e hs hb hm =>
      refine key _ _ _ _ _ hs ?_
      rw [idx_zero_cons, SM.lift_ok_bind, if_neg (suite_pos hb),
        show idx [b, n] 1 = .ok n from rfl, SM.lift_ok_bind]
      have hn : n ≠ 0 := by
        rintro rfl
        cases hm
      rw [if_neg hn]
      obtain ⟨k, hk⟩ : ∃ k, n.toNat = k + 1 := by
        have : n.toNat ≠ 0 := fun h => hn (UInt8.toNat_inj.1 h)
        exact ⟨n.toNat - 1, by omega⟩
      rw [hk] at hm ⊢
      cases hm with
      | here h => exact fails_bind.2 (.inl ⟨_, h⟩)
      | later h1 h2 =>
        exact fails_bind.2 (.inr ⟨_, _, h1, fails_bind.2 (.inl ((fails_readMany _).2 h2))⟩)

/-- C102: writing fails for an unsupported ciphersuite and then for times that do not fit (a sub key
may be one later than a signature), and for nothing else; the digest reports both as a failure to
write. -/
theorem C102_write (E : Ext G1 G2 GT) (c : Bool) (e : Err) :
    (∀ k : PublicKey G2, k.serialize E c = .err e ↔ ¬ Supported k.ciphersuite ∧ e = .ciphersuite) ∧
    (∀ p : ProofOfPossession G1,
      p.serialize E c = .err e ↔ ¬ Supported p.ciphersuite ∧ e = .ciphersuite) ∧
    (∀ s : Signature G1 G2, s.serialize E c = .err e ↔
      (¬ Supported s.ciphersuite ∧ e = .ciphersuite) ∨
      (Supported s.ciphersuite ∧ 2 ^ 32 ≤ s.time ∧ e = .serial)) ∧
    (∀ k : SecretKey G1 G2, k.serialize E c = .err e ↔
      (¬ Supported k.ciphersuite ∧ e = .ciphersuite) ∨
      (Supported k.ciphersuite ∧ (∃ s ∈ k.ssk, 2 ^ 32 < s.time) ∧ e = .serial)) ∧
    (∀ k : SecretKey G1 G2, k.digest E = .err e ↔
      (¬ Supported k.ciphersuite ∨ ∃ s ∈ k.ssk, 2 ^ 32 < s.time) ∧ e = .serial) := by
  have neg : ∀ {b : UInt8}, ¬ Supported b → ¬ validCiphersuite.contains b = true :=
    fun h h' => h (validCiphersuite_contains.1 h')
  have sk : ∀ (c : Bool) (e : Err) (k : SecretKey G1 G2), k.serialize E c = .err e ↔
      (¬ Supported k.ciphersuite ∧ e = .ciphersuite) ∨
      (Supported k.ciphersuite ∧ (∃ s ∈ k.ssk, 2 ^ 32 < s.time) ∧ e = .serial) := by
    intro c e k
    rw [SecretKey.serialize_eq]
    by_cases h : Supported k.ciphersuite
    · rw [if_pos (validCiphersuite_contains.2 h)]
      by_cases ht : ∀ s ∈ k.ssk, s.time ≤ 2 ^ 32
      · rw [if_pos ht]
        constructor
        · intro h; cases h
        · rintro (⟨h', -⟩ | ⟨-, ⟨s, hs, h'⟩, -⟩)
          · exact absurd h h'
          · have := ht s hs; omega
      · rw [if_neg ht]
        have ht' : ∃ s ∈ k.ssk, 2 ^ 32 < s.time := by
          by_contra hc
          exact ht fun s hs => by
            by_contra h'
            exact hc ⟨s, hs, by omega⟩
        constructor
        · intro h'; exact .inr ⟨h, ht', (Res.err.inj h').symm⟩
        · rintro (⟨h', -⟩ | ⟨-, -, rfl⟩)
          · exact absurd h h'
          · rfl
    · rw [if_neg (neg h)]
      constructor
      · intro h'; exact .inl ⟨h, (Res.err.inj h').symm⟩
      · rintro (⟨-, rfl⟩ | ⟨h', -⟩)
        · rfl
        · exact absurd h' h
  refine ⟨fun k => ?_, fun p => ?_, fun s => ?_, sk c e, fun k => ?_⟩
  · rw [PublicKey.serialize_eq]
    by_cases h : Supported k.ciphersuite
    · rw [if_pos (validCiphersuite_contains.2 h)]
      exact ⟨fun h' => (by cases h'), fun h' => absurd h h'.1⟩
    · rw [if_neg (neg h)]
      exact ⟨fun h' => ⟨h, (Res.err.inj h').symm⟩, fun h' => by rw [h'.2]⟩
  · rw [ProofOfPossession.serialize_eq]
    by_cases h : Supported p.ciphersuite
    · rw [if_pos (validCiphersuite_contains.2 h)]
      exact ⟨fun h' => (by cases h'), fun h' => absurd h h'.1⟩
    · rw [if_neg (neg h)]
      exact ⟨fun h' => ⟨h, (Res.err.inj h').symm⟩, fun h' => by rw [h'.2]⟩
  · rw [Signature.serialize_eq]
    by_cases h : Supported s.ciphersuite
    · rw [if_pos (validCiphersuite_contains.2 h)]
      by_cases ht : s.time < 2 ^ 32
      · rw [if_pos ht]
        constructor
        · intro h; cases h
        · rintro (⟨h', -⟩ | ⟨-, h', -⟩)
          · exact absurd h h'
          · omega
      · rw [if_neg ht]
        constructor
        · intro h'; exact .inr ⟨h, by omega, (Res.err.inj h').symm⟩
        · rintro (⟨h', -⟩ | ⟨-, -, rfl⟩)
          · exact absurd h h'
          · rfl
    · rw [if_neg (neg h)]
      constructor
      · intro h'; exact .inl ⟨h, (Res.err.inj h').symm⟩
      · rintro (⟨-, rfl⟩ | ⟨h', -⟩)
        · rfl
        · exact absurd h' h
  · unfold SecretKey.digest
    have h0 : (¬ Supported k.ciphersuite ∨ ∃ s ∈ k.ssk, 2 ^ 32 < s.time) ↔
        ∃ e, k.serialize E true = .err e := by
      constructor
      · intro h
        by_cases hs : Supported k.ciphersuite
        · exact ⟨_, (sk true _ k).2 (.inr ⟨hs, h.resolve_left (fun h' => h' hs), rfl⟩)⟩
        · exact ⟨_, (sk true _ k).2 (.inl ⟨hs, rfl⟩)⟩
      · rintro ⟨e, h⟩
        rcases (sk true e k).1 h with ⟨h, -⟩ | ⟨-, h, -⟩
        exacts [.inl h, .inr h]
    rw [h0]
    cases hr : k.serialize E true with
    | ok b => simp
    | err e' =>
      simp only
      exact ⟨fun h => ⟨⟨e', rfl⟩, (Res.err.inj h).symm⟩, fun h => by rw [h.2]⟩
    | panic p => simp

/-- C102: signing with any value of the type `SecretKey` at its own time, whoever made it: the errors
and their reasons; nothing else goes wrong, and nothing panics. -/
theorem C102_sign {sha : Bytes → Bytes} (hsha : ∀ m, (sha m).length = 64) (pf : Profile)
    {pp : PubParam G1 G2} (S : ParamShape pp) (sk : SecretKey G1 G2) (msg : Bytes) :
    (∀ e, Signature.signPresent sha pf sk.time pp msg sk = (.err e, sk) ↔ SignRefused pp sk e) ∧
    (Signature.signPresent sha pf sk.time pp msg sk).1.isPanic = false := by
  rw [Signature.signPresent_eq rfl]
  by_cases hc : Supported pp.ciphersuite ∧ sk.ciphersuite = pp.ciphersuite
  swap
  · have h0 : Signature.signBytes sha pf sk sk.time pp msg = .err .ciphersuite := by
      unfold Signature.signBytes
      simp only
      by_cases h1 : Supported pp.ciphersuite
      · rw [if_neg (suite_pos h1), if_pos fun h2 => hc ⟨h1, h2⟩]
      · rw [if_pos (suite_neg h1)]
    rw [h0]
    refine ⟨fun e => ⟨fun h => ?_, fun h => ?_⟩, rfl⟩
    · rw [← Res.err.inj (Prod.mk.inj h).1]
      exact .suite hc
    · cases h with
      | suite => rfl
      | noKey h1 h2 => exact absurd ⟨h1, h2⟩ hc
      | time h1 h2 => exact absurd ⟨h1, h2⟩ hc
      | last h1 h2 => exact absurd ⟨h1, h2⟩ hc
      | noCoeff h1 h2 => exact absurd ⟨h1, h2⟩ hc
  obtain ⟨h1, h2⟩ := hc
  have asserted : assertRes (decide (sk.time = sk.time)) = .ok () := by simp
  have h0 : Signature.signBytes sha pf sk sk.time pp msg =
      Signature.signFr pf sk sk.time pp (msgField sha pp.ciphersuite msg)
        (drawVal sha sk.prng (signInfo msg sk.time)) := by
    unfold Signature.signBytes
    simp only
    rw [if_neg (suite_pos h1), if_neg (by simpa using h2), decide_true, assertRes_true, Res.ok_bind,
      sample_exec hsha]
    simp only [Res.ok_bind]
    rw [hashMsg_eq hsha, Res.ok_bind]
  rw [h0]
  generalize msgField sha pp.ciphersuite msg = M
  generalize drawVal sha sk.prng (signInfo msg sk.time) = r
  cases hs : sk.ssk with
  | nil =>
    have h3 : Signature.signFr pf sk sk.time pp M r = .err .sskEmpty := by
      unfold Signature.signFr SecretKey.firstSsk
      rw [asserted, Res.ok_bind, hs]
      rfl
    rw [h3]
    refine ⟨fun e => ⟨fun h => ?_, fun h => ?_⟩, rfl⟩
    · rw [← Res.err.inj (Prod.mk.inj h).1]
      exact .noKey h1 h2 hs
    · cases h with
      | suite h => exact absurd ⟨h1, h2⟩ h
      | noKey => rfl
      | time _ _ h => rw [hs] at h; cases h
      | last _ _ h => rw [hs] at h; cases h
      | noCoeff _ _ h => exact absurd (hs.symm.trans h) (by simp)
  | cons s rest =>
    have hd := S.depth_le
    have hp : 1 ≤ 2 ^ pp.depth := Nat.one_le_two_pow
    have first : sk.firstSsk = .ok s := by unfold SecretKey.firstSsk; rw [hs]; rfl
    have bad : ∀ e, TimeVec.init pf s.time pp.depth = .err e →
        Signature.signFr pf sk sk.time pp M r = .err e := by
      intro e h
      unfold Signature.signFr
      rw [asserted, Res.ok_bind, first, Res.ok_bind]
      unfold SubSecretKey.timeVec
      simp only
      rw [h]
      rfl
    by_cases ha : s.time = 0 ∨ 2 ^ pp.depth < s.time
    · rw [bad _ (init_bad S.depth_pos hd ha)]
      refine ⟨fun e => ⟨fun h => ?_, fun h => ?_⟩, rfl⟩
      · rw [← Res.err.inj (Prod.mk.inj h).1]
        exact .time h1 h2 hs ha
      · cases h with
        | suite h => exact absurd ⟨h1, h2⟩ h
        | noKey _ _ h => rw [hs] at h; cases h
        | time => rfl
        | last _ _ h h' =>
          rw [hs] at h; cases h; omega
        | noCoeff _ _ h h' =>
          rw [hs] at h; cases h
          have h3 := h'.1
          have h4 := h'.2
          omega
    by_cases hb : s.time = 2 ^ pp.depth
    · rw [bad _ (by rw [hb]; exact init_max hd)]
      refine ⟨fun e => ⟨fun h => ?_, fun h => ?_⟩, rfl⟩
      · rw [← Res.err.inj (Prod.mk.inj h).1]
        exact .last h1 h2 hs hb
      · cases h with
        | suite h => exact absurd ⟨h1, h2⟩ h
        | noKey _ _ h => rw [hs] at h; cases h
        | time _ _ h h' =>
          rw [hs] at h; cases h; omega
        | last => rfl
        | noCoeff _ _ h h' =>
          rw [hs] at h; cases h
          have h4 := h'.2
          omega
    have hv : ValidTime pp.depth s.time := ⟨by omega, by omega⟩
    have hn := path_isNode hv
    obtain ⟨g0, hl, hhl, hlen⟩ := hlist_cons S
    have hloop := nodeLoop_eq (pp := pp) (v := path pp.depth s.time) hhl hn.2
      (by have := hn.1; omega)
    have hi0 : idx pp.hlist 0 = .ok g0 := by rw [hhl]; rfl
    have run : Signature.signFr pf sk sk.time pp M r = (do
        let hvLast ← s.lastHvectorCoeff
        .ok { ciphersuite := pp.ciphersuite, time := sk.time,
              sigma1 := s.g2r + mulFr r pp.g2,
              sigma2 := s.hpoly + mulFr M hvLast +
                mulFr r (nodePoint pp (path pp.depth s.time) + mulFr M (pp.hlist.getLastD 0)) }) := by
      unfold Signature.signFr
      rw [asserted, Res.ok_bind, first, Res.ok_bind]
      unfold SubSecretKey.timeVec
      simp only
      rw [init_valid hd hv]
      simp only [Res.ok_bind]
      rw [hi0, Res.ok_bind, hloop, Res.ok_bind, hlist_last S, Res.ok_bind]
    rw [run]
    cases hvec : s.hvector with
    | nil =>
      have h3 : s.lastHvectorCoeff = .err .sskEmpty := by
        unfold SubSecretKey.lastHvectorCoeff; rw [hvec]; rfl
      rw [h3]
      refine ⟨fun e => ⟨fun h => ?_, fun h => ?_⟩, rfl⟩
      · rw [← Res.err.inj (Prod.mk.inj h).1]
        exact .noCoeff h1 h2 hs hv hvec
      · cases h with
        | suite h => exact absurd ⟨h1, h2⟩ h
        | noKey _ _ h => rw [hs] at h; cases h
        | time _ _ h h' => rw [hs] at h; cases h; exact absurd h' ha
        | last _ _ h h' => rw [hs] at h; cases h; exact absurd h' hb
        | noCoeff => rfl
    | cons x xs =>
      have h3 : ∃ y, s.lastHvectorCoeff = .ok y := by
        unfold SubSecretKey.lastHvectorCoeff
        rw [hvec, if_neg (by simp)]
        unfold idx
        rw [List.getElem?_eq_getElem (by simp)]
        exact ⟨_, rfl⟩
      obtain ⟨y, h3⟩ := h3
      rw [h3]
      refine ⟨fun e => ⟨fun h => ?_, fun h => ?_⟩, rfl⟩
      · cases (Prod.mk.inj h).1
      · cases h with
        | suite h => exact absurd ⟨h1, h2⟩ h
        | noKey _ _ h => rw [hs] at h; cases h
        | time _ _ h h' => rw [hs] at h; cases h; exact absurd h' ha
        | last _ _ h h' => rw [hs] at h; cases h; exact absurd h' hb
        | noCoeff _ _ h _ h' => rw [hs] at h; cases h; rw [hvec] at h'; cases h'

/-- C102: an update of a key, whoever made it, to an admissible time: without sub keys, and if its
first sub key is not for an earlier time.  Both leave the key alone. -/
theorem C102_update (sha : Bytes → Bytes) (pf : Profile) {pp : PubParam G1 G2}
    (hd : pp.depth ≤ 63) {sk : SecretKey G1 G2} (hc : sk.ciphersuite = pp.ciphersuite) {tar : Nat}
    (h1 : sk.time < tar) (h2 : tar ≤ 2 ^ pp.depth - 1) (seed : Bytes) :
    (sk.ssk = [] → SecretKey.update sha pf pp tar seed sk = (.err .sskEmpty, sk)) ∧
    (∀ s rest, sk.ssk = s :: rest → tar ≤ s.time →
      SecretKey.update sha pf pp tar seed sk = (.err .timeStamp, sk)) := by
  have run : ∀ e, sk.findAncestor tar = .err e →
      SecretKey.update sha pf pp tar seed sk = (.err e, sk) := by
    intro e h
    unfold SecretKey.update
    rw [SM.get_bind, if_neg (by simp [hc])]
    simp only
    rw [(SecretKey.maxTime_eq pf hd).1, SM.lift_ok_bind, (SecretKey.maxTime_eq pf hd).2,
      SM.lift_ok_bind, if_neg (by omega), h]
    rfl
  constructor
  · intro h
    refine run _ ?_
    unfold SecretKey.findAncestor
    rw [h]
    rfl
  · intro s rest h ht
    refine run _ ?_
    unfold SecretKey.findAncestor
    rw [h]
    show (if s.time ≥ tar then _ else _) = _
    rw [if_pos ht]

/-- C102: the constructors that key generation calls, each for itself. -/
theorem C102_constructors (E : Ext G1 G2 GT) (pp : PubParam G1 G2) (e : Err) :
    (∀ pk : G2, PublicKey.init pp pk = .err e ↔ ¬ Supported pp.ciphersuite ∧ e = .ciphersuite) ∧
    (∀ (alpha : G1) (p : Prng), ¬ Supported pp.ciphersuite →
      SecretKey.init E.sha512 pp alpha p = .err .ciphersuite) ∧
    (∀ seed : Bytes, seed.length < 32 → masterKeyGen E seed pp = .err .seedTooShort) ∧
    (∀ seed : Bytes, 32 ≤ seed.length → ¬ Supported pp.ciphersuite →
      masterKeyGen E seed pp = .err .ciphersuite) ∧
    (∀ sk : SecretKey G1 G2, sk.firstSsk = .err e ↔ sk.ssk = [] ∧ e = .sskEmpty) ∧
    (∀ s : SubSecretKey G1 G2, s.lastHvectorCoeff = .err e ↔ s.hvector = [] ∧ e = .sskEmpty) := by
  refine ⟨fun pk => ?_, fun alpha p h => ?_, fun seed h => ?_, fun seed h h' => ?_, fun sk => ?_,
    fun s => ?_⟩
  · unfold PublicKey.init
    by_cases h : Supported pp.ciphersuite
    · rw [if_neg (suite_pos h)]
      exact ⟨fun h' => (by cases h'), fun h' => absurd h h'.1⟩
    · rw [if_pos (suite_neg h)]
      exact ⟨fun h' => ⟨h, (Res.err.inj h').symm⟩, fun h' => by rw [h'.2]⟩
  · unfold SecretKey.init
    rw [if_pos (suite_neg h)]
  · unfold masterKeyGen
    rw [if_pos h]
  · unfold masterKeyGen
    simp only
    rw [if_neg (by omega), if_pos (suite_neg h')]
  · unfold SecretKey.firstSsk
    cases h : sk.ssk with
    | nil => exact ⟨fun h' => ⟨rfl, (Res.err.inj h').symm⟩, fun h' => by rw [h'.2]; rfl⟩
    | cons s l => exact ⟨fun h' => (by cases h'), fun h' => (by cases h'.1)⟩
  · unfold SubSecretKey.lastHvectorCoeff
    cases h : s.hvector with
    | nil => exact ⟨fun h' => ⟨rfl, (Res.err.inj h').symm⟩, fun h' => by rw [h'.2]; rfl⟩
    | cons x l =>
      refine ⟨fun h' => ?_, fun h' => (by cases h'.1)⟩
      rw [if_neg (by simp)] at h'
      unfold idx at h'
      split at h' <;> cases h'

section Examples
open Pixel.Toy

/-- every kind of refusal of a signature occurs -/
example (a : G) (ha : a.2 = 0) :
    SigRefused (ext sha0) true [1, 0, 0, 0] .eof ∧
    SigRefused (ext sha0) true [9, 0, 0, 0, 0] .timeStamp ∧
    SigRefused (ext sha0) true [9, 0, 0, 0, 5] .ciphersuite ∧
    SigRefused (ext sha0) true [1, 0, 0, 0, 5] .codec ∧
    SigRefused (ext sha0) false (1 :: 0 :: 0 :: 0 :: 5 :: ((ext sha0).encG2 false a ++ [])) .compress ∧
    SigRefused (ext sha0) true (1 :: 0 :: 0 :: 0 :: 5 :: ((ext sha0).encG2 true a ++ [])) .codec := by
  have e1 : (ext sha0).decG1 true [] = (.err .codec, []) := by
    simp only [ext, dec]
    rw [if_neg]
    rintro ⟨h, -⟩
    have := congrArg List.length h
    simp [enc] at this
  have e2 : (ext sha0).decG2 true [] = (.err .codec, []) := by
    simp only [ext, dec]
    rw [if_neg]
    rintro ⟨h, -⟩
    have := congrArg List.length h
    simp [enc] at this
  have ok : ∀ c, (ext sha0).decG2 c ((ext sha0).encG2 c a ++ []) = (.ok a, []) :=
    fun c => (codecLaws sha0).dec2_enc c a [] (by simpa [ext] using ha)
  have hn : ¬ Supported 9 := by unfold Supported; decide
  exact ⟨.short (by decide), .time, .suite (by decide) hn, .sigma1 (by decide) (.inr rfl) e2,
    .mode (by decide) (.inr rfl) (ok false) rfl, .sigma2 (by decide) (.inr rfl) (ok true) rfl e1⟩

/-- a secret key of two sub keys of which the second is missing -/
example : SkRefused (fun i => SubSecretKey.deserialize (ext sha0) true i)
    (1 :: 2 :: (List.replicate 64 7 ++ (subLayout (ext sha0) true (ssk0 5) ++ []))) .eof := by
  have W := param_wf sha0 (d := 5) (by omega) (by omega) 1
  have ha : (ext sha0).inSub1 (3 • (param 5 1).h) = true :=
    (groupLaws sha0).sub1_nsmul W.h_sub 3
  have hv := KeyFor.skValid (groupLaws sha0) W (by decide) (Or.inr rfl) ha
    (keyFor_sk0 (by omega) 1)
  have hs : SubValid (ext sha0) (ssk0 5) := hv.ssk (ssk0 5) (by simp [sk0])
  have h1 := SubSecretKey.deserialize_layout (codecLaws sha0) true hs []
  have h2 : SubSecretKey.deserialize (ext sha0) true [] = (.err .eof, []) :=
    SM.bind_run_err (by simp only [readExact]; rw [if_neg (by simp)])
  generalize subLayout (ext sha0) true (ssk0 5) ++ [] = inp at h1 ⊢
  exact .sub List.length_replicate (.inr rfl) (.later (n := 1) h1 (.here h2))

/-- secret keys with which nothing can be signed -/
example : SignRefused (param 5 1) { sk0 5 1 with ssk := [] } .sskEmpty ∧
    SignRefused (param 5 1) { sk0 5 1 with ssk := [{ ssk0 5 with hvector := [] }] } .sskEmpty ∧
    SignRefused (param 5 1) { sk0 5 1 with ssk := [{ ssk0 5 with time := 32 }] } .timeDepth ∧
    SignRefused (param 5 1) { sk0 5 1 with ssk := [{ ssk0 5 with time := 33 }] } .timeStamp ∧
    SignRefused (param 5 1) { sk0 5 1 with ciphersuite := 0 } .ciphersuite ∧
    ¬ ∃ e, SignRefused (param 5 1) (sk0 5 1) e := by
  refine ⟨.noKey (.inr rfl) rfl rfl, .noCoeff (.inr rfl) rfl rfl ⟨by decide, by decide⟩ rfl,
    .last (.inr rfl) rfl rfl rfl, .time (.inr rfl) rfl rfl (.inr (by decide)),
    .suite (fun h => absurd h.2 (by decide)), ?_⟩
  rintro ⟨e, h⟩
  have hp : (param 5 1).depth = 5 := rfl
  cases h with
  | suite h => exact h ⟨.inr rfl, rfl⟩
  | noKey _ _ h => cases h
  | time _ _ h h' => cases h; rw [hp] at h'; exact absurd h' (by decide)
  | last _ _ h h' => cases h; rw [hp] at h'; exact absurd h' (by decide)
  | noCoeff _ _ h _ h' => cases h; exact absurd (congrArg List.length h') (by decide)

end Examples

end Pixel.Props
