import Verif.Proof.Serdes
import Verif.Spec.Errors

/-! # Lemmas on the errors of readers -/

namespace Pixel

open Spec

set_option linter.unusedSectionVars false

variable {G1 G2 GT : Type} [AddCommGroup G1] [AddCommGroup G2] [CommGroup GT]

theorem SM.bind_eq_err {σ α β : Type} {x : SM σ α} {f : α → SM σ β} {s s'' : σ} {e : Err} :
    (x >>= f) s = (.err e, s'') ↔ x s = (.err e, s'') ∨
      ∃ a s', x s = (.ok a, s') ∧ f a s' = (.err e, s'') := by
  rw [SM.bind_run]
  rcases h : x s with ⟨r, s'⟩
  cases r with
  | ok a =>
    constructor
    · exact fun h' => .inr ⟨a, s', rfl, h'⟩
    · rintro (h1 | ⟨a', s1, h1, h2⟩)
      · cases h1
      · cases h1; exact h2
  | err e => simp
  | panic p => simp

/-- the error of a reader, without the rest of the input -/
def Fails {σ α : Type} (x : SM σ α) (s : σ) (e : Err) : Prop := ∃ s', x s = (.err e, s')

theorem fails_bind {σ α β : Type} {x : SM σ α} {f : α → SM σ β} {s : σ} {e : Err} :
    Fails (x >>= f) s e ↔ Fails x s e ∨ ∃ a s', x s = (.ok a, s') ∧ Fails (f a) s' e := by
  simp only [Fails, SM.bind_eq_err]
  constructor
  · rintro ⟨r, h | ⟨a, s', h1, h2⟩⟩
    · exact .inl ⟨r, h⟩
    · exact .inr ⟨a, s', h1, r, h2⟩
  · rintro (⟨r, h⟩ | ⟨a, s', h1, r, h2⟩)
    · exact ⟨r, .inl h⟩
    · exact ⟨r, .inr ⟨a, s', h1, h2⟩⟩

theorem fails_err {σ α : Type} {s : σ} {e e' : Err} :
    Fails (SM.err e' : SM σ α) s e ↔ e = e' := by
  constructor
  · rintro ⟨r, h⟩
    exact (Res.err.inj (Prod.mk.inj h).1).symm
  · rintro rfl
    exact ⟨s, rfl⟩

theorem fails_pure {σ α : Type} {s : σ} {e : Err} {a : α} :
    ¬ Fails (pure a : SM σ α) s e := by
  rintro ⟨r, h⟩
  cases (Prod.mk.inj h).1

theorem fails_readExact {n : Nat} {s : Bytes} {e : Err} :
    Fails (readExact n) s e ↔ s.length < n ∧ e = .eof := by
  by_cases h : n ≤ s.length
  · have h0 : readExact n s = (.ok (s.take n), s.drop n) := by simp only [readExact]; rw [if_pos h]
    constructor
    · rintro ⟨r, h'⟩
      rw [h0] at h'
      cases (Prod.mk.inj h').1
    · rintro ⟨h1, -⟩; omega
  · have h0 : readExact n s = (.err .eof, s) := by simp only [readExact]; rw [if_neg h]
    constructor
    · rintro ⟨r, h'⟩
      rw [h0] at h'
      exact ⟨by omega, (Res.err.inj (Prod.mk.inj h').1).symm⟩
    · rintro ⟨-, rfl⟩
      exact ⟨s, h0⟩

theorem readByteLax_eq (s : Bytes) : readByteLax s = (.ok (s.headD 0), s.drop 1) := by
  cases s <;> rfl

theorem fails_readMany {α : Type} {p : SM Bytes α} {e : Err} (n : Nat) :
    ∀ {s : Bytes}, Fails (readMany p n) s e ↔ ManyRefused (fun i => p i) n s e := by
  induction n with
  | zero =>
    intro s
    constructor
    · exact fun h => absurd h fails_pure
    · intro h; cases h
  | succ n ih =>
    intro s
    rw [readMany, fails_bind]
    constructor
    · rintro (⟨r, h⟩ | ⟨a, s', h1, h2⟩)
      · exact .here h
      · rcases fails_bind.1 h2 with h3 | ⟨_, _, _, h3⟩
        · exact .later h1 (ih.1 h3)
        · exact absurd h3 fails_pure
    · intro h
      cases h with
      | here h => exact .inl ⟨_, h⟩
      | later h1 h2 => exact .inr ⟨_, _, h1, fails_bind.2 (.inl (ih.2 h2))⟩

theorem beNat_four {t0 t1 t2 t3 : UInt8} :
    beNat [t0, t1, t2, t3] = 0 ↔ [t0, t1, t2, t3] = [0, 0, 0, 0] := by
  constructor
  · intro h
    have h' : ((t0.toNat * 256 + t1.toNat) * 256 + t2.toNat) * 256 + t3.toNat = 0 := by
      simpa [beNat] using h
    have z : ∀ t : UInt8, t.toNat = 0 → t = 0 := fun t h => UInt8.toNat_inj.1 h
    rw [z t0 (by omega), z t1 (by omega), z t2 (by omega), z t3 (by omega)]
  · intro h; rw [h]; decide

theorem suite_neg {b : UInt8} (h : ¬ Supported b) : (!validCiphersuite.contains b) = true := by
  simpa using fun h' => h (validCiphersuite_contains.1 (by simpa using h'))

theorem suite_pos {b : UInt8} (h : Supported b) : ¬ (!validCiphersuite.contains b) = true := by
  rw [validCiphersuite_contains.2 h]
  decide

/-- the readers of public keys and of proofs of possession -/
theorem fails_suited {α β : Type} (p : SM Bytes α) (f : UInt8 → α → β) {inp : Bytes} {e : Err} :
    Fails (do
      let constants ← readExact 1
      let c0 ← SM.lift (idx constants 0)
      if !validCiphersuite.contains c0 then
        SM.err .ciphersuite
      else do
        let x ← p
        pure (f c0 x)) inp e ↔
      (inp = [] ∧ e = .eof) ∨ ∃ b r, inp = b :: r ∧
        ((¬ Supported b ∧ e = .ciphersuite) ∨ (Supported b ∧ Fails p r e)) := by
  rw [fails_bind, fails_readExact]
  constructor
  · rintro (⟨h, rfl⟩ | ⟨a, s, h1, h2⟩)
    · exact .inl ⟨List.length_eq_zero_iff.1 (by omega), rfl⟩
    · obtain ⟨h3, rfl⟩ := readExact_ok.1 h1
      obtain ⟨b, rfl⟩ := List.length_eq_one_iff.1 h3
      refine .inr ⟨b, s, rfl, ?_⟩
      rw [idx_zero_cons, SM.lift_ok_bind] at h2
      by_cases hb : Supported b
      · rw [if_neg (suite_pos hb)] at h2
        rcases fails_bind.1 h2 with h4 | ⟨_, _, _, h4⟩
        · exact .inr ⟨hb, h4⟩
        · exact absurd h4 fails_pure
      · rw [if_pos (suite_neg hb)] at h2
        exact .inl ⟨hb, fails_err.1 h2⟩
  · rintro (⟨rfl, rfl⟩ | ⟨b, r, rfl, h⟩)
    · exact .inl ⟨by simp, rfl⟩
    · refine .inr ⟨[b], r, readExact_ok.2 ⟨rfl, rfl⟩, ?_⟩
      rw [idx_zero_cons, SM.lift_ok_bind]
      rcases h with ⟨hb, rfl⟩ | ⟨hb, h⟩
      · rw [if_pos (suite_neg hb)]
        exact fails_err.2 rfl
      · rw [if_neg (suite_pos hb)]
        exact fails_bind.2 (.inl h)

end Pixel
