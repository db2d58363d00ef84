import Verif.Model.Debug

/-! # Helper lemmas: reading the `Debug` text -/

namespace Pixel.Debug

variable {G1 G2 : Type}

theorem digit_toNat {n : Nat} (h : n < 10) : (UInt8.ofNat (48 + n)).toNat = 48 + n := by
  rw [UInt8.toNat_ofNat']
  omega

theorem decimal_ne_nil (n : Nat) : decimal n ≠ [] := by
  rw [decimal]
  split <;> simp

theorem decimal_inj {m n : Nat} (h : decimal m = decimal n) : m = n := by
  induction m using Nat.strong_induction_on generalizing n with
  | _ m ih =>
    rw [decimal.eq_1 m, decimal.eq_1 n] at h
    have key : ∀ {a b : Nat}, a < 10 → b < 10 → UInt8.ofNat (48 + a) = UInt8.ofNat (48 + b) →
        a = b := by
      intro a b ha hb e
      have := congrArg UInt8.toNat e
      rw [digit_toNat ha, digit_toNat hb] at this
      omega
    split at h <;> split at h
    · simp only [List.cons.injEq, and_true] at h
      exact key ‹_› ‹_› h
    · have e := congrArg List.length h
      have := List.length_pos_of_ne_nil (decimal_ne_nil (n / 10))
      simp only [List.length_append, List.length_singleton] at e
      omega
    · have e := congrArg List.length h
      have := List.length_pos_of_ne_nil (decimal_ne_nil (m / 10))
      simp only [List.length_append, List.length_singleton] at e
      omega
    · obtain ⟨h1, h2⟩ := List.append_inj' h rfl
      simp only [List.cons.injEq, and_true] at h2
      have e1 := ih (m / 10) (by omega) h1
      have e2 := key (Nat.mod_lt _ (by decide)) (Nat.mod_lt _ (by decide)) h2
      omega

theorem decimal_no_newline (n : Nat) : (10 : UInt8) ∉ decimal n := by
  induction n using Nat.strong_induction_on with
  | _ n ih =>
    rw [decimal]
    have key : ∀ {a : Nat}, a < 10 → (10 : UInt8) ≠ UInt8.ofNat (48 + a) := by
      intro a ha e
      have := congrArg UInt8.toNat e
      rw [digit_toNat ha] at this
      have h10 : (10 : UInt8).toNat = 10 := rfl
      omega
    split
    · simpa using key ‹_›
    · rw [List.mem_append, not_or]
      exact ⟨ih _ (by omega), by simpa using key (Nat.mod_lt _ (by decide))⟩

theorem hexDigit_inj {a b : Nat} (ha : a < 16) (hb : b < 16) (h : hexDigit a = hexDigit b) :
    a = b := by
  have key : ∀ a < 16, ∀ b < 16, hexDigit a = hexDigit b → a = b := by decide
  exact key a ha b hb h

theorem hex2_inj {a b : UInt8} (h : hex2 a = hex2 b) : a = b := by
  have h1 := a.toNat_lt
  have h2 := b.toNat_lt
  simp only [hex2, List.cons.injEq, and_true] at h
  have e1 := hexDigit_inj (by omega) (by omega) h.1
  have e2 := hexDigit_inj (Nat.mod_lt _ (by decide)) (Nat.mod_lt _ (by decide)) h.2
  apply UInt8.toNat_inj.1
  omega

/-- reading a text written piece by piece, with pieces of known lengths -/
theorem flatMap_inj {α β : Type} {f g : α → List β} (hl : ∀ a, (f a).length = (g a).length)
    (l : List α) {r r' : List β} (h : l.flatMap f ++ r = l.flatMap g ++ r') :
    (∀ a ∈ l, f a = g a) ∧ r = r' := by
  induction l with
  | nil => simpa using h
  | cons a l ih =>
    rw [List.flatMap_cons, List.flatMap_cons, List.append_assoc, List.append_assoc] at h
    obtain ⟨h1, h2⟩ := List.append_inj h (hl a)
    obtain ⟨h3, h4⟩ := ih h2
    refine ⟨fun b hb => ?_, h4⟩
    rcases List.mem_cons.1 hb with rfl | hb
    · exact h1
    · exact h3 b hb

theorem prngLine_length (p : Prng) (i : Nat) : (prngLine p i).length = 48 := by
  simp [prngLine, List.length_flatMap, hex2, ascii]

/-- the state can be read from the text -/
theorem prng_inj {p q : Prng} (hp : p.WF) (hq : q.WF) {r r' : Bytes}
    (h : prng p ++ r = prng q ++ r') : p = q ∧ r = r' := by
  unfold prng at h
  obtain ⟨h1, h2⟩ := flatMap_inj (fun i => by simp [prngLine_length]) _ h
  refine ⟨?_, h2⟩
  have key : ∀ n, n < 64 → p.seed.getD n 0 = q.seed.getD n 0 := by
    intro n hn
    have e1 := List.append_cancel_right (h1 (n / 8) (List.mem_range.2 (by omega)))
    unfold prngLine at e1
    have e1' := congrArg (· ++ ([] : Bytes)) e1
    have e2 := (flatMap_inj (fun j => by simp [hex2]) _ e1').1 (n % 8)
      (List.mem_range.2 (Nat.mod_lt _ (by decide)))
    have e3 := hex2_inj (List.append_cancel_left (List.append_cancel_right e2))
    rwa [show n / 8 * 8 + n % 8 = n by omega] at e3
  unfold Prng.WF at hp hq
  cases p with
  | mk p =>
    cases q with
    | mk q =>
      congr 1
      apply List.ext_getElem (hp.trans hq.symm)
      intro n h1 h2
      have := key n (by simp only at hp; omega)
      simpa [List.getD_eq_getElem?_getD, h1, h2] using this

/-- reading up to the end of the line -/
theorem line_inj {a b r r' : Bytes} (ha : (10 : UInt8) ∉ a) (hb : (10 : UInt8) ∉ b)
    (h : a ++ 10 :: r = b ++ 10 :: r') : a = b ∧ r = r' := by
  induction a generalizing b with
  | nil =>
    cases b with
    | nil => simpa using h
    | cons y b =>
      simp at h
      exact absurd h.1.symm (fun e => hb (by simp [e]))
  | cons x a ih =>
    cases b with
    | nil =>
      simp at h
      exact absurd h.1 (fun e => ha (by simp [e]))
    | cons y b =>
      simp only [List.cons_append, List.cons.injEq] at h
      obtain ⟨e1, e2⟩ := ih (fun m => ha (by simp [m])) (fun m => hb (by simp [m])) h.2
      exact ⟨by rw [h.1, e1], e2⟩

theorem secretKey_inj {s1 s1' : G1 → Bytes} {s2 s2' : G2 → Bytes} {a b : SecretKey G1 G2}
    (ha : a.prng.WF) (hb : b.prng.WF) (h : secretKey s1 s2 a = secretKey s1' s2' b) :
    a.time = b.time ∧ a.prng = b.prng := by
  unfold secretKey newline at h
  simp only [List.append_assoc, List.cons_append, List.nil_append] at h
  have h1 := List.append_cancel_left h
  obtain ⟨e1, h2⟩ := line_inj (decimal_no_newline _) (decimal_no_newline _) h1
  obtain ⟨e2, -⟩ := prng_inj ha hb (List.append_cancel_left h2)
  exact ⟨decimal_inj e1, e2⟩

end Pixel.Debug
