import Verif.Model.DebugPublic
import Verif.Proof.Debug

/-! # Helper lemmas: reading the text of public values -/

namespace Pixel.Debug

variable {G1 G2 : Type}

/-- reading up to the first `c` -/
theorem upto_inj {c : UInt8} {a b r r' : Bytes} (ha : c ∉ a) (hb : c ∉ b)
    (h : a ++ c :: r = b ++ c :: r') : a = b ∧ r = r' := by
  induction a generalizing b with
  | nil =>
    cases b with
    | nil => simpa using h
    | cons y b =>
      simp at h
      exact absurd h.1 (fun e => hb (by simp [e]))
  | cons x a ih =>
    cases b with
    | nil =>
      simp at h
      exact absurd h.1 (fun e => ha (by simp [e]))
    | cons y b =>
      simp only [List.cons_append, List.cons.injEq] at h
      obtain ⟨e1, e2⟩ := ih (fun m => ha (by simp [m])) (fun m => hb (by simp [m])) h.2
      exact ⟨by rw [h.1, e1], e2⟩

/-- a digit of a number -/
def isDigit (b : UInt8) : Prop := 48 ≤ b.toNat ∧ b.toNat ≤ 57

instance (b : UInt8) : Decidable (isDigit b) := inferInstanceAs (Decidable (_ ∧ _))

theorem decimal_digits (n : Nat) : ∀ b ∈ decimal n, isDigit b := by
  induction n using Nat.strong_induction_on with
  | _ n ih =>
    rw [decimal]
    have key : ∀ {a : Nat}, a < 10 → isDigit (UInt8.ofNat (48 + a)) := by
      intro a ha
      unfold isDigit
      rw [digit_toNat ha]
      omega
    split
    · simpa using key ‹_›
    · intro b hb
      rw [List.mem_append] at hb
      rcases hb with hb | hb
      · exact ih _ (by omega) b hb
      · rw [List.mem_singleton.1 hb]
        exact key (Nat.mod_lt _ (by decide))

/-- reading digits up to something else -/
theorem digits_inj {a b r r' : Bytes} {c c' : UInt8} (ha : ∀ x ∈ a, isDigit x)
    (hb : ∀ x ∈ b, isDigit x) (hc : ¬ isDigit c) (hc' : ¬ isDigit c')
    (h : a ++ c :: r = b ++ c' :: r') : a = b ∧ c :: r = c' :: r' := by
  induction a generalizing b with
  | nil =>
    cases b with
    | nil => exact ⟨rfl, h⟩
    | cons y b =>
      simp only [List.nil_append, List.cons_append, List.cons.injEq] at h
      exact absurd (h.1 ▸ hb y List.mem_cons_self) hc
  | cons x a ih =>
    cases b with
    | nil =>
      simp only [List.nil_append, List.cons_append, List.cons.injEq] at h
      exact absurd (h.1 ▸ ha x List.mem_cons_self) hc'
    | cons y b =>
      simp only [List.cons_append, List.cons.injEq] at h
      obtain ⟨e1, e2⟩ := ih (fun m hm => ha m (List.mem_cons_of_mem _ hm))
        (fun m hm => hb m (List.mem_cons_of_mem _ hm)) h.2
      exact ⟨by rw [h.1, e1], e2⟩

theorem decimal_read {m n : Nat} {r r' : Bytes} {c c' : UInt8} (hc : ¬ isDigit c) (hc' : ¬ isDigit c')
    (h : decimal m ++ c :: r = decimal n ++ c' :: r') : m = n ∧ c :: r = c' :: r' := by
  obtain ⟨h1, h2⟩ := digits_inj (decimal_digits m) (decimal_digits n) hc hc' h
  exact ⟨decimal_inj h1, h2⟩

theorem hexDigit_ne {n : Nat} (hn : n < 16) : hexDigit n ≠ 44 ∧ hexDigit n ≠ 10 := by
  have key : ∀ n < 16, hexDigit n ≠ 44 ∧ hexDigit n ≠ 10 := by decide
  exact key n hn

theorem hexadecimal_ne_nil (n : Nat) : hexadecimal n ≠ [] := by
  rw [hexadecimal]
  split <;> simp

theorem hexadecimal_inj {m n : Nat} (h : hexadecimal m = hexadecimal n) : m = n := by
  induction m using Nat.strong_induction_on generalizing n with
  | _ m ih =>
    rw [hexadecimal.eq_1 m, hexadecimal.eq_1 n] at h
    split at h <;> split at h
    · simp only [List.cons.injEq, and_true] at h
      exact hexDigit_inj ‹_› ‹_› h
    · have e := congrArg List.length h
      have := List.length_pos_of_ne_nil (hexadecimal_ne_nil (n / 16))
      simp only [List.length_append, List.length_singleton] at e
      omega
    · have e := congrArg List.length h
      have := List.length_pos_of_ne_nil (hexadecimal_ne_nil (m / 16))
      simp only [List.length_append, List.length_singleton] at e
      omega
    · obtain ⟨h1, h2⟩ := List.append_inj' h rfl
      simp only [List.cons.injEq, and_true] at h2
      have e1 := ih (m / 16) (by omega) h1
      have e2 := hexDigit_inj (Nat.mod_lt _ (by decide)) (Nat.mod_lt _ (by decide)) h2
      omega

theorem hexadecimal_no_comma (n : Nat) : (44 : UInt8) ∉ hexadecimal n := by
  induction n using Nat.strong_induction_on with
  | _ n ih =>
    rw [hexadecimal]
    split
    · simpa using (hexDigit_ne ‹_›).1.symm
    · rw [List.mem_append, not_or]
      exact ⟨ih _ (by omega), by simpa using (hexDigit_ne (Nat.mod_lt _ (by decide))).1.symm⟩

theorem hexadecimal_read {m n : Nat} {r r' : Bytes}
    (h : hexadecimal m ++ 44 :: r = hexadecimal n ++ 44 :: r') : m = n ∧ r = r' := by
  obtain ⟨h1, h2⟩ := upto_inj (hexadecimal_no_comma m) (hexadecimal_no_comma n) h
  exact ⟨hexadecimal_inj h1, h2⟩

theorem cBytes_read {a b r r' : Bytes} (h : cBytes a ++ r = cBytes b ++ r') : a = b ∧ r = r' := by
  have hx : ∀ x : UInt8, hexDigit (x.toNat / 16) ≠ 10 := fun x =>
    (hexDigit_ne (by have := x.toNat_lt; omega)).2
  induction a generalizing b with
  | nil =>
    cases b with
    | nil => exact ⟨rfl, by simpa [cBytes, newline] using h⟩
    | cons y b =>
      simp only [cBytes, newline, List.flatMap_nil, List.nil_append, List.flatMap_cons, hex2,
        List.cons_append, List.cons.injEq] at h
      exact absurd h.1.symm (hx y)
  | cons x a ih =>
    cases b with
    | nil =>
      simp only [cBytes, newline, List.flatMap_nil, List.nil_append, List.flatMap_cons, hex2,
        List.cons_append, List.cons.injEq] at h
      exact absurd h.1 (hx x)
    | cons y b =>
      have h' : (hex2 x ++ ascii ", ") ++ (cBytes a ++ r) = (hex2 y ++ ascii ", ") ++ (cBytes b ++ r') := by
        simpa [cBytes, List.append_assoc] using h
      obtain ⟨h1, h2⟩ := List.append_inj h' (by simp [hex2])
      obtain ⟨e1, e2⟩ := ih h2
      exact ⟨by rw [hex2_inj (List.append_cancel_right h1), e1], e2⟩

theorem cSk_read {addr : Option CHeap.Ptr → Nat} {k k' : CHeap.Sk} {r r' : Bytes}
    (h : cSk addr k ++ r = cSk addr k' ++ r') : addr k.data = addr k'.data ∧ k.len = k'.len ∧ r = r' := by
  unfold cSk at h
  simp only [List.append_assoc] at h
  have h1 := List.append_cancel_left h
  rw [show ascii ", len: " = 44 :: ascii " len: " by decide +kernel, List.cons_append,
    List.cons_append] at h1
  obtain ⟨e1, h2⟩ := hexadecimal_read h1
  have h3 := List.append_cancel_left h2
  rw [show ascii " }" = 32 :: ascii "}" by decide +kernel, List.cons_append, List.cons_append] at h3
  obtain ⟨e2, h4⟩ := decimal_read (by decide) (by decide) h3
  simp only [List.cons.injEq, true_and] at h4
  exact ⟨e1, e2, List.append_cancel_left h4⟩

theorem items_read {l l' : List Nat} {r r' : Bytes} (h : items l ++ r = items l' ++ r') :
    l = l' ∧ r = r' := by
  have nd : ∀ (n : Nat) (s t : Bytes), decimal n ++ s ≠ ascii "]" ++ t := by
    intro n s t e
    cases hd : decimal n with
    | nil => exact decimal_ne_nil n hd
    | cons b bs =>
      have hb := decimal_digits n b (hd ▸ List.mem_cons_self)
      rw [hd, show ascii "]" = [93] by decide +kernel] at e
      simp only [List.cons_append, List.cons.injEq] at e
      rw [e.1] at hb
      exact absurd hb (by decide)
  induction l generalizing l' with
  | nil =>
    match l' with
    | [] => exact ⟨rfl, List.append_cancel_left h⟩
    | [y] => exact absurd (by simpa [items, List.append_assoc] using h.symm) (nd y _ _)
    | y :: z :: t => exact absurd (by simpa [items, List.append_assoc] using h.symm) (nd y _ _)
  | cons x l ih =>
    have c1 : ascii "]" = [93] := by decide +kernel
    have c2 : ascii ", " = [44, 32] := by decide +kernel
    match l, l' with
    | [], [] => exact absurd (by simpa [items, List.append_assoc] using h) (nd x _ _)
    | _ :: _, [] => exact absurd (by simpa [items, List.append_assoc] using h) (nd x _ _)
    | [], [y] =>
      simp only [items, c1, List.append_assoc, List.cons_append, List.nil_append] at h
      obtain ⟨e1, e2⟩ := decimal_read (by decide) (by decide) h
      simp only [List.cons.injEq, true_and] at e2
      exact ⟨by rw [e1], e2⟩
    | [], y :: z :: t =>
      simp only [items, c1, c2, List.append_assoc, List.cons_append, List.nil_append] at h
      obtain ⟨-, e2⟩ := decimal_read (by decide) (by decide) h
      exact absurd (List.cons.inj e2).1 (by decide)
    | w :: l, [y] =>
      simp only [items, c1, c2, List.append_assoc, List.cons_append, List.nil_append] at h
      obtain ⟨-, e2⟩ := decimal_read (by decide) (by decide) h
      exact absurd (List.cons.inj e2).1 (by decide)
    | w :: l, y :: z :: t =>
      simp only [items, c2, List.append_assoc, List.cons_append, List.nil_append] at h
      obtain ⟨e1, e2⟩ := decimal_read (by decide) (by decide) h
      simp only [List.cons.injEq, true_and] at e2
      obtain ⟨e3, e4⟩ := ih e2
      exact ⟨by rw [e1, e3], e4⟩

end Pixel.Debug
