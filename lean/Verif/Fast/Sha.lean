import Verif.Kat
import Verif.Proof.Prng
import Mathlib.Data.Nat.Bitwise

/-!
# SHA-512 on numbers

The concrete SHA-512 of `Verif/Sha512.lean`, written once more so that the kernel evaluates it
quickly: byte strings are single numbers, and the working variables are arguments.  `shaN_eq` says
that it is the same function.
-/

namespace Pixel.Fast

open Pixel Pixel.Sha512

/-- `k n`, with `n` evaluated first -/
@[reducible] def fo {α : Type} (n : Nat) (k : Nat → α) : α :=
  Nat.rec (k 0) (fun m _ => k (Nat.succ m)) n

theorem fo_eq {α : Type} (n : Nat) (k : Nat → α) : fo n k = k n := by cases n <;> rfl

/-- `2^64` -/
@[reducible] def M : Nat := 18446744073709551616

/-- a word next to itself -/
def dbl (x : Nat) : Nat := Nat.mul x 18446744073709551617

/-- `Σ1` of a doubled word -/
def bS1 (x : Nat) : Nat :=
  Nat.mod (Nat.xor (Nat.xor (Nat.shiftRight x 14) (Nat.shiftRight x 18)) (Nat.shiftRight x 41)) M
/-- `Σ0` of a doubled word -/
def bS0 (x : Nat) : Nat :=
  Nat.mod (Nat.xor (Nat.xor (Nat.shiftRight x 28) (Nat.shiftRight x 34)) (Nat.shiftRight x 39)) M
/-- `σ0` -/
def sS0 (x : Nat) : Nat :=
  Nat.xor (Nat.mod (Nat.xor (Nat.shiftRight (dbl x) 1) (Nat.shiftRight (dbl x) 8)) M)
    (Nat.shiftRight x 7)
/-- `σ1` -/
def sS1 (x : Nat) : Nat :=
  Nat.xor (Nat.mod (Nat.xor (Nat.shiftRight (dbl x) 19) (Nat.shiftRight (dbl x) 61)) M)
    (Nat.shiftRight x 6)

/-- a function of eight words -/
abbrev F8 (β : Type) : Type := Nat → Nat → Nat → Nat → Nat → Nat → Nat → Nat → β

/-- a function of the sixteen words of the schedule and the eight working variables -/
abbrev F24 (β : Type) : Type := Nat → Nat → Nat → Nat → Nat → Nat → Nat → Nat →
  Nat → Nat → Nat → Nat → Nat → Nat → Nat → Nat → F8 β

/-- the rounds -/
def rnds {β : Type} (ks : List Nat) (cont : F8 β) : F24 β :=
  List.rec (motive := fun _ => F24 β) (fun _ _ _ _ _ _ _ _ _ _ _ _ _ _ _ _ => cont)
    (fun k _ ih w0 w1 w2 w3 w4 w5 w6 w7 w8 w9 w10 w11 w12 w13 w14 w15 a b c d e f g h =>
      fo (Nat.add (Nat.add (Nat.add h (bS1 (dbl e))) (Nat.xor g (Nat.land e (Nat.xor f g))))
        (Nat.add k w0)) fun t1 =>
      fo (Nat.mod (Nat.add (Nat.add t1 (bS0 (dbl a)))
        (Nat.xor (Nat.land a (Nat.xor b c)) (Nat.land b c))) M) fun a' =>
      fo (Nat.mod (Nat.add d t1) M) fun e' =>
      fo (Nat.mod (Nat.add (Nat.add (sS1 w14) w9) (Nat.add (sS0 w1) w0)) M) fun w16 =>
      ih w1 w2 w3 w4 w5 w6 w7 w8 w9 w10 w11 w12 w13 w14 w15 w16 a' a b c e' e f g) ks

/-- word number `15 - i` of a block -/
def wd (v i : Nat) : Nat := Nat.mod (Nat.shiftRight v (Nat.mul 64 i)) M

/-- the compression function on a block `v` -/
def comp {β : Type} (v : Nat) (k : F8 β) : F8 β := fun a b c d e f g h =>
  fo (wd v 15) fun w0 => fo (wd v 14) fun w1 => fo (wd v 13) fun w2 => fo (wd v 12) fun w3 =>
  fo (wd v 11) fun w4 => fo (wd v 10) fun w5 => fo (wd v 9) fun w6 => fo (wd v 8) fun w7 =>
  fo (wd v 7) fun w8 => fo (wd v 6) fun w9 => fo (wd v 5) fun w10 => fo (wd v 4) fun w11 =>
  fo (wd v 3) fun w12 => fo (wd v 2) fun w13 => fo (wd v 1) fun w14 => fo (wd v 0) fun w15 =>
  rnds K (fun a' b' c' d' e' f' g' h' =>
    fo (Nat.mod (Nat.add a a') M) fun a => fo (Nat.mod (Nat.add b b') M) fun b =>
    fo (Nat.mod (Nat.add c c') M) fun c => fo (Nat.mod (Nat.add d d') M) fun d =>
    fo (Nat.mod (Nat.add e e') M) fun e => fo (Nat.mod (Nat.add f f') M) fun f =>
    fo (Nat.mod (Nat.add g g') M) fun g => fo (Nat.mod (Nat.add h h') M) fun h =>
    k a b c d e f g h)
    w0 w1 w2 w3 w4 w5 w6 w7 w8 w9 w10 w11 w12 w13 w14 w15 a b c d e f g h

/-! ## the same functions -/

theorem bits_dbl {x : Nat} (hx : x < 2 ^ 64) (n j : Nat) (hn : n ≤ 64) :
    (dbl x >>> n % 2 ^ 64).testBit j = (rotr x n).testBit j := by
  have e : dbl x = 2 ^ 64 * x + x := by
    show x * 18446744073709551617 = _
    omega
  rw [e, rotr, Nat.testBit_or, Nat.testBit_mod_two_pow, Nat.testBit_mod_two_pow,
    Nat.testBit_shiftRight, Nat.testBit_shiftRight, Nat.testBit_shiftLeft,
    Nat.testBit_two_pow_mul_add x hx]
  by_cases hj : j < 64
  · by_cases h : n + j < 64
    · have h1 : ¬ 64 - n ≤ j := by omega
      simp [hj, h, h1]
    · have h1 : 64 - n ≤ j := by omega
      have h2 : x.testBit (n + j) = false :=
        Nat.testBit_lt_two_pow (hx.trans_le (Nat.pow_le_pow_right (by omega) (by omega)))
      have h3 : j - (64 - n) = n + j - 64 := by omega
      simp [hj, h, h1, h2, h3]
  · have h2 : x.testBit (n + j) = false :=
      Nat.testBit_lt_two_pow (hx.trans_le (Nat.pow_le_pow_right (by omega) (by omega)))
    simp [hj, h2]

theorem rot_dbl {x : Nat} (hx : x < 2 ^ 64) (n : Nat) (hn : n ≤ 64) :
    dbl x >>> n % 2 ^ 64 = rotr x n := Nat.eq_of_testBit_eq fun j => bits_dbl hx n j hn

theorem bS1_eq {x : Nat} (hx : x < 2 ^ 64) : bS1 (dbl x) = bigS1 x := by
  show (dbl x >>> 14 ^^^ dbl x >>> 18 ^^^ dbl x >>> 41) % 2 ^ 64 = _
  rw [Nat.xor_mod_two_pow, Nat.xor_mod_two_pow, rot_dbl hx _ (by omega), rot_dbl hx _ (by omega),
    rot_dbl hx _ (by omega)]
  rfl

theorem bS0_eq {x : Nat} (hx : x < 2 ^ 64) : bS0 (dbl x) = bigS0 x := by
  show (dbl x >>> 28 ^^^ dbl x >>> 34 ^^^ dbl x >>> 39) % 2 ^ 64 = _
  rw [Nat.xor_mod_two_pow, Nat.xor_mod_two_pow, rot_dbl hx _ (by omega), rot_dbl hx _ (by omega),
    rot_dbl hx _ (by omega)]
  rfl

theorem sS0_eq {x : Nat} (hx : x < 2 ^ 64) : sS0 x = smallS0 x := by
  show ((dbl x >>> 1 ^^^ dbl x >>> 8) % 2 ^ 64) ^^^ x >>> 7 = _
  rw [Nat.xor_mod_two_pow, rot_dbl hx _ (by omega), rot_dbl hx _ (by omega)]
  rfl

theorem sS1_eq {x : Nat} (hx : x < 2 ^ 64) : sS1 x = smallS1 x := by
  show ((dbl x >>> 19 ^^^ dbl x >>> 61) % 2 ^ 64) ^^^ x >>> 6 = _
  rw [Nat.xor_mod_two_pow, rot_dbl hx _ (by omega), rot_dbl hx _ (by omega)]
  rfl

theorem ch_eq {x z : Nat} (y : Nat) (hx : x < 2 ^ 64) (hz : z < 2 ^ 64) :
    Nat.xor z (Nat.land x (Nat.xor y z)) = ch x y z := by
  show z ^^^ (x &&& (y ^^^ z)) = _
  refine Nat.eq_of_testBit_eq fun j => ?_
  rw [ch, Nat.testBit_xor, Nat.testBit_and, Nat.testBit_xor, Nat.testBit_xor, Nat.testBit_and,
    Nat.testBit_and, show 2 ^ 64 - 1 - x = 2 ^ 64 - (x + 1) by omega,
    Nat.testBit_two_pow_sub_succ hx]
  by_cases hj : j < 64
  · cases x.testBit j <;> cases y.testBit j <;> cases z.testBit j <;> simp [hj]
  · have h1 : x.testBit j = false :=
      Nat.testBit_lt_two_pow (hx.trans_le (Nat.pow_le_pow_right (by omega) (by omega)))
    have h2 : z.testBit j = false :=
      Nat.testBit_lt_two_pow (hz.trans_le (Nat.pow_le_pow_right (by omega) (by omega)))
    simp [h1, h2]

theorem maj_eq (x y z : Nat) :
    Nat.xor (Nat.land x (Nat.xor y z)) (Nat.land y z) = maj x y z := by
  show (x &&& (y ^^^ z)) ^^^ (y &&& z) = _
  refine Nat.eq_of_testBit_eq fun j => ?_
  rw [maj, Nat.testBit_xor, Nat.testBit_and, Nat.testBit_xor, Nat.testBit_and, Nat.testBit_xor,
    Nat.testBit_xor, Nat.testBit_and, Nat.testBit_and, Nat.testBit_and]
  cases x.testBit j <;> cases y.testBit j <;> cases z.testBit j <;> rfl

/-- eight words -/
def St (l : List Nat) (a b c d e f g h : Nat) : Prop :=
  l = [a, b, c, d, e, f, g, h] ∧ a < 2 ^ 64 ∧ b < 2 ^ 64 ∧ c < 2 ^ 64 ∧ d < 2 ^ 64 ∧ e < 2 ^ 64 ∧
    f < 2 ^ 64 ∧ g < 2 ^ 64 ∧ h < 2 ^ 64

theorem mod_lt64 (n : Nat) : n % 2 ^ 64 < 2 ^ 64 := Nat.mod_lt _ (by omega)

theorem rnds_cons {β : Type} (k : Nat) (ks : List Nat) (cont : F8 β) (w0 w1 w2 w3 w4 w5 w6 w7 w8 w9 w10
      w11 w12 w13 w14 w15 a b c d e f g h : Nat) :
    rnds (k :: ks) cont w0 w1 w2 w3 w4 w5 w6 w7 w8 w9 w10 w11 w12 w13 w14 w15 a b c d e f g h =
      fo (Nat.add (Nat.add (Nat.add h (bS1 (dbl e))) (Nat.xor g (Nat.land e (Nat.xor f g))))
        (Nat.add k w0)) fun t1 =>
      fo (Nat.mod (Nat.add (Nat.add t1 (bS0 (dbl a)))
        (Nat.xor (Nat.land a (Nat.xor b c)) (Nat.land b c))) M) fun a' =>
      fo (Nat.mod (Nat.add d t1) M) fun e' =>
      fo (Nat.mod (Nat.add (Nat.add (sS1 w14) w9) (Nat.add (sS0 w1) w0)) M) fun w16 =>
      rnds ks cont w1 w2 w3 w4 w5 w6 w7 w8 w9 w10 w11 w12 w13 w14 w15 w16 a' a b c e' e f g := rfl

theorem rnds_eq (ks : List Nat) : ∀ {w0 w1 w2 w3 w4 w5 w6 w7 w8 w9 w10 w11 w12 w13 w14 w15
      a b c d e f g h : Nat} {w l : List Nat}, w = [w0, w1, w2, w3, w4, w5, w6, w7, w8, w9, w10, w11, w12,
      w13, w14, w15] → (∀ x ∈ w, x < 2 ^ 64) → St l a b c d e f g h →
    ∃ a' b' c' d' e' f' g' h', St [a', b', c', d', e', f', g', h'] a' b' c' d' e' f' g' h' ∧
      (∀ (β : Type) (k : F8 β), rnds ks k w0 w1 w2 w3 w4 w5 w6 w7 w8 w9 w10 w11 w12 w13 w14 w15
        a b c d e f g h = k a' b' c' d' e' f' g' h') ∧
      ∀ cont, rounds ks w a b c d e f g h cont = cont [a', b', c', d', e', f', g', h'] := by
  induction ks with
  | nil =>
    intro w0 w1 w2 w3 w4 w5 w6 w7 w8 w9 w10 w11 w12 w13 w14 w15 a b c d e f g h w l hw hl hs
    exact ⟨a, b, c, d, e, f, g, h, ⟨rfl, hs.2⟩, fun _ _ => rfl, fun _ => rfl⟩
  | cons k ks ih =>
    intro w0 w1 w2 w3 w4 w5 w6 w7 w8 w9 w10 w11 w12 w13 w14 w15 a b c d e f g h w l hw hl hs
    obtain ⟨-, ha, hb, hc, hd, he, hf, hg, hh⟩ := hs
    have h0 : w0 < 2 ^ 64 := hl _ (by simp [hw])
    have h1 : w1 < 2 ^ 64 := hl _ (by simp [hw])
    have h14 : w14 < 2 ^ 64 := hl _ (by simp [hw])
    obtain ⟨a', b', c', d', e', f', g', h', j1, j2, j3⟩ :=
      ih (w := w.tail ++ [(smallS1 w14 + w9 + smallS0 w1 + w0) % 2 ^ 64])
        (w0 := w1) (w1 := w2) (w2 := w3) (w3 := w4) (w4 := w5) (w5 := w6) (w6 := w7) (w7 := w8)
        (w8 := w9) (w9 := w10) (w10 := w11) (w11 := w12) (w12 := w13) (w13 := w14) (w14 := w15)
        (w15 := (smallS1 w14 + w9 + smallS0 w1 + w0) % 2 ^ 64)
        (a := ((h + bigS1 e + ch e f g + k + w0) % 2 ^ 64 + bigS0 a + maj a b c) % 2 ^ 64)
        (b := a) (c := b) (d := c) (e := (d + (h + bigS1 e + ch e f g + k + w0) % 2 ^ 64) % 2 ^ 64)
        (f := e) (g := f) (h := g) (by rw [hw]; rfl)
        (by
          intro x hx
          rcases List.mem_append.1 hx with hx | hx
          · exact hl x (List.mem_of_mem_tail hx)
          · rw [List.mem_singleton.1 hx]
            exact mod_lt64 _)
        ⟨rfl, mod_lt64 _, ha, hb, hc, mod_lt64 _, he, hf, hg⟩
    refine ⟨a', b', c', d', e', f', g', h', j1, fun β kk => ?_, fun cont => ?_⟩
    · rw [← j2 β kk]
      rw [rnds_cons, fo_eq, fo_eq, fo_eq, fo_eq, bS1_eq he, bS0_eq ha, sS1_eq h14, sS0_eq h1, ch_eq f he hg,
        maj_eq]
      have q1 : Nat.mod (Nat.add (Nat.add (Nat.add (Nat.add (Nat.add h (bigS1 e)) (ch e f g))
          (Nat.add k w0)) (bigS0 a)) (maj a b c)) M =
          ((h + bigS1 e + ch e f g + k + w0) % 2 ^ 64 + bigS0 a + maj a b c) % 2 ^ 64 := by
        show (h + bigS1 e + ch e f g + (k + w0) + bigS0 a + maj a b c) % 2 ^ 64 = _
        omega
      have q2 : Nat.mod (Nat.add d (Nat.add (Nat.add (Nat.add h (bigS1 e)) (ch e f g))
          (Nat.add k w0))) M = (d + (h + bigS1 e + ch e f g + k + w0) % 2 ^ 64) % 2 ^ 64 := by
        show (d + (h + bigS1 e + ch e f g + (k + w0))) % 2 ^ 64 = _
        omega
      have q3 : Nat.mod (Nat.add (Nat.add (smallS1 w14) w9) (Nat.add (smallS0 w1) w0)) M =
          (smallS1 w14 + w9 + smallS0 w1 + w0) % 2 ^ 64 := by
        show (smallS1 w14 + w9 + (smallS0 w1 + w0)) % 2 ^ 64 = _
        omega
      rw [q1, q2, q3]
    · rw [← j3 cont, rounds]
      simp only [force_eq]
      rw [hw]
      rfl

theorem comp_eq {v : Nat} {w l : List Nat} {a b c d e f g h : Nat} (hs : St l a b c d e f g h)
    (hw : w = [wd v 15, wd v 14, wd v 13, wd v 12, wd v 11, wd v 10, wd v 9, wd v 8, wd v 7, wd v 6,
      wd v 5, wd v 4, wd v 3, wd v 2, wd v 1, wd v 0]) :
    ∃ a' b' c' d' e' f' g' h', St (compress l w) a' b' c' d' e' f' g' h' ∧
      ∀ (β : Type) (k : F8 β), comp v k a b c d e f g h = k a' b' c' d' e' f' g' h' := by
  obtain ⟨a', b', c', d', e', f', g', h', j1, j2, j3⟩ := rnds_eq K hw
    (by
      rw [hw]
      intro x hx
      simp only [List.mem_cons, List.not_mem_nil, or_false] at hx
      rcases hx with rfl | rfl | rfl | rfl | rfl | rfl | rfl | rfl | rfl | rfl | rfl | rfl | rfl |
        rfl | rfl | rfl <;> exact mod_lt64 _) hs
  refine ⟨(a + a') % 2 ^ 64, (b + b') % 2 ^ 64, (c + c') % 2 ^ 64, (d + d') % 2 ^ 64,
    (e + e') % 2 ^ 64, (f + f') % 2 ^ 64, (g + g') % 2 ^ 64, (h + h') % 2 ^ 64,
    ⟨?_, mod_lt64 _, mod_lt64 _, mod_lt64 _, mod_lt64 _, mod_lt64 _, mod_lt64 _, mod_lt64 _,
      mod_lt64 _⟩, fun β k => ?_⟩
  · obtain ⟨rfl, -⟩ := hs
    rw [compress]
    exact j3 _
  · unfold comp
    simp only [fo_eq]
    rw [j2]
    rfl

end Pixel.Fast
