import Verif.Fast.Sha

/-!
# SHA-512, HMAC and HKDF on numbers

A byte string is the number `beNat` of it, and its length.  The functions take a continuation, so that
the kernel evaluates each intermediate number once.
-/

namespace Pixel.Fast

open Pixel Pixel.Sha512

/-- the last `n` blocks of the number `v` -/
def fblocks {β : Type} (n v : Nat) (k : F8 β) : F8 β :=
  Nat.rec (motive := fun _ => F8 β) k (fun m ih => comp (Nat.shiftRight v (Nat.mul 1024 m)) ih) n

/-- eight words as one number -/
def pack (a b c d e f g h : Nat) : Nat :=
  Nat.add (Nat.mul (Nat.add (Nat.mul (Nat.add (Nat.mul (Nat.add (Nat.mul (Nat.add (Nat.mul
    (Nat.add (Nat.mul (Nat.add (Nat.mul a M) b) M) c) M) d) M) e) M) f) M) g) M) h

/-- number of zero bytes in the padding -/
def zeros (len : Nat) : Nat := Nat.mod (Nat.sub 239 (Nat.mod len 128)) 128

/-- the number of the padded string; `off` bytes went before -/
def padN (off v len : Nat) : Nat :=
  Nat.add (Nat.shiftLeft (Nat.add (Nat.mul v 256) 128)
    (Nat.add (Nat.mul 8 (zeros len)) 128)) (Nat.mul 8 (Nat.add off len))

/-- number of blocks of the padded string -/
def nblk (len : Nat) : Nat := Nat.div (Nat.add len (Nat.add (zeros len) 17)) 128

/-- the hash of a string that begins with blocks of `off` bytes, which led to the state given -/
def finN {β : Type} (off v len : Nat) (k : Nat → β) : F8 β :=
  fo (padN off v len) fun p => fo (nblk len) fun n =>
    fblocks n p (fun a b c d e f g h => fo (pack a b c d e f g h) k)

/-- a function started in the initial state of SHA-512 -/
def start {β : Type} (k : F8 β) : β :=
  k 0x6a09e667f3bcc908 0xbb67ae8584caa73b 0x3c6ef372fe94f82b 0xa54ff53a5f1d36f1
    0x510e527fade682d1 0x9b05688c2b3e6c1f 0x1f83d9abfb41bd6b 0x5be0cd19137e2179

/-- SHA-512 -/
def shaN {β : Type} (v len : Nat) (k : Nat → β) : β := start (finN 0 v len k)

/-! ## blocks -/

theorem wd_take {v n o : Nat} {b : Bytes} (hb : b.length = 128 * (n + 1)) (ho : o ≤ 15)
    (hv : v % 256 ^ (128 * (n + 1)) = beNat b) :
    wd (v >>> (1024 * n)) (15 - o) = beNat ((b.drop (8 * o)).take 8) := by
  have h1 : b = b.take (8 * o) ++ ((b.drop (8 * o)).take 8 ++ b.drop (8 * o + 8)) := by
    rw [← List.drop_drop, List.take_append_drop, List.take_append_drop]
  have h2 : (b.drop (8 * o + 8)).length = 128 * n + 8 * (15 - o) := by
    rw [List.length_drop, hb]; omega
  have h3 : ((b.drop (8 * o)).take 8).length = 8 := by
    rw [List.length_take, List.length_drop, hb]; omega
  generalize (b.drop (8 * o)).take 8 = y at *
  generalize b.drop (8 * o + 8) = z at *
  generalize b.take (8 * o) = x at *
  have e : beNat b = beNat x * 256 ^ (8 + (128 * n + 8 * (15 - o))) +
      (beNat y * 256 ^ (128 * n + 8 * (15 - o)) + beNat z) := by
    rw [h1, beNat_append, beNat_append, List.length_append, h3, h2]
  have hy := beNat_lt y
  have hz := beNat_lt z
  rw [h3] at hy
  rw [h2] at hz
  have q : v = (v / 256 ^ (128 * (n + 1)) * 256 ^ (8 * o) + beNat x) *
      256 ^ (8 + (128 * n + 8 * (15 - o))) + (beNat y * 256 ^ (128 * n + 8 * (15 - o)) + beNat z) := by
    rw [add_mul, add_assoc, ← e, ← hv, mul_assoc, ← pow_add,
      show 8 * o + (8 + (128 * n + 8 * (15 - o))) = 128 * (n + 1) by omega]
    exact (Nat.div_add_mod' _ _).symm
  show ((v >>> (1024 * n)) >>> (64 * (15 - o))) % 2 ^ 64 = _
  rw [← Nat.shiftRight_add, Nat.shiftRight_eq_div_pow]
  have e2 : (2 : Nat) ^ (1024 * n + 64 * (15 - o)) = 256 ^ (128 * n + 8 * (15 - o)) := by
    rw [show (256 : Nat) = 2 ^ 8 by rfl, ← pow_mul]
    congr 1
    omega
  rw [e2, q, pow_add, ← mul_assoc, ← add_assoc, ← add_mul,
    mul_comm (_ + beNat y), Nat.mul_add_div (Nat.pow_pos (by omega)), Nat.div_eq_of_lt hz, add_zero,
    show (2 : Nat) ^ 64 = 256 ^ 8 by rfl, Nat.mul_add_mod_of_lt hy]

theorem words_eq {v n : Nat} {b : Bytes} (hb : b.length = 128 * (n + 1))
    (hv : v % 256 ^ (128 * (n + 1)) = beNat b) {u : Nat} (hu : u = v >>> (1024 * n)) :
    words 16 b = [wd u 15, wd u 14, wd u 13, wd u 12, wd u 11, wd u 10, wd u 9, wd u 8, wd u 7,
      wd u 6, wd u 5, wd u 4, wd u 3, wd u 2, wd u 1, wd u 0] := by
  subst hu
  have h := fun o (ho : o ≤ 15) => wd_take (o := o) hb ho hv
  have h0 : beNat (b.take 8) = wd (v >>> (1024 * n)) 15 := (h 0 (by omega)).symm
  simp only [words, List.drop_drop]
  rw [← h 15 (by omega), ← h 14 (by omega), ← h 13 (by omega), ← h 12 (by omega),
    ← h 11 (by omega), ← h 10 (by omega), ← h 9 (by omega), ← h 8 (by omega), ← h 7 (by omega),
    ← h 6 (by omega), ← h 5 (by omega), ← h 4 (by omega), ← h 3 (by omega), ← h 2 (by omega),
    ← h 1 (by omega), h0]

theorem fblocks_eq (n : Nat) : ∀ {v : Nat} {b : Bytes} {l : List Nat} {a b' c d e f g h : Nat},
    b.length = 128 * n → v % 256 ^ (128 * n) = beNat b → St l a b' c d e f g h →
    ∃ a1 b1 c1 d1 e1 f1 g1 h1, St (blocks n b l) a1 b1 c1 d1 e1 f1 g1 h1 ∧
      ∀ (β : Type) (k : F8 β), fblocks n v k a b' c d e f g h = k a1 b1 c1 d1 e1 f1 g1 h1 := by
  induction n with
  | zero =>
    intro v b l a b' c d e f g h _ _ hs
    exact ⟨a, b', c, d, e, f, g, h, hs, fun _ _ => rfl⟩
  | succ n ih =>
    intro v b l a b' c d e f g h hb hv hs
    obtain ⟨a1, b1, c1, d1, e1, f1, g1, h1, j1, j2⟩ := comp_eq (v := v >>> (1024 * n)) hs
      (words_eq hb hv rfl)
    have hl : (b.drop 128).length = 128 * n := by rw [List.length_drop, hb]; omega
    have hm : v % 256 ^ (128 * n) = beNat (b.drop 128) := by
      have e1 : beNat b = beNat (b.take 128) * 256 ^ (128 * n) + beNat (b.drop 128) := by
        conv_lhs => rw [← List.take_append_drop 128 b]
        rw [beNat_append, hl]
      have e2 : v % 256 ^ (128 * (n + 1)) % 256 ^ (128 * n) = beNat b % 256 ^ (128 * n) := by rw [hv]
      rw [Nat.mod_mod_of_dvd _ (Nat.pow_dvd_pow _ (by omega)), e1,
        Nat.mul_add_mod_of_lt (hl ▸ beNat_lt (b.drop 128))] at e2
      exact e2
    obtain ⟨a2, b2, c2, d2, e2, f2, g2, h2, i1, i2⟩ := ih hl hm j1
    refine ⟨a2, b2, c2, d2, e2, f2, g2, h2, i1, fun β k => ?_⟩
    rw [← i2 β k, ← j2 β (fblocks n v k)]
    rfl

/-! ## the whole hash -/

theorem pack_eq {l : List Nat} {a b c d e f g h : Nat} (hs : St l a b c d e f g h) :
    pack a b c d e f g h = beNat (l.flatMap (natToBE 8)) := by
  obtain ⟨rfl, ha, hb, hc, hd, he, hf, hg, hh⟩ := hs
  simp only [List.flatMap_cons, List.flatMap_nil, List.append_nil]
  simp only [← List.append_assoc, beNat_append, natToBE_length, beNat_natToBE]
  have e : (256 : Nat) ^ 8 = 2 ^ 64 := by rfl
  rw [e, Nat.mod_eq_of_lt ha, Nat.mod_eq_of_lt hb, Nat.mod_eq_of_lt hc, Nat.mod_eq_of_lt hd,
    Nat.mod_eq_of_lt he, Nat.mod_eq_of_lt hf, Nat.mod_eq_of_lt hg, Nat.mod_eq_of_lt hh]
  rfl

/-- the padding of the rest of a string -/
def padRest (off : Nat) (m : Bytes) : Bytes :=
  m ++ 0x80 :: (List.replicate ((239 - m.length % 128) % 128) 0 ++ natToBE 16 (8 * (off + m.length)))

theorem zeros_blocks (len : Nat) : 128 * nblk len = len + (zeros len + 17) := by
  show 128 * ((len + ((239 - len % 128) % 128 + 17)) / 128) = len + ((239 - len % 128) % 128 + 17)
  omega

theorem padRest_length (off : Nat) (m : Bytes) : (padRest off m).length = 128 * nblk m.length := by
  rw [zeros_blocks, padRest]
  simp only [List.length_append, List.length_cons, List.length_replicate, natToBE_length]
  show _ = _ + ((239 - m.length % 128) % 128 + 17)
  omega

theorem beNat_zeros (n : Nat) : beNat (List.replicate n 0) = 0 := by
  rw [← natToBE_small n 0 rfl, beNat_natToBE, Nat.zero_mod]

theorem padN_eq {off : Nat} {m : Bytes} (h : 8 * (off + m.length) < 256 ^ 16) :
    padN off (beNat m) m.length = beNat (padRest off m) := by
  have e1 : beNat (padRest off m) = (beNat m * 256 + 128) * 2 ^ (8 * zeros m.length + 128) +
      8 * (off + m.length) := by
    rw [padRest, show ∀ (x : UInt8) (y : Bytes), x :: y = [x] ++ y from fun _ _ => rfl,
      ← List.append_assoc, beNat_append, beNat_append, beNat_append, beNat_single,
      beNat_zeros, beNat_natToBE, Nat.mod_eq_of_lt h, List.length_append, List.length_replicate,
      natToBE_length, zero_mul, zero_add]
    have e2 : (256 : Nat) ^ ((239 - m.length % 128) % 128 + 16) =
        2 ^ (8 * zeros m.length + 128) := by
      rw [show (256 : Nat) = 2 ^ 8 by rfl, ← pow_mul]
      rfl
    rw [e2]
    rfl
  rw [e1]
  show (beNat m * 256 + 128) <<< (8 * zeros m.length + 128) + 8 * (off + m.length) = _
  rw [Nat.shiftLeft_eq]

theorem finN_eq {β : Type} {off : Nat} {m : Bytes} {l : List Nat} {a b c d e f g h : Nat}
    (hm : 8 * (off + m.length) < 256 ^ 16) (hs : St l a b c d e f g h) (k : Nat → β) :
    finN off (beNat m) m.length k a b c d e f g h =
      k (beNat ((blocks (nblk m.length) (padRest off m) l).flatMap (natToBE 8))) := by
  obtain ⟨a1, b1, c1, d1, e1, f1, g1, h1, j1, j2⟩ := fblocks_eq (nblk m.length)
    (v := padN off (beNat m) m.length) (padRest_length off m)
    (by rw [padN_eq hm, ← padRest_length off m, Nat.mod_eq_of_lt (beNat_lt _)]) hs
  unfold finN
  rw [fo_eq, fo_eq, j2, fo_eq, pack_eq j1]

theorem start_st : St H0 0x6a09e667f3bcc908 0xbb67ae8584caa73b 0x3c6ef372fe94f82b 0xa54ff53a5f1d36f1
    0x510e527fade682d1 0x9b05688c2b3e6c1f 0x1f83d9abfb41bd6b 0x5be0cd19137e2179 := by
  refine ⟨rfl, ?_, ?_, ?_, ?_, ?_, ?_, ?_, ?_⟩ <;> omega

theorem pad_rest (m : Bytes) : pad m = padRest 0 m := by rw [pad, padRest, Nat.zero_add]

/-- The function on numbers is SHA-512. -/
theorem shaN_eq {β : Type} {m : Bytes} (hm : m.length < 2 ^ 64) (k : Nat → β) :
    shaN (beNat m) m.length k = k (beNat (sha512 m)) := by
  have h : 8 * (0 + m.length) < 256 ^ 16 := by omega
  unfold shaN start
  rw [finN_eq h start_st, sha512, pad_rest, padRest_length, Nat.mul_div_cancel_left _ (by omega)]

/-! ## HMAC -/

/-- 128 bytes `0x36` -/
def ipad : Nat := 0x3636363636363636363636363636363636363636363636363636363636363636363636363636363636363636363636363636363636363636363636363636363636363636363636363636363636363636363636363636363636363636363636363636363636363636363636363636363636363636363636363636363636363636
/-- 128 bytes `0x5c` -/
def opad : Nat := 0x5c5c5c5c5c5c5c5c5c5c5c5c5c5c5c5c5c5c5c5c5c5c5c5c5c5c5c5c5c5c5c5c5c5c5c5c5c5c5c5c5c5c5c5c5c5c5c5c5c5c5c5c5c5c5c5c5c5c5c5c5c5c5c5c5c5c5c5c5c5c5c5c5c5c5c5c5c5c5c5c5c5c5c5c5c5c5c5c5c5c5c5c5c5c5c5c5c5c5c5c5c5c5c5c5c5c5c5c5c5c5c5c5c5c5c5c5c5c5c5c5c5c5c5c5c5c5c5c

/-- the two states after the key block `kb` -/
def keyN {β : Type} (kb : Nat) (k : F8 (F8 β)) : β :=
  fo (Nat.xor kb ipad) fun x => fo (Nat.xor kb opad) fun y =>
    start (comp x fun a b c d e f g h => start (comp y (k a b c d e f g h)))

/-- HMAC, from the two states after the key block -/
def macN {β : Type} (v len : Nat) (k : Nat → β) : F8 (F8 β) :=
  fun a b c d e f g h a' b' c' d' e' f' g' h' =>
    finN 128 v len (fun i => finN 128 i 64 k a' b' c' d' e' f' g' h') a b c d e f g h

theorem xor_append {m : Nat} {x y u w : Nat} (hy : y < 2 ^ m) (hw : w < 2 ^ m) :
    (2 ^ m * x + y) ^^^ (2 ^ m * u + w) = 2 ^ m * (x ^^^ u) + (y ^^^ w) := by
  have hyw : y ^^^ w < 2 ^ m := Nat.xor_lt_two_pow hy hw
  refine Nat.eq_of_testBit_eq fun j => ?_
  rw [Nat.testBit_xor, Nat.testBit_two_pow_mul_add x hy, Nat.testBit_two_pow_mul_add u hw,
    Nat.testBit_two_pow_mul_add _ hyw, Nat.testBit_xor, Nat.testBit_xor]
  split <;> rfl

theorem beNat_xor (p : UInt8) (s : Bytes) :
    beNat (s.map (· ^^^ p)) = beNat s ^^^ beNat (List.replicate s.length p) := by
  induction s using List.reverseRecOn with
  | nil => simp
  | append_singleton s x ih =>
    rw [List.map_append, beNat_append, ih, List.length_append, List.length_singleton,
      List.replicate_add, beNat_append, beNat_append]
    simp only [List.map_cons, List.map_nil, List.length_singleton, List.replicate_one, beNat_single]
    rw [mul_comm _ (256 ^ 1), mul_comm _ (256 ^ 1), mul_comm _ (256 ^ 1),
      show (256 : Nat) ^ 1 = 2 ^ 8 by rfl, xor_append x.toNat_lt p.toNat_lt, UInt8.toNat_xor]

theorem ipad_eq : beNat (List.replicate 128 0x36) = ipad := by decide +kernel
theorem opad_eq : beNat (List.replicate 128 0x5c) = opad := by decide +kernel

theorem first_block {b : Bytes} (hb : b.length = 128) {v : Nat} (hv : v = beNat b) :
    ∃ a' b' c' d' e' f' g' h', St (compress H0 (words 16 b)) a' b' c' d' e' f' g' h' ∧
      ∀ (β : Type) (k : F8 β), start (comp v k) = k a' b' c' d' e' f' g' h' := by
  refine comp_eq start_st (words_eq (v := v) (n := 0) hb ?_ rfl)
  rw [hv, ← hb, Nat.mul_one] 
  exact Nat.mod_eq_of_lt (hb ▸ beNat_lt b)

theorem words_append {b c : Bytes} (n : Nat) (hb : 8 * n ≤ b.length) :
    words n (b ++ c) = words n b := by
  induction n generalizing b with
  | zero => rfl
  | succ n ih =>
    rw [words, words, List.take_append_of_le_length (by omega), List.drop_append_of_le_length (by omega),
      ih (by rw [List.length_drop]; omega)]

/-- a hash, begun with a block -/
theorem sha_block {b m : Bytes} (hb : b.length = 128) :
    sha512 (b ++ m) = (blocks (nblk m.length) (padRest 128 m) (compress H0 (words 16 b))).flatMap
      (natToBE 8) := by
  have e : pad (b ++ m) = b ++ padRest 128 m := by
    rw [pad, padRest, List.length_append, hb, List.append_assoc, Nat.add_mod_left]
  rw [sha512, e, List.length_append, hb, padRest_length,
    show (128 + 128 * nblk m.length) / 128 = nblk m.length + 1 by omega, blocks, words_append 16 (by omega),
    List.drop_left' hb]

theorem keyN_eq {key : Bytes} {kb : Nat} (hk : beNat (hmacKey sha512 key) = kb)
    (hl : (hmacKey sha512 key).length = 128) {β : Type} (k : F8 (F8 β)) :
    ∃ a b c d e f g h a' b' c' d' e' f' g' h',
      keyN kb k = k a b c d e f g h a' b' c' d' e' f' g' h' ∧
      ∀ (γ : Type) (m : Bytes) (j : Nat → γ), m.length < 2 ^ 64 →
        macN (beNat m) m.length j a b c d e f g h a' b' c' d' e' f' g' h' =
          j (beNat (hmac sha512 key m)) := by
  obtain ⟨a, b, c, d, e, f, g, h, i1, i2⟩ :=
    first_block (b := (hmacKey sha512 key).map (· ^^^ 0x36)) (by rw [List.length_map, hl])
      (v := Nat.xor kb ipad) (by rw [beNat_xor, hl, ipad_eq, hk]; rfl)
  obtain ⟨a', b', c', d', e', f', g', h', j1, j2⟩ :=
    first_block (b := (hmacKey sha512 key).map (· ^^^ 0x5c)) (by rw [List.length_map, hl])
      (v := Nat.xor kb opad) (by rw [beNat_xor, hl, opad_eq, hk]; rfl)
  refine ⟨a, b, c, d, e, f, g, h, a', b', c', d', e', f', g', h', ?_, fun γ m j hm => ?_⟩
  · unfold keyN
    rw [fo_eq, fo_eq, i2, j2]
  · unfold macN
    rw [finN_eq (by omega) i1, ← sha_block (by rw [List.length_map, hl])]
    have hs : (sha512 (List.map (· ^^^ 0x36) (hmacKey sha512 key) ++ m)).length = 64 :=
      Kat.sha512_length _
    have := finN_eq (m := sha512 (List.map (· ^^^ 0x36) (hmacKey sha512 key) ++ m)) (off := 128)
      (by rw [hs]; decide) j1 j
    rw [hs] at this
    rw [this, ← hs, ← sha_block (by rw [List.length_map, hl])]
    rfl

/-- the key block of a key of at most 128 bytes -/
theorem hmacKey_short {key : Bytes} (h : key.length ≤ 128) :
    (hmacKey sha512 key).length = 128 ∧
      beNat (hmacKey sha512 key) = Nat.shiftLeft (beNat key) (8 * (128 - key.length)) := by
  have e : hmacKey sha512 key = key ++ List.replicate (128 - key.length) 0 := by
    unfold hmacKey
    rw [if_neg (by omega)]
  rw [e]
  refine ⟨by rw [List.length_append, List.length_replicate]; omega, ?_⟩
  rw [beNat_append, beNat_zeros, List.length_replicate]
  show _ = beNat key <<< _
  rw [Nat.shiftLeft_eq, pow_mul]
  rfl

/-- HMAC with a short key -/
def hmacN {β : Type} (kv klen v len : Nat) (k : Nat → β) : β :=
  keyN (Nat.shiftLeft kv (Nat.mul 8 (Nat.sub 128 klen))) (macN v len k)

theorem hmacN_eq {β : Type} {key m : Bytes} (hk : key.length ≤ 128) (hm : m.length < 2 ^ 64)
    (k : Nat → β) :
    hmacN (beNat key) key.length (beNat m) m.length k = k (beNat (hmac sha512 key m)) := by
  obtain ⟨h1, h2⟩ := hmacKey_short hk
  obtain ⟨a, b, c, d, e, f, g, h, a', b', c', d', e', f', g', h', j1, j2⟩ :=
    keyN_eq h2 h1 (macN (beNat m) m.length k)
  exact j1.trans (j2 β m k hm)

/-! ## HKDF with a key of 64 bytes -/

/-- the two output blocks of HKDF for a state `s` -/
def expandN {β : Type} (s iv il : Nat) (k : Nat → Nat → β) : β :=
  keyN (Nat.shiftLeft s 512) fun a b c d e f g h a' b' c' d' e' f' g' h' =>
    macN (Nat.add (Nat.mul iv 256) 1) (Nat.add il 1) (fun t1 =>
      macN (Nat.add (Nat.shiftLeft t1 (Nat.mul 8 (Nat.add il 1))) (Nat.add (Nat.mul iv 256) 2))
        (Nat.add il 65) (k t1) a b c d e f g h a' b' c' d' e' f' g' h')
      a b c d e f g h a' b' c' d' e' f' g' h'

theorem expandN_eq {β : Type} {s info : Bytes} (hs : s.length = 64) (hi : info.length < 2 ^ 63)
    (k : Nat → Nat → β) :
    expandN (beNat s) (beNat info) info.length k =
      k (beNat (okm1 sha512 s info)) (beNat (okm2 sha512 s info)) := by
  obtain ⟨h1, h2⟩ := hmacKey_short (key := s) (by omega)
  rw [hs] at h2
  have hl : (okm1 sha512 s info).length = 64 := Kat.sha512_length _
  unfold expandN
  obtain ⟨a, b, c, d, e, f, g, h, a', b', c', d', e', f', g', h', j1, j2⟩ :=
    keyN_eq h2 h1 (fun a b c d e f g h a' b' c' d' e' f' g' h' =>
    macN (Nat.add (Nat.mul (beNat info) 256) 1) (Nat.add info.length 1) (fun t1 =>
      macN (Nat.add (Nat.shiftLeft t1 (Nat.mul 8 (Nat.add info.length 1)))
        (Nat.add (Nat.mul (beNat info) 256) 2))
        (Nat.add info.length 65) (k t1) a b c d e f g h a' b' c' d' e' f' g' h')
      a b c d e f g h a' b' c' d' e' f' g' h')
  refine j1.trans ?_
  have m1 : Nat.add (Nat.mul (beNat info) 256) 1 = beNat (info ++ [1]) := by
    rw [beNat_append]; rfl
  have l1 : Nat.add info.length 1 = (info ++ [1]).length := by rw [List.length_append]; rfl
  have e1 := j2 β (info ++ [1]) (fun t1 =>
      macN (Nat.add (Nat.shiftLeft t1 (Nat.mul 8 (Nat.add info.length 1)))
        (Nat.add (Nat.mul (beNat info) 256) 2))
        (Nat.add info.length 65) (k t1) a b c d e f g h a' b' c' d' e' f' g' h')
        (by rw [List.length_append, List.length_singleton]; omega)
  rw [← m1, ← l1] at e1
  refine e1.trans ?_
  have m2 : Nat.add (Nat.shiftLeft (beNat (hmac sha512 s (info ++ [1])))
      (Nat.mul 8 (Nat.add info.length 1))) (Nat.add (Nat.mul (beNat info) 256) 2) =
      beNat (okm1 sha512 s info ++ info ++ [2]) := by
    rw [List.append_assoc, beNat_append, beNat_append, List.length_append]
    show _ <<< (8 * (info.length + 1)) + (beNat info * 256 + 2) = _
    rw [Nat.shiftLeft_eq, pow_mul]
    rfl
  have l2 : Nat.add info.length 65 = (okm1 sha512 s info ++ info ++ [2]).length := by
    rw [List.length_append, List.length_append, hl, List.length_singleton]
    show info.length + 65 = _
    omega
  have e2 := j2 β (okm1 sha512 s info ++ info ++ [2]) (k (beNat (hmac sha512 s (info ++ [1]))))
    (by rw [List.length_append, List.length_append, hl, List.length_singleton]; omega)
  rw [← m2, ← l2] at e2
  exact e2

end Pixel.Fast
