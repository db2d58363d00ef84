import Verif.Model.Prng
import Verif.Spec.Laws
import Mathlib.Tactic.Ring

/-! # Lemmas about the PRNG -/

namespace Pixel

theorem validCiphersuite_contains {c : UInt8} :
    validCiphersuite.contains c = true ↔ Spec.Supported c := by
  simp [validCiphersuite, Spec.Supported]

theorem natToBE_length (k n : Nat) : (natToBE k n).length = k := by
  induction k generalizing n with
  | zero => rfl
  | succ k ih => simp [natToBE, ih]

theorem beNat_append_aux (a : Nat) (l : Bytes) :
    l.foldl (fun a x => a * 256 + x.toNat) a = a * 256 ^ l.length + beNat l := by
  unfold beNat
  induction l generalizing a with
  | nil => simp
  | cons x l ih =>
    simp only [List.foldl_cons, List.length_cons]
    rw [ih, ih (0 * 256 + x.toNat)]
    ring

theorem beNat_append (l m : Bytes) : beNat (l ++ m) = beNat l * 256 ^ m.length + beNat m := by
  rw [beNat, List.foldl_append, ← beNat, beNat_append_aux]

@[simp] theorem beNat_nil : beNat [] = 0 := rfl
@[simp] theorem beNat_single (x : UInt8) : beNat [x] = x.toNat := by simp [beNat]

theorem beNat_lt (l : Bytes) : beNat l < 256 ^ l.length := by
  induction l with
  | nil => simp
  | cons x l ih =>
    have h := beNat_append [x] l
    simp only [List.singleton_append, beNat_single] at h
    rw [h, List.length_cons, pow_succ]
    have : x.toNat < 256 := x.toNat_lt
    have h3 : x.toNat * 256 ^ l.length + 256 ^ l.length ≤ 256 * 256 ^ l.length := by
      rw [← Nat.succ_mul]
      exact Nat.mul_le_mul_right _ this
    omega

theorem beNat_natToBE (k n : Nat) : beNat (natToBE k n) = n % 256 ^ k := by
  induction k generalizing n with
  | zero => simp [natToBE, Nat.mod_one]
  | succ k ih =>
    rw [natToBE, beNat_append, ih]
    simp only [List.length_singleton, pow_one, beNat_single]
    have : (UInt8.ofNat (n % 256)).toNat = n % 256 := by simp
    rw [this, pow_succ', Nat.mod_mul]
    ring

/-- splitting a fixed-size big-endian integer -/
theorem natToBE_add (j k n : Nat) :
    natToBE (j + k) n = natToBE j (n / 256 ^ k) ++ natToBE k n := by
  induction k generalizing n with
  | zero => simp [natToBE]
  | succ k ih =>
    rw [← Nat.add_assoc, natToBE, ih, natToBE, List.append_assoc, Nat.div_div_eq_div_mul, pow_succ']

theorem natToBE_small (j n : Nat) (h : n = 0) : natToBE j n = List.replicate j 0 := by
  subst h
  induction j with
  | zero => rfl
  | succ j ih =>
    rw [natToBE, Nat.zero_div, ih, List.replicate_succ']
    rfl

theorem rOrder_eq : beNat ([0, 0, 0, 0, 0, 0, 0, 0, 0, 0, 0, 0, 0, 0, 0, 0, 0, 0, 0, 0, 0, 0, 0, 0,
    0, 0, 0, 0, 0, 0, 0, 0, 0x73, 0xED, 0xA7, 0x53, 0x29, 0x9D, 0x7D, 0x48, 0x33, 0x39, 0xD8, 0x08,
    0x09, 0xA1, 0xD8, 0x05, 0x53, 0xBD, 0xA4, 0x02, 0xFF, 0xFE, 0x5B, 0xFE, 0xFF, 0xFF, 0xFF, 0xFF,
    0x00, 0x00, 0x00, 0x01]) = rOrder := by decide +kernel

theorem rOrder_lt : rOrder < 256 ^ 32 := by decide +kernel

theorem slice_mid {α : Type} (a b c : List α) :
    slice (a ++ (b ++ c)) a.length (a.length + b.length) = .ok b := by
  unfold slice
  rw [if_pos (by simp)]
  congr 1
  rw [← List.append_assoc, ← List.length_append, List.take_left, List.drop_left]

theorem slice_mid' {α : Type} {l a b c : List α} {i j : Nat} (h : l = a ++ (b ++ c))
    (hi : a.length = i) (hj : a.length + b.length = j) : slice l i j = .ok b := by
  subst h hi hj
  exact slice_mid a b c

theorem limbs_gen {B t : Nat} (h : t < B ^ 4) :
    t % B + t / B % B * B + t / B ^ 2 % B * B ^ 2 + t / B ^ 3 % B * B ^ 3 = t := by
  have h1 : t / B ^ 2 = t / B / B := by rw [Nat.div_div_eq_div_mul, pow_two]
  have h2 : t / B ^ 3 = t / B / B / B := by
    rw [Nat.div_div_eq_div_mul, Nat.div_div_eq_div_mul]; congr 1; ring
  have h3 : t / B ^ 3 < B := by
    apply Nat.div_lt_of_lt_mul
    rw [← pow_succ]; exact h
  rw [Nat.mod_eq_of_lt h3, h2, h1]
  have a1 := Nat.div_add_mod t B
  have a2 := Nat.div_add_mod (t / B) B
  have a3 := Nat.div_add_mod (t / B / B) B
  calc _ = t % B + B * (t / B % B + B * (t / B / B % B + B * (t / B / B / B))) := by ring
    _ = t := by rw [Nat.add_comm (t / B / B % B), a3, Nat.add_comm (t / B % B), a2, Nat.add_comm, a1]

theorem limbs_eq {t : Nat} (h : t < 256 ^ 32) :
    t % 256 ^ 8 + t / 256 ^ 8 % 256 ^ 8 * 2 ^ 64 + t / 256 ^ 16 % 256 ^ 8 * 2 ^ 128 +
      t / 256 ^ 24 % 256 ^ 8 * 2 ^ 192 = t := by
  have := limbs_gen (B := 256 ^ 8) (t := t) (by rw [← pow_mul]; exact h)
  rw [← pow_mul, ← pow_mul] at this
  have e1 : 2 ^ 64 = 256 ^ 8 := by norm_num
  have e2 : 2 ^ 128 = 256 ^ (8 * 2) := by norm_num
  have e3 : 2 ^ 192 = 256 ^ (8 * 3) := by norm_num
  rw [e1, e2, e3]
  exact this

theorem frFromRepr_eq {a b c d t : Nat}
    (h : a + b * 2 ^ 64 + c * 2 ^ 128 + d * 2 ^ 192 = t) (ht : t < rOrder) :
    frFromRepr a b c d = some (t : Fr) := by
  unfold frFromRepr
  rw [if_pos (by rw [h]; exact ht), h]

attribute [local irreducible] rOrder natToBE in
/-- `os2ip_mod_p` computes the big-endian value modulo the group order; none of its internal
panics is reachable. -/
theorem os2ipModP_eq {b : Bytes} (h : b.length ≤ 64) : os2ipModP b = .ok ((beNat b : Nat) : Fr) := by
  unfold os2ipModP
  simp only [h, decide_true, assertRes_true, Res.ok_bind, rOrder_eq]
  set t := beNat b % rOrder with ht
  have htr : t < rOrder := Nat.mod_lt _ (Nat.pos_of_ne_zero (NeZero.ne _))
  have ht32 : t < 256 ^ 32 := lt_trans htr rOrder_lt
  have e64 : natToBE 64 t = natToBE 32 (t / 256 ^ 32) ++ natToBE 32 t := natToBE_add 32 32 t
  have ez : natToBE 32 (t / 256 ^ 32) = List.replicate 32 0 :=
    natToBE_small _ _ (Nat.div_eq_of_lt ht32)
  have e32 : natToBE 32 t = natToBE 8 (t / 256 ^ 24) ++ natToBE 24 t := natToBE_add 8 24 t
  have e24 : natToBE 24 t = natToBE 8 (t / 256 ^ 16) ++ natToBE 16 t := natToBE_add 8 16 t
  have e16 : natToBE 16 t = natToBE 8 (t / 256 ^ 8) ++ natToBE 8 t := natToBE_add 8 8 t
  rw [ez] at e64
  have l8 : ∀ n, (natToBE 8 n).length = 8 := natToBE_length 8
  have s0 : slice (natToBE 64 t) 0 32 = .ok (List.replicate 32 0) :=
    slice_mid' (a := []) (c := natToBE 32 t) (by rw [e64, List.nil_append]) List.length_nil
      (by rw [List.length_nil, List.length_replicate])
  have s3 : slice (natToBE 64 t) 32 40 = .ok (natToBE 8 (t / 256 ^ 24)) :=
    slice_mid' (a := List.replicate 32 0) (c := natToBE 24 t) (by rw [e64, e32]) (by simp)
      (by simp [l8])
  have s2 : slice (natToBE 64 t) 40 48 = .ok (natToBE 8 (t / 256 ^ 16)) :=
    slice_mid' (a := List.replicate 32 0 ++ natToBE 8 (t / 256 ^ 24)) (c := natToBE 16 t)
      (by rw [e64, e32, e24]; simp only [List.append_assoc]) (by simp [l8]) (by simp [l8])
  have s1 : slice (natToBE 64 t) 48 56 = .ok (natToBE 8 (t / 256 ^ 8)) :=
    slice_mid' (a := List.replicate 32 0 ++ natToBE 8 (t / 256 ^ 24) ++ natToBE 8 (t / 256 ^ 16))
      (c := natToBE 8 t)
      (by rw [e64, e32, e24, e16]; simp only [List.append_assoc]) (by simp [l8]) (by simp [l8])
  have s4 : slice (natToBE 64 t) 56 64 = .ok (natToBE 8 t) :=
    slice_mid' (a := List.replicate 32 0 ++ natToBE 8 (t / 256 ^ 24) ++ natToBE 8 (t / 256 ^ 16)
      ++ natToBE 8 (t / 256 ^ 8)) (c := [])
      (by rw [e64, e32, e24, e16]; simp only [List.append_assoc, List.append_nil])
      (by simp [l8]) (by simp [l8])
  rw [s0, Res.ok_bind, beq_self_eq_true, assertRes_true, Res.ok_bind, s4, Res.ok_bind, s1,
    Res.ok_bind, s2, Res.ok_bind, s3, Res.ok_bind, beNat_natToBE, beNat_natToBE, beNat_natToBE,
    beNat_natToBE, frFromRepr_eq (limbs_eq ht32) htr, ht, ZMod.natCast_mod]

section

variable {sha : Bytes → Bytes}

theorem hmac_length (h : ∀ m, (sha m).length = 64) (k m : Bytes) : (hmac sha k m).length = 64 :=
  h _

theorem hkdfBlocks_length (h : ∀ m, (sha m).length = 64) (prk info : Bytes) (n c : Nat)
    (prev : Bytes) : (hkdfBlocks sha prk info n c prev).length = 64 * n := by
  induction n generalizing c prev with
  | zero => rfl
  | succ n ih =>
    simp only [hkdfBlocks, List.length_append, hmac_length h, ih]
    ring

/-- first output block -/
def okm1 (sha : Bytes → Bytes) (prk info : Bytes) : Bytes := hmac sha prk (info ++ [1])

/-- second output block -/
def okm2 (sha : Bytes → Bytes) (prk info : Bytes) : Bytes :=
  hmac sha prk (okm1 sha prk info ++ info ++ [2])

theorem okm1_length (h : ∀ m, (sha m).length = 64) (prk info : Bytes) :
    (okm1 sha prk info).length = 64 := hmac_length h _ _

theorem okm2_length (h : ∀ m, (sha m).length = 64) (prk info : Bytes) :
    (okm2 sha prk info).length = 64 := hmac_length h _ _

theorem expandAsserted_128 (h : ∀ m, (sha m).length = 64) (prk info : Bytes) :
    expandAsserted sha prk info 128 = .ok (okm1 sha prk info ++ okm2 sha prk info) := by
  unfold expandAsserted hkdfExpand
  rw [if_neg (by omega)]
  simp only [hkdfBlocks, List.nil_append, List.append_nil]
  congr 1
  apply List.take_of_length_le
  simp [hmac_length h]

theorem expandAsserted_64 (h : ∀ m, (sha m).length = 64) (prk info : Bytes) :
    expandAsserted sha prk info 64 = .ok (okm1 sha prk info) := by
  unfold expandAsserted hkdfExpand
  rw [if_neg (by omega)]
  simp only [hkdfBlocks, List.nil_append, List.append_nil]
  congr 1
  apply List.take_of_length_le
  simp [hmac_length h]

/-- the field element produced by a draw -/
def drawVal (sha : Bytes → Bytes) (p : Prng) (info : Bytes) : Fr :=
  ((beNat (okm1 sha p.seed info) : Nat) : Fr)

/-- the state after a draw -/
def drawNext (sha : Bytes → Bytes) (p : Prng) (info : Bytes) : Prng :=
  { seed := okm2 sha p.seed info }

/-- the state after mixing in a seed -/
def mixed (sha : Bytes → Bytes) (p : Prng) (seed info : Bytes) : Prng :=
  { seed := hmac sha (okm2 sha p.seed info) (okm1 sha p.seed info ++ seed) }

theorem slice_first {a b : Bytes} {n : Nat} (h : a.length = n) : slice (a ++ b) 0 n = .ok a :=
  slice_mid' (a := []) rfl rfl (by simp [h])

theorem slice_second {a b : Bytes} {n m : Nat} (h : a.length = n) (hm : n + b.length = m) :
    slice (a ++ b) n m = .ok b :=
  slice_mid' (a := a) (c := []) (by simp) h (by omega)

theorem slice_all {a : Bytes} {n : Nat} (h : a.length = n) : slice a 0 n = .ok a := by
  have := slice_first (b := []) h
  simpa using this

theorem copy64_eq {a : Bytes} (h : a.length = 64) : copy64 a = .ok a := by simp [copy64, h]

theorem sampleThenUpdate_eq (h : ∀ m, (sha m).length = 64) (info : Bytes) (p : Prng) :
    Prng.sampleThenUpdate sha info p = (.ok (drawVal sha p info), drawNext sha p info) := by
  unfold Prng.sampleThenUpdate
  rw [SM.get_bind, expandAsserted_128 h, SM.lift_ok_bind, slice_first (okm1_length h _ _),
    SM.lift_ok_bind, os2ipModP_eq (by rw [okm1_length h]), SM.lift_ok_bind,
    slice_second (okm1_length h _ _) (by rw [okm2_length h]), SM.lift_ok_bind,
    copy64_eq (okm2_length h _ _), SM.lift_ok_bind, SM.set_bind]
  rfl

theorem sampleThenUpdate_exec (h : ∀ m, (sha m).length = 64) (info : Bytes) (p : Prng) :
    (Prng.sampleThenUpdate sha info).exec p = .ok (drawVal sha p info, drawNext sha p info) :=
  SM.exec_ok (sampleThenUpdate_eq h info p)

theorem sample_eq (h : ∀ m, (sha m).length = 64) (info : Bytes) (p : Prng) :
    Prng.sample sha info p = (.ok (drawVal sha p info), p) := by
  unfold Prng.sample
  rw [SM.get_bind, expandAsserted_64 h, SM.lift_ok_bind, os2ipModP_eq (by rw [okm1_length h])]
  rfl

theorem sample_exec (h : ∀ m, (sha m).length = 64) (info : Bytes) (p : Prng) :
    (Prng.sample sha info).exec p = .ok (drawVal sha p info, p) :=
  SM.exec_ok (sample_eq h info p)

theorem rerandomize_eq (h : ∀ m, (sha m).length = 64) (seed info : Bytes) (p : Prng) :
    Prng.rerandomize sha seed info p = (.ok (), mixed sha p seed info) := by
  unfold Prng.rerandomize
  rw [SM.get_bind, expandAsserted_128 h, SM.lift_ok_bind, slice_first (okm1_length h _ _),
    SM.lift_ok_bind, slice_second (okm1_length h _ _) (by rw [okm2_length h]), SM.lift_ok_bind]
  simp only [hkdfExtract]
  rw [slice_all (hmac_length h _ _), SM.lift_ok_bind, copy64_eq (hmac_length h _ _),
    SM.lift_ok_bind]
  rfl

theorem rerandomize_exec (h : ∀ m, (sha m).length = 64) (seed info : Bytes) (p : Prng) :
    (Prng.rerandomize sha seed info).exec p = .ok ((), mixed sha p seed info) :=
  SM.exec_ok (rerandomize_eq h seed info p)

theorem init_prng_eq (h : ∀ m, (sha m).length = 64) (seed salt : Bytes) :
    Prng.init sha seed salt = .ok { seed := hmac sha salt seed } := by
  unfold Prng.init hkdfExtract
  simp only []
  rw [slice_all (hmac_length h _ _), Res.ok_bind, copy64_eq (hmac_length h _ _), Res.ok_bind]

theorem drawNext_wf (h : ∀ m, (sha m).length = 64) (p : Prng) (info : Bytes) :
    (drawNext sha p info).WF := okm2_length h _ _

theorem mixed_wf (h : ∀ m, (sha m).length = 64) (p : Prng) (seed info : Bytes) :
    (mixed sha p seed info).WF := hmac_length h _ _

end

theorem Prng.eq_iff {a b : Prng} (ha : a.WF) (hb : b.WF) : a.eq b = true ↔ a = b := by
  unfold Prng.eq
  rw [List.all_eq_true]
  constructor
  · intro h
    cases a; cases b
    simp only [Prng.mk.injEq]
    unfold Prng.WF at ha hb
    simp only at ha hb
    apply List.ext_getElem?
    intro i
    by_cases hi : i < 64
    · simpa using h i (List.mem_range.2 hi)
    · rw [List.getElem?_eq_none (by omega), List.getElem?_eq_none (by omega)]
  · rintro rfl i _
    simp

end Pixel
