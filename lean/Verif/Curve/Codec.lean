import Verif.Curve.Field
import Verif.Model.Serdes
import Verif.Proof.Prng
import Verif.Proof.Serdes

/-!
# The encoding of curve points

The encoding of BLS12-381 points used by the crate `pairing-plus` (not part of `/repo`), over any
field whose elements are written as numbers.  A point is written as `x` (compressed) or `x` and `y`;
the three highest bits of the first byte are flags: compressed, point at infinity, and, for
compressed points, whether `y` is the larger of the two roots.
-/

set_option linter.unusedSectionVars false

namespace Pixel.Curve

open WeierstrassCurve Pixel

/-- How field elements are written, and a square root. -/
structure Coord (F : Type) [Field F] where
  /-- the number of bytes -/
  len : Nat
  /-- the value of the lowest flag bit -/
  top : Nat
  top_eq : 8 * top = 256 ^ len
  toNat : F → Nat
  ofNat : Nat → Option F
  toNat_lt : ∀ x, toNat x < top
  ofNat_toNat : ∀ x, ofNat (toNat x) = some x
  toNat_ofNat : ∀ n x, ofNat n = some x → toNat x = n
  root : F → F
  root_sq : ∀ y, root (y ^ 2) ^ 2 = y ^ 2

namespace Coord

variable {F : Type} [Field F] [DecidableEq F] {b : F} (C : Coord F)

/-- the point with these coordinates, if there is one -/
noncomputable def mkPt (b x y : F) : Option (curve b).Point := by
  classical exact if h : (curve b).Nonsingular x y then some (.some x y h) else none

/-- Is `y` the larger of the two roots? -/
def greatest (y : F) : Bool := decide (C.toNat (-y) < C.toNat y)

/-- the encoding -/
def enc (c : Bool) : (curve b).Point → Bytes
  | .zero =>
    if c then natToBE C.len (6 * C.top) else natToBE C.len (2 * C.top) ++ natToBE C.len 0
  | .some x y _ =>
    if c then natToBE C.len ((if C.greatest y then 5 else 4) * C.top + C.toNat x)
    else natToBE C.len (C.toNat x) ++ natToBE C.len (C.toNat y)

/-- a compressed point: the flags and the low part of the number `n` -/
noncomputable def decC (b : F) (n : Nat) : Option (curve b).Point :=
  if n / C.top / 2 % 2 = 1 then
    if n / C.top % 2 = 0 ∧ n % C.top = 0 then some 0 else none
  else
    (C.ofNat (n % C.top)).bind fun x =>
      let y := C.root (x ^ 3 + b)
      mkPt b x (if (decide (C.toNat y < C.toNat (-y))) ^^ (decide (n / C.top % 2 = 1)) then y else -y)

/-- a point written with both coordinates, in the numbers `n` and `m` -/
noncomputable def decU (b : F) (n m : Nat) : Option (curve b).Point :=
  if n / C.top / 2 % 2 = 1 then
    if n / C.top % 2 = 0 ∧ n % C.top = 0 ∧ m = 0 then some 0 else none
  else if n / C.top % 2 = 1 then none
  else (C.ofNat (n % C.top)).bind fun x => (C.ofNat m).bind fun y => mkPt b x y

/-- the check that the point is in the subgroup -/
noncomputable def finish : Option (curve b).Point → Res (curve b).Point
  | none => .err .codec
  | some P => by classical exact if rOrder • P = 0 then .ok P else .err .codec

/-- the decoder: reads as many bytes as a compressed point has, compares the compression flag with
the requested one, and reads the rest if need be -/
noncomputable def dec (b : F) (c : Bool) : SM Bytes (curve b).Point := do
  let s ← readExact C.len
  if decide (beNat s / C.top / 4 = 1) ≠ c then SM.err .codec
  else if c then SM.lift (finish (C.decC b (beNat s)))
  else do
    let s' ← readExact C.len
    SM.lift (finish (C.decU b (beNat s) (beNat s')))

/-! ## lengths and flags -/

theorem top_pos : 0 < C.top := by
  have := C.top_eq
  have h : 0 < 256 ^ C.len := Nat.pow_pos (by omega)
  omega

theorem mkPt_some (x y : F) (h : (curve b).Nonsingular x y) : mkPt b x y = some (.some x y h) := by
  unfold mkPt
  rw [dif_pos h]

theorem mkPt_eq {x y : F} {P : (curve b).Point} (h : mkPt b x y = some P) :
    ∃ hn, P = .some x y hn := by
  unfold mkPt at h
  by_cases hn : (curve b).Nonsingular x y
  · rw [dif_pos hn] at h
    exact ⟨hn, (Option.some.inj h).symm⟩
  · rw [dif_neg hn] at h
    cases h

theorem enc_length (c : Bool) (P : (curve b).Point) :
    (C.enc c P).length = if c then C.len else 2 * C.len := by
  cases c <;> cases P <;> simp [enc, natToBE_length] <;> omega

theorem toNat_inj {x y : F} (h : C.toNat x = C.toNat y) : x = y := by
  have := C.ofNat_toNat x
  rw [h, C.ofNat_toNat] at this
  exact (Option.some.inj this).symm

theorem beNat_flag {f lo : Nat} (hf : f < 8) (hlo : lo < C.top) :
    beNat (natToBE C.len (f * C.top + lo)) = f * C.top + lo := by
  rw [beNat_natToBE, Nat.mod_eq_of_lt]
  rw [← C.top_eq]
  have : f * C.top ≤ 7 * C.top := Nat.mul_le_mul_right _ (by omega)
  omega

theorem flag_div {f lo : Nat} (hlo : lo < C.top) : (f * C.top + lo) / C.top = f := by
  rw [mul_comm, Nat.mul_add_div C.top_pos, Nat.div_eq_of_lt hlo, Nat.add_zero]

theorem flag_mod {f lo : Nat} (hlo : lo < C.top) : (f * C.top + lo) % C.top = lo := by
  rw [mul_comm, Nat.mul_add_mod, Nat.mod_eq_of_lt hlo]

theorem natToBE_beNat {k : Nat} {s : Bytes} (h : s.length = k) : natToBE k (beNat s) = s := by
  induction k generalizing s with
  | zero => rw [List.length_eq_zero_iff.1 h]; rfl
  | succ k ih =>
    have hne : s ≠ [] := by intro h'; simp [h'] at h
    obtain ⟨t, x, rfl⟩ := List.eq_nil_or_concat s |>.resolve_left hne
    rw [List.concat_eq_append] at h ⊢
    have ht : t.length = k := by simpa using h
    have hx : x.toNat < 256 := x.toNat_lt
    rw [natToBE, beNat_append, List.length_singleton, pow_one, beNat_single]
    rw [show (beNat t * 256 + x.toNat) / 256 = beNat t by omega,
      show (beNat t * 256 + x.toNat) % 256 = x.toNat by omega, ih ht]
    simp

theorem finish_ok {o : Option (curve b).Point} {P : (curve b).Point} :
    finish o = .ok P ↔ o = some P ∧ rOrder • P = 0 := by
  classical
  cases o with
  | none => simp [finish]
  | some Q =>
    simp only [finish, Option.some.injEq]
    split
    · rename_i h
      constructor
      · intro e; cases e; exact ⟨rfl, h⟩
      · rintro ⟨rfl, _⟩; rfl
    · rename_i h
      constructor
      · intro e; cases e
      · rintro ⟨rfl, h'⟩; exact absurd h' h

theorem finish_noPanic (o : Option (curve b).Point) : (finish o).isPanic = false := by
  classical
  cases o with
  | none => rfl
  | some Q => simp only [finish]; split <;> rfl

theorem dec_compressed (s rest : Bytes) (h : s.length = C.len) (hf : beNat s / C.top / 4 = 1) :
    C.dec b true (s ++ rest) = (finish (C.decC b (beNat s)), rest) := by
  unfold dec
  rw [SM.bind_run_ok (readExact_eq h), if_neg (by simp [hf]), if_pos rfl]
  rfl

theorem dec_uncompressed (s s' rest : Bytes) (h : s.length = C.len) (h' : s'.length = C.len)
    (hf : ¬ beNat s / C.top / 4 = 1) :
    C.dec b false (s ++ (s' ++ rest)) = (finish (C.decU b (beNat s) (beNat s')), rest) := by
  unfold dec
  rw [SM.bind_run_ok (readExact_eq h), if_neg (by simp [hf]), if_neg (by simp),
    SM.bind_run_ok (readExact_eq h')]
  rfl

theorem dec_mismatch (c : Bool) (s rest : Bytes) (h : s.length = C.len)
    (hf : decide (beNat s / C.top / 4 = 1) ≠ c) :
    (C.dec b c (s ++ rest)).1.isErr = true := by
  unfold dec
  rw [SM.bind_run_ok (readExact_eq h), if_pos hf]
  rfl

/-! ## the laws -/

theorem rOrder_odd : rOrder % 2 = 1 := by decide +kernel

/-- a point killed by `r` is not of order two -/
theorem y_ne {x y : F} {hn : (curve b).Nonsingular x y}
    (h : rOrder • (Affine.Point.some x y hn : (curve b).Point) = 0) : -y ≠ y := by
  intro hy
  have hP : IsPt (Affine.Point.some x y hn : (curve b).Point) x y := ⟨hn, rfl⟩
  generalize (Affine.Point.some x y hn : (curve b).Point) = P at h hP
  have h1 : -P = P := hP.neg.inj (by rw [hy]; exact hP)
  have h2 : 2 • P = 0 := by
    rw [two_nsmul]
    nth_rw 1 [← h1]
    exact neg_add_cancel P
  have e : rOrder = 2 * (rOrder / 2) + 1 := by
    have := Nat.div_add_mod rOrder 2
    rw [rOrder_odd] at this
    exact this.symm
  rw [e, succ_nsmul, mul_nsmul, h2, smul_zero, zero_add] at h
  exact hP.ne_zero h

/-- of the two roots, the one the sign bit asks for -/
theorem choose_root {y y' : F} (hy : -y ≠ y) (h : y' = y ∨ y' = -y) :
    (if (decide (C.toNat y' < C.toNat (-y'))) ^^ C.greatest y then y' else -y') = y := by
  have hne : C.toNat (-y) ≠ C.toNat y := fun e => hy (C.toNat_inj e)
  unfold greatest
  rcases h with rfl | rfl
  · by_cases hlt : C.toNat y' < C.toNat (-y')
    · simp [hlt, Nat.lt_asymm hlt]
    · have : C.toNat (-y') < C.toNat y' := by omega
      simp [hlt, this]
  · rw [neg_neg]
    by_cases hlt : C.toNat (-y) < C.toNat y
    · simp [hlt]
    · simp [hlt]

/-- and the bit of the chosen root is the bit that was asked for -/
theorem greatest_choose {y' : F} {g : Bool} (hy : -y' ≠ y') :
    C.greatest (if (decide (C.toNat y' < C.toNat (-y'))) ^^ g then y' else -y') = g := by
  have hne : C.toNat (-y') ≠ C.toNat y' := fun e => hy (C.toNat_inj e)
  unfold greatest
  by_cases hlt : C.toNat y' < C.toNat (-y')
  · cases g
    · simp [hlt, Nat.le_of_lt hlt]
    · simp [hlt]
  · have : C.toNat (-y') < C.toNat y' := by omega
    cases g
    · simp [Nat.lt_asymm this]
    · simp [Nat.lt_asymm this, this]

theorem decC_enc {x y : F} {hn : (curve b).Nonsingular x y} (hy : -y ≠ y) :
    C.decC b ((if C.greatest y then 5 else 4) * C.top + C.toNat x) = some (.some x y hn) := by
  have hx := C.toNat_lt x
  unfold decC
  have hr : C.root (x ^ 3 + b) = y ∨ C.root (x ^ 3 + b) = -y := by
    have e := (nonsingular_iff.1 hn).1
    rw [← e]
    exact sq_eq_sq_iff_eq_or_eq_neg.1 (C.root_sq y)
  have key := C.choose_root hy hr
  by_cases hg : C.greatest y = true
  · rw [if_pos hg, C.flag_div hx, C.flag_mod hx, if_neg (by decide), C.ofNat_toNat,
      Option.bind_some]
    rw [hg] at key
    rw [show decide (5 % 2 = 1) = true from rfl]
    dsimp only
    rw [key, mkPt_some]
  · rw [if_neg hg, C.flag_div hx, C.flag_mod hx, if_neg (by decide), C.ofNat_toNat,
      Option.bind_some]
    rw [Bool.eq_false_iff.2 hg] at key
    rw [show decide (4 % 2 = 1) = false from rfl]
    dsimp only
    rw [key, mkPt_some]

theorem decU_enc {x y : F} {hn : (curve b).Nonsingular x y} :
    C.decU b (C.toNat x) (C.toNat y) = some (.some x y hn) := by
  have hx := C.toNat_lt x
  unfold decU
  rw [Nat.div_eq_of_lt hx, Nat.mod_eq_of_lt hx, if_neg (by decide), if_neg (by decide),
    C.ofNat_toNat, C.ofNat_toNat, Option.bind_some, Option.bind_some, mkPt_some]

theorem beNat_toNat (x : F) : beNat (natToBE C.len (C.toNat x)) = C.toNat x := by
  have := C.beNat_flag (f := 0) (by omega) (C.toNat_lt x)
  rwa [Nat.zero_mul, Nat.zero_add] at this

theorem dec_enc (c : Bool) (P : (curve b).Point) (rest : Bytes) (h : rOrder • P = 0) :
    C.dec b c (C.enc c P ++ rest) = (.ok P, rest) := by
  have h0 := C.top_pos
  cases c with
  | true =>
    cases P with
    | zero =>
      have e := C.beNat_flag (f := 6) (by omega) h0
      rw [Nat.add_zero] at e
      have d := C.flag_div (f := 6) h0
      have m := C.flag_mod (f := 6) h0
      rw [Nat.add_zero] at d m
      rw [enc, if_pos rfl, dec_compressed C _ _ (natToBE_length _ _) (by rw [e, d]), e]
      unfold decC
      rw [d, m, if_pos (by decide), if_pos (by decide), finish_ok.2 ⟨rfl, smul_zero _⟩]
      rfl
    | some x y hn =>
      have hx := C.toNat_lt x
      have e : beNat (natToBE C.len ((if C.greatest y then 5 else 4) * C.top + C.toNat x)) =
          (if C.greatest y then 5 else 4) * C.top + C.toNat x :=
        C.beNat_flag (by split <;> omega) hx
      have d := C.flag_div (f := if C.greatest y then 5 else 4) hx
      rw [enc, if_pos rfl, dec_compressed C _ _ (natToBE_length _ _) (by
        rw [e, d]
        split <;> rfl), e, C.decC_enc (hn := hn) (y_ne h), finish_ok.2 ⟨rfl, h⟩]
  | false =>
    cases P with
    | zero =>
      have e := C.beNat_flag (f := 2) (by omega) h0
      rw [Nat.add_zero] at e
      have d := C.flag_div (f := 2) h0
      have m := C.flag_mod (f := 2) h0
      rw [Nat.add_zero] at d m
      have e0 : beNat (natToBE C.len 0) = 0 := by rw [beNat_natToBE, Nat.zero_mod]
      rw [enc, if_neg (by decide), List.append_assoc, dec_uncompressed C _ _ _ (natToBE_length _ _)
        (natToBE_length _ _) (by rw [e, d]; decide), e, e0]
      unfold decU
      rw [d, m, if_pos (by decide), if_pos (by decide), finish_ok.2 ⟨rfl, smul_zero _⟩]
      rfl
    | some x y hn =>
      have hx := C.toNat_lt x
      rw [enc, if_neg (by decide), List.append_assoc, dec_uncompressed C _ _ _ (natToBE_length _ _)
        (natToBE_length _ _) (by rw [beNat_toNat, Nat.div_eq_of_lt hx]; decide), beNat_toNat,
        beNat_toNat, C.decU_enc (hn := hn), finish_ok.2 ⟨rfl, h⟩]

theorem flags_lt {s : Bytes} (h : s.length = C.len) : beNat s / C.top < 8 := by
  have h1 := beNat_lt s
  rw [h, ← C.top_eq] at h1
  exact Nat.div_lt_of_lt_mul (by rwa [mul_comm])

theorem beNat_split {s : Bytes} {f lo : Nat} (h1 : beNat s / C.top = f) (h2 : beNat s % C.top = lo)
    (hl : s.length = C.len) : s = natToBE C.len (f * C.top + lo) := by
  conv_lhs => rw [← natToBE_beNat hl]
  congr 1
  rw [← h1, ← h2, mul_comm]
  exact (Nat.div_add_mod _ _).symm

theorem decC_canon {s : Bytes} {P : (curve b).Point} (hl : s.length = C.len)
    (hf : beNat s / C.top / 4 = 1) (h : C.decC b (beNat s) = some P) (hr : rOrder • P = 0) :
    s = C.enc true P := by
  have hlt := C.flags_lt hl
  unfold decC at h
  by_cases hi : beNat s / C.top / 2 % 2 = 1
  · rw [if_pos hi] at h
    by_cases hz : beNat s / C.top % 2 = 0 ∧ beNat s % C.top = 0
    · rw [if_pos hz] at h
      cases Option.some.inj h
      exact C.beNat_split (f := 6) (lo := 0) (by omega) hz.2 hl
    · rw [if_neg hz] at h
      cases h
  · rw [if_neg hi] at h
    obtain ⟨x, hx, h⟩ := Option.bind_eq_some_iff.1 h
    have hxn := C.toNat_ofNat _ _ hx
    obtain ⟨hn, rfl⟩ := mkPt_eq h
    have hy := y_ne hr
    have hy' : -C.root (x ^ 3 + b) ≠ C.root (x ^ 3 + b) := by
      intro e
      refine hy ?_
      split
      · exact e
      · rw [neg_neg]; exact e.symm
    rw [enc, if_pos rfl, C.greatest_choose hy']
    refine C.beNat_split ?_ hxn.symm hl
    by_cases h1 : beNat s / C.top % 2 = 1
    · rw [if_pos (by simpa using h1)]; omega
    · rw [if_neg (by simpa using h1)]; omega

theorem flag2 {n : Nat} (hlt : n < 8) (hf : ¬ n / 4 = 1) (hi : n / 2 % 2 = 1) (h : n % 2 = 0) :
    n = 2 := by omega

theorem flag0 {n : Nat} (hlt : n < 8) (hf : ¬ n / 4 = 1) (hi : ¬ n / 2 % 2 = 1) (h : ¬ n % 2 = 1) :
    n = 0 := by omega

theorem decU_canon {s s' : Bytes} {P : (curve b).Point} (hl : s.length = C.len)
    (hl' : s'.length = C.len) (hf : ¬ beNat s / C.top / 4 = 1)
    (h : C.decU b (beNat s) (beNat s') = some P) : s ++ s' = C.enc false P := by
  have hlt := C.flags_lt hl
  unfold decU at h
  by_cases hi : beNat s / C.top / 2 % 2 = 1
  · rw [if_pos hi] at h
    by_cases hz : beNat s / C.top % 2 = 0 ∧ beNat s % C.top = 0 ∧ beNat s' = 0
    · rw [if_pos hz] at h
      cases Option.some.inj h
      have e1 := C.beNat_split (s := s) (f := 2) (lo := 0)
        (flag2 hlt hf hi hz.1) hz.2.1 hl
      rw [Nat.add_zero] at e1
      show s ++ s' = C.enc false (.zero : (curve b).Point)
      rw [enc, if_neg (by decide), ← e1, ← hz.2.2, natToBE_beNat hl']
    · rw [if_neg hz] at h
      cases h
  · rw [if_neg hi] at h
    by_cases h1 : beNat s / C.top % 2 = 1
    · rw [if_pos h1] at h
      cases h
    rw [if_neg h1] at h
    obtain ⟨x, hx, h⟩ := Option.bind_eq_some_iff.1 h
    obtain ⟨y, hy, h⟩ := Option.bind_eq_some_iff.1 h
    have hxn := C.toNat_ofNat _ _ hx
    have hyn := C.toNat_ofNat _ _ hy
    obtain ⟨hn, rfl⟩ := mkPt_eq h
    have e1 := C.beNat_split (s := s) (f := 0) (flag0 hlt hf hi h1) rfl hl
    rw [Nat.zero_mul, Nat.zero_add, ← hxn] at e1
    rw [enc, if_neg (by decide), ← e1, hyn, natToBE_beNat hl']

theorem dec_canon {c : Bool} {inp : Bytes} {P : (curve b).Point} {rest : Bytes}
    (h : C.dec b c inp = (.ok P, rest)) : inp = C.enc c P ++ rest ∧ rOrder • P = 0 := by
  unfold dec at h
  obtain ⟨s, r1, h1, k⟩ := SM.bind_eq_ok.1 h
  clear h
  obtain ⟨hl, rfl⟩ := readExact_ok.1 h1
  by_cases hf : decide (beNat s / C.top / 4 = 1) ≠ c
  · rw [if_pos hf] at k
    cases (Prod.mk.inj k).1
  rw [if_neg hf] at k
  have hf := not_not.1 hf
  cases c with
  | true =>
    rw [if_pos rfl, SM.lift_run] at k
    obtain ⟨h2, rfl⟩ := Prod.mk.inj k
    obtain ⟨h3, h4⟩ := finish_ok.1 h2
    rw [C.decC_canon hl (by simpa using hf) h3 h4]
    exact ⟨rfl, h4⟩
  | false =>
    rw [if_neg (by decide)] at k
    obtain ⟨s', r2, h5, k'⟩ := SM.bind_eq_ok.1 k
    clear k
    obtain ⟨hl', rfl⟩ := readExact_ok.1 h5
    rw [SM.lift_run] at k'
    obtain ⟨h2, rfl⟩ := Prod.mk.inj k'
    obtain ⟨h3, h4⟩ := finish_ok.1 h2
    rw [← C.decU_canon hl hl' (by simpa using hf) h3, List.append_assoc]
    exact ⟨rfl, h4⟩

/-- the first `len` bytes of an encoding, and their compression flag -/
theorem enc_flag (c : Bool) (P : (curve b).Point) : ∃ s t, C.enc c P = s ++ t ∧ s.length = C.len ∧
    decide (beNat s / C.top / 4 = 1) = c := by
  have h0 := C.top_pos
  cases c with
  | true =>
    refine ⟨C.enc true P, [], (List.append_nil _).symm, C.enc_length true P, ?_⟩
    cases P with
    | zero =>
      have e := C.beNat_flag (f := 6) (by omega) h0
      have d := C.flag_div (f := 6) h0
      rw [Nat.add_zero] at d e
      rw [enc, if_pos rfl, e, d]
      rfl
    | some x y hn =>
      have hx := C.toNat_lt x
      rw [enc, if_pos rfl, C.beNat_flag (by split <;> omega) hx, C.flag_div hx]
      split <;> rfl
  | false =>
    cases P with
    | zero =>
      have e := C.beNat_flag (f := 2) (by omega) h0
      have d := C.flag_div (f := 2) h0
      rw [Nat.add_zero] at d e
      refine ⟨_, _, by rw [enc, if_neg (by decide)], natToBE_length _ _, ?_⟩
      rw [e, d]
      rfl
    | some x y hn =>
      have hx := C.toNat_lt x
      refine ⟨_, _, by rw [enc, if_neg (by decide)], natToBE_length _ _, ?_⟩
      rw [beNat_toNat, Nat.div_eq_of_lt hx]
      rfl

theorem dec_flag (c : Bool) (P : (curve b).Point) (rest : Bytes) :
    (C.dec b c (C.enc (!c) P ++ rest)).1.isErr = true := by
  obtain ⟨s, t, e, hl, hf⟩ := C.enc_flag (!c) P
  rw [e, List.append_assoc]
  refine C.dec_mismatch c s _ hl ?_
  rw [hf]
  cases c <;> decide

theorem dec_total (c : Bool) (inp : Bytes) : (C.dec b c inp).1.isPanic = false := by
  refine NoPanic.bind (readExact_noPanic _) (fun s _ => ?_) inp
  refine NoPanic.ite (fun _ => NoPanic.err _) fun _ => ?_
  refine NoPanic.ite (fun _ => NoPanic.lift (finish_noPanic _)) fun _ => ?_
  exact NoPanic.bind (readExact_noPanic _) fun s' _ => NoPanic.lift (finish_noPanic _)

end Coord

end Pixel.Curve
