import Verif.Curve.Bls
import Verif.Model.Kat
import Verif.Proof.Serdes

/-! # Points that are given as bytes -/

set_option linter.unusedSectionVars false

namespace Pixel.Curve

open WeierstrassCurve Pixel Pixel.Spec Pixel.Kat

/-! ## inputs that are refused without looking at the curve -/

/-- Too short, not marked as compressed, or a point at infinity with other bits set. -/
def refused (len top : Nat) (inp : Bytes) : Bool :=
  decide (inp.length < len) ||
    forceNat (beNat (inp.take len)) fun n =>
      n / top / 4 != 1 || (n / top / 2 % 2 == 1 && !(n / top % 2 == 0 && n % top == 0))

section

variable {F : Type} [Field F] [DecidableEq F] {b : F} (C : Coord F)

theorem dec_short {c : Bool} {inp : Bytes} (h : inp.length < C.len) :
    (C.dec b c inp).1.isErr = true := by
  unfold Coord.dec
  rw [SM.bind_run_err (e := .eof) (s' := inp)]
  · rfl
  · simp only [readExact]
    rw [if_neg (by omega)]

theorem dec_true {inp : Bytes} (hl : ¬ inp.length < C.len)
    (hf : beNat (inp.take C.len) / C.top / 4 = 1) :
    C.dec b true inp = (Coord.finish (C.decC b (beNat (inp.take C.len))), inp.drop C.len) := by
  have := C.dec_compressed (b := b) (inp.take C.len) (inp.drop C.len) (by simp; omega) hf
  rwa [List.take_append_drop] at this

theorem dec_refused {inp : Bytes} (h : refused C.len C.top inp = true) :
    (C.dec b true inp).1.isErr = true := by
  by_cases hl : inp.length < C.len
  · exact dec_short C hl
  by_cases hf : beNat (inp.take C.len) / C.top / 4 = 1
  · rw [dec_true C hl hf]
    simp only [refused, forceNat_eq, hl, decide_false, Bool.false_or, hf, bne_self_eq_false, Bool.and_eq_true,
      beq_iff_eq, Bool.not_eq_true', Bool.and_eq_false_iff, beq_eq_false_iff_ne] at h
    unfold Coord.decC
    rw [if_pos h.1, if_neg (by rintro ⟨h1, h2⟩; exact h.2.elim (· h1) (· h2))]
    rfl
  · have := C.dec_mismatch (b := b) true (inp.take C.len) (inp.drop C.len) (by simp; omega)
      (by simpa using hf)
    rwa [List.take_append_drop] at this

/-- a compressed point that is not the point at infinity -/
theorem dec_point {T : Nat} (hT : C.top = T) {s : Bytes} {rest : Bytes} {n : Nat} {x : F}
    (hs : s.length = C.len) (hn : beNat s = n) (hf : n / T / 4 = 1) (hi : ¬ n / T / 2 % 2 = 1)
    (hx : C.ofNat (n % T) = some x)
    (hbad : ∀ P : (curve b).Point, ∀ y, IsPt P x y → ¬ rOrder • P = 0) :
    (C.dec b true (s ++ rest)).1.isErr = true := by
  subst hT hn
  rw [C.dec_compressed _ _ hs hf]
  rcases hf : Coord.finish (C.decC b (beNat s)) with R | e | p
  · exfalso
    obtain ⟨h1, h2⟩ := Coord.finish_ok.1 hf
    unfold Coord.decC at h1
    rw [if_neg hi, hx, Option.bind_some] at h1
    obtain ⟨hn, e⟩ := Coord.mkPt_eq h1
    exact hbad R _ ⟨hn, e⟩ h2
  · rfl
  · have := Coord.finish_noPanic (C.decC b (beNat s))
    rw [hf] at this
    cases this

theorem dec_drop {c : Bool} {inp : Bytes} {P : (curve b).Point} {rest : Bytes}
    (h : C.dec b c inp = (.ok P, rest)) : rest = inp.drop (if c then C.len else 2 * C.len) := by
  obtain ⟨h1, _⟩ := C.dec_canon h
  rw [h1, List.drop_left' (C.enc_length c P)]

end

/-! ## points with known coordinates -/

theorem neg_val {y : Nat} (h : y < qMod) (h0 : y ≠ 0) : (-(y : Fq)).val = qMod - y := by
  have : (-(y : Fq)) = ((qMod - y : Nat) : Fq) := by
    rw [Nat.cast_sub h.le, qMod_cast, zero_sub]
  rw [this, ZMod.val_natCast_of_lt (by omega)]

/-- the number written for a point of the first curve -/
def code2 (x y : Nat) : Nat := (if qMod - y < y then 5 else 4) * top381 + x

theorem enc2_eq {P : P2} {x y : Nat} (hP : IsPt P (x : Fq) (y : Fq)) (hx : x < qMod) (hy : y < qMod)
    (h0 : y ≠ 0) : coordFq.enc true P = natToBE 48 (code2 x y) := by
  obtain ⟨hn, rfl⟩ := hP
  rw [Coord.enc, if_pos rfl]
  have e1 : coordFq.toNat (x : Fq) = x := ZMod.val_natCast_of_lt hx
  have e2 : coordFq.greatest (y : Fq) = decide (qMod - y < y) := by
    unfold Coord.greatest
    show decide ((-(y : Fq)).val < (y : Fq).val) = _
    rw [neg_val hy h0, ZMod.val_natCast_of_lt hy]
  rw [e1, e2]
  unfold code2
  congr 3
  simp only [decide_eq_true_eq]

/-- the number written for a point of the second curve -/
def code1 (x y : Nat × Nat) : Nat :=
  (if (qMod - y.2) * w384 + (qMod - y.1) < y.2 * w384 + y.1 then 5 else 4) * top765 +
    (x.2 * w384 + x.1)

/-- both parts below `q`, and those of `y` not zero -/
def smallPair (x y : Nat × Nat) : Bool :=
  decide (x.1 < qMod) && decide (x.2 < qMod) && decide (y.1 < qMod) && decide (y.2 < qMod) &&
    decide (y.1 ≠ 0) && decide (y.2 ≠ 0)

theorem enc1_eq {P : P1} {x y : Nat × Nat} (hP : IsPt P (toFq2 x) (toFq2 y))
    (h : smallPair x y = true) : coordFq2.enc true P = natToBE 96 (code1 x y) := by
  simp only [smallPair, Bool.and_eq_true, decide_eq_true_eq] at h
  obtain ⟨⟨⟨⟨⟨h1, h2⟩, h3⟩, h4⟩, h5⟩, h6⟩ := h
  obtain ⟨hn, rfl⟩ := hP
  rw [Coord.enc, if_pos rfl]
  have e1 : coordFq2.toNat (toFq2 x) = x.2 * w384 + x.1 := by
    show (x.2 : Fq).val * w384 + (x.1 : Fq).val = _
    rw [ZMod.val_natCast_of_lt h1, ZMod.val_natCast_of_lt h2]
  have e2 : coordFq2.greatest (toFq2 y) =
      decide ((qMod - y.2) * w384 + (qMod - y.1) < y.2 * w384 + y.1) := by
    unfold Coord.greatest
    show decide ((-(y.2 : Fq)).val * w384 + (-(y.1 : Fq)).val <
      (y.2 : Fq).val * w384 + (y.1 : Fq).val) = _
    rw [neg_val h4 h6, neg_val h3 h5, ZMod.val_natCast_of_lt h3, ZMod.val_natCast_of_lt h4]
  rw [e1, e2]
  unfold code1
  congr 3
  simp only [decide_eq_true_eq]

/-! ## the points of the tests -/

/-- coordinates of `VALID_G1_COM` -/
def katX : Nat :=
  0x18d2c41d7ae7d3539d815282852850605ca3cc01d6939b0e2a132bd03a5aafcbd792b5e185b4be72e9add9e577c17666
/-- see `katX` -/
def katY : Nat :=
  0x15d04e23e95d60c267e701e5dd14d82fa7110e0e7f2d16c230d63310ffa2e79551e5db426df28b0f2dadc5abb7abcb31

/-- the first coordinate in `INVALID_G1_DATA` -/
def badX : Nat :=
  0x18d2c41d7ae7d3539d815282852850605ca4cc01d6939b0e2a132bd03a5aafcbd792b5e185b4be72e9add9e577c17666

/-- coordinates of `VALID_G2_COM` -/
def kat1X : Nat × Nat :=
  (0xe7fd9b1cd92d89d96311f4c486c35d0e72617d916061ea7aed7cd4882969ee5dcae568b7f1a55411bda7b2e4b66b38d,
   0x109cd334a9d0cc8e7b3004982b928ace4107fb7ef5210574266d5a84355ae7647d491a1acc5e3ad33a8cce4f4709b7f6)
/-- see `kat1X` -/
def kat1Y : Nat × Nat :=
  (0x50ed8d91f56afd675c043f64c33fd5e1b00c6906ac8c64670767d941d2f062111686bce9cbdd0f21d508656a0d91827,
   0xb415f46444f0468c0a72c1ca1a9ce5ecbf618ff6feb1d541edb099056195d8bd54fd5b5f01cef17fd6f0c9fd85288c4)

/-- coordinates of a point with the first coordinate of `INVALID_G2_DATA` -/
def bad1X : Nat × Nat :=
  (0xe7fd9b1cd92d89d96311f4c486c35d0e72617d916061ea7aed7cd4882969ee5dcae568b7f1a55411bda7b2e4b66b39d,
   0x109cd334a9d0cc8e7b3004982b928ace4107fb7ef5210574266d5a84355ae7647d491a1acc5e3ad33a8cce4f4709b7f6)
/-- see `bad1X` -/
def bad1Y : Nat × Nat :=
  (0xe03d1e7a86b0f3ca2086e1373f51b520bfc594945e3a89e320d074407b766c1202800f85c4c1decb9f3db86591021b0,
   0xbec153f77b1c6b969b190af237c382136856affb2c85212c89b4491b6e4f8936f83cfaac7b632a8209ca6e8c4fe4339)

theorem isPt_of_mod {x y : Nat} (h1 : y ^ 2 % qMod = (x ^ 3 + 4) % qMod)
    (h2 : Nat.gcd (2 * y) qMod = 1) : ∃ P : P2, IsPt P (x : Fq) (y : Fq) := by
  have h1 := cast_eq_of_mod qMod_cast h1
  have h2 := cast_ne_zero qMod_cast h2
  push_cast at h1 h2
  have hn : (curve (4 : Fq)).Nonsingular (x : Fq) (y : Fq) := by
    rw [nonsingular_iff]
    refine ⟨h1, Or.inr fun hh => h2 ?_⟩
    linear_combination hh
  exact ⟨.some _ _ hn, hn, rfl⟩

theorem kat_on : katY ^ 2 % qMod = (katX ^ 3 + 4) % qMod ∧ Nat.gcd (2 * katY) qMod = 1 := by
  decide +kernel

theorem kat_run : run (modArith qMod) katX katY rDigits katX katY 1 (isNeg qMod katX katY) = true := by
  decide +kernel

theorem kat_small : katX < qMod ∧ katY < qMod ∧ katY ≠ 0 := by decide +kernel

theorem kat_code : natToBE 48 (code2 katX katY) = validG1Com := by decide +kernel

theorem kat1_on : onCurve2 kat1X kat1Y = true := by decide +kernel

theorem kat1_run : run pairArith kat1X kat1Y rDigits kat1X kat1Y (1, 0) (isNeg2 kat1X kat1Y) =
    some true := by decide +kernel

theorem kat1_small : smallPair kat1X kat1Y = true := by decide +kernel

theorem kat1_code : natToBE 96 (code1 kat1X kat1Y) = validG2Com := by decide +kernel

/-- `VALID_G1_COM` is the encoding of a point of order `r`. -/
theorem kat_point : ∃ P : P2, P ≠ 0 ∧ rOrder • P = 0 ∧ coordFq.enc true P = validG1Com := by
  obtain ⟨P, hP⟩ := isPt_of_mod kat_on.1 kat_on.2
  refine ⟨P, hP.ne_zero, ?_, ?_⟩
  · have := order_of_run qMod_pos qMod_cast rDigits_value hP kat_run
    rwa [rOrder_succ] at this
  · rw [enc2_eq hP kat_small.1 kat_small.2.1 kat_small.2.2, kat_code]

/-- `VALID_G2_COM` is the encoding of a point of order `r`. -/
theorem kat1_point : ∃ P : P1, P ≠ 0 ∧ rOrder • P = 0 ∧ coordFq2.enc true P = validG2Com := by
  obtain ⟨P, hP⟩ := onCurve2_isPt kat1_on
  refine ⟨P, hP.ne_zero, ?_, ?_⟩
  · have := (order_of_run2 rDigits_value hP kat1_run).2 rfl
    rwa [rOrder_succ] at this
  · rw [enc1_eq hP kat1_small, kat1_code]

theorem gen_small : genX < qMod ∧ genY < qMod ∧ genY ≠ 0 := by decide +kernel

theorem gen1_small : smallPair gen1X gen1Y = true := by decide +kernel

/-! ### bytes that are not points -/

theorem bad_pow : powMod qMod 384 (badX ^ 3 + 4) ((qMod - 1) / 2) = qMod - 1 := by decide +kernel

theorem half_lt : (qMod - 1) / 2 < 2 ^ 384 := by decide +kernel

theorem half_two : (qMod - 1) / 2 * 2 = qMod - 1 := by decide +kernel

theorem qMod_sub_ne : qMod - 1 ≠ 0 := by decide +kernel

theorem qMod_ne_two : 2 % qMod ≠ 0 := by decide +kernel

/-- `x³ + 4` is no square -/
theorem bad_no_root (y : Fq) : y ^ 2 ≠ (badX : Fq) ^ 3 + 4 := by
  intro h
  have e : (((badX ^ 3 + 4) ^ ((qMod - 1) / 2) % qMod : Nat) : Fq) = ((qMod - 1 : Nat) : Fq) := by
    rw [← powMod_eq _ _ _ _ half_lt, bad_pow]
  rw [cast_mod qMod_cast, Nat.cast_pow, Nat.cast_add, Nat.cast_pow, Nat.cast_ofNat, ← h, ← pow_mul,
    mul_comm, half_two, Nat.cast_sub qMod_pos, qMod_cast, Nat.cast_one, zero_sub] at e
  have h2 : (2 : Fq) ≠ 0 := by
    intro h2
    have : ((2 : Nat) : Fq) = ((0 : Nat) : Fq) := by
      rw [Nat.cast_ofNat, h2, Nat.cast_zero]
    rw [cast_iff, Nat.zero_mod] at this
    exact qMod_ne_two this
  by_cases h0 : y = 0
  · rw [h0, zero_pow qMod_sub_ne] at e
    exact one_ne_zero (neg_eq_zero.1 e.symm)
  · rw [ZMod.pow_card_sub_one_eq_one h0] at e
    exact h2 (by linear_combination e)

/-- the number in `INVALID_G1_DATA` -/
def badN : Nat := beNat invalidG1Data

theorem bad_bits : badN / top381 / 4 = 1 ∧ badN / top381 / 2 % 2 ≠ 1 ∧
    badN % top381 = badX ∧ badX < qMod ∧ invalidG1Data.length = 48 := by
  decide +kernel

theorem coordFq_ofNat {n : Nat} (h : n < qMod) : coordFq.ofNat n = some (n : Fq) := if_pos h

/-- `INVALID_G1_DATA` is refused, whatever follows. -/
theorem bad_refused (rest : Bytes) :
    (coordFq.dec 4 true (invalidG1Data ++ rest)).1.isErr = true := by
  obtain ⟨c1, c2, c3, c4, c5⟩ := bad_bits
  refine dec_point coordFq (T := top381) (n := badN) rfl c5 rfl c1 c2
    (by rw [c3]; exact coordFq_ofNat c4) ?_
  rintro P y ⟨hn, _⟩
  exact absurd (nonsingular_iff.1 hn).1 (bad_no_root y)

theorem bad1_on : onCurve2 bad1X bad1Y = true := by decide +kernel

theorem bad1_run : run pairArith bad1X bad1Y rDigits bad1X bad1Y (1, 0) (isNeg2 bad1X bad1Y) =
    some false := by decide +kernel

/-- the number in `INVALID_G2_DATA` -/
def bad1N : Nat := beNat invalidG2Data

theorem bad1_bits : bad1N / top765 / 4 = 1 ∧ bad1N / top765 / 2 % 2 ≠ 1 ∧
    bad1N % top765 % w384 = bad1X.1 ∧ bad1N % top765 / w384 = bad1X.2 ∧
    bad1X.1 < qMod ∧ bad1X.2 < qMod ∧ invalidG2Data.length = 96 := by
  decide +kernel

theorem coordFq2_ofNat {n a b : Nat} (ha : n % w384 = a) (hb : n / w384 = b) (h1 : a < qMod)
    (h2 : b < qMod) : coordFq2.ofNat n = some (toFq2 (a, b)) := by
  subst ha hb
  exact if_pos ⟨h2, h1⟩

/-- no point of the subgroup has this first coordinate -/
theorem bad1_none {P : P1} {y : Fq2} (hP : IsPt P (toFq2 bad1X) y) : ¬ rOrder • P = 0 := by
  obtain ⟨Q, hQ⟩ := onCurve2_isPt bad1_on
  have hQr : ¬ rOrder • Q = 0 := by
    have := order_of_run2 rDigits_value hQ bad1_run
    rw [rOrder_succ] at this
    rw [this]
    exact Bool.false_ne_true
  have hP' : IsPt P (toFq2 bad1X) y := hP
  obtain ⟨hn, _⟩ := hP
  obtain ⟨hq, _⟩ := id hQ
  have hy := sq_eq_sq_iff_eq_or_eq_neg.1
    ((nonsingular_iff.1 hn).1.trans (nonsingular_iff.1 hq).1.symm)
  rcases hy with rfl | rfl
  · rwa [hP'.inj hQ]
  · rw [hP'.inj hQ.neg]
    intro h0
    have := tors_neg h0
    rw [neg_neg] at this
    exact hQr this

/-- `INVALID_G2_DATA` has the first coordinate of a point of the curve, which is not in the
subgroup. -/
theorem bad1_refused (rest : Bytes) :
    (coordFq2.dec b2 true (invalidG2Data ++ rest)).1.isErr = true := by
  obtain ⟨c1, c2, c3, c4, c5, c6, c7⟩ := bad1_bits
  exact dec_point coordFq2 (T := top765) (n := bad1N) rfl c7 rfl c1 c2
    (coordFq2_ofNat c3 c4 c5 c6) fun P y hP => bad1_none hP

theorem bad_none {P : P2} {y : Fq} (hP : IsPt P (badX : Fq) y) : False := by
  obtain ⟨hn, _⟩ := hP
  exact absurd (nonsingular_iff.1 hn).1 (bad_no_root y)

theorem bad_number : beNat invalidG1Data % top381 = badX := by decide +kernel

theorem bad1_number : beNat invalidG2Data % top765 = bad1X.2 * w384 + bad1X.1 := by
  decide +kernel

/-! ### inside and outside of the subgroups -/

theorem card_kernel {A : Type} [AddCommGroup A] {p : Nat} (hp : p.Prime) {g : A} (hg : p • g = 0)
    (h0 : g ≠ 0) (h : ∀ a : A, p • a = 0 → ∃ n : Nat, a = n • g) :
    Nat.card { a : A // p • a = 0 } = p := by
  have : Fact p.Prime := ⟨hp⟩
  refine Eq.trans (Nat.card_congr (Equiv.subtypeEquivRight fun a => ?_))
    ((Nat.card_zmultiples g).trans (addOrderOf_eq_prime hg h0))
  rw [AddSubgroup.mem_zmultiples_iff]
  constructor
  · intro ha
    obtain ⟨n, e⟩ := h a ha
    exact ⟨n, by rw [e, natCast_zsmul]⟩
  · rintro ⟨k, rfl⟩
    rw [smul_comm, hg, smul_zero]

theorem of_three {A : Type} [AddCommGroup A] {a : A} {n : Nat} (h3 : a + a = -a) (hn : n % 3 = 1)
    (h : n • a = 0) : a = 0 := by
  have h3 : 3 • a = 0 := by
    rw [succ_nsmul, two_nsmul, h3, neg_add_cancel]
  rw [← Nat.div_add_mod n 3, hn, add_nsmul, mul_comm, mul_nsmul', h3, smul_zero, zero_add,
    one_nsmul] at h
  exact h

theorem rOrder_mod_three : rOrder % 3 = 1 := by decide +kernel

theorem out_on : 2 ^ 2 % qMod = (0 ^ 3 + 4) % qMod ∧ Nat.gcd (2 * 2) qMod = 1 := by decide +kernel

/-- the point `(0, 2)` has order three -/
theorem outside2 : ∃ P : P2, ¬ rOrder • P = 0 := by
  obtain ⟨P, hP⟩ := isPt_of_mod out_on.1 out_on.2
  refine ⟨P, fun h => hP.ne_zero (of_three ?_ rOrder_mod_three h)⟩
  have h4 : (2 : Fq) * ((2 : Nat) : Fq) ≠ 0 := by
    have := cast_ne_zero qMod_cast out_on.2
    rwa [Nat.cast_mul, Nat.cast_ofNat] at this
  have hd := hP.double h4
  rw [Nat.cast_zero, zero_pow two_ne_zero, mul_zero, zero_div, zero_pow two_ne_zero, mul_zero,
    zero_mul, sub_zero, zero_sub] at hd
  have hn := hP.neg
  rw [Nat.cast_zero] at hn
  exact hd.inj hn

theorem outside1 : ∃ P : P1, ¬ rOrder • P = 0 := by
  obtain ⟨Q, hQ⟩ := onCurve2_isPt bad1_on
  refine ⟨Q, ?_⟩
  have := order_of_run2 rDigits_value hQ bad1_run
  rw [rOrder_succ] at this
  rw [this]
  exact Bool.false_ne_true

theorem not_dvd_two : ¬ rOrder ∣ 2 := by decide +kernel

/-- the published compressed encoding of the generator over `Fq` -/
def published2 : Nat :=
  0x97f1d3a73197d7942695638c4fa9ac0fc3688c4f9774b905a14e3a3f171bac586c55e83ff97a1aeffb3af00adb22c6bb

/-- the published compressed encoding of the generator over `Fq2` -/
def published1 : Nat :=
  0x93e02b6052719f607dacd3a088274f65596bd0d09920b61ab5da61bbdc7f5049334cf11213945d57e5ac7d055d042b7e_024aa2b2f08f0a91260805272dc51051c6e47ad4fa403b02b4510b647ae3d1770bac0326a805bbefd48056c8c121bdb8

theorem gen_code : natToBE 48 (code2 genX genY) = natToBE 48 published2 := by decide +kernel

theorem gen1_code : natToBE 96 (code1 gen1X gen1Y) = natToBE 96 published1 := by decide +kernel

theorem gen2_enc : coordFq.enc true gen2 = natToBE 48 published2 := by
  rw [enc2_eq gen2_isPt gen_small.1 gen_small.2.1 gen_small.2.2, gen_code]

theorem gen1_enc : coordFq2.enc true gen1 = natToBE 96 published1 := by
  rw [enc1_eq gen1_isPt gen1_small, gen1_code]

/-! ## the programs -/

theorem forEach_ok {α : Type} {l : List α} {f : α → Res Unit} (h : ∀ a ∈ l, f a = .ok ()) :
    forEach l f = .ok () := by
  induction l with
  | nil => rfl
  | cons a l ih =>
    rw [forEach, h a (by simp), Res.ok_bind, ih fun b hb => h b (by simp [hb])]

theorem expectOk_of {α : Type} {p : SM Bytes α} {tmp : Bytes} (h : (p tmp).1.isOk = true) :
    expectOk p tmp = .ok () := by
  unfold expectOk
  revert h
  rcases (p tmp).1 with a | e | x <;> intro h
  · rfl
  · cases h
  · cases h

theorem expectErr_of {α : Type} {p : SM Bytes α} {tmp : Bytes} (h : (p tmp).1.isErr = true) :
    expectErr p tmp = .ok () := by
  unfold expectErr
  revert h
  rcases (p tmp).1 with a | e | x <;> intro h
  · cases h
  · rfl
  · cases h

theorem bind_isErr {σ α β : Type} {x : SM σ α} {f : α → SM σ β} {s : σ}
    (h : (x s).1.isErr = true) : ((x >>= f) s).1.isErr = true := by
  rcases hx : x s with ⟨r, s'⟩
  rw [hx] at h
  rcases r with a | e | p
  · cases h
  · rw [SM.bind_run_err hx]
    rfl
  · cases h

theorem valid_supported {c : UInt8} (h : c ∈ validCiphersuite) : Supported c := by
  simpa [validCiphersuite, Supported] using h

theorem invalid_not {c : UInt8} (h : c ∈ invalidCiphersuite) : ¬ Supported c := by
  have : ∀ c ∈ invalidCiphersuite, ¬ (c = 0 ∨ c = 1) := by decide
  exact this c h

theorem read_one (cs : UInt8) (v : Bytes) : (readExact 1).run ([cs] ++ v) = (.ok [cs], v) :=
  readExact_eq (b := [cs]) rfl

section objects

variable {G1 G2 GT : Type} {E : Ext G1 G2 GT} {c : Bool} {cs : UInt8} {v : Bytes}

theorem pk_step (hc : Supported cs) : PublicKey.deserialize E c ([cs] ++ v) =
    (E.decG2 c >>= fun pk => (pure { ciphersuite := cs, pk := pk } : SM Bytes (PublicKey G2))) v := by
  unfold PublicKey.deserialize
  rw [SM.bind_run_ok (read_one cs _)]
  simp only [idx_zero_cons, SM.lift_ok_bind, validCiphersuite_contains.2 hc, Bool.not_true,
    Bool.false_eq_true, if_false]

theorem pop_step (hc : Supported cs) : ProofOfPossession.deserialize E c ([cs] ++ v) =
    (E.decG1 c >>= fun p =>
      (pure { ciphersuite := cs, pop := p } : SM Bytes (ProofOfPossession G1))) v := by
  unfold ProofOfPossession.deserialize
  rw [SM.bind_run_ok (read_one cs _)]
  simp only [idx_zero_cons, SM.lift_ok_bind, validCiphersuite_contains.2 hc, Bool.not_true,
    Bool.false_eq_true, if_false]

theorem pk_unsupported (hc : ¬ Supported cs) :
    (PublicKey.deserialize E c ([cs] ++ v)).1.isErr = true := by
  unfold PublicKey.deserialize
  rw [SM.bind_run_ok (read_one cs _)]
  simp only [idx_zero_cons, SM.lift_ok_bind, not_supported hc, Bool.not_false, if_true]
  rfl

theorem pop_unsupported (hc : ¬ Supported cs) :
    (ProofOfPossession.deserialize E c ([cs] ++ v)).1.isErr = true := by
  unfold ProofOfPossession.deserialize
  rw [SM.bind_run_ok (read_one cs _)]
  simp only [idx_zero_cons, SM.lift_ok_bind, not_supported hc, Bool.not_false, if_true]
  rfl

theorem sig_step {t : Bytes} (ht : t.length = 4) (h0 : beNat t ≠ 0) (hc : Supported cs) :
    Signature.deserialize E true ([cs] ++ t ++ v) =
      (E.decG2 true >>= fun s1 => E.decG1 true >>= fun s2 =>
        (pure { ciphersuite := cs, time := beNat t, sigma1 := s1, sigma2 := s2 } :
          SM Bytes (Signature G1 G2))) v := by
  unfold Signature.deserialize
  rw [List.append_assoc, SM.bind_run_ok (read_one cs _),
    SM.bind_run_ok (readExact_eq ht)]
  simp only [h0, if_false, idx_zero_cons, SM.lift_ok_bind, validCiphersuite_contains.2 hc,
    Bool.not_true, Bool.false_eq_true]

theorem sig_unsupported {t : Bytes} (ht : t.length = 4) (hc : ¬ Supported cs) :
    (Signature.deserialize E true ([cs] ++ t ++ v)).1.isErr = true := by
  unfold Signature.deserialize
  rw [List.append_assoc, SM.bind_run_ok (read_one cs _),
    SM.bind_run_ok (readExact_eq ht)]
  by_cases h0 : beNat t = 0
  · simp only [h0, if_true]
    rfl
  · simp only [h0, if_false, idx_zero_cons, SM.lift_ok_bind, not_supported hc, Bool.not_false,
      if_true]
    rfl

theorem sig_time_zero {t : Bytes} (ht : t.length = 4) (h0 : beNat t = 0) :
    (Signature.deserialize E true ([cs] ++ t ++ v)).1.isErr = true := by
  unfold Signature.deserialize
  rw [List.append_assoc, SM.bind_run_ok (read_one cs _),
    SM.bind_run_ok (readExact_eq ht)]
  simp only [h0, if_true]
  rfl

end objects

/-- refused where a `PixelG2` is expected -/
def refused2 (inp : Bytes) : Bool := refused 48 top381 inp || inp.take 48 == invalidG1Data

/-- refused where a `PixelG1` is expected -/
def refused1 (inp : Bytes) : Bool := refused 96 top765 inp || inp.take 96 == invalidG2Data

variable {GT : Type}

theorem dec2_refused (R : Rest GT) {inp : Bytes} (h : refused2 inp = true) :
    ((bls R).decG2 true inp).1.isErr = true := by
  rw [refused2, Bool.or_eq_true, beq_iff_eq] at h
  rcases h with h | h
  · exact dec_refused coordFq h
  · have := bad_refused (inp.drop 48)
    rwa [← h, List.take_append_drop] at this

theorem dec1_refused (R : Rest GT) {inp : Bytes} (h : refused1 inp = true) :
    ((bls R).decG1 true inp).1.isErr = true := by
  rw [refused1, Bool.or_eq_true, beq_iff_eq] at h
  rcases h with h | h
  · exact dec_refused coordFq2 h
  · have := bad1_refused (inp.drop 96)
    rwa [← h, List.take_append_drop] at this

theorem sig_refused (R : Rest GT) {cs : UInt8} {t v : Bytes} (ht : t.length = 4)
    (h0 : beNat t ≠ 0) (hc : Supported cs) (h : (refused2 v || refused1 (v.drop 48)) = true) :
    (Signature.deserialize (bls R) true ([cs] ++ t ++ v)).1.isErr = true := by
  rw [sig_step ht h0 hc]
  rw [Bool.or_eq_true] at h
  by_cases h2 : refused2 v = true
  · exact bind_isErr (dec2_refused R h2)
  have h1 := h.resolve_left h2
  rcases hx : (bls R).decG2 true v with ⟨r, s'⟩
  rcases r with a | e | p
  · have hs : s' = v.drop 48 := dec_drop coordFq hx
    rw [SM.bind_run_ok hx, hs]
    exact bind_isErr (dec1_refused R h1)
  · rw [SM.bind_run_err hx]
    rfl
  · have := coordFq.dec_total (b := 4) true v
    rw [show coordFq.dec 4 true v = (bls R).decG2 true v from rfl, hx] at this
    cases this

theorem enc_zero {F : Type} [Field F] [DecidableEq F] {b : F} (C : Coord F) {n t : Nat}
    {com uncom : Bytes} (hn : C.len = n) (ht : C.top = t) (h : natToBE n (6 * t) = com)
    (h' : natToBE n (2 * t) ++ natToBE n 0 = uncom) :
    C.enc true (0 : (curve b).Point) = com ∧ C.enc false (0 : (curve b).Point) = uncom := by
  subst hn ht h h'
  exact ⟨rfl, rfl⟩

theorem zero2_com : natToBE 48 (6 * top381) = validG1ZeroCom := by decide +kernel

theorem zero1_com : natToBE 96 (6 * top765) = validG2ZeroCom := by decide +kernel

theorem zero2_uncom : natToBE 48 (2 * top381) ++ natToBE 48 0 = validG1ZeroUncom := by
  decide +kernel

theorem zero2_enc :
    coordFq.enc true (0 : P2) = validG1ZeroCom ∧ coordFq.enc false (0 : P2) = validG1ZeroUncom :=
  enc_zero coordFq (n := 48) (t := top381) rfl rfl zero2_com zero2_uncom

theorem zero1_enc : coordFq2.enc true (0 : P1) = validG2ZeroCom :=
  (enc_zero coordFq2 (n := 96) (t := top765) rfl rfl zero1_com rfl).1

theorem dec_of_enc {F : Type} [Field F] [DecidableEq F] {b : F} (C : Coord F) {c : Bool}
    {P : (curve b).Point} {s : Bytes} (h : C.enc c P = s) (hP : rOrder • P = 0) (rest : Bytes) :
    C.dec b c (s ++ rest) = (.ok P, rest) ∧ (C.dec b (!c) (s ++ rest)).1.isErr = true := by
  subst h
  refine ⟨C.dec_enc c P rest hP, ?_⟩
  have := C.dec_flag (!c) P rest
  rwa [Bool.not_not] at this

theorem dec_zero2 (R : Rest GT) (rest : Bytes) :
    (bls R).decG2 true (validG1ZeroCom ++ rest) = (.ok 0, rest) :=
  (dec_of_enc coordFq zero2_enc.1 (tors_zero _ _) rest).1

theorem dec_zero1 (R : Rest GT) (rest : Bytes) :
    (bls R).decG1 true (validG2ZeroCom ++ rest) = (.ok 0, rest) :=
  (dec_of_enc coordFq2 zero1_enc (tors_zero _ _) rest).1

theorem dec_zero2_uncom (R : Rest GT) (rest : Bytes) :
    ∃ P, (bls R).decG2 false (validG1ZeroUncom ++ rest) = (.ok P, rest) :=
  ⟨0, (dec_of_enc coordFq zero2_enc.2 (tors_zero _ _) rest).1⟩

/-- `VALID_G1_ZERO_COM` and `VALID_G1_COM` are read as points, and refused as uncompressed ones. -/
theorem dec_valid2 (R : Rest GT) {v : Bytes} (h : v = validG1ZeroCom ∨ v = validG1Com)
    (rest : Bytes) : (∃ P, (bls R).decG2 true (v ++ rest) = (.ok P, rest)) ∧
      ((bls R).decG2 false (v ++ rest)).1.isErr = true := by
  rcases h with rfl | rfl
  · exact ⟨⟨0, dec_zero2 R rest⟩, (dec_of_enc coordFq zero2_enc.1 (tors_zero _ _) rest).2⟩
  · obtain ⟨P, _, h, e⟩ := kat_point
    exact ⟨⟨P, (dec_of_enc coordFq e h rest).1⟩, (dec_of_enc coordFq e h rest).2⟩

/-- `VALID_G2_ZERO_COM` and `VALID_G2_COM` are read as points, and refused as uncompressed ones. -/
theorem dec_valid1 (R : Rest GT) {v : Bytes} (h : v = validG2ZeroCom ∨ v = validG2Com)
    (rest : Bytes) : (∃ P, (bls R).decG1 true (v ++ rest) = (.ok P, rest)) ∧
      ((bls R).decG1 false (v ++ rest)).1.isErr = true := by
  rcases h with rfl | rfl
  · exact ⟨⟨0, dec_zero1 R rest⟩, (dec_of_enc coordFq2 zero1_enc (tors_zero _ _) rest).2⟩
  · obtain ⟨P, _, h, e⟩ := kat1_point
    exact ⟨⟨P, (dec_of_enc coordFq2 e h rest).1⟩, (dec_of_enc coordFq2 e h rest).2⟩

/-- what the tests of public keys check of `INVALID_G1_POINTS` -/
theorem refused2_all : ∀ v ∈ invalidG1Points, refused2 v = true := by decide +kernel

theorem refused2_uncom : refused2 validG1ZeroUncom = true := by decide +kernel

theorem refused1_all : ∀ v ∈ invalidG2Points, refused1 v = true := by decide +kernel

theorem refused1_uncom : refused1 validG2ZeroUncom = true := by decide +kernel

/-- refused where a signature is expected, after the time -/
def refusedSig (a b : Bytes) : Bool := refused2 (a ++ b) || refused1 ((a ++ b).drop 48)

theorem refusedSig_const : refusedSig validG1ZeroCom validG2ZeroUncom = true ∧
    refusedSig validG1ZeroUncom validG2ZeroCom = true := by decide +kernel

theorem refusedSig_1 : ∀ a ∈ invalidG1Points, ∀ b ∈ validG2Points, refusedSig a b = true := by
  decide +kernel

theorem refusedSig_2 : ∀ a ∈ validG1Points, ∀ b ∈ invalidG2Points, refusedSig a b = true := by
  decide +kernel

theorem refusedSig_3 : ∀ a ∈ invalidG1Points, ∀ b ∈ invalidG2Points, refusedSig a b = true := by
  decide +kernel

theorem refusedSig_4 : ∀ a ∈ validG1Points, ∀ b ∈ validG2Points, refusedSig b a = true := by
  decide +kernel

theorem pkTest_ok (R : Rest GT) : pkTest (bls R) = .ok () := by
  unfold pkTest
  rw [forEach_ok, Res.ok_bind, forEach_ok, Res.ok_bind, forEach_ok, Res.ok_bind, forEach_ok,
    Res.ok_bind, forEach_ok, Res.ok_bind, forEach_ok]
  · exact fun v _ => forEach_ok fun cs hc => expectErr_of (pk_unsupported (invalid_not hc))
  · refine fun v hv => forEach_ok fun cs hc => expectErr_of ?_
    rw [pk_step (valid_supported hc)]
    exact bind_isErr (dec2_refused R (refused2_all v hv))
  · refine fun cs hc => expectErr_of ?_
    rw [pk_step (valid_supported hc)]
    exact bind_isErr (dec2_refused R refused2_uncom)
  · refine fun v hv => forEach_ok fun cs hc => expectErr_of ?_
    rw [pk_step (valid_supported hc)]
    have := (dec_valid2 R (v := v) (by simpa using hv) []).2
    rw [List.append_nil] at this
    exact bind_isErr this
  · refine fun cs hc => expectOk_of ?_
    obtain ⟨P, this⟩ := dec_zero2_uncom R []
    generalize validG1ZeroUncom = v at this ⊢
    rw [List.append_nil] at this
    rw [pk_step (valid_supported hc), SM.bind_run_ok this]
    rfl
  · refine fun v hv => forEach_ok fun cs hc => expectOk_of ?_
    obtain ⟨P, h⟩ := (dec_valid2 R (v := v) (by simpa using hv) []).1
    rw [List.append_nil] at h
    rw [pk_step (valid_supported hc), SM.bind_run_ok h]
    rfl

theorem popTest_ok (R : Rest GT) : popTest (bls R) = .ok () := by
  unfold popTest
  rw [forEach_ok, Res.ok_bind, forEach_ok, Res.ok_bind, forEach_ok, Res.ok_bind, forEach_ok]
  · exact fun v _ => forEach_ok fun cs hc => expectErr_of (pop_unsupported (invalid_not hc))
  · refine fun v hv => forEach_ok fun cs hc => expectErr_of ?_
    rw [pop_step (valid_supported hc)]
    exact bind_isErr (dec1_refused R (refused1_all v hv))
  · intro cs hc
    rw [show idx validG2Points 2 = .ok validG2ZeroUncom from rfl, Res.ok_bind]
    refine expectErr_of ?_
    rw [pop_step (valid_supported hc)]
    exact bind_isErr (dec1_refused R refused1_uncom)
  · refine fun v hv => forEach_ok fun cs hc => expectOk_of ?_
    obtain ⟨P, h⟩ := (dec_valid1 R (v := v) (by simpa [validG2Points] using hv) []).1
    rw [List.append_nil] at h
    rw [pop_step (valid_supported hc), SM.bind_run_ok h]
    rfl

theorem katTime_ne : beNat katTime ≠ 0 := by decide

theorem sigTestValid_ok (R : Rest GT) : sigTestValid (bls R) = .ok () := by
  unfold sigTestValid
  refine forEach_ok fun v hv => forEach_ok fun w hw => forEach_ok fun cs hc => expectOk_of ?_
  obtain ⟨P, h⟩ := (dec_valid2 R (v := v) (by simpa [validG1Points] using hv) w).1
  obtain ⟨Q, h'⟩ := (dec_valid1 R (v := w) (by simpa [validG2Points] using hw) []).1
  rw [List.append_nil] at h'
  rw [List.append_assoc, sig_step rfl katTime_ne (valid_supported hc), SM.bind_run_ok h,
    SM.bind_run_ok h']
  rfl

theorem sig_kat (R : Rest GT) {a b : Bytes} {cs : UInt8} (hc : cs ∈ validCiphersuite)
    (h : refusedSig a b = true) :
    expectErr (Signature.deserialize (bls R) true) ([cs] ++ katTime ++ a ++ b) = .ok () := by
  refine expectErr_of ?_
  rw [List.append_assoc]
  exact sig_refused R rfl katTime_ne (valid_supported hc) h

theorem sigTestConst_ok (R : Rest GT) : sigTestConst (bls R) = .ok () := by
  unfold sigTestConst
  rw [forEach_ok, Res.ok_bind, forEach_ok, Res.ok_bind, forEach_ok, Res.ok_bind, forEach_ok]
  · refine fun v _ => forEach_ok fun w _ => forEach_ok fun cs _ => expectErr_of ?_
    rw [List.append_assoc]
    exact sig_time_zero rfl rfl
  · refine fun v _ => forEach_ok fun w _ => forEach_ok fun cs hc => expectErr_of ?_
    rw [List.append_assoc]
    exact sig_unsupported rfl (invalid_not hc)
  · exact fun cs hc => sig_kat R hc refusedSig_const.2
  · exact fun cs hc => sig_kat R hc refusedSig_const.1

theorem sigTestPoints_ok (R : Rest GT) : sigTestPoints (bls R) = .ok () := by
  unfold sigTestPoints
  rw [forEach_ok, Res.ok_bind, forEach_ok, Res.ok_bind, forEach_ok, Res.ok_bind, forEach_ok]
  · exact fun v hv => forEach_ok fun w hw => forEach_ok fun cs hc =>
      sig_kat R hc (refusedSig_4 v hv w hw)
  · exact fun v hv => forEach_ok fun w hw => forEach_ok fun cs hc =>
      sig_kat R hc (refusedSig_3 v hv w hw)
  · exact fun v hv => forEach_ok fun w hw => forEach_ok fun cs hc =>
      sig_kat R hc (refusedSig_2 v hv w hw)
  · exact fun v hv => forEach_ok fun w hw => forEach_ok fun cs hc =>
      sig_kat R hc (refusedSig_1 v hv w hw)

theorem pointBlock_ok {G : Type} [DecidableEq G] {enc : Bool → G → Bytes}
    {dec : Bool → SM Bytes G} {c : Bool} {len : Nat} {p : G} (hl : (enc c p).length = len)
    (hd : ∀ rest, dec c (enc c p ++ rest) = (.ok p, rest)) : pointBlock enc dec c len p = .ok () := by
  have := hd []
  rw [List.append_nil] at this
  unfold pointBlock
  simp only [hl, beq_self_eq_true, this, decide_true]
  rfl

theorem g1Test_ok [DecidableEq P1] [CommGroup GT] (R : Rest GT) (one : P1) (h : rOrder • one = 0) :
    g1Test (bls R) one = .ok () := by
  have C := bls_codec R
  have h0 : (bls R).inSub1 0 = true := (inSub1_iff R 0).2 (tors_zero _ _)
  have h1 : (bls R).inSub1 one = true := (inSub1_iff R one).2 h
  have k : ∀ (c : Bool) (a : P1), (bls R).inSub1 a = true →
      pointBlock (bls R).encG1 (bls R).decG1 c (if c then 96 else 192) a = .ok () :=
    fun c a h => pointBlock_ok (C.enc1_len c a) fun r => C.dec1_enc c a r h
  unfold g1Test
  have k1 : ∀ a : P1, (bls R).inSub1 a = true →
      pointBlock (bls R).encG1 (bls R).decG1 true 96 a = .ok () := fun a => k true a
  have k2 : ∀ a : P1, (bls R).inSub1 a = true →
      pointBlock (bls R).encG1 (bls R).decG1 false 192 a = .ok () := fun a => k false a
  rw [k1 0 h0, Res.ok_bind, k1 one h1, Res.ok_bind, k2 0 h0, Res.ok_bind, k2 one h1]

theorem g2Test_ok [DecidableEq P2] [CommGroup GT] (R : Rest GT) : g2Test (bls R) = .ok () := by
  have C := bls_codec R
  have h0 : (bls R).inSub2 0 = true := (inSub2_iff R 0).2 (tors_zero _ _)
  have h1 : (bls R).inSub2 (bls R).gen2 = true := (inSub2_iff R _).2 gen2_order
  have k : ∀ (c : Bool) (a : P2), (bls R).inSub2 a = true →
      pointBlock (bls R).encG2 (bls R).decG2 c (if c then 48 else 96) a = .ok () :=
    fun c a h => pointBlock_ok (C.enc2_len c a) fun r => C.dec2_enc c a r h
  unfold g2Test
  have k1 : ∀ a : P2, (bls R).inSub2 a = true →
      pointBlock (bls R).encG2 (bls R).decG2 true 48 a = .ok () := fun a => k true a
  have k2 : ∀ a : P2, (bls R).inSub2 a = true →
      pointBlock (bls R).encG2 (bls R).decG2 false 96 a = .ok () := fun a => k false a
  rw [k1 0 h0, Res.ok_bind, k1 _ h1, Res.ok_bind, k2 0 h0, Res.ok_bind, k2 _ h1]

end Pixel.Curve
