import Verif.Curve.Kat
import Verif.Kat
import Verif.Props.Sig
import Verif.Props.Agg

/-!
# Property theorems: the curves behind the assumptions (C63), known-answer tests (C64)
-/

namespace Pixel.Props

open Pixel Pixel.Spec Pixel.Curve Pixel.Kat

variable {GT : Type}

/-! ## C63 -/

/-- C63: on the real curves, with the real encoding of points, all that is assumed of point codecs
holds. -/
theorem C63_codec_laws [CommGroup GT] (R : Rest GT) : CodecLaws (bls R) := bls_codec R

/-- C63: on the real curves, what is assumed of the groups follows from additivity of the pairing,
its not being trivial on the generators, and hashing into the subgroup. -/
theorem C63_group_laws [CommGroup GT] {R : Rest GT} (P : PairingOk R)
    (hh : ∀ m c, rOrder • R.hashToG1 m c = 0) : GroupLaws (bls R) := bls_group P hh

/-- C63: all assumptions hold together on the real curves, with SHA-512, for some pairing, some
hash-to-curve and some default parameter. -/
theorem C63_assumptions_hold : ∃ R : Rest (Multiplicative (ZMod rOrder)),
    R.sha512 = Sha512.sha512 ∧ HashLaws (bls R) ∧ GroupLaws (bls R) ∧ CodecLaws (bls R) ∧
      DefaultLaws (bls R) :=
  ⟨rest0 Sha512.sha512, rfl, ⟨fun m => Kat.sha512_length m⟩,
    bls_group (rest0_pairing _) (rest0_hash _), bls_codec _, rest0_default _⟩

/-- C63: any two pairings that meet the assumptions differ only by the value at the generators: the
verification equations hold for one iff they hold for the other. -/
theorem C63_pairing_determined {GT' : Type} [CommGroup GT] [CommGroup GT'] {R : Rest GT}
    {R' : Rest GT'} (P : PairingOk R) (P' : PairingOk R') (l m : List (P2 × P1))
    (hl : ∀ p ∈ l, rOrder • p.1 = 0 ∧ rOrder • p.2 = 0)
    (hm : ∀ p ∈ m, rOrder • p.1 = 0 ∧ rOrder • p.2 = 0) :
    R.pairing l = R.pairing m ↔ R'.pairing l = R'.pairing m := by
  have key : ∀ l : List (P2 × P1), (∀ p ∈ l, rOrder • p.1 = 0 ∧ rOrder • p.2 = 0) →
      ∃ n : Nat, R.pairing l = some ((R.pairing [(gen2, gen1)]).getD 1 ^ n) ∧
        R'.pairing l = some ((R'.pairing [(gen2, gen1)]).getD 1 ^ n) := by
    intro l hl
    rw [P.prod l hl, P'.prod l hl]
    induction l with
    | nil => exact ⟨0, by simp⟩
    | cons p l ih =>
      obtain ⟨n, h1, h2⟩ := ih fun q hq => hl q (by simp [hq])
      obtain ⟨ha, hb⟩ := hl p (by simp)
      obtain ⟨a, ea⟩ := torsion2 ha
      obtain ⟨b, eb⟩ := torsion1 hb
      refine ⟨a * b + n, ?_⟩
      have ep : p = (a • gen2, b • gen1) := Prod.ext ea eb
      rw [List.map_cons, List.prod_cons, List.map_cons, List.prod_cons, Option.some.inj h1,
        Option.some.inj h2, ep, P.nsmul_left gen2_order (tors_nsmul gen1_order b),
        P.nsmul_right gen2_order gen1_order, P'.nsmul_left gen2_order (tors_nsmul gen1_order b),
        P'.nsmul_right gen2_order gen1_order, ← pow_mul, ← pow_mul, ← pow_add, ← pow_add,
        mul_comm b a]
      exact ⟨rfl, rfl⟩
  obtain ⟨i, a1, a2⟩ := key l hl
  obtain ⟨j, b1, b2⟩ := key m hm
  rw [a1, a2, b1, b2, Option.some.injEq, Option.some.injEq, pow_eq_pow_iff_modEq,
    pow_eq_pow_iff_modEq, P.order, P'.order]

/-- two different pairings that meet the assumptions -/
example : PairingOk (rest0 Sha512.sha512) ∧ PairingOk ((rest0 Sha512.sha512).power 2) :=
  ⟨rest0_pairing _, (rest0_pairing _).power not_dvd_two⟩

/-- C63: the verdict on a signature does not depend on the pairing: any two pairings that meet the
assumptions give the same, whatever the parameter, the key, the signature and the message. -/
theorem C63_verdict_determined {GT' : Type} [CommGroup GT] [DecidableEq GT] [CommGroup GT']
    [DecidableEq GT'] {R : Rest GT} {R' : Rest GT'} (P : PairingOk R) (P' : PairingOk R')
    (hsha : ∀ m, (R.sha512 m).length = 64) (hs : R'.sha512 = R.sha512)
    (hh : ∀ m c, rOrder • R.hashToG1 m c = 0) (hh' : ∀ m c, rOrder • R'.hashToG1 m c = 0)
    {pp : PubParam P1 P2} (W : ParamWF (bls R) pp) (pf : Profile) (sig : Signature P1 P2)
    {pk : PublicKey P2} (hpk : rOrder • pk.pk = 0) (msg : Bytes) :
    Signature.verifyBytes (bls R) pf sig pk pp msg =
      Signature.verifyBytes (bls R') pf sig pk pp msg := by
  have L := bls_group P hh
  have L' := bls_group P' hh'
  have W' : ParamWF (bls R') pp := { W with }
  obtain ⟨x, hx⟩ := torsion2 hpk
  rw [show gen2 = pp.g2 from W.g2_gen.symm] at hx
  obtain ⟨b, e, hb⟩ := C24_accept_iff ⟨hsha⟩ L W pf sig hx msg
  have hsha' : ∀ m, (R'.sha512 m).length = 64 := by
    rw [hs]
    exact hsha
  obtain ⟨b', e', hb'⟩ := C24_accept_iff ⟨hsha'⟩ L' W' pf sig hx msg
  rw [e, e']
  have : b = true ↔ b' = true := by
    rw [hb, hb']
    rw [show (bls R').sha512 = (bls R).sha512 from hs]
    rfl
  rw [Bool.eq_iff_iff.2 this]

/-- a well-formed parameter: the default one -/
example : ParamWF (bls (rest0 Sha512.sha512)) (rest0 Sha512.sha512).defaultParam :=
  (rest0_default Sha512.sha512).wf

/-- C63: both subgroups have exactly `r` elements. -/
theorem C63_subgroup_sizes [CommGroup GT] (R : Rest GT) :
    Nat.card { a : P1 // (bls R).inSub1 a = true } = rOrder ∧
      Nat.card { a : P2 // (bls R).inSub2 a = true } = rOrder := by
  constructor
  · rw [← card_kernel rOrder_prime gen1_order gen1_isPt.ne_zero fun a h => torsion1 h]
    exact Nat.card_congr (Equiv.subtypeEquivRight fun a => inSub1_iff R a)
  · rw [← card_kernel rOrder_prime gen2_order gen2_isPt.ne_zero fun a h => torsion2 h]
    exact Nat.card_congr (Equiv.subtypeEquivRight fun a => inSub2_iff R a)

/-- C63: there are points on both curves outside of the subgroups. -/
theorem C63_points_outside [CommGroup GT] (R : Rest GT) :
    (∃ a : P1, (bls R).inSub1 a = false) ∧ ∃ a : P2, (bls R).inSub2 a = false := by
  obtain ⟨a, ha⟩ := outside1
  obtain ⟨b, hb⟩ := outside2
  exact ⟨⟨a, Bool.eq_false_iff.2 fun h => ha ((inSub1_iff R a).1 h)⟩,
    b, Bool.eq_false_iff.2 fun h => hb ((inSub2_iff R b).1 h)⟩

/-- C63: the generators are the published ones. -/
theorem C63_generators (R : Rest GT) :
    (bls R).encG2 true (bls R).gen2 = natToBE 48 published2 ∧
    (bls R).encG1 true gen1 = natToBE 96 published1 :=
  ⟨gen2_enc, gen1_enc⟩

/-! ## C64 -/

/-- C64: the known-answer tests of public keys, proofs of possession and signatures pass, and so do
the tests of point encodings, whatever the pairing and the hash functions are. -/
theorem C64_known_answers [CommGroup GT] [DecidableEq P1] [DecidableEq P2] (R : Rest GT) :
    pkTest (bls R) = .ok () ∧ popTest (bls R) = .ok () ∧ sigTestValid (bls R) = .ok () ∧
      sigTestConst (bls R) = .ok () ∧ sigTestPoints (bls R) = .ok () ∧
      g1Test (bls R) gen1 = .ok () ∧ g2Test (bls R) = .ok () :=
  ⟨pkTest_ok R, popTest_ok R, sigTestValid_ok R, sigTestConst_ok R, sigTestPoints_ok R,
    g1Test_ok R gen1 gen1_order, g2Test_ok R⟩

/-- C64: `VALID_G1_COM` is the one encoding of a point of order `r`, and reading it gives that
point; the same for `VALID_G2_COM`. -/
theorem C64_valid_points [CommGroup GT] (R : Rest GT) :
    (∃ P : P2, addOrderOf P = rOrder ∧ (bls R).encG2 true P = validG1Com ∧
      ∀ rest, (bls R).decG2 true (validG1Com ++ rest) = (.ok P, rest)) ∧
    ∃ P : P1, addOrderOf P = rOrder ∧ (bls R).encG1 true P = validG2Com ∧
      ∀ rest, (bls R).decG1 true (validG2Com ++ rest) = (.ok P, rest) := by
  have : Fact rOrder.Prime := ⟨rOrder_prime⟩
  obtain ⟨P, h0, h, e⟩ := kat_point
  obtain ⟨Q, h0', h', e'⟩ := kat1_point
  exact ⟨⟨P, addOrderOf_eq_prime h h0, e, fun rest => (dec_of_enc coordFq e h rest).1⟩,
    Q, addOrderOf_eq_prime h' h0', e', fun rest => (dec_of_enc coordFq2 e' h' rest).1⟩

/-- C64: why two of the invalid constants are refused: no point of the curve over `Fq` has the first
coordinate of `INVALID_G1_DATA`; there is one over `Fq2` with that of `INVALID_G2_DATA`, but none in
the subgroup. -/
theorem C64_invalid_data :
    (∀ (P : P2) (y : Fq), ¬ IsPt P (badX : Fq) y) ∧
    (∃ (P : P1) (y : Fq2), IsPt P (toFq2 bad1X) y) ∧
    (∀ (P : P1) (y : Fq2), IsPt P (toFq2 bad1X) y → rOrder • P ≠ 0) ∧
    beNat invalidG1Data % top381 = badX ∧
    beNat invalidG2Data % top765 = bad1X.2 * w384 + bad1X.1 := by
  obtain ⟨Q, hQ⟩ := onCurve2_isPt bad1_on
  exact ⟨fun P y h => bad_none h, ⟨Q, _, hQ⟩, fun P y h => bad1_none h, bad_number, bad1_number⟩

/-- C64: what is wrong with each of the invalid constants, relative to the valid ones.  Two are called by
the wrong names (the short encoding of zero in `INVALID_G2_ZERO_COM_LEN` is not compressed, that in
`INVALID_G2_ZERO_UNCOM_LEN` has half the length), and two with "the compressed flag is unset" have another
bit changed as well (`INVALID_G1_COM`, `INVALID_G2_ZERO_COM`). -/
theorem C64_invalid_constants :
    (validG1ZeroCom = 0xc0 :: List.replicate 47 0 ∧ validG1ZeroUncom = 0x40 :: List.replicate 95 0 ∧
      validG2ZeroCom = 0xc0 :: List.replicate 95 0 ∧ validG2ZeroUncom = 0x40 :: List.replicate 191 0) ∧
    invalidG1Points = [validG1ZeroCom.set 1 0x10, validG1ZeroUncom.set 4 1, validG1ZeroCom.set 0 0x40,
      validG1ZeroCom.dropLast, validG1ZeroUncom.dropLast, validG1Com.set 17 0xa4, validG1Com.dropLast,
      validG1Com.set 0 (validG1Com.headD 0 - 0x90)] ∧
    invalidG2Points = [validG2ZeroCom.set 1 0x10, validG2ZeroUncom.set 54 0x10,
      (validG2ZeroCom.set 0 0x40).set 1 0x10, validG2ZeroUncom.dropLast,
      (validG2ZeroCom.set 0 0x40).dropLast, validG2Com.set 95 0x9d, validG2Com.dropLast,
      validG2Com.set 0 (validG2Com.headD 0 - 0x80)] := by
  decide +kernel

end Pixel.Props
