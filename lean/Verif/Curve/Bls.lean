import Verif.Curve.Torsion
import Verif.Curve.Codec
import Verif.Spec.Laws
import Mathlib.Algebra.Group.TypeTags.Basic
import Mathlib.Algebra.BigOperators.Group.List.Lemmas

/-!
# BLS12-381 as an instance of the external interface

The points of the two curves, membership in the subgroups of order `r`, the generators and the
encoding of points are the real ones.  The pairing, the hash functions and the default parameter
stay arguments.
-/

set_option linter.unusedSectionVars false

namespace Pixel.Curve

open WeierstrassCurve Pixel Pixel.Spec

/-! ## how field elements are written -/

/-- a square root, if there is one -/
noncomputable def sqrtOf {F : Type} [Field F] (a : F) : F := by
  classical exact if h : ∃ y, y ^ 2 = a then h.choose else 0

theorem sqrtOf_sq {F : Type} [Field F] (y : F) : sqrtOf (y ^ 2) ^ 2 = y ^ 2 := by
  have hex : ∃ z, z ^ 2 = y ^ 2 := ⟨y, rfl⟩
  unfold sqrtOf
  rw [dif_pos hex]
  exact hex.choose_spec

/-- `2^381`, the lowest flag bit of a coordinate in `Fq` -/
def top381 : Nat := 2 ^ 381

/-- `2^765`, the lowest flag bit of a coordinate in `Fq2` -/
def top765 : Nat := 2 ^ 765

theorem qMod_lt : qMod < top381 := by decide +kernel

/-- `Fq` is written as a number below `q`, in 48 bytes. -/
noncomputable def coordFq : Coord Fq where
  len := 48
  top := top381
  top_eq := by decide +kernel
  toNat x := x.val
  ofNat n := if n < qMod then some (n : Fq) else none
  toNat_lt x := (ZMod.val_lt x).trans qMod_lt
  ofNat_toNat x := by rw [if_pos (ZMod.val_lt x), ZMod.natCast_zmod_val]
  toNat_ofNat n x h := by
    by_cases hn : n < qMod
    · rw [if_pos hn] at h
      rw [← Option.some.inj h, ZMod.val_natCast_of_lt hn]
    · rw [if_neg hn] at h
      cases h
  root := sqrtOf
  root_sq := sqrtOf_sq

/-- `2^384`, the weight of `c1` -/
def w384 : Nat := 2 ^ 384

theorem qMod_lt_w : qMod < w384 := by decide +kernel

theorem top2_eq : top381 * w384 = top765 := by decide +kernel

/-- `Fq2` is written as `c1` and `c0`, in 48 bytes each. -/
noncomputable def coordFq2 : Coord Fq2 where
  len := 96
  top := top765
  top_eq := by decide +kernel
  toNat x := x.im.val * w384 + x.re.val
  ofNat n := if n / w384 < qMod ∧ n % w384 < qMod then
    some ⟨((n % w384 : Nat) : Fq), ((n / w384 : Nat) : Fq)⟩ else none
  toNat_lt x := by
    have h1 := (ZMod.val_lt x.im).trans qMod_lt
    have h2 := (ZMod.val_lt x.re).trans qMod_lt_w
    rw [← top2_eq]
    calc x.im.val * w384 + x.re.val < x.im.val * w384 + w384 := Nat.add_lt_add_left h2 _
      _ = (x.im.val + 1) * w384 := (Nat.succ_mul _ _).symm
      _ ≤ top381 * w384 := Nat.mul_le_mul_right _ h1
  ofNat_toNat x := by
    have h1 := ZMod.val_lt x.im
    have h2 := ZMod.val_lt x.re
    have h3 := h2.trans qMod_lt_w
    have hp : 0 < w384 := lt_of_le_of_lt (Nat.zero_le _) h3
    have e1 : (x.im.val * w384 + x.re.val) / w384 = x.im.val := by
      rw [mul_comm, Nat.mul_add_div hp, Nat.div_eq_of_lt h3, Nat.add_zero]
    have e2 : (x.im.val * w384 + x.re.val) % w384 = x.re.val := by
      rw [mul_comm, Nat.mul_add_mod, Nat.mod_eq_of_lt h3]
    rw [e1, e2, if_pos ⟨h1, h2⟩, ZMod.natCast_zmod_val, ZMod.natCast_zmod_val]
  toNat_ofNat n x h := by
    by_cases hn : n / w384 < qMod ∧ n % w384 < qMod
    · rw [if_pos hn] at h
      rw [← Option.some.inj h]
      show ((n / w384 : Nat) : Fq).val * w384 + ((n % w384 : Nat) : Fq).val = n
      rw [ZMod.val_natCast_of_lt hn.1, ZMod.val_natCast_of_lt hn.2, mul_comm]
      exact Nat.div_add_mod _ _
    · rw [if_neg hn] at h
      cases h
  root := sqrtOf
  root_sq := sqrtOf_sq

/-! ## the instance -/

/-- What is not modelled: the pairing, the hash functions and the default parameter. -/
structure Rest (GT : Type) where
  pairing : List (P2 × P1) → Option GT
  sha512 : Bytes → Bytes
  hashToG1 : Bytes → Bytes → P1
  defaultParam : PubParam P1 P2

variable {GT : Type} [CommGroup GT]

/-- BLS12-381 -/
noncomputable def bls (R : Rest GT) : Ext P1 P2 GT where
  inSub1 a := by classical exact decide (rOrder • a = 0)
  inSub2 a := by classical exact decide (rOrder • a = 0)
  pairing := R.pairing
  sha512 := R.sha512
  hashToG1 := R.hashToG1
  gen2 := gen2
  encG1 := coordFq2.enc
  encG2 := coordFq.enc
  decG1 := coordFq2.dec b2
  decG2 := coordFq.dec 4
  defaultParam := R.defaultParam

theorem inSub1_iff (R : Rest GT) (a : P1) : (bls R).inSub1 a = true ↔ rOrder • a = 0 := by
  simp [bls]

theorem inSub2_iff (R : Rest GT) (a : P2) : (bls R).inSub2 a = true ↔ rOrder • a = 0 := by
  simp [bls]

theorem bls_codec (R : Rest GT) : CodecLaws (bls R) where
  enc1_len c a := by
    have := coordFq2.enc_length c a
    cases c
    · exact this
    · exact this
  enc2_len c a := by
    have := coordFq.enc_length c a
    cases c
    · exact this
    · exact this
  dec1_enc c a rest h := coordFq2.dec_enc c a rest ((inSub1_iff R a).1 h)
  dec2_enc c a rest h := coordFq.dec_enc c a rest ((inSub2_iff R a).1 h)
  dec1_canon c inp a rest h := by
    obtain ⟨h1, h2⟩ := coordFq2.dec_canon h
    exact ⟨h1, (inSub1_iff R a).2 h2⟩
  dec2_canon c inp a rest h := by
    obtain ⟨h1, h2⟩ := coordFq.dec_canon h
    exact ⟨h1, (inSub2_iff R a).2 h2⟩
  dec1_flag c a rest := coordFq2.dec_flag c a rest
  dec2_flag c a rest := coordFq.dec_flag c a rest
  dec1_total c inp := coordFq2.dec_total c inp
  dec2_total c inp := coordFq.dec_total c inp

/-- What remains to be assumed of the pairing: several pairs give the product, it is additive in
both arguments on points killed by `r`, and it is not trivial on the generators. -/
structure PairingOk (R : Rest GT) : Prop where
  prod : ∀ l : List (P2 × P1), (∀ p ∈ l, rOrder • p.1 = 0 ∧ rOrder • p.2 = 0) →
    R.pairing l = some (l.map fun p => (R.pairing [p]).getD 1).prod
  add_left : ∀ a a' b, rOrder • a = 0 → rOrder • a' = 0 → rOrder • b = 0 →
    (R.pairing [(a + a', b)]).getD 1 = (R.pairing [(a, b)]).getD 1 * (R.pairing [(a', b)]).getD 1
  add_right : ∀ a b b', rOrder • a = 0 → rOrder • b = 0 → rOrder • b' = 0 →
    (R.pairing [(a, b + b')]).getD 1 = (R.pairing [(a, b)]).getD 1 * (R.pairing [(a, b')]).getD 1
  nontrivial : (R.pairing [(gen2, gen1)]).getD 1 ≠ 1

theorem tors_zero (A : Type) [AddCommGroup A] (n : Nat) : n • (0 : A) = 0 := smul_zero _

theorem tors_add {A : Type} [AddCommGroup A] {n : Nat} {a b : A} (h1 : n • a = 0) (h2 : n • b = 0) :
    n • (a + b) = 0 := by rw [smul_add, h1, h2, add_zero]

theorem tors_neg {A : Type} [AddCommGroup A] {n : Nat} {a : A} (h : n • a = 0) : n • -a = 0 := by
  rw [smul_neg, h, neg_zero]

theorem tors_nsmul {A : Type} [AddCommGroup A] {a : A} (h : rOrder • a = 0) (n : Nat) :
    rOrder • n • a = 0 := by rw [smul_comm, h, smul_zero]

theorem PairingOk.nsmul_right {R : Rest GT} (P : PairingOk R) {a : P2} {b : P1}
    (ha : rOrder • a = 0) (hb : rOrder • b = 0) (n : Nat) :
    (R.pairing [(a, n • b)]).getD 1 = (R.pairing [(a, b)]).getD 1 ^ n := by
  induction n with
  | zero =>
    have h := P.add_right a 0 0 ha (tors_zero _ _) (tors_zero _ _)
    rw [add_zero, left_eq_mul] at h
    rw [zero_nsmul, pow_zero, h]
  | succ n ih => rw [succ_nsmul, P.add_right _ _ _ ha (tors_nsmul hb n) hb, ih, pow_succ]

theorem PairingOk.nsmul_left {R : Rest GT} (P : PairingOk R) {a : P2} {b : P1}
    (ha : rOrder • a = 0) (hb : rOrder • b = 0) (n : Nat) :
    (R.pairing [(n • a, b)]).getD 1 = (R.pairing [(a, b)]).getD 1 ^ n := by
  induction n with
  | zero =>
    have h := P.add_left 0 0 b (tors_zero _ _) (tors_zero _ _) hb
    rw [add_zero, left_eq_mul] at h
    rw [zero_nsmul, pow_zero, h]
  | succ n ih => rw [succ_nsmul, P.add_left _ _ _ (tors_nsmul ha n) ha hb, ih, pow_succ]

/-- the value at the generators has order `r` -/
theorem PairingOk.order {R : Rest GT} (P : PairingOk R) :
    orderOf ((R.pairing [(gen2, gen1)]).getD 1) = rOrder := by
  refine orderOf_eq_prime (hp := ⟨rOrder_prime⟩) ?_ P.nontrivial
  rw [← P.nsmul_right gen2_order gen1_order, gen1_order]
  have := P.nsmul_right (b := gen1) gen2_order gen1_order 0
  rwa [zero_nsmul, pow_zero] at this

theorem bls_group {R : Rest GT} (P : PairingOk R) (hh : ∀ m c, rOrder • R.hashToG1 m c = 0) :
    GroupLaws (bls R) where
  sub1_zero := (inSub1_iff R 0).2 (tors_zero _ _)
  sub1_add a b h1 h2 :=
    (inSub1_iff R _).2 (tors_add ((inSub1_iff R a).1 h1) ((inSub1_iff R b).1 h2))
  sub1_neg a h := (inSub1_iff R _).2 (tors_neg ((inSub1_iff R a).1 h))
  sub1_order a := (inSub1_iff R a).1
  sub2_zero := (inSub2_iff R 0).2 (tors_zero _ _)
  sub2_add a b h1 h2 :=
    (inSub2_iff R _).2 (tors_add ((inSub2_iff R a).1 h1) ((inSub2_iff R b).1 h2))
  sub2_neg a h := (inSub2_iff R _).2 (tors_neg ((inSub2_iff R a).1 h))
  sub2_order a := (inSub2_iff R a).1
  gen2_sub := (inSub2_iff R _).2 gen2_order
  gen2_gen a h := torsion2 ((inSub2_iff R a).1 h)
  hash_sub m c := (inSub1_iff R _).2 (hh m c)
  pairing_prod l h := P.prod l fun p hp =>
    ⟨(inSub2_iff R _).1 (h p hp).1, (inSub1_iff R _).1 (h p hp).2⟩
  pair_add_left a a' b h1 h2 h3 := P.add_left a a' b ((inSub2_iff R _).1 h1)
    ((inSub2_iff R _).1 h2) ((inSub1_iff R _).1 h3)
  pair_add_right a b b' h1 h2 h3 := P.add_right a b b' ((inSub2_iff R _).1 h1)
    ((inSub1_iff R _).1 h2) ((inSub1_iff R _).1 h3)
  pair_nondeg b hb h := by
    obtain ⟨n, rfl⟩ := torsion1 ((inSub1_iff R b).1 hb)
    have h : (R.pairing [(gen2, n • gen1)]).getD 1 = 1 := h
    rw [P.nsmul_right gen2_order gen1_order] at h
    have hd := orderOf_dvd_of_pow_eq_one h
    rw [P.order] at hd
    obtain ⟨k, rfl⟩ := hd
    rw [mul_nsmul, gen1_order]
    exact tors_zero _ _

/-! ## a pairing -/

/-- the discrete logarithm of a point killed by `r` -/
noncomputable def dlog2 (a : P2) : ZMod rOrder := by
  classical exact if h : rOrder • a = 0 then ((torsion2 h).choose : ZMod rOrder) else 0

/-- the discrete logarithm of a point killed by `r` -/
noncomputable def dlog1 (a : P1) : ZMod rOrder := by
  classical exact if h : rOrder • a = 0 then ((torsion1 h).choose : ZMod rOrder) else 0

theorem dlog_unique {A : Type} [AddCommGroup A] {g : A} (hg : rOrder • g = 0) (h0 : g ≠ 0)
    {m n : Nat} (h : m • g = n • g) : (m : ZMod rOrder) = n := by
  have ho : addOrderOf g = rOrder := addOrderOf_eq_prime hg h0 (hp := ⟨rOrder_prime⟩)
  rw [ZMod.natCast_eq_natCast_iff, ← ho]
  exact nsmul_eq_nsmul_iff_modEq.1 h

theorem dlog2_nsmul (n : Nat) : dlog2 (n • gen2) = n := by
  have h : rOrder • n • gen2 = 0 := tors_nsmul gen2_order n
  unfold dlog2
  rw [dif_pos h]
  exact dlog_unique gen2_order gen2_isPt.ne_zero (torsion2 h).choose_spec.symm

theorem dlog1_nsmul (n : Nat) : dlog1 (n • gen1) = n := by
  have h : rOrder • n • gen1 = 0 := tors_nsmul gen1_order n
  unfold dlog1
  rw [dif_pos h]
  exact dlog_unique gen1_order gen1_isPt.ne_zero (torsion1 h).choose_spec.symm

theorem dlog2_add {a a' : P2} (h : rOrder • a = 0) (h' : rOrder • a' = 0) :
    dlog2 (a + a') = dlog2 a + dlog2 a' := by
  obtain ⟨n, rfl⟩ := torsion2 h
  obtain ⟨m, rfl⟩ := torsion2 h'
  rw [← add_nsmul, dlog2_nsmul, dlog2_nsmul, dlog2_nsmul, Nat.cast_add]

theorem dlog1_add {a a' : P1} (h : rOrder • a = 0) (h' : rOrder • a' = 0) :
    dlog1 (a + a') = dlog1 a + dlog1 a' := by
  obtain ⟨n, rfl⟩ := torsion1 h
  obtain ⟨m, rfl⟩ := torsion1 h'
  rw [← add_nsmul, dlog1_nsmul, dlog1_nsmul, dlog1_nsmul, Nat.cast_add]

/-- a pairing into a group with `r` elements -/
noncomputable def dlogPairing (l : List (P2 × P1)) : Option (Multiplicative (ZMod rOrder)) :=
  some (l.map fun p => Multiplicative.ofAdd (dlog2 p.1 * dlog1 p.2)).prod

/-- everything else: a hash function, some map into the subgroup, some parameter -/
noncomputable def rest0 (sha : Bytes → Bytes) : Rest (Multiplicative (ZMod rOrder)) where
  pairing := dlogPairing
  sha512 := sha
  hashToG1 m c := (beNat (m ++ c) + 1) • gen1
  defaultParam :=
    { depth := 32
      ciphersuite := 0
      g2 := gen2
      h := 7 • gen1
      hlist := (List.range 33).map fun i => (i * i + 3 * i + 5) • gen1 }

theorem rest0_single (sha : Bytes → Bytes) (a : P2) (b : P1) :
    ((rest0 sha).pairing [(a, b)]).getD 1 = Multiplicative.ofAdd (dlog2 a * dlog1 b) := by
  simp [rest0, dlogPairing]

theorem rest0_pairing (sha : Bytes → Bytes) : PairingOk (rest0 sha) where
  prod l _ := by
    have e : (fun p : P2 × P1 => ((rest0 sha).pairing [p]).getD 1) =
        fun p => Multiplicative.ofAdd (dlog2 p.1 * dlog1 p.2) :=
      funext fun p => rest0_single sha p.1 p.2
    rw [e]
    rfl
  add_left a a' b h1 h2 _ := by
    rw [rest0_single, rest0_single, rest0_single, dlog2_add h1 h2, add_mul, ofAdd_add]
  add_right a b b' _ h2 h3 := by
    rw [rest0_single, rest0_single, rest0_single, dlog1_add h2 h3, mul_add, ofAdd_add]
  nontrivial := by
    have e2 := dlog2_nsmul 1
    have e1 := dlog1_nsmul 1
    rw [one_nsmul, Nat.cast_one] at e1 e2
    rw [rest0_single, e1, e2, mul_one]
    have : Fact rOrder.Prime := ⟨rOrder_prime⟩
    intro h
    exact one_ne_zero (α := ZMod rOrder) h

theorem rest0_hash (sha : Bytes → Bytes) (m c : Bytes) : rOrder • (rest0 sha).hashToG1 m c = 0 :=
  tors_nsmul gen1_order _

theorem rest0_default (sha : Bytes → Bytes) : DefaultLaws (bls (rest0 sha)) where
  wf :=
    { depth_pos := by show 1 ≤ 32; omega
      depth_le := by show 32 ≤ 63; omega
      hlist_len := by
        show ((List.range 33).map _).length = 32 + 1
        simp
      hlist_sub := by
        intro a ha
        obtain ⟨i, _, rfl⟩ := List.mem_map.1 ha
        exact (inSub1_iff _ _).2 (tors_nsmul gen1_order _)
      h_sub := (inSub1_iff _ _).2 (tors_nsmul gen1_order _)
      g2_gen := rfl }
  depth := rfl
  suite := Or.inl rfl

/-- another pairing: all values to the power `k` -/
def Rest.power (R : Rest GT) (k : Nat) : Rest GT :=
  { R with pairing := fun l => (R.pairing l).map (· ^ k) }

theorem PairingOk.power {R : Rest GT} (P : PairingOk R) {k : Nat} (hk : ¬ rOrder ∣ k) :
    PairingOk (R.power k) := by
  have e : ∀ o : Option GT, (o.map (· ^ k)).getD 1 = o.getD 1 ^ k := by
    intro o
    cases o
    · exact (one_pow k).symm
    · rfl
  have e' : ∀ l, ((R.power k).pairing l).getD 1 = (R.pairing l).getD 1 ^ k := fun l => e _
  refine ⟨fun l hl => ?_, fun a a' b h1 h2 h3 => ?_, fun a b b' h1 h2 h3 => ?_, fun h => ?_⟩
  · rw [show (R.power k).pairing l = (R.pairing l).map (· ^ k) from rfl, P.prod l hl,
      Option.map_some]
    simp only [e', Option.some.injEq]
    clear hl
    induction l with
    | nil => exact one_pow k
    | cons p l ih =>
      rw [List.map_cons, List.prod_cons, mul_pow, ih, List.map_cons, List.prod_cons]
  · rw [e', e', e', P.add_left a a' b h1 h2 h3, mul_pow]
  · rw [e', e', e', P.add_right a b b' h1 h2 h3, mul_pow]
  · rw [e', ← orderOf_dvd_iff_pow_eq_one, P.order] at h
    exact hk h

end Pixel.Curve
