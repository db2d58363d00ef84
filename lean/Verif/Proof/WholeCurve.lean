import Verif.Spec.WholeCurve
import Verif.Proof.Agg
import Verif.Proof.History
import Verif.Proof.Serdes
import Verif.Curve.Kat

/-!
# Lemmas for C90
-/

set_option linter.unusedSectionVars false

namespace Pixel

open Pixel.Spec

variable {G1 G2 GT : Type} [AddCommGroup G1] [AddCommGroup G2] [CommGroup GT]

section Pairing

variable {E : Ext G1 G2 GT}

theorem Spec.WholePairing.zero_left (P : WholePairing E) {b : G1} (hb : E.inSub1 b = true) :
    pair E 0 b = 1 := by
  have := P.add_left 0 0 b hb
  rw [add_zero] at this
  exact left_eq_mul.1 this

theorem Spec.WholePairing.zero_right (P : WholePairing E) (L : GroupLaws E) (a : G2) :
    pair E a 0 = 1 := by
  have := P.add_right a 0 0 L.sub1_zero L.sub1_zero
  rw [add_zero] at this
  exact left_eq_mul.1 this

theorem Spec.WholePairing.nsmul_left (P : WholePairing E) (a : G2) {b : G1} (hb : E.inSub1 b = true)
    (n : Nat) : pair E (n • a) b = pair E a b ^ n := by
  induction n with
  | zero => rw [zero_nsmul, pow_zero, P.zero_left hb]
  | succ n ih => rw [succ_nsmul, P.add_left _ _ _ hb, ih, pow_succ]

theorem Spec.WholePairing.nsmul_right (P : WholePairing E) (L : GroupLaws E) (a : G2) {b : G1}
    (hb : E.inSub1 b = true) (n : Nat) : pair E a (n • b) = pair E a b ^ n := by
  induction n with
  | zero => rw [zero_nsmul, pow_zero, P.zero_right L]
  | succ n ih => rw [succ_nsmul, P.add_right _ _ _ (L.sub1_nsmul hb n) hb, ih, pow_succ]

/-- a point of order prime to `r` is not seen by the pairing -/
theorem Spec.WholePairing.blind (P : WholePairing E) (L : GroupLaws E) {c : G2} {k : Nat}
    (hk : Nat.Coprime k rOrder) (hc : k • c = 0) {b : G1} (hb : E.inSub1 b = true) :
    pair E c b = 1 := by
  have h1 : pair E c b ^ k = 1 := by rw [← P.nsmul_left c hb, hc, P.zero_left hb]
  have h2 : pair E c b ^ rOrder = 1 := by
    rw [← P.nsmul_right L c hb, L.sub1_order b hb, P.zero_right L]
  have h3 := Nat.dvd_gcd (orderOf_dvd_of_pow_eq_one h1) (orderOf_dvd_of_pow_eq_one h2)
  rw [hk] at h3
  exact orderOf_eq_one_iff.1 (Nat.dvd_one.1 h3)

theorem Spec.PartOf.pair_eq (P : WholePairing E) (L : GroupLaws E) {p : G2} {x : Nat}
    (h : PartOf E p x) {b : G1} (hb : E.inSub1 b = true) :
    pair E p b = pair E (x • E.gen2) b := by
  obtain ⟨c, k, hk, hc, rfl⟩ := h
  rw [P.add_left _ _ _ hb, P.blind L hk hc hb, mul_one]

theorem partOf_gen (x : Nat) : PartOf E (x • E.gen2) x :=
  ⟨0, 1, Nat.coprime_one_left _, smul_zero _, (add_zero _).symm⟩

theorem Spec.PartOf.add {p q : G2} {x y : Nat} (h : PartOf E p x) (h' : PartOf E q y) :
    PartOf E (p + q) (x + y) := by
  obtain ⟨c, k, hk, hc, rfl⟩ := h
  obtain ⟨c', k', hk', hc', rfl⟩ := h'
  refine ⟨c + c', k * k', Nat.Coprime.mul_left hk hk', ?_, ?_⟩
  · rw [smul_add, mul_comm k k', mul_nsmul c', mul_comm k' k, mul_nsmul c, hc, hc', smul_zero,
      smul_zero, add_zero]
  · rw [add_nsmul]
    abel

theorem Spec.PartOf.sum {ps : List G2} {xs : List Nat} (h : List.Forall₂ (PartOf E) ps xs) :
    PartOf E ps.sum xs.sum := by
  induction h with
  | nil => simpa using partOf_gen (E := E) 0
  | cons h _ ih => simpa using h.add ih

/-- in the subgroup means being the part -/
theorem Spec.PartOf.inSub_iff (L : GroupLaws E) {p : G2} {x : Nat} (h : PartOf E p x) :
    E.inSub2 p = true ↔ p = x • E.gen2 := by
  constructor
  · intro hp
    obtain ⟨c, k, hk, hc, rfl⟩ := h
    have hx := L.sub2_nsmul L.gen2_sub x
    have hcs : E.inSub2 c = true := by
      have := L.sub2_add _ _ (L.sub2_neg _ hx) hp
      rwa [neg_add_cancel_left] at this
    have h1 := L.sub2_order _ hcs
    have h3 := Nat.dvd_gcd (addOrderOf_dvd_of_nsmul_eq_zero hc) (addOrderOf_dvd_of_nsmul_eq_zero h1)
    rw [hk] at h3
    rw [AddMonoid.addOrderOf_eq_one_iff.1 (Nat.dvd_one.1 h3), add_zero]
  · rintro rfl
    exact L.sub2_nsmul L.gen2_sub x

/-- the part is determined, if the generator has order `r` -/
theorem Spec.PartOf.unique {p : G2} {x y : Nat} (h0 : rOrder • E.gen2 = 0)
    (hne : E.gen2 ≠ 0) (h : PartOf E p x) (h' : PartOf E p y) : (x : ZMod rOrder) = y := by
  obtain ⟨c, k, hk, hc, rfl⟩ := h
  obtain ⟨c', k', hk', hc', he⟩ := h'
  have e1 : (k * k') • c = 0 := by rw [mul_nsmul, hc, smul_zero]
  have e2 : (k * k') • c' = 0 := by rw [mul_comm, mul_nsmul, hc', smul_zero]
  have he := congrArg (fun p => (k * k') • p) he
  simp only [smul_add, e1, e2, add_zero, ← mul_nsmul] at he
  have hm := Curve.dlog_unique h0 hne he
  rw [Nat.cast_mul x, Nat.cast_mul y] at hm
  have : Fact rOrder.Prime := ⟨rOrder_prime⟩
  refine mul_right_cancel₀ (b := (((k * k' : Nat)) : ZMod rOrder)) ?_ hm
  rw [ne_eq, ZMod.natCast_eq_zero_iff]
  intro hd
  have hcop : Nat.Coprime (k * k') rOrder := Nat.Coprime.mul_left hk hk'
  exact (Nat.Prime.coprime_iff_not_dvd rOrder_prime).1 hcop.symm hd

end Pairing

/-- the last pair may be replaced -/
theorem Spec.WholePairing.swap {E : Ext G1 G2 GT} (P : WholePairing E) (L : GroupLaws E) {p q : G2}
    {x : Nat} (hp : PartOf E p x) (hq : PartOf E q x) {a a' : G2} {b b' h : G1}
    (hb : E.inSub1 b = true) (hb' : E.inSub1 b' = true) (hh : E.inSub1 h = true) :
    E.pairing [(a, b), (a', b'), (p, h)] = E.pairing [(a, b), (a', b'), (q, h)] := by
  rw [P.prod, P.prod]
  · simp only [List.map_cons, List.map_nil]
    rw [hp.pair_eq P L hh, hq.pair_eq P L hh]
  · intro z hz
    simp only [List.mem_cons, List.not_mem_nil, or_false] at hz
    rcases hz with rfl | rfl | rfl <;> assumption
  · intro z hz
    simp only [List.mem_cons, List.not_mem_nil, or_false] at hz
    rcases hz with rfl | rfl | rfl <;> assumption

section Swap

variable [DecidableEq GT] {E : Ext G1 G2 GT} {pp : PubParam G1 G2}

theorem verifyBytes_swap (H : HashLaws E) (L : GroupLaws E) (P : WholePairing E)
    (W : ParamWF E pp) (pf : Profile) (sig : Signature G1 G2) {pk pk' : PublicKey G2} {x : Nat}
    (h : PartOf E pk.pk x) (h' : PartOf E pk'.pk x) (msg : Bytes) :
    Signature.verifyBytes E pf sig pk pp msg = Signature.verifyBytes E pf sig pk' pp msg := by
  rw [Signature.verifyBytes_eq H W.toParamShape, Signature.verifyBytes_eq H W.toParamShape]
  refine congrArg Res.ok (decide_eq_decide.2 ?_)
  refine and_congr_right fun _ => and_congr_right fun _ => and_congr_right fun _ =>
    and_congr_right fun h2 => exists_congr fun v => and_congr_right fun _ => ?_
  rw [P.swap L h h' h2 (L.sub1_sigPoint W _ _) W.h_sub]

theorem subValidate_swap (L : GroupLaws E) (P : WholePairing E) (W : ParamWF E pp) (pf : Profile)
    {s : SubSecretKey G1 G2} (hs : E.inSub1 s.hpoly = true) {pk pk' : PublicKey G2} {x : Nat}
    (h : PartOf E pk.pk x) (h' : PartOf E pk'.pk x) :
    s.validate E pf pk pp = s.validate E pf pk' pp := by
  obtain ⟨h0, hl, hhl, hlen⟩ := hlist_cons W.toParamShape
  have hi0 : idx pp.hlist 0 = .ok h0 := by rw [hhl]; rfl
  simp only [SubSecretKey.validate]
  rcases init_cases (pf := pf) (d := pp.depth) (t := s.time) W.depth_le with ⟨hv, h1⟩ | ⟨hv, e, h1⟩
  · have hn : NodeAt pp.depth s.time (path pp.depth s.time) := nodeAt_iff.2 ⟨hv, rfl⟩
    have hnode := nodeAt_isNode hn
    have hloop := nodeLoop_mul_eq (pp := pp) (v := path pp.depth s.time) hhl
      (by have := hnode.1; omega)
    rw [h1]
    simp only []
    rw [hi0, Res.ok_bind, Res.ok_bind, hloop, Res.ok_bind, Res.ok_bind, P.swap L h h' hs (L.sub1_nodePoint W _) W.h_sub]
  · rw [h1]

theorem validateLoop_swap (L : GroupLaws E) (P : WholePairing E) (W : ParamWF E pp) (pf : Profile)
    {ssk : List (SubSecretKey G1 G2)} (hs : ∀ s ∈ ssk, E.inSub1 s.hpoly = true)
    {pk pk' : PublicKey G2} {x : Nat} (h : PartOf E pk.pk x) (h' : PartOf E pk'.pk x)
    (gl : List TimeVec) (is : List Nat) :
    SecretKey.validateLoop E pf pk pp gl ssk is = SecretKey.validateLoop E pf pk' pp gl ssk is := by
  induction is with
  | nil => rfl
  | cons i is ih =>
    simp only [SecretKey.validateLoop]
    cases hi : idx ssk i with
    | err e => rfl
    | panic p => rfl
    | ok s =>
      rw [Res.ok_bind, Res.ok_bind, ih,
        subValidate_swap L P W pf (hs s (List.mem_of_getElem? (idx_eq_ok.1 hi))) h h']

theorem validate_swap (L : GroupLaws E) (P : WholePairing E) (W : ParamWF E pp) (pf : Profile)
    {sk : SecretKey G1 G2} (hs : ∀ s ∈ sk.ssk, E.inSub1 s.hpoly = true)
    {pk pk' : PublicKey G2} {x : Nat} (h : PartOf E pk.pk x) (h' : PartOf E pk'.pk x)
    (hc : pk.ciphersuite = pk'.ciphersuite) :
    sk.validate E pf pk pp = sk.validate E pf pk' pp := by
  simp only [SecretKey.validate, hc, validateLoop_swap L P W pf hs h h']

end Swap

namespace Curve

/-- the order of the curve of `PixelG2` is `r` times a number prime to `r` -/
theorem card_P2 : ∃ m, Nat.card P2 = rOrder * m ∧ Nat.Coprime rOrder m := by
  have ho : addOrderOf gen2 = rOrder :=
    addOrderOf_eq_prime gen2_order gen2_isPt.ne_zero (hp := ⟨rOrder_prime⟩)
  obtain ⟨m, hm⟩ : rOrder ∣ Nat.card P2 := ho ▸ addOrderOf_dvd_natCard gen2
  refine ⟨m, hm, (Nat.Prime.coprime_iff_not_dvd rOrder_prime).2 ?_⟩
  rintro ⟨k, rfl⟩
  have h : rOrder * rOrder ∣ Nat.card P2 := ⟨k, by rw [hm, mul_assoc]⟩
  have h1 := Nat.le_of_dvd Nat.card_pos h
  have h2 := card_points (F := Fq) (b := 4)
  rw [card_Fq] at h2
  exact absurd (h1.trans h2) (Nat.not_le.2 bound2)

/-- a multiplier that keeps the subgroup and kills the rest -/
theorem exists_mult : ∃ u m : Nat, Nat.Coprime m rOrder ∧ (∀ p : P2, rOrder • u • p = 0) ∧
    (∀ p : P2, m • u • p = m • p) ∧ ∀ p : P2, rOrder • p = 0 → u • p = p := by
  obtain ⟨m, hm, hco⟩ := card_P2
  obtain ⟨u, h1, h2⟩ := Nat.chineseRemainder hco 1 0
  refine ⟨u, m, hco.symm, fun p => ?_, fun p => ?_, fun p hp => ?_⟩
  · obtain ⟨k, rfl⟩ := (Nat.modEq_zero_iff_dvd).1 h2
    have h0 : (rOrder * m) • p = 0 := by
      rw [← hm]
      exact addOrderOf_dvd_iff_nsmul_eq_zero.1 (addOrderOf_dvd_natCard p)
    rw [← mul_nsmul', ← mul_assoc, mul_nsmul, h0]
    exact nsmul_zero k
  · rw [← mul_nsmul', nsmul_eq_nsmul_iff_modEq]
    have : m * u ≡ m * 1 [MOD (m * rOrder)] := Nat.ModEq.mul_left' m h1
    rw [mul_one, mul_comm m rOrder, ← hm] at this
    exact this.of_dvd (addOrderOf_dvd_natCard p)
  · have : u • p = 1 • p := nsmul_eq_nsmul_iff_modEq.2
      (h1.of_dvd (addOrderOf_dvd_of_nsmul_eq_zero hp))
    rw [this, one_nsmul]

variable [DecidableEq GT]

theorem exists_part (R : Rest GT) (p : P2) : ∃ x, PartOf (bls R) p x := by
  obtain ⟨u, m, hm, h1, h2, -⟩ := exists_mult
  obtain ⟨x, hx⟩ := torsion2 (h1 p)
  refine ⟨x, p - u • p, m, hm, by rw [nsmul_sub, h2, sub_self], ?_⟩
  show p = x • gen2 + _
  rw [← hx, add_sub_cancel]

/-- a point outside the subgroup, of order prime to `r` -/
theorem exists_rest : ∃ (c : P2) (k : Nat), Nat.Coprime k rOrder ∧ k • c = 0 ∧ c ≠ 0 := by
  obtain ⟨p, hp⟩ := outside2
  obtain ⟨u, m, hm, h1, h2, -⟩ := exists_mult
  refine ⟨p - u • p, m, hm, by rw [nsmul_sub, h2, sub_self], fun h => hp ?_⟩
  rw [sub_eq_zero.1 h, h1]

/-- a pairing on the whole curve -/
noncomputable def restWhole (sha : Bytes → Bytes) : Rest (Multiplicative (ZMod rOrder)) :=
  { rest0 sha with
    pairing := fun l => some (l.map fun p =>
      Multiplicative.ofAdd (dlog2 (exists_mult.choose • p.1) * dlog1 p.2)).prod }

theorem restWhole_single (sha : Bytes → Bytes) (a : P2) (b : P1) :
    pair (bls (restWhole sha)) a b =
      Multiplicative.ofAdd (dlog2 (exists_mult.choose • a) * dlog1 b) := by
  simp [pair, bls, restWhole]

theorem restWhole_whole (sha : Bytes → Bytes) : WholePairing (bls (restWhole sha)) where
  prod l _ := by
    simp only [restWhole_single]
    rfl
  add_left a a' b _ := by
    obtain ⟨m, -, h1, -, -⟩ := exists_mult.choose_spec
    rw [restWhole_single, restWhole_single, restWhole_single, nsmul_add, dlog2_add (h1 a) (h1 a'),
      add_mul, ofAdd_add]
  add_right a b b' h h' := by
    rw [restWhole_single, restWhole_single, restWhole_single,
      dlog1_add ((inSub1_iff _ _).1 h) ((inSub1_iff _ _).1 h'), mul_add, ofAdd_add]

theorem restWhole_pairing (sha : Bytes → Bytes) : PairingOk (restWhole sha) where
  prod l h := (restWhole_whole sha).prod l fun p hp => (inSub1_iff _ _).2 (h p hp).2
  add_left a a' b _ _ hb := (restWhole_whole sha).add_left a a' b ((inSub1_iff _ _).2 hb)
  add_right a b b' _ hb hb' :=
    (restWhole_whole sha).add_right a b b' ((inSub1_iff _ _).2 hb) ((inSub1_iff _ _).2 hb')
  nontrivial := by
    obtain ⟨m, -, -, -, h⟩ := exists_mult.choose_spec
    have e := restWhole_single sha gen2 gen1
    have e2 := dlog2_nsmul 1
    have e1 := dlog1_nsmul 1
    rw [one_nsmul, Nat.cast_one] at e1 e2
    rw [h gen2 gen2_order, e1, e2, mul_one] at e
    have : Fact rOrder.Prime := ⟨rOrder_prime⟩
    intro h
    have h : pair (bls (restWhole sha)) gen2 gen1 = 1 := h
    rw [e] at h
    exact one_ne_zero (α := ZMod rOrder) h

end Curve

end Pixel
