import Verif.Proof.WholeCurve
import Verif.Props.Sig
import Verif.Props.Keys

/-!
# Property C90: public keys outside the subgroup

Vocabulary: `Verif/Spec/WholeCurve.lean`, `Verif/Spec/Sig.lean`.
-/

namespace Pixel.Props

open Pixel Pixel.Spec

set_option linter.unusedSectionVars false

variable {G1 G2 GT : Type} [AddCommGroup G1] [AddCommGroup G2] [CommGroup GT] [DecidableEq GT]
  {E : Ext G1 G2 GT} {pp : PubParam G1 G2}

/-- C90: verification does not look at the part of a public key outside the subgroup: two keys with
the same part in the subgroup accept the same signatures. -/
theorem C90_same_verdict (H : HashLaws E) (L : GroupLaws E) (P : WholePairing E) (W : ParamWF E pp)
    (pf : Profile) (sig : Signature G1 G2) {pk pk' : PublicKey G2} {x : Nat}
    (h : PartOf E pk.pk x) (h' : PartOf E pk'.pk x) (msg : Bytes) :
    Signature.verifyBytes E pf sig pk pp msg = Signature.verifyBytes E pf sig pk' pp msg :=
  verifyBytes_swap H L P W pf sig h h' msg

/-- C90: for every public key on the curve, accepted means being a signature of the master secret
that belongs to its part in the subgroup. -/
theorem C90_accept_sigFor (H : HashLaws E) (L : GroupLaws E) (P : WholePairing E)
    (W : ParamWF E pp) (pf : Profile) (sig : Signature G1 G2) {pk : PublicKey G2} {x : Nat}
    (h : PartOf E pk.pk x) (msg : Bytes) :
    Signature.verifyBytes E pf sig pk pp msg = .ok true ↔ Supported pp.ciphersuite ∧
      ∃ v a, SigFor pp (x • pp.h) v (msgField E.sha512 pp.ciphersuite msg) a sig := by
  rw [verifyBytes_swap H L P W pf sig h
    (pk' := { ciphersuite := pp.ciphersuite, pk := x • E.gen2 }) (partOf_gen x) msg]
  exact C24_accept_sigFor H L W pf sig (by rw [W.g2_gen]) msg

/-- C90: the same for a list of public keys: what counts is the sum of the parts.  In particular
parts outside the subgroup neither help nor hurt a rogue key. -/
theorem C90_aggregated (H : HashLaws E) (L : GroupLaws E) (P : WholePairing E) (W : ParamWF E pp)
    (pf : Profile) (sig : Signature G1 G2) {pks : List (PublicKey G2)} {xs : List Nat}
    (hne : pks ≠ []) (hc : ∀ pk ∈ pks, pk.ciphersuite = pp.ciphersuite)
    (h : List.Forall₂ (fun pk x => PartOf E (PublicKey.pk pk) x) pks xs) (msg : Bytes) :
    Signature.verifyBytesAggregated E pf sig pks pp msg = .ok true ↔ Supported pp.ciphersuite ∧
      ∃ v a, SigFor pp (xs.sum • pp.h) v (msgField E.sha512 pp.ciphersuite msg) a sig := by
  rw [Signature.verifyBytesAggregated_eq E pf sig pks pp msg hne hc]
  refine C90_accept_sigFor H L P W pf sig (Spec.PartOf.sum ?_) msg
  rw [List.forall₂_map_left_iff]
  exact h

/-- C90: nor does the validation of a secret key look at it (for sub-keys whose points are in the
subgroup, as generation and deserialization give them). -/
theorem C90_key_validation (L : GroupLaws E) (P : WholePairing E) (W : ParamWF E pp) (pf : Profile)
    {sk : SecretKey G1 G2} (hs : ∀ s ∈ sk.ssk, E.inSub1 s.hpoly = true)
    {pk pk' : PublicKey G2} {x : Nat} (h : PartOf E pk.pk x) (h' : PartOf E pk'.pk x)
    (hc : pk.ciphersuite = pk'.ciphersuite) :
    sk.validate E pf pk pp = sk.validate E pf pk' pp :=
  validate_swap L P W pf hs h h' hc

/-- C90: proofs of possession and the byte format do look at it: a key that is not equal to its part
has no proof of possession, and no bytes are read as it. -/
theorem C90_refused (L : GroupLaws E) (C : CodecLaws E) {pk : PublicKey G2} {x : Nat}
    (h : PartOf E pk.pk x) (hne : pk.pk ≠ x • E.gen2) :
    (∀ pop, pk.validate E pop = false) ∧
      ∀ c inp, (PublicKey.deserialize E c inp).1 ≠ .ok pk := by
  have hs : E.inSub2 pk.pk = false := by
    rw [Bool.eq_false_iff, ne_eq, h.inSub_iff L]
    exact hne
  refine ⟨fun pop => C13_pop_rejected E pk pop (Or.inr (Or.inr (Or.inl hs))), fun c inp he => ?_⟩
  have := (PublicKey.deserialize_ok C (Prod.ext he rfl :
    PublicKey.deserialize E c inp = (.ok pk, (PublicKey.deserialize E c inp).2))).2.sub
  rw [hs] at this
  cases this

/-! ## on the curve -/

section Real

open Curve

variable {R : Rest GT}

/-- C90: every point of `E(Fq)` has a part in the subgroup, and only one. -/
theorem C90_part (R : Rest GT) (p : P2) : ∃ x : ZMod rOrder, ∀ y : Nat,
    PartOf (bls R) p y ↔ (y : ZMod rOrder) = x := by
  obtain ⟨x, hx⟩ := exists_part R p
  have hg : (bls R).gen2 = gen2 := rfl
  have h0 : rOrder • (bls R).gen2 = 0 := by rw [hg]; exact gen2_order
  have hne : (bls R).gen2 ≠ 0 := by rw [hg]; exact gen2_isPt.ne_zero
  refine ⟨x, fun y => ⟨fun hy => hy.unique h0 hne hx, fun hy => ?_⟩⟩
  obtain ⟨c, k, hk, hc, rfl⟩ := hx
  refine ⟨c, k, hk, hc, ?_⟩
  have ho : addOrderOf gen2 = rOrder :=
    addOrderOf_eq_prime gen2_order gen2_isPt.ne_zero (hp := ⟨rOrder_prime⟩)
  have he : x • gen2 = y • gen2 := by
    rw [nsmul_eq_nsmul_iff_modEq, ho, ← ZMod.natCast_eq_natCast_iff, hy]
  exact congrArg (· + c) he

/-- C90: every public key in the subgroup has a twin outside: another key with the same ciphersuite
that accepts the same signatures under all parameters, for which there is no proof of possession, and
which cannot be read from bytes. -/
theorem C90_twin (H : HashLaws (bls R)) (P : PairingOk R)
    (hh : ∀ m c, rOrder • R.hashToG1 m c = 0) (Q : WholePairing (bls R))
    (pk : PublicKey P2) (hpk : rOrder • pk.pk = 0) :
    ∃ pk' : PublicKey P2, pk'.ciphersuite = pk.ciphersuite ∧ pk'.pk ≠ pk.pk ∧
      (∀ pp, ParamWF (bls R) pp → ∀ pf sig msg, Signature.verifyBytes (bls R) pf sig pk' pp msg =
        Signature.verifyBytes (bls R) pf sig pk pp msg) ∧
      (∀ pop, pk'.validate (bls R) pop = false) ∧
      ∀ c inp, (PublicKey.deserialize (bls R) c inp).1 ≠ .ok pk' := by
  have L := bls_group P hh
  obtain ⟨c, k, hk, hc, hne⟩ := exists_rest
  obtain ⟨x, hx⟩ := torsion2 hpk
  have h1 : PartOf (bls R) pk.pk x := by rw [hx]; exact partOf_gen (E := bls R) x
  have h2 : PartOf (bls R) (pk.pk + c) x := ⟨c, k, hk, hc, by rw [hx]; rfl⟩
  have h3 : pk.pk + c ≠ pk.pk := fun h => hne (add_eq_left.1 h)
  refine ⟨{ pk with pk := pk.pk + c }, rfl, h3,
    fun pp W pf sig msg => C90_same_verdict H L Q W pf sig h2 h1 msg, ?_⟩
  refine C90_refused L (bls_codec R) (pk := { pk with pk := pk.pk + c }) h2 fun h => h3 ?_
  rw [hx]
  rw [hx] at h
  exact h

/-- C90: the hypotheses of `C90_twin` can be met. -/
theorem C90_hypotheses_met (sha : Bytes → Bytes) : PairingOk (restWhole sha) ∧
    (∀ m c, rOrder • (restWhole sha).hashToG1 m c = 0) ∧ WholePairing (bls (restWhole sha)) :=
  ⟨restWhole_pairing sha, fun _ _ => tors_nsmul gen1_order _, restWhole_whole sha⟩

end Real

/-! ## examples -/

section Examples

open Pixel.Toy

theorem toy_whole (sha : Bytes → Bytes) : WholePairing (ext sha) where
  prod l _ := by
    simp only [pair_eq]
    rfl
  add_left a a' b _ := by simp only [pair_eq, Prod.fst_add, add_mul, ofAdd_add]
  add_right a b b' _ _ := by simp only [pair_eq, Prod.fst_add, mul_add, ofAdd_add]

/-- C90: a key outside the subgroup that accepts an honest signature, validates the honest secret key,
and has no proof of possession -/
example : ∃ sig : Signature G G,
    Signature.verifyBytes (ext sha0) .debug sig { ciphersuite := 1, pk := (3, 1) } (param 5 1)
      [1, 2, 3] = .ok true ∧
    Signature.verifyBytesAggregated (ext sha0) .debug sig
      [{ ciphersuite := 1, pk := (1, 1) }, { ciphersuite := 1, pk := (2, 1) }] (param 5 1)
      [1, 2, 3] = .ok true ∧
    (sk0 5 1).validate (ext sha0) .debug { ciphersuite := 1, pk := (3, 1) } (param 5 1) = .ok true ∧
    ∀ pop, PublicKey.validate (ext sha0) { ciphersuite := 1, pk := (3, 1) } pop = false := by
  have W := param_wf sha0 (d := 5) (by omega) (by omega) 1
  have hp : ∀ x : Nat, PartOf (ext sha0) ((x, 1) : G) x := fun x => by
    refine ⟨(0, 1), 3, ?_, by decide +kernel, ?_⟩
    · unfold Nat.Coprime
      decide +kernel
    · ext
      · simp [ext]
      · simp [ext]
  obtain ⟨sig, _, ht, hv⟩ := toy_sig
  have hv' := (C24_accept_sigFor hashLaws (groupLaws sha0) W .debug sig (pk := toyPk) (x := 3) rfl
    [1, 2, 3]).1 hv
  refine ⟨sig, ?_, ?_, ?_, ?_⟩
  · exact (C90_accept_sigFor hashLaws (groupLaws sha0) (toy_whole sha0) W .debug sig (hp 3) _).2 hv'
  · exact (C90_aggregated hashLaws (groupLaws sha0) (toy_whole sha0) W .debug sig (xs := [1, 2])
      (by simp) (by
        intro pk hpk
        simp only [List.mem_cons, List.not_mem_nil, or_false] at hpk
        rcases hpk with rfl | rfl <;> rfl)
      (.cons (hp 1) (.cons (hp 2) .nil)) _).2 hv'
  · have hk := hkey_sk0 (d := 5) (by omega) 1
    refine (C90_key_validation (groupLaws sha0) (toy_whole sha0) W .debug (sk := sk0 5 1) (x := 3) ?_
      (pk := { ciphersuite := 1, pk := (3, 1) }) (hp 3) (pk' := toyPk) (partOf_gen 3) rfl).trans ?_
    · intro s hs
      simp only [sk0, List.mem_singleton] at hs
      subst hs
      simp only [ssk0, ext, decide_eq_true_eq]
      decide +kernel
    · exact SecretKey.validate_honest (groupLaws sha0) W .debug hk rfl rfl
  · exact (C90_refused (groupLaws sha0) (codecLaws sha0)
      (pk := { ciphersuite := 1, pk := (3, 1) }) (hp 3) (by
        intro h
        have := congrArg Prod.snd h
        simp [ext] at this)).1

end Examples

end Pixel.Props
