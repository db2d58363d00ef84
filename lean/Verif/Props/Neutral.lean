import Verif.Props.Agg
import Verif.Props.Serdes
import Verif.Proof.Generator
import Verif.Spec.Neutral
import Verif.Toy

/-!
# Property C106: the neutral element as a public key, and keys that add up to it

Vocabulary: `Verif/Spec/Neutral.lean` (`publicSignature`); assumptions: `Verif/Spec/Laws.lean`.
-/

namespace Pixel.Props

open Pixel Pixel.Spec

variable {G1 G2 GT : Type} [AddCommGroup G1] [AddCommGroup G2] [CommGroup GT]

/-- C106: the neutral element passes as a public key, with the neutral element for proof of possession
and with no other. -/
theorem C106_pop [DecidableEq GT] {E : Ext G1 G2 GT} (L : GroupLaws E) {pk : PublicKey G2}
    (h : pk.pk = 0) (pop : ProofOfPossession G1) :
    pk.validate E pop = true ↔
      Supported pk.ciphersuite ∧ pop.ciphersuite = pk.ciphersuite ∧ pop.pop = 0 := by
  rw [C13_pop_exact L (x := 0) (by rw [h, zero_smul]) pop, zero_smul]

/-- C106: both can come from bytes, in either form. -/
theorem C106_read {E : Ext G1 G2 GT} (L : GroupLaws E) (C : CodecLaws E) {cs : UInt8}
    (hcs : Supported cs) (c : Bool) (rest : Bytes) :
    PublicKey.deserialize E c ([cs] ++ E.encG2 c 0 ++ rest) = (.ok { ciphersuite := cs, pk := 0 }, rest) ∧
    ProofOfPossession.deserialize E c ([cs] ++ E.encG1 c 0 ++ rest) =
      (.ok { ciphersuite := cs, pop := 0 }, rest) :=
  ⟨(C36_public_key C c (k := { ciphersuite := cs, pk := 0 }) ⟨hcs, L.sub2_zero⟩ rest).2,
    (C36_pop C c (p := { ciphersuite := cs, pop := 0 }) ⟨hcs, L.sub1_zero⟩ rest).2⟩

/-- C106: under the neutral element exactly the signatures that everybody can compute are accepted. -/
theorem C106_accepts [DecidableEq GT] {E : Ext G1 G2 GT} (H : HashLaws E) (L : GroupLaws E)
    {pp : PubParam G1 G2} (W : ParamWF E pp) (pf : Profile) (hsup : Supported pp.ciphersuite)
    {pk : PublicKey G2} (h : pk.pk = 0) (sig : Signature G1 G2) (msg : Bytes) :
    Signature.verifyBytes E pf sig pk pp msg = .ok true ↔
      ∃ v a, NodeAt pp.depth sig.time v ∧
        sig = publicSignature pp sig.time v (msgField E.sha512 pp.ciphersuite msg) a := by
  rw [C24_accept_sigFor H L W pf sig (x := 0) (by rw [h, zero_smul]) msg, zero_smul]
  constructor
  · rintro ⟨-, v, a, hs⟩
    refine ⟨v, a, hs.node, ?_⟩
    have h1 := hs.suite; have h2 := hs.sigma1; have h3 := hs.sigma2
    rw [zero_add] at h3
    cases sig
    simp only at h1 h2 h3
    simp only [publicSignature, h1, h2, h3]
  · rintro ⟨v, a, hv, he⟩
    exact ⟨hsup, v, a, by rw [he]; rfl, hv, by rw [he]; rfl, by rw [he, zero_add]; rfl⟩

/-- C106: in a list it makes no difference: whoever checks a list of signers finds the owner of the
neutral element among them whenever the others have signed. -/
theorem C106_in_list [DecidableEq GT] (E : Ext G1 G2 GT) (pf : Profile) (sig : Signature G1 G2)
    {l1 l2 : List (PublicKey G2)} {pk : PublicKey G2} {pp : PubParam G1 G2} (h : pk.pk = 0)
    (hc : pk.ciphersuite = pp.ciphersuite) (hne : l1 ++ l2 ≠ []) (msg : Bytes) :
    Signature.verifyBytesAggregated E pf sig (l1 ++ pk :: l2) pp msg =
      Signature.verifyBytesAggregated E pf sig (l1 ++ l2) pp msg := by
  by_cases hall : ∀ q ∈ l1 ++ l2, q.ciphersuite = pp.ciphersuite
  · rw [Signature.verifyBytesAggregated_eq E pf sig _ pp msg hne hall,
      Signature.verifyBytesAggregated_eq E pf sig _ pp msg (by simp) (by
        intro q hq
        rcases List.mem_append.1 hq with hq | hq
        · exact hall q (List.mem_append_left _ hq)
        · rcases List.mem_cons.1 hq with rfl | hq
          · exact hc
          · exact hall q (List.mem_append_right _ hq))]
    simp only [List.map_append, List.map_cons, List.sum_append, List.sum_cons, h, zero_add]
  · push Not at hall
    obtain ⟨q, h1, h2⟩ := hall
    rw [C28_aggregated_checks_suite E pf sig _ pp msg ⟨q, h1, h2⟩,
      C28_aggregated_checks_suite E pf sig _ pp msg ⟨q, by
        rcases List.mem_append.1 h1 with h | h
        · exact List.mem_append_left _ h
        · exact List.mem_append_right _ (List.mem_cons_of_mem _ h), h2⟩]

/-- C106: keys that add up to zero: as a list they accept exactly the signatures that everybody can
compute. -/
theorem C106_sum_zero [DecidableEq GT] {E : Ext G1 G2 GT} (H : HashLaws E) (L : GroupLaws E)
    {pp : PubParam G1 G2} (W : ParamWF E pp) (pf : Profile) (hsup : Supported pp.ciphersuite)
    {pks : List (PublicKey G2)} (hne : pks ≠ []) (hc : ∀ pk ∈ pks, pk.ciphersuite = pp.ciphersuite)
    (h : (pks.map (·.pk)).sum = 0) (sig : Signature G1 G2) (msg : Bytes) :
    Signature.verifyBytesAggregated E pf sig pks pp msg = .ok true ↔
      ∃ v a, NodeAt pp.depth sig.time v ∧
        sig = publicSignature pp sig.time v (msgField E.sha512 pp.ciphersuite msg) a := by
  rw [C35_only_the_sum E pf sig pks pp msg hne hc pp.ciphersuite]
  exact C106_accepts H L W pf hsup (pk := { ciphersuite := pp.ciphersuite, pk := _ }) h sig msg

/-- C106: proofs of possession do not prevent it: somebody who knows `x` has proofs for the keys `x g2`
and `-x g2`. -/
theorem C106_pops_for_opposites [DecidableEq GT] {E : Ext G1 G2 GT} (L : GroupLaws E) {cs : UInt8}
    (hcs : Supported cs) (x : Nat) :
    ∃ p p' : ProofOfPossession G1,
      PublicKey.validate E { ciphersuite := cs, pk := x • E.gen2 } p = true ∧
      PublicKey.validate E { ciphersuite := cs, pk := -(x • E.gen2) } p' = true := by
  have hneg : -(x • E.gen2) = (x * (rOrder - 1)) • E.gen2 := by
    have h1 : (1 + (rOrder - 1)) • E.gen2 = 0 := by
      rw [show 1 + (rOrder - 1) = rOrder by decide]
      exact L.sub2_order _ L.gen2_sub
    rw [mul_smul, neg_eq_iff_add_eq_zero, ← smul_add, ← one_smul ℕ E.gen2, ← mul_smul, mul_one,
      ← add_smul, h1, smul_zero]
  exact ⟨⟨cs, x • E.hashToG1 (text "Pixel public key POP" ++ E.encG2 true (x • E.gen2)) [cs]⟩,
    ⟨cs, (x * (rOrder - 1)) •
      E.hashToG1 (text "Pixel public key POP" ++ E.encG2 true (-(x • E.gen2))) [cs]⟩,
    (C13_pop_exact L (pk := { ciphersuite := cs, pk := x • E.gen2 }) rfl _).2 ⟨hcs, rfl, rfl⟩,
    (C13_pop_exact L (pk := { ciphersuite := cs, pk := -(x • E.gen2) }) hneg _).2 ⟨hcs, rfl, rfl⟩⟩

/-- C106: a public key is neutral exactly when its secret exponent is zero in the field. -/
theorem C106_when {E : Ext G1 G2 GT} (L : GroupLaws E) (h0 : E.gen2 ≠ 0) (x : Nat) :
    x • E.gen2 = 0 ↔ ((x : Nat) : Fr) = 0 := by
  have h := nsmul_eq_iff_cast (L.sub2_order _ L.gen2_sub) (m := x) (n := 0)
  rw [zero_smul] at h
  rw [h]
  simp [h0]

/-! ### Concrete cases -/

section Examples
open Pixel.Toy

/-- a list of two keys with proofs of possession that accepts a signature nobody's secret went into,
and neither key is neutral -/
example (msg : Bytes) :
    let pk : PublicKey G := { ciphersuite := 1, pk := 3 • (ext sha0).gen2 }
    let pk' : PublicKey G := { ciphersuite := 1, pk := -(3 • (ext sha0).gen2) }
    pk.pk ≠ 0 ∧ pk'.pk ≠ 0 ∧
    (∃ p p', pk.validate (ext sha0) p = true ∧ pk'.validate (ext sha0) p' = true) ∧
    Signature.verifyBytesAggregated (ext sha0) .release
      (publicSignature (param 5 1) 3 [1, 1] (msgField (ext sha0).sha512 1 msg) 2) [pk, pk'] (param 5 1)
        msg = .ok true := by
  intro pk pk'
  have W := param_wf sha0 (d := 5) (by omega) (by omega) 1
  have hv : NodeAt 5 3 [1, 1] :=
    nodeAt_iff.2 ⟨⟨by decide +kernel, by decide +kernel⟩, by decide +kernel⟩
  refine ⟨by decide +kernel, by decide +kernel, C106_pops_for_opposites (groupLaws sha0) (Or.inr rfl) 3, ?_⟩
  exact (C106_sum_zero hashLaws (groupLaws sha0) W .release (Or.inr rfl) (by simp) (by simp [pk, pk', param])
    (by simp [pk, pk']) _ msg).2 ⟨[1, 1], 2, hv, rfl⟩

/-- the neutral element with its proof, and what it accepts -/
example (msg : Bytes) :
    PublicKey.validate (ext sha0) { ciphersuite := 1, pk := 0 } { ciphersuite := 1, pop := 0 } = true ∧
    Signature.verifyBytes (ext sha0) .debug
      (publicSignature (param 5 1) 3 [1, 1] (msgField (ext sha0).sha512 1 msg) 0)
      { ciphersuite := 1, pk := 0 } (param 5 1) msg = .ok true := by
  have W := param_wf sha0 (d := 5) (by omega) (by omega) 1
  have hv : NodeAt 5 3 [1, 1] :=
    nodeAt_iff.2 ⟨⟨by decide +kernel, by decide +kernel⟩, by decide +kernel⟩
  exact ⟨(C106_pop (groupLaws sha0) rfl _).2 ⟨Or.inr rfl, rfl, rfl⟩,
    (C106_accepts hashLaws (groupLaws sha0) W .debug (Or.inr rfl) rfl _ msg).2 ⟨[1, 1], 0, hv, rfl⟩⟩

/-- the generator of the example groups is not neutral, so the key with exponent 3 is not either -/
example : (ext sha0).gen2 ≠ 0 ∧ 3 • (ext sha0).gen2 ≠ 0 ∧ rOrder • (ext sha0).gen2 = 0 := by
  have h0 : (ext sha0).gen2 ≠ 0 := by decide +kernel
  refine ⟨h0, fun h => ?_, (C106_when (groupLaws sha0) h0 rOrder).2 (ZMod.natCast_self _)⟩
  exact absurd ((C106_when (groupLaws sha0) h0 3).1 h) (by decide +kernel)

end Examples

end Pixel.Props
