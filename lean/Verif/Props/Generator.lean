import Verif.Proof.Generator
import Verif.Proof.Document
import Verif.Props.History
import Verif.Toy

/-!
# Property C105: public parameters with another generator

Vocabulary: `Verif/Spec/Generator.lean`; assumptions: `Verif/Spec/Laws.lean`.
-/

namespace Pixel.Props

open Pixel Pixel.Spec

variable {G1 G2 GT : Type} [AddCommGroup G1] [AddCommGroup G2] [CommGroup GT]

/-- C105: with any `g2` of the subgroup but zero the scheme works as with the generator: every key that
comes of key generation validates after any calls, and every signature it gives is accepted. -/
theorem C105_works [DecidableEq GT] {E : Ext G1 G2 GT} (H : HashLaws E) (L : GroupLaws E)
    (pf pf' : Profile) {pp : PubParam G1 G2} (A : AnyGenerator E pp) (h0 : pp.g2 ≠ 0) {seed : Bytes}
    {pk : PublicKey G2} {sk : SecretKey G1 G2} {pop : ProofOfPossession G1}
    (hk : keygen E seed pp = .ok (pk, sk, pop)) (cs : List Call) :
    SecretKey.validate E pf (runAll E.sha512 pf pp sk cs) pk pp = .ok true ∧
    ∀ (c : Call) (sig : Signature G1 G2),
      (c.run E.sha512 pf pp (runAll E.sha512 pf pp sk cs)).1 = .ok (some sig) →
      Signature.verifyBytes E pf' sig pk pp c.msg = .ok true := by
  have L' := groupLaws_withGen L A.g2_sub h0
  have H' : HashLaws (withGen E pp.g2) := ⟨H.sha_len⟩
  rw [← validate_withGen E pp.g2]
  exact ⟨(C18_reachable_keys H' L' pf A.paramWF hk cs).1,
    fun c sig hs => (C23_history_signatures_verify H' L' pf pf' A.paramWF hk cs c hs).1⟩

/-- C105: and verification accepts exactly what it accepts with the generator. -/
theorem C105_accept_sigFor [DecidableEq GT] {E : Ext G1 G2 GT} (H : HashLaws E) (L : GroupLaws E)
    {pp : PubParam G1 G2} (A : AnyGenerator E pp) (h0 : pp.g2 ≠ 0) (pf : Profile)
    (sig : Signature G1 G2) {pk : PublicKey G2} {x : Nat} (hpk : pk.pk = x • pp.g2) (msg : Bytes) :
    Signature.verifyBytes E pf sig pk pp msg = .ok true ↔ Supported pp.ciphersuite ∧
      ∃ v a, SigFor pp (x • pp.h) v (msgField E.sha512 pp.ciphersuite msg) a sig :=
  C24_accept_sigFor (E := withGen E pp.g2) ⟨H.sha_len⟩ (groupLaws_withGen L A.g2_sub h0) A.paramWF pf
    sig hpk msg

/-- C105: the check of master keys in the unit tests is exact: a public key and a master secret pass
exactly if they have the same exponent. -/
theorem C105_master_key [DecidableEq GT] {E : Ext G1 G2 GT} (L : GroupLaws E) {pp : PubParam G1 G2}
    (A : AnyGenerator E pp) (h0 : pp.g2 ≠ 0) {pk : G2} {x : Nat} (hpk : pk = x • pp.g2) {sk : G1}
    (hsk : E.inSub1 sk = true) : validateMasterKey E pk sk pp = true ↔ sk = x • pp.h := by
  have L' := groupLaws_withGen L A.g2_sub h0
  have hx := L.sub1_nsmul A.h_sub x
  have hp : E.pairing [(-pp.g2, sk), (pk, pp.h)] =
      some ((pair E pp.g2 sk)⁻¹ * pair E pp.g2 (x • pp.h)) := by
    rw [hpk, L.pairing_prod _ (by
      simp only [List.mem_cons, List.not_mem_nil, or_false, forall_eq_or_imp, forall_eq]
      exact ⟨⟨L.sub2_neg _ A.g2_sub, hsk⟩, ⟨L.sub2_nsmul A.g2_sub _, A.h_sub⟩⟩)]
    simp only [List.map_cons, List.map_nil, List.prod_cons, List.prod_nil, mul_one,
      L.pair_neg_left A.g2_sub hsk, L.pair_nsmul A.g2_sub A.h_sub]
  unfold validateMasterKey
  rw [hp]
  simp only [decide_eq_true_eq]
  rw [inv_mul_eq_one]
  refine ⟨fun h => Doc.pair_inj (E := withGen E pp.g2) L' hsk hx h, fun h => by rw [h]⟩

/-- C105: but the proof of possession of a generated key is refused, unless `g2` is the generator after
all, or the secret or the hash of the public key happens to be zero. -/
theorem C105_pop [DecidableEq GT] {E : Ext G1 G2 GT} (H : HashLaws E) (L : GroupLaws E)
    {pp : PubParam G1 G2} (A : AnyGenerator E pp) {seed : Bytes}
    {pk : PublicKey G2} {sk : SecretKey G1 G2} {pop : ProofOfPossession G1}
    (hk : keygen E seed pp = .ok (pk, sk, pop)) :
    ∃ x : Fr, pk.pk = x.val • pp.g2 ∧ KeyFor pp (x.val • pp.h) 1 sk ∧
      (pk.validate E pop = true ↔ pp.g2 = E.gen2 ∨ x = 0 ∨
        E.hashToG1 (text "Pixel public key POP" ++ E.encG2 true pk.pk) [pk.ciphersuite] = 0) := by
  have : Fact (Nat.Prime rOrder) := ⟨rOrder_prime⟩
  have hsup := keygen_supported hk
  have hlen : 32 ≤ seed.length := by
    by_contra hc
    rw [keygen_short (by omega)] at hk
    cases hk
  obtain ⟨s, -, hs, he⟩ := keygen_eq H A.toParamShape hlen hsup
  rw [hk] at he
  obtain ⟨rfl, rfl, rfl⟩ : pk = _ ∧ sk = _ ∧ pop = _ := by
    simpa only [Res.ok.injEq, Prod.mk.injEq] using he
  set x := kgSecret E.sha512 seed pp.ciphersuite
  refine ⟨x, rfl, ?_, ?_⟩
  · have hh : HKey pp (x.val • pp.h) []
        { ciphersuite := pp.ciphersuite, time := 1, ssk := [s]
          prng := drawNext E.sha512 (kgNext E.sha512 seed pp.ciphersuite)
            (DOM_SEP_SK_INIT ++ [0, 0, 0, 1]) } :=
      { suite := rfl
        time := by simp
        node := isNode_nil.2 A.depth_pos
        prng := drawNext_wf H.sha_len _ _
        ssk := .cons ⟨_, hs⟩ .nil }
    exact hh.keyFor
  · obtain ⟨z, hz⟩ := L.gen2_gen _ A.g2_sub
    have hpk : mulFr x pp.g2 = (x.val * z) • E.gen2 := by rw [mulFr, hz, ← mul_smul]
    rw [C13_pop_exact L (pk := { ciphersuite := pp.ciphersuite, pk := mulFr x pp.g2 }) hpk]
    set Q := E.hashToG1 (text "Pixel public key POP" ++ E.encG2 true (mulFr x pp.g2))
      [pp.ciphersuite] with hQ
    have hQr : rOrder • Q = 0 := L.sub1_order _ (L.hash_sub _ _)
    have e1 : blsCoreSign E x (DOM_SEP_POP ++ E.encG2 true (mulFr x pp.g2)) [pp.ciphersuite] =
        x.val • Q := by rw [hQ, ← text_pop]; rfl
    simp only [e1, true_and, hsup]
    rw [nsmul_eq_iff_cast hQr, Nat.cast_mul, ZMod.natCast_zmod_val]
    have hzg : pp.g2 = E.gen2 ↔ E.gen2 = 0 ∨ ((z : Nat) : Fr) = 1 := by
      have := nsmul_eq_iff_cast (m := z) (n := 1) (L.sub2_order _ L.gen2_sub)
      rwa [one_smul, ← hz, Nat.cast_one] at this
    constructor
    · rintro (h | h)
      · exact Or.inr (Or.inr h)
      · by_cases hx : x = 0
        · exact Or.inr (Or.inl hx)
        · exact Or.inl (hzg.2 (Or.inr (mul_left_cancel₀ hx (by rw [mul_one]; exact h.symm))))
    · rintro (h | h | h)
      · rcases hzg.1 h with h | h
        · refine Or.inl (L.pair_nondeg _ (L.hash_sub _ _) ?_)
          rw [h, L.pair_zero_left (L.hash_sub _ _)]
        · exact Or.inr (by rw [h, mul_one])
      · exact Or.inr (by rw [h, zero_mul])
      · exact Or.inl h

/-- C105: with `g2 = 0` every generated public key is zero, and under it everybody can sign: the second
component of a signature is not looked at. -/
theorem C105_zero [DecidableEq GT] {E : Ext G1 G2 GT} (H : HashLaws E) (L : GroupLaws E)
    {pp : PubParam G1 G2} (A : AnyGenerator E pp) (h0 : pp.g2 = 0) (pf : Profile) {seed : Bytes}
    {pk : PublicKey G2} {sk : SecretKey G1 G2} {pop : ProofOfPossession G1}
    (hk : keygen E seed pp = .ok (pk, sk, pop)) :
    pk.pk = 0 ∧ ∀ (sig : Signature G1 G2) (msg : Bytes),
      (Signature.verifyBytes E pf sig pk pp msg = .ok true ↔
        sig.ciphersuite = pp.ciphersuite ∧ E.inSub2 sig.sigma1 = true ∧ E.inSub1 sig.sigma2 = true ∧
        ∃ v, NodeAt pp.depth sig.time v ∧
          (sig.sigma1 = 0 ∨ sigPoint pp v (msgField E.sha512 pp.ciphersuite msg) = 0)) := by
  have : Fact (Nat.Prime rOrder) := ⟨rOrder_prime⟩
  have hsup := keygen_supported hk
  obtain ⟨x, hx, -⟩ := keygen_keyFor H A.toParamShape hk
  have hpk : pk.pk = 0 := by rw [hx, h0, smul_zero]
  refine ⟨hpk, fun sig msg => ?_⟩
  rw [Signature.verifyBytes_eq H A.toParamShape pf sig pk msg, Res.ok.injEq, @decide_eq_true_iff _ (_)]
  have hpt : ∀ v M, E.inSub1 (sigPoint pp v M) = true :=
    fun v M => sigPoint_mem (K := sub1 L) A.hlist_sub v M
  have hprod : E.inSub2 sig.sigma1 = true → E.inSub1 sig.sigma2 = true → ∀ v M,
      (E.pairing [(-pp.g2, sig.sigma2), (sig.sigma1, sigPoint pp v M), (pk.pk, pp.h)] = some 1 ↔
        sig.sigma1 = 0 ∨ sigPoint pp v M = 0) := by
    intro h1 h2 v M
    rw [h0, neg_zero, hpk, L.pairing_prod _ (by
      simp only [List.mem_cons, List.not_mem_nil, or_false, forall_eq_or_imp, forall_eq]
      exact ⟨⟨L.sub2_zero, h2⟩, ⟨h1, hpt v M⟩, ⟨L.sub2_zero, A.h_sub⟩⟩)]
    simp only [List.map_cons, List.map_nil, List.prod_cons, List.prod_nil, L.pair_zero_left h2,
      L.pair_zero_left A.h_sub, one_mul, mul_one, Option.some.injEq]
    obtain ⟨a, ha⟩ := L.gen2_gen _ h1
    rw [ha, L.pair_nsmul L.gen2_sub (hpt v M)]
    constructor
    · intro h
      have h3 := L.pair_nondeg _ (L.sub1_nsmul (hpt v M) a) h
      rw [← zero_smul ℕ (sigPoint pp v M), nsmul_eq_iff_cast (L.sub1_order _ (hpt v M))] at h3
      rcases h3 with h3 | h3
      · exact Or.inr h3
      · refine Or.inl ?_
        have := (nsmul_eq_iff_cast (m := a) (n := 0) (L.sub2_order _ L.gen2_sub)).2 (Or.inr h3)
        rwa [zero_smul] at this
    · rintro (h | h)
      · rw [← L.pair_nsmul L.gen2_sub (hpt v M), h, L.pair_zero_left (hpt v M)]
      · rw [h, smul_zero, L.pair_zero_right L.gen2_sub]
  constructor
  · rintro ⟨-, h2, h3, h4, v, h5, h6⟩
    exact ⟨h2, h3, h4, v, h5, (hprod h3 h4 v _).1 h6⟩
  · rintro ⟨h2, h3, h4, v, h5, h6⟩
    exact ⟨hsup, h2, h3, h4, v, h5, (hprod h3 h4 v _).2 h6⟩

/-- C105: with `h = 0` the public key does not matter: under every one exactly the signatures of the
secret zero are accepted, and those anybody can make. -/
theorem C105_no_secret [DecidableEq GT] {E : Ext G1 G2 GT} (H : HashLaws E) (L : GroupLaws E)
    {pp : PubParam G1 G2} (A : AnyGenerator E pp) (h0 : pp.g2 ≠ 0) (hh : pp.h = 0) (pf : Profile)
    (sig : Signature G1 G2) {pk : PublicKey G2} (hpk : E.inSub2 pk.pk = true) (msg : Bytes) :
    Signature.verifyBytes E pf sig pk pp msg = .ok true ↔ Supported pp.ciphersuite ∧
      ∃ v a, SigFor pp 0 v (msgField E.sha512 pp.ciphersuite msg) a sig := by
  obtain ⟨x, hx⟩ := (groupLaws_withGen L A.g2_sub h0).gen2_gen _ hpk
  rw [C105_accept_sigFor H L A h0 pf sig (show pk.pk = x • pp.g2 from hx), hh, smul_zero]

/-- C105: if the last element of the list `h_0 … h_d` is zero, a signature counts for every message. -/
theorem C105_no_message [DecidableEq GT] {E : Ext G1 G2 GT} (H : HashLaws E) {pp : PubParam G1 G2}
    (S : ParamShape pp) (hd : pp.hlist[pp.depth]? = some 0) (pf : Profile) (sig : Signature G1 G2)
    (pk : PublicKey G2) (msg msg' : Bytes) :
    Signature.verifyBytes E pf sig pk pp msg = Signature.verifyBytes E pf sig pk pp msg' := by
  have hl : pp.hlist.getLastD 0 = 0 := by
    rw [List.getLastD_eq_getLast?, List.getLast?_eq_getElem?, S.hlist_len, Nat.add_sub_cancel, hd]
    rfl
  have e : ∀ v M, sigPoint pp v M = nodePoint pp v := fun v M => by
    rw [sigPoint, hl, smul_zero, add_zero]
  rw [Signature.verifyBytes_eq H S, Signature.verifyBytes_eq H S, Res.ok.injEq]
  refine @decide_eq_decide _ _ (_) (_) |>.2 ?_
  simp only [e]

/-! ### Concrete cases -/

section Examples
open Pixel.Toy

/-- a constant hash function -/
private def sha1 (_ : Bytes) : Bytes := List.replicate 63 0 ++ [5]

private theorem hashLaws1 : HashLaws (ext sha1) := ⟨fun _ => by simp [ext, sha1]⟩

/-- the parameters of the examples with another `g2` -/
private def paramG (g : G) : PubParam G G := { param 5 1 with g2 := g }

private theorem paramG_any (z : ZMod rOrder) : AnyGenerator (ext sha1) (paramG (z, 0)) :=
  { depth_pos := Nat.le_of_ble_eq_true rfl
    depth_le := Nat.le_of_ble_eq_true rfl
    hlist_len := (param_wf sha1 (d := 5) (by omega) (by omega) 1).hlist_len
    hlist_sub := (param_wf sha1 (d := 5) (by omega) (by omega) 1).hlist_sub
    h_sub := (param_wf sha1 (d := 5) (by omega) (by omega) 1).h_sub
    g2_sub := by simp [ext, paramG] }

private def out (g : G) : Res (PublicKey G × SecretKey G G × ProofOfPossession G) :=
  keygen (ext sha1) (List.replicate 32 1) (paramG g)

private theorem out_ok (z : ZMod rOrder) : ∃ pk sk pop, out (z, 0) = .ok (pk, sk, pop) := by
  obtain ⟨s, -, -, h⟩ := keygen_eq (E := ext sha1) hashLaws1 (paramG_any z).toParamShape
    (seed := List.replicate 32 1) (by simp) (Or.inr rfl)
  exact ⟨_, _, _, h⟩

/-- twice the generator: the key signs and the signature is accepted, but the proof of possession is
not -/
example : ∃ pk sk pop sig, out (2, 0) = .ok (pk, sk, pop) ∧ pk.validate (ext sha1) pop = false ∧
    (Call.run (ext sha1).sha512 .release (paramG (2, 0)) (.sign 1 [1] [7]) sk).1 = .ok (some sig) ∧
    Signature.verifyBytes (ext sha1) .release sig pk (paramG (2, 0)) [1] = .ok true := by
  obtain ⟨pk, sk, pop, h⟩ := out_ok 2
  have e : (match out (2, 0) with
      | .ok (pk, _, pop) => pk.validate (ext sha1) pop
      | _ => true) = false := by decide +kernel
  have e' : (match out (2, 0) with
      | .ok (_, sk, _) =>
        match (Call.run (ext sha1).sha512 .release (paramG (2, 0)) (.sign 1 [1] [7]) sk).1 with
        | .ok (some _) => true
        | _ => false
      | _ => false) = true := by decide +kernel
  rw [h] at e e'
  simp only at e'
  split at e'
  · next sig hs =>
    exact ⟨pk, sk, pop, sig, h, e, hs, (C105_works hashLaws1 (groupLaws sha1) .release .release
      (paramG_any 2) (by decide +kernel) h []).2 (.sign 1 [1] [7]) sig hs⟩
  · cases e'

/-- the exponents 4 and 4 pass, 4 and 5 do not -/
example : validateMasterKey (ext sha1) (4 • (paramG (2, 0)).g2) (4 • (paramG (2, 0)).h) (paramG (2, 0)) =
      true ∧
    validateMasterKey (ext sha1) (4 • (paramG (2, 0)).g2) (5 • (paramG (2, 0)).h) (paramG (2, 0)) ≠
      true :=
  ⟨(C105_master_key (groupLaws sha1) (paramG_any 2) (by decide +kernel) rfl (by decide +kernel)).2 rfl,
    fun h => absurd ((C105_master_key (groupLaws sha1) (paramG_any 2) (by decide +kernel) rfl
      (by decide +kernel)).1 h) (by decide +kernel)⟩

/-- zero: a made-up signature is accepted for every message -/
example (msg : Bytes) : ∃ pk sk pop, out (0, 0) = .ok (pk, sk, pop) ∧
    Signature.verifyBytes (ext sha1) .release
      { ciphersuite := 1, time := 3, sigma1 := 0, sigma2 := (12345, 0) } pk (paramG (0, 0)) msg =
        .ok true := by
  obtain ⟨pk, sk, pop, h⟩ := out_ok 0
  refine ⟨pk, sk, pop, h, ((C105_zero hashLaws1 (groupLaws sha1) (paramG_any 0) rfl .release h).2 _ _).2
    ⟨rfl, by decide +kernel, by decide +kernel, [1, 1],
      nodeAt_iff.2 ⟨⟨by decide +kernel, by decide +kernel⟩, by decide +kernel⟩, Or.inl rfl⟩⟩

/-- `h = 0`: a signature made of public values is accepted under a key -/
example (msg : Bytes) :
    let pp : PubParam G G := { param 5 1 with h := 0 }
    Signature.verifyBytes (ext sha1) .release
      { ciphersuite := 1, time := 3, sigma1 := 2 • pp.g2
        sigma2 := 2 • sigPoint pp [1, 1] (msgField (ext sha1).sha512 1 msg) }
      { ciphersuite := 1, pk := (99, 0) } pp msg = .ok true := by
  intro pp
  have A : AnyGenerator (ext sha1) pp :=
    { depth_pos := Nat.le_of_ble_eq_true rfl
      depth_le := Nat.le_of_ble_eq_true rfl
      hlist_len := (param_wf sha1 (d := 5) (by omega) (by omega) 1).hlist_len
      hlist_sub := (param_wf sha1 (d := 5) (by omega) (by omega) 1).hlist_sub
      h_sub := rfl
      g2_sub := by simp [ext, pp, param] }
  have hv : NodeAt 5 3 [1, 1] :=
    nodeAt_iff.2 ⟨⟨by decide +kernel, by decide +kernel⟩, by decide +kernel⟩
  refine (C105_no_secret hashLaws1 (groupLaws sha1) A (by decide +kernel) rfl .release _
    (by simp [ext]) msg).2 ⟨Or.inr rfl, [1, 1], 2, rfl, hv, rfl, ?_⟩
  rw [zero_add]
  rfl

/-- a list of elements that ends with zero -/
example (sig : Signature G G) (pk : PublicKey G) (msg msg' : Bytes) :
    let pp : PubParam G G := { param 5 1 with hlist := [(1, 0), (2, 0), (3, 0), (4, 0), (5, 0), 0] }
    Signature.verifyBytes (ext sha1) .release sig pk pp msg =
      Signature.verifyBytes (ext sha1) .release sig pk pp msg' :=
  C105_no_message hashLaws1 ⟨Nat.le_of_ble_eq_true rfl, Nat.le_of_ble_eq_true rfl, rfl⟩ rfl .release sig
    pk msg msg'

end Examples

end Pixel.Props
