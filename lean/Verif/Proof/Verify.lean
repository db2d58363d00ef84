import Verif.Proof.Sig

/-! # Lemmas on verification, key validation and key generation -/

namespace Pixel

open Spec

set_option linter.unusedSectionVars false

variable {G1 G2 GT : Type} [AddCommGroup G1] [AddCommGroup G2] [CommGroup GT]

theorem Spec.GroupLaws.sub1_sigPoint {E : Ext G1 G2 GT} (L : GroupLaws E) {pp : PubParam G1 G2}
    (W : ParamWF E pp) (v : List Nat) (M : Fr) : E.inSub1 (sigPoint pp v M) = true := by
  refine L.sub1_add _ _ (L.sub1_nodePoint W v) (L.sub1_nsmul ?_ _)
  refine W.hlist_sub _ ?_
  exact List.mem_of_getElem? (idx_eq_ok.1 (hlist_last W.toParamShape))

namespace Signature

open Classical in
/-- `verify_fr` after its subgroup tests, in terms of the pairing product -/
theorem verifyFr_eq [DecidableEq GT] {E : Ext G1 G2 GT} {pp : PubParam G1 G2} (S : ParamShape pp)
    (pf : Profile) (sig : Signature G1 G2) (pk : PublicKey G2) (M : Fr) :
    verifyFr E pf sig pk pp M = .ok (decide (E.inSub2 sig.sigma1 = true ∧ E.inSub1 sig.sigma2 = true ∧
      ∃ v, NodeAt pp.depth sig.time v ∧
        E.pairing [(-pp.g2, sig.sigma2), (sig.sigma1, sigPoint pp v M), (pk.pk, pp.h)] = some 1)) := by
  obtain ⟨h0, hl, hhl, hlen⟩ := hlist_cons S
  have hi0 : idx pp.hlist 0 = .ok h0 := by rw [hhl]; rfl
  unfold verifyFr
  by_cases hs : E.inSub2 sig.sigma1 = true ∧ E.inSub1 sig.sigma2 = true
  · have hsub : (!E.inSub2 sig.sigma1 || !E.inSub1 sig.sigma2) = false := by simp [hs.1, hs.2]
    rw [hsub]
    simp only [Bool.false_eq_true, if_false]
    rw [hi0, Res.ok_bind]
    rcases init_cases (pf := pf) (d := pp.depth) (t := sig.time) S.depth_le with ⟨hv, h1⟩ | ⟨hv, e, h1⟩
    · have hn : NodeAt pp.depth sig.time (path pp.depth sig.time) := nodeAt_iff.2 ⟨hv, rfl⟩
      have hnode := nodeAt_isNode hn
      have hloop := nodeLoop_eq (pp := pp) (v := path pp.depth sig.time) hhl hnode.2
        (by have := hnode.1; omega)
      rw [h1]
      simp only []
      rw [hloop, Res.ok_bind, hlist_last S, Res.ok_bind]
      have hiff : (∃ v, NodeAt pp.depth sig.time v ∧
          E.pairing [(-pp.g2, sig.sigma2), (sig.sigma1, sigPoint pp v M), (pk.pk, pp.h)] = some 1) ↔
          E.pairing [(-pp.g2, sig.sigma2), (sig.sigma1, sigPoint pp (path pp.depth sig.time) M),
            (pk.pk, pp.h)] = some 1 := by
        constructor
        · rintro ⟨v, h2, h3⟩
          rwa [(nodeAt_iff.1 h2).2] at h3
        · exact fun h3 => ⟨_, hn, h3⟩
      simp only [hs.1, hs.2, true_and, hiff]
      show (match E.pairing [(-pp.g2, sig.sigma2),
        (sig.sigma1, sigPoint pp (path pp.depth sig.time) M), (pk.pk, pp.h)] with
        | none => Res.ok false
        | some pairingproduct => Res.ok (decide (pairingproduct = 1))) = _
      cases hp : E.pairing [(-pp.g2, sig.sigma2),
        (sig.sigma1, sigPoint pp (path pp.depth sig.time) M), (pk.pk, pp.h)] with
      | none => simp
      | some g => simp
    · rw [h1]
      simp only []
      congr 1
      symm
      rw [decide_eq_false_iff_not]
      rintro ⟨_, _, v, h2, _⟩
      exact hv (nodeAt_iff.1 h2).1
  · have hsub : (!E.inSub2 sig.sigma1 || !E.inSub1 sig.sigma2) = true := by
      by_contra hc
      simp only [Bool.not_eq_true, Bool.or_eq_false_iff, Bool.not_eq_eq_eq_not, Bool.not_false] at hc
      exact hs hc
    rw [hsub, if_pos rfl]
    congr 1
    symm
    rw [decide_eq_false_iff_not]
    rintro ⟨h1, h2, _⟩
    exact hs ⟨h1, h2⟩

open Classical in
/-- acceptance by `verify_bytes` -/
theorem verifyBytes_eq [DecidableEq GT] {E : Ext G1 G2 GT} (H : HashLaws E) {pp : PubParam G1 G2}
    (S : ParamShape pp) (pf : Profile) (sig : Signature G1 G2) (pk : PublicKey G2) (msg : Bytes) :
    verifyBytes E pf sig pk pp msg = .ok (decide (Supported pp.ciphersuite ∧
      sig.ciphersuite = pp.ciphersuite ∧ E.inSub2 sig.sigma1 = true ∧ E.inSub1 sig.sigma2 = true ∧
      ∃ v, NodeAt pp.depth sig.time v ∧
        E.pairing [(-pp.g2, sig.sigma2),
          (sig.sigma1, sigPoint pp v (msgField E.sha512 pp.ciphersuite msg)), (pk.pk, pp.h)] =
          some 1)) := by
  unfold verifyBytes
  by_cases h1 : Supported pp.ciphersuite
  · rw [validCiphersuite_contains.2 h1]
    simp only [Bool.not_true, Bool.false_eq_true, if_false]
    by_cases h2 : sig.ciphersuite = pp.ciphersuite
    · rw [if_neg (by simpa using h2), hashMsg_eq H.sha_len, Res.ok_bind, verifyFr_eq S]
      simp only [h1, h2, true_and]
    · rw [if_pos h2]
      simp [h2]
  · have : validCiphersuite.contains pp.ciphersuite = false := by
      rw [← Bool.not_eq_true, validCiphersuite_contains]; exact h1
    rw [this]
    simp [h1]

end Signature

/-- the pairing equation for subgroup elements -/
theorem Spec.GroupLaws.sig_check {E : Ext G1 G2 GT} (L : GroupLaws E) {pp : PubParam G1 G2}
    (W : ParamWF E pp) {v : List Nat} {M : Fr} {p : G1} {s1 pk : G2} {a x : Nat}
    (hp : E.inSub1 p = true) (hs : s1 = a • pp.g2) (hpk : pk = x • pp.g2) :
    E.pairing [(-pp.g2, p), (s1, sigPoint pp v M), (pk, pp.h)] = some 1 ↔
      p = x • pp.h + a • sigPoint pp v M := by
  obtain ⟨g, h1, h2⟩ := L.check_iff (p := p) (F := sigPoint pp v M) (h := pp.h) (rho := a) (x := x)
    hp (L.sub1_sigPoint W v M) W.h_sub
  rw [hs, hpk, W.g2_gen, h1, Option.some_inj, h2]

namespace SecretKey

/-- the sub keys of an honest key pass the loop of `validate` -/
theorem validateLoop_true [DecidableEq GT] {E : Ext G1 G2 GT} {pf : Profile} {pk : PublicKey G2}
    {pp : PubParam G1 G2} {gl : List TimeVec} {ssk : List (SubSecretKey G1 G2)}
    (h : ∀ i (hi : i < ssk.length), ssk[i].validate E pf pk pp = .ok true ∧
      ∃ g, gl[i]? = some g ∧ g.time = ssk[i].time)
    (is : List Nat) (his : ∀ i ∈ is, i < ssk.length) :
    validateLoop E pf pk pp gl ssk is = .ok true := by
  induction is with
  | nil => rfl
  | cons i is ih =>
    have hi := his i (by simp)
    obtain ⟨h1, g, h2, h3⟩ := h i hi
    rw [validateLoop, idx_lt hi, Res.ok_bind, h1, Res.ok_bind]
    simp only [Bool.not_true, Bool.false_eq_true, if_false]
    rw [idx_eq_ok.2 h2, Res.ok_bind, if_neg (by simp [h3])]
    exact ih (fun j hj => his j (by simp [hj]))

theorem validate_honest [DecidableEq GT] {E : Ext G1 G2 GT} (L : GroupLaws E)
    {pp : PubParam G1 G2} (W : ParamWF E pp) (pf : Profile) {x : Nat} {v : List Nat}
    {sk : SecretKey G1 G2} (h : HKey pp (x • pp.h) v sk) {pk : PublicKey G2}
    (hc : pk.ciphersuite = pp.ciphersuite) (hpk : pk.pk = x • pp.g2) :
    validate E pf sk pk pp = .ok true := by
  simp only [validate]
  rw [if_neg (by simp [h.suite, hc]), h.time, init_num W.depth_le h.node]
  simp only []
  rw [gammaList_eq W.depth_le h.node]
  simp only []
  refine validateLoop_true ?_ _ (fun i hi => by simpa using hi)
  intro i hi
  have hl := h.ssk.length_eq
  have hi' : i < (gam v).length := by omega
  have hr := List.Forall₂.get h.ssk hi' hi
  simp only [List.get_eq_getElem] at hr
  obtain ⟨rho, hr⟩ := hr
  refine ⟨SubSecretKey.validate_honest L W hr hpk, tvOf pp.depth (gam v)[i], ?_, ?_⟩
  · rw [List.getElem?_map, List.getElem?_eq_getElem hi']; rfl
  · rw [hr.time_eq]; rfl

end SecretKey

/-! ### proof of possession -/

theorem text_pop : DOM_SEP_POP = text "Pixel public key POP" := by decide +kernel

theorem text_masterSalt : DOM_SEP_MASTER_KEY = text "Pixel master key" := by decide +kernel

/-- BLS verification for a public key `x·g` -/
theorem blsCoreVerify_iff [DecidableEq GT] {E : Ext G1 G2 GT} (L : GroupLaws E) {pk : G2} {x : Nat}
    (hpk : pk = x • E.gen2) (sig : G1) (m c : Bytes) :
    blsCoreVerify E pk sig m c = true ↔ sig = x • E.hashToG1 m c := by
  have hpks : E.inSub2 pk = true := by rw [hpk]; exact L.sub2_nsmul L.gen2_sub x
  have hh := L.hash_sub m c
  unfold blsCoreVerify
  by_cases hs : E.inSub1 sig = true
  · rw [hpks, hs]
    simp only [Bool.not_true, Bool.or_self, Bool.false_eq_true, if_false]
    rw [L.pairing_prod _ (by
      intro p hp
      simp only [List.mem_cons, List.not_mem_nil, or_false] at hp
      rcases hp with rfl | rfl
      · exact ⟨L.sub2_neg _ L.gen2_sub, hs⟩
      · exact ⟨hpks, hh⟩)]
    simp only [List.map_cons, List.map_nil, List.prod_cons, List.prod_nil, mul_one,
      decide_eq_true_eq]
    rw [L.pair_neg_left L.gen2_sub hs, hpk, L.pair_nsmul L.gen2_sub hh, inv_mul_eq_one]
    constructor
    · intro h
      have hx := L.sub1_nsmul hh x
      have h1 : pair E E.gen2 (sig - x • E.hashToG1 m c) = 1 := by
        rw [sub_eq_add_neg, L.pair_add_right _ _ _ L.gen2_sub hs (L.sub1_neg _ hx),
          L.pair_neg_right L.gen2_sub hx, h, mul_inv_cancel]
      exact sub_eq_zero.1 (L.pair_nondeg _ (L.sub1_sub hs hx) h1)
    · intro h; rw [h]
  · have : E.inSub1 sig = false := by simpa using hs
    rw [this]
    simp only [Bool.not_false, Bool.or_true, if_true, Bool.false_eq_true, false_iff]
    rintro rfl
    exact hs (L.sub1_nsmul hh x)

theorem PublicKey.validate_iff [DecidableEq GT] {E : Ext G1 G2 GT} (L : GroupLaws E)
    {pk : PublicKey G2} {x : Nat} (hpk : pk.pk = x • E.gen2) (pop : ProofOfPossession G1) :
    pk.validate E pop = true ↔ Supported pk.ciphersuite ∧ pop.ciphersuite = pk.ciphersuite ∧
      pop.pop = x • E.hashToG1 (text "Pixel public key POP" ++ E.encG2 true pk.pk)
        [pk.ciphersuite] := by
  unfold PublicKey.validate
  by_cases h1 : Supported pk.ciphersuite
  · rw [validCiphersuite_contains.2 h1]
    simp only [Bool.not_true, Bool.false_eq_true, if_false]
    by_cases h2 : pk.ciphersuite = pop.ciphersuite
    · rw [if_neg (by simpa using h2), text_pop, blsCoreVerify_iff L hpk]
      exact ⟨fun h => ⟨h1, h2.symm, h⟩, fun h => h.2.2⟩
    · rw [if_pos h2]
      simp [Ne.symm h2]
  · have : validCiphersuite.contains pk.ciphersuite = false := by
      rw [← Bool.not_eq_true, validCiphersuite_contains]; exact h1
    rw [this]
    simp [h1]

/-! ### key generation -/

/-- PRNG state before the master secret is drawn -/
def kgState (sha : Bytes → Bytes) (seed : Bytes) (cs : UInt8) : Prng :=
  { seed := hmac sha (DOM_SEP_MASTER_KEY ++ [cs]) seed }

/-- the master secret exponent -/
def kgSecret (sha : Bytes → Bytes) (seed : Bytes) (cs : UInt8) : Fr :=
  drawVal sha (kgState sha seed cs) (ascii "key initialization")

/-- PRNG state after the master secret is drawn -/
def kgNext (sha : Bytes → Bytes) (seed : Bytes) (cs : UInt8) : Prng :=
  drawNext sha (kgState sha seed cs) (ascii "key initialization")

theorem keygen_short {E : Ext G1 G2 GT} {pp : PubParam G1 G2} {seed : Bytes}
    (h : seed.length < 32) : keygen E seed pp = .err .seedTooShort := by
  unfold keygen; rw [if_pos h]

theorem keygen_suite {E : Ext G1 G2 GT} {pp : PubParam G1 G2} {seed : Bytes}
    (h : 32 ≤ seed.length) (hc : ¬ Supported pp.ciphersuite) :
    keygen E seed pp = .err .ciphersuite := by
  have : validCiphersuite.contains pp.ciphersuite = false := by
    rw [← Bool.not_eq_true, validCiphersuite_contains]; exact hc
  unfold keygen masterKeyGen
  simp only [this]
  rw [if_neg (by omega), if_neg (by omega)]
  rfl

theorem keygen_eq {E : Ext G1 G2 GT} (H : HashLaws E) {pp : PubParam G1 G2} (S : ParamShape pp)
    {seed : Bytes} (h : 32 ≤ seed.length) (hc : Supported pp.ciphersuite) :
    ∃ s, SubSecretKey.init pp (mulFr (kgSecret E.sha512 seed pp.ciphersuite) pp.h)
        (drawVal E.sha512 (kgNext E.sha512 seed pp.ciphersuite) (DOM_SEP_SK_INIT ++ [0, 0, 0, 1]))
        = .ok s ∧
      SubKeyFor pp (mulFr (kgSecret E.sha512 seed pp.ciphersuite) pp.h) []
        (drawVal E.sha512 (kgNext E.sha512 seed pp.ciphersuite)
          (DOM_SEP_SK_INIT ++ [0, 0, 0, 1])).val s ∧
      keygen E seed pp = .ok (
        { ciphersuite := pp.ciphersuite
          pk := mulFr (kgSecret E.sha512 seed pp.ciphersuite) pp.g2 },
        { ciphersuite := pp.ciphersuite, time := 1, ssk := [s]
          prng := drawNext E.sha512 (kgNext E.sha512 seed pp.ciphersuite)
            (DOM_SEP_SK_INIT ++ [0, 0, 0, 1]) },
        { ciphersuite := pp.ciphersuite
          pop := blsCoreSign E (kgSecret E.sha512 seed pp.ciphersuite)
            (DOM_SEP_POP ++ E.encG2 true (mulFr (kgSecret E.sha512 seed pp.ciphersuite) pp.g2))
            [pp.ciphersuite] }) := by
  have hv := validCiphersuite_contains.2 hc
  obtain ⟨s, h1, h2⟩ := SubSecretKey.init_for S
    (mulFr (kgSecret E.sha512 seed pp.ciphersuite) pp.h)
    (drawVal E.sha512 (kgNext E.sha512 seed pp.ciphersuite) (DOM_SEP_SK_INIT ++ [0, 0, 0, 1]))
  refine ⟨s, h1, h2, ?_⟩
  unfold keygen masterKeyGen PublicKey.init SecretKey.init proofOfPossession
  simp only [hv, Bool.not_true, Bool.false_eq_true, if_false]
  rw [if_neg (by omega), if_neg (by omega), init_prng_eq H.sha_len, Res.ok_bind,
    sampleThenUpdate_exec H.sha_len]
  simp only [Res.ok_bind]
  rw [sampleThenUpdate_exec H.sha_len]
  simp only [Res.ok_bind]
  have h1' := h1
  unfold kgSecret kgNext kgState at h1'
  rw [h1']
  rfl

end Pixel
