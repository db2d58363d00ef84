import Verif.Proof.Update
import Verif.Proof.Domain
import Verif.Spec.Sig

/-! # Lemmas on key generation, validation, signing and verification -/

namespace Pixel

open Spec

set_option linter.unusedSectionVars false

variable {G1 G2 GT : Type} [AddCommGroup G1] [AddCommGroup G2] [CommGroup GT]

theorem natOfBytes_eq (b : Bytes) : natOfBytes b = beNat b := by
  induction b with
  | nil => rfl
  | cons x l ih =>
    have h := beNat_append [x] l
    simp only [List.singleton_append, beNat_single] at h
    rw [natOfBytes, ih, h]

theorem text_hash : DOM_SEP_HASH_TO_MSG = text "Pixel hash to message" := by decide +kernel

theorem hashMsg_eq {sha : Bytes → Bytes} (h : ∀ m, (sha m).length = 64) (msg : Bytes) (cs : UInt8) :
    hashMsgIntoFr sha msg cs = .ok (msgField sha cs msg) := by
  simp only [hashMsgIntoFr]
  rw [os2ipModP_eq (by rw [h]), text_hash, msgField, natOfBytes_eq]

theorem hlist_last {pp : PubParam G1 G2} (S : ParamShape pp) :
    idx pp.hlist pp.depth = .ok (pp.hlist.getLastD 0) := by
  have hl := S.hlist_len
  rw [idx_eq_ok, List.getLastD_eq_getLast?, List.getLast?_eq_getElem?, hl]
  simp only [Nat.add_sub_cancel]
  rw [List.getElem?_eq_getElem (by omega)]
  rfl

theorem hlist_cons {pp : PubParam G1 G2} (S : ParamShape pp) :
    ∃ h0 hs, pp.hlist = h0 :: hs ∧ hs.length = pp.depth := by
  have := S.hlist_len
  cases h : pp.hlist with
  | nil => rw [h] at this; simp at this
  | cons a l => rw [h] at this; exact ⟨a, l, rfl, by simpa using this⟩

theorem hvector_last {pp : PubParam G1 G2} (S : ParamShape pp) {alpha : G1} {v : List Nat}
    {rho : Nat} {s : SubSecretKey G1 G2} (h : SubKeyFor pp alpha v rho s) :
    s.lastHvectorCoeff = .ok (rho • pp.hlist.getLastD 0) := by
  have hl := S.hlist_len
  have hv := h.isNode.1
  have hlen := h.hvector_length S
  unfold SubSecretKey.lastHvectorCoeff
  rw [if_neg (by rw [List.isEmpty_iff]; intro hc; rw [hc] at hlen; simp at hlen; omega), idx_eq_ok,
    hlen, h.hvector, List.getElem?_map, List.getElem?_drop]
  have e : v.length + 1 + (pp.depth - v.length - 1) = pp.depth := by omega
  rw [e, idx_eq_ok.1 (hlist_last S)]
  rfl

namespace Signature

/-- `sign_fr` on a key whose first sub key has randomness `rho` -/
theorem signFr_first {pp : PubParam G1 G2} (S : ParamShape pp) (pf : Profile) {alpha : G1}
    {v : List Nat} {sk : SecretKey G1 G2} {rho : Nat} {s : SubSecretKey G1 G2}
    {l : List (SubSecretKey G1 G2)} (hs : sk.ssk = s :: l) (hk : SubKeyFor pp alpha v rho s)
    (M r : Fr) : signFr pf sk sk.time pp M r =
      .ok { ciphersuite := pp.ciphersuite, time := sk.time,
            sigma1 := rho • pp.g2 + r.val • pp.g2,
            sigma2 := alpha + (rho • sigPoint pp v M + r.val • sigPoint pp v M) } := by
  obtain ⟨h0, hl, hhl, hlen⟩ := hlist_cons S
  have hn := hk.isNode
  have hloop := nodeLoop_eq (pp := pp) (v := v) hhl hn.2 (by have := hn.1; omega)
  have hi0 : idx pp.hlist 0 = .ok h0 := by rw [hhl]; rfl
  have e : s.hpoly + mulFr M (rho • pp.hlist.getLastD 0) +
      mulFr r (nodePoint pp v + mulFr M (pp.hlist.getLastD 0)) =
      alpha + (rho • sigPoint pp v M + r.val • sigPoint pp v M) := by
    rw [hk.hpoly]
    simp only [mulFr, sigPoint, smul_add]
    rw [smul_comm M.val rho]
    abel
  rw [← e, ← hk.g2r]
  unfold signFr SecretKey.firstSsk SubSecretKey.timeVec
  simp only [decide_true, assertRes_true, Res.ok_bind, hs, List.isEmpty_cons, Bool.false_eq_true,
    if_false, idx_zero_cons]
  rw [hk.time_eq, init_num S.depth_le hn]
  simp only [Res.ok_bind, tvOf]
  rw [hi0, Res.ok_bind, hloop, Res.ok_bind, hlist_last S, Res.ok_bind, hvector_last S hk,
    Res.ok_bind]
  rfl

/-- `sign_fr` on an honest key: the randomness of the sub key is the same for all messages -/
theorem signFr_explicit {pp : PubParam G1 G2} (S : ParamShape pp) (pf : Profile) {alpha : G1}
    {v : List Nat} {sk : SecretKey G1 G2} (h : HKey pp alpha v sk) :
    ∃ rho : Nat, ∀ M r : Fr, signFr pf sk sk.time pp M r =
      .ok { ciphersuite := pp.ciphersuite, time := sk.time,
            sigma1 := rho • pp.g2 + r.val • pp.g2,
            sigma2 := alpha + (rho • sigPoint pp v M + r.val • sigPoint pp v M) } := by
  obtain ⟨s, l, hs⟩ : ∃ s l, sk.ssk = s :: l := by
    cases hc : sk.ssk with
    | nil => have := h.ssk; rw [hc] at this; cases this
    | cons a l => exact ⟨a, l, rfl⟩
  obtain ⟨rho, hk⟩ : ∃ rho, SubKeyFor pp alpha v rho s := by
    have h1 := h.ssk
    rw [hs] at h1
    cases h1 with
    | cons h2 _ => exact h2
  exact ⟨rho, signFr_first S pf hs hk⟩

/-- `sign_fr` on an honest key -/
theorem signFr_eq {pp : PubParam G1 G2} (S : ParamShape pp) (pf : Profile) {alpha : G1}
    {v : List Nat} {sk : SecretKey G1 G2} (h : HKey pp alpha v sk) (M r : Fr) :
    ∃ sig a, signFr pf sk sk.time pp M r = .ok sig ∧ SigFor pp alpha v M a sig ∧
      sig.time = sk.time := by
  obtain ⟨rho, h1⟩ := signFr_explicit S pf h
  refine ⟨_, rho + r.val, h1 M r, ⟨rfl, ?_, (add_smul _ _ _).symm, ?_⟩, rfl⟩
  · show NodeAt pp.depth sk.time v
    rw [h.time]; exact nodeAt_num h.node
  · show alpha + _ = _
    rw [add_smul]

/-- `sign_bytes` on an honest key -/
theorem signBytes_eq {sha : Bytes → Bytes} (hsha : ∀ m, (sha m).length = 64) (pf : Profile)
    {pp : PubParam G1 G2} (S : ParamShape pp) (hc : Supported pp.ciphersuite) {alpha : G1}
    {v : List Nat} {sk : SecretKey G1 G2} (h : HKey pp alpha v sk) (msg : Bytes) :
    ∃ sig a, signBytes sha pf sk sk.time pp msg = .ok sig ∧
      SigFor pp alpha v (msgField sha pp.ciphersuite msg) a sig ∧ sig.time = sk.time := by
  obtain ⟨sig, a, h1, h2⟩ := signFr_eq S pf h (msgField sha pp.ciphersuite msg)
    (drawVal sha sk.prng (signInfo msg sk.time))
  refine ⟨sig, a, ?_, h2⟩
  unfold signBytes
  simp only [validCiphersuite_contains.2 hc, Bool.not_true, Bool.false_eq_true, if_false, h.suite,
    ne_eq, not_true_eq_false, decide_true, assertRes_true, Res.ok_bind]
  rw [sample_exec hsha]
  simp only [Res.ok_bind]
  rw [hashMsg_eq hsha, Res.ok_bind, h1]

/-- `sign_bytes` on an honest key, with the randomness -/
theorem signBytes_explicit {sha : Bytes → Bytes} (hsha : ∀ m, (sha m).length = 64) (pf : Profile)
    {pp : PubParam G1 G2} (S : ParamShape pp) (hc : Supported pp.ciphersuite) {alpha : G1}
    {v : List Nat} {sk : SecretKey G1 G2} (h : HKey pp alpha v sk) :
    ∃ rho : Nat, ∀ msg, signBytes sha pf sk sk.time pp msg =
      .ok { ciphersuite := pp.ciphersuite, time := sk.time,
            sigma1 := rho • pp.g2 + (drawVal sha sk.prng (signInfo msg sk.time)).val • pp.g2,
            sigma2 := alpha + (rho • sigPoint pp v (msgField sha pp.ciphersuite msg) +
              (drawVal sha sk.prng (signInfo msg sk.time)).val •
                sigPoint pp v (msgField sha pp.ciphersuite msg)) } := by
  obtain ⟨rho, h1⟩ := signFr_explicit S pf h
  refine ⟨rho, fun msg => ?_⟩
  unfold signBytes
  simp only [validCiphersuite_contains.2 hc, Bool.not_true, Bool.false_eq_true, if_false, h.suite,
    ne_eq, not_true_eq_false, decide_true, assertRes_true, Res.ok_bind]
  rw [sample_exec hsha]
  simp only [Res.ok_bind]
  rw [hashMsg_eq hsha, Res.ok_bind, h1]

end Signature

end Pixel
