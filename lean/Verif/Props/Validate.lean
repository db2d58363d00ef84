import Verif.Proof.Validate
import Verif.Props.Sig

/-!
# Properties C48 (what validation checks) and C49 (equality)
-/

namespace Pixel.Props

open Pixel Pixel.Spec

set_option linter.unusedSectionVars false

variable {G1 G2 GT : Type} [AddCommGroup G1] [AddCommGroup G2] [CommGroup GT]

/-! ## C48 -/

/-- C48: the exact meaning of `SecretKey::validate` for a key with elements of the subgroup (for
instance a deserialised one).  It accepts iff ciphersuites and time are right and the sub keys match
a *prefix* of the cover of the time stamp, in their first two elements; it panics iff the whole
cover is matched and followed by one more sub key that is valid for whatever node it claims. -/
theorem C48_exact [DecidableEq GT] {E : Ext G1 G2 GT} (L : GroupLaws E) (pf : Profile)
    {pp : PubParam G1 G2} (W : ParamWF E pp) {pk : PublicKey G2} {x : Nat}
    (hpk : pk.pk = x • pp.g2) (sk : SecretKey G1 G2)
    (hsub : ∀ s ∈ sk.ssk, E.inSub2 s.g2r = true ∧ E.inSub1 s.hpoly = true) :
    (SecretKey.validate E pf sk pk pp = .ok true ↔
      sk.ciphersuite = pk.ciphersuite ∧ sk.ciphersuite = pp.ciphersuite ∧
      ValidTime pp.depth sk.time ∧ ∃ vs, CoverList pp.depth sk.time vs ∧
        List.Forall₂ (HeadFor pp (x • pp.h)) (vs.take sk.ssk.length) sk.ssk) ∧
    ((SecretKey.validate E pf sk pk pp).isPanic = true ↔
      sk.ciphersuite = pk.ciphersuite ∧ sk.ciphersuite = pp.ciphersuite ∧
      ValidTime pp.depth sk.time ∧ ∃ vs, CoverList pp.depth sk.time vs ∧
        List.Forall₂ (HeadFor pp (x • pp.h)) vs (sk.ssk.take vs.length) ∧
        ∃ s w, sk.ssk[vs.length]? = some s ∧ HeadFor pp (x • pp.h) w s) ∧
    (SecretKey.validate E pf sk pk pp).isErr = false := by
  obtain ⟨h1, h2⟩ := SecretKey.validate_chk E pf W.depth_le sk pk
  by_cases hc : sk.ciphersuite = pk.ciphersuite ∧ sk.ciphersuite = pp.ciphersuite ∧
      ValidTime pp.depth sk.time
  · rw [h1 hc]
    obtain ⟨c1, c2, c3⟩ := hc
    have hn : NodeAt pp.depth sk.time (path pp.depth sk.time) := nodeAt_iff.2 ⟨c3, rfl⟩
    have hcov := fun vs => coverList_iff (vs := vs) hn
    have hvs : ∀ v ∈ gam (path pp.depth sk.time), IsNode pp.depth v := by
      intro v hv
      exact gam_isNode (nodeAt_isNode hn) hv
    have e1 : (∃ vs, CoverList pp.depth sk.time vs ∧
        List.Forall₂ (HeadFor pp (x • pp.h)) (vs.take sk.ssk.length) sk.ssk) ↔
        List.Forall₂ (HeadFor pp (x • pp.h))
          ((gam (path pp.depth sk.time)).take sk.ssk.length) sk.ssk := by
      constructor
      · rintro ⟨vs, a, b⟩
        rw [(hcov vs).1 a] at b
        exact b
      · exact fun b => ⟨_, (hcov _).2 rfl, b⟩
    have e2 : (∃ vs, CoverList pp.depth sk.time vs ∧
        List.Forall₂ (HeadFor pp (x • pp.h)) vs (sk.ssk.take vs.length) ∧
        ∃ s w, sk.ssk[vs.length]? = some s ∧ HeadFor pp (x • pp.h) w s) ↔
        (List.Forall₂ (HeadFor pp (x • pp.h)) (gam (path pp.depth sk.time))
          (sk.ssk.take (gam (path pp.depth sk.time)).length) ∧
        ∃ s w, sk.ssk[(gam (path pp.depth sk.time)).length]? = some s ∧
          HeadFor pp (x • pp.h) w s) := by
      constructor
      · rintro ⟨vs, a, b⟩
        rw [(hcov vs).1 a] at b
        exact b
      · exact fun b => ⟨_, (hcov _).2 rfl, b⟩
    rw [e1, e2]
    rcases SecretKey.chk_cases L pf W hpk _ hvs sk.ssk hsub with
      ⟨a, b⟩ | ⟨a, b, c, d⟩ | ⟨a, b, c⟩
    · rw [a]
      refine ⟨⟨fun _ => ⟨c1, c2, c3, b⟩, fun _ => rfl⟩, ⟨fun h => (by cases h), ?_⟩, rfl⟩
      rintro ⟨_, _, _, _, s, w, h, _⟩
      have hlen := b.length_eq
      have := (List.getElem?_eq_some_iff.1 h).1
      rw [List.length_take] at hlen
      omega
    · rw [a]
      refine ⟨⟨fun h => (by cases h), ?_⟩, ⟨fun _ => ⟨c1, c2, c3, c, d⟩, fun _ => rfl⟩, rfl⟩
      rintro ⟨_, _, _, h⟩
      have hlen := h.length_eq
      rw [List.length_take] at hlen
      omega
    · rw [a]
      exact ⟨⟨fun h => (by cases h), fun h => absurd h.2.2.2 b⟩,
        ⟨fun h => (by cases h), fun h => absurd h.2.2.2 c⟩, rfl⟩
  · rw [h2 hc]
    refine ⟨⟨fun h => (by cases h), fun h => absurd ⟨h.1, h.2.1, h.2.2.1⟩ hc⟩,
      ⟨fun h => (by cases h), fun h => absurd ⟨h.1, h.2.1, h.2.2.1⟩ hc⟩, rfl⟩

/-- C48: a key without sub keys is accepted, at every valid time; it can neither sign nor be
updated. -/
theorem C48_empty_key [DecidableEq GT] (E : Ext G1 G2 GT) (pf : Profile)
    {pp : PubParam G1 G2} (S : ParamShape pp) (hsup : Supported pp.ciphersuite)
    (H : HashLaws E) {pk : PublicKey G2} (hc : pk.ciphersuite = pp.ciphersuite) {t : Nat}
    (ht : ValidTime pp.depth t) (p : Prng) :
    let sk : SecretKey G1 G2 := { ciphersuite := pp.ciphersuite, time := t, ssk := [], prng := p }
    SecretKey.validate E pf sk pk pp = .ok true ∧
    (∀ msg, Signature.signPresent E.sha512 pf t pp msg sk = (.err .sskEmpty, sk)) ∧
    (∀ tar seed, t < tar → tar ≤ 2 ^ pp.depth - 1 →
      SecretKey.update E.sha512 pf pp tar seed sk = (.err .sskEmpty, sk)) := by
  intro sk
  refine ⟨?_, ?_, ?_⟩
  · rw [(SecretKey.validate_chk E pf S.depth_le sk pk).1 ⟨hc.symm, rfl, ht⟩]
    cases (gam (path pp.depth sk.time)).map (tvOf pp.depth) <;> rfl
  · intro msg
    change Signature.signPresent E.sha512 pf sk.time pp msg sk = _
    rw [Signature.signPresent_eq rfl]
    unfold Signature.signBytes
    simp only [sk, validCiphersuite_contains.2 hsup, Bool.not_true, Bool.false_eq_true, if_false,
      ne_eq, not_true_eq_false, decide_true, assertRes_true, Res.ok_bind]
    rw [sample_exec H.sha_len]
    simp only [Res.ok_bind]
    rw [hashMsg_eq H.sha_len, Res.ok_bind]
    unfold Signature.signFr
    simp only [decide_true, assertRes_true, Res.ok_bind]
    rfl
  · intro tar seed h1 h2
    obtain ⟨hm1, hm2⟩ := SecretKey.maxTime_eq pf S.depth_le
    unfold SecretKey.update
    rw [SM.get_bind]
    simp only []
    rw [if_neg (by simp [sk]), hm1, SM.lift_ok_bind, hm2, SM.lift_ok_bind,
      if_neg (by simp only [sk]; omega)]
    rfl

/-- C48: any truncation of the sub-key list of an accepted key is accepted. -/
theorem C48_truncation [DecidableEq GT] (E : Ext G1 G2 GT) (pf : Profile) (pk : PublicKey G2)
    (pp : PubParam G1 G2) (hd : pp.depth ≤ 63) (sk : SecretKey G1 G2)
    (h : SecretKey.validate E pf sk pk pp = .ok true) (n : Nat) :
    SecretKey.validate E pf { sk with ssk := sk.ssk.take n } pk pp = .ok true := by
  obtain ⟨h1, h2⟩ := SecretKey.validate_chk E pf hd sk pk
  by_cases hc : sk.ciphersuite = pk.ciphersuite ∧ sk.ciphersuite = pp.ciphersuite ∧
      ValidTime pp.depth sk.time
  · rw [(SecretKey.validate_chk E pf hd { sk with ssk := sk.ssk.take n } pk).1 hc]
    rw [h1 hc] at h
    have key : ∀ (gl : List TimeVec) (ss : List (SubSecretKey G1 G2)) (n : Nat),
        SecretKey.chk E pf pk pp gl ss = .ok true →
        SecretKey.chk E pf pk pp gl (ss.take n) = .ok true := by
      intro gl ss
      induction ss generalizing gl with
      | nil => intro n _; rw [List.take_nil, SecretKey.chk]
      | cons s ss ih =>
        intro n h
        cases n with
        | zero => rw [List.take_zero, SecretKey.chk]
        | succ n =>
          rw [List.take_succ_cons]
          cases gl with
          | nil =>
            rw [SecretKey.chk] at h
            obtain ⟨b, _, h⟩ := Res.bind_eq_ok.1 h
            cases b <;> cases h
          | cons g gl =>
            rw [SecretKey.chk] at h ⊢
            obtain ⟨b, hb, h⟩ := Res.bind_eq_ok.1 h
            cases b with
            | false => cases h
            | true =>
              rw [hb, Res.ok_bind]
              simp only [Bool.not_true, Bool.false_eq_true, if_false] at h ⊢
              by_cases ht : s.time ≠ g.time
              · rw [if_pos ht] at h; cases h
              · rw [if_neg ht] at h ⊢
                exact ih gl n h
    exact key _ _ n h
  · rw [h2 hc] at h; cases h

/-- C48: `hvector` and the PRNG play no role: two keys that agree in everything else get the same
verdict. -/
theorem C48_ignores_hvector_and_prng [DecidableEq GT] (E : Ext G1 G2 GT) (pf : Profile)
    (pk : PublicKey G2) (pp : PubParam G1 G2) (hd : pp.depth ≤ 63) (sk sk' : SecretKey G1 G2)
    (hc : sk.ciphersuite = sk'.ciphersuite) (ht : sk.time = sk'.time)
    (hs : sk.ssk.map (fun s => (s.time, s.g2r, s.hpoly)) =
      sk'.ssk.map (fun s => (s.time, s.g2r, s.hpoly))) :
    SecretKey.validate E pf sk pk pp = SecretKey.validate E pf sk' pk pp := by
  obtain ⟨h1, h2⟩ := SecretKey.validate_chk E pf hd sk pk
  obtain ⟨h1', h2'⟩ := SecretKey.validate_chk E pf hd sk' pk
  rw [← hc, ← ht] at h1' h2'
  by_cases h : sk.ciphersuite = pk.ciphersuite ∧ sk.ciphersuite = pp.ciphersuite ∧
      ValidTime pp.depth sk.time
  · rw [h1 h, h1' h]
    generalize (gam (path pp.depth sk.time)).map (tvOf pp.depth) = gl
    generalize sk.ssk = l at hs
    generalize sk'.ssk = l' at hs
    induction l generalizing gl l' with
    | nil =>
      have : l' = [] := by simpa using hs.symm
      rw [this]
    | cons s l ih =>
      cases l' with
      | nil => simp at hs
      | cons s' l' =>
        simp only [List.map_cons, List.cons.injEq, Prod.mk.injEq] at hs
        obtain ⟨⟨e1, e2, e3⟩, e4⟩ := hs
        have hv : s.validate E pf pk pp = s'.validate E pf pk pp := by
          unfold SubSecretKey.validate
          rw [e1, e2, e3]
        cases gl with
        | nil => rw [SecretKey.chk, SecretKey.chk, hv]
        | cons g gl => rw [SecretKey.chk, SecretKey.chk, hv, e1, ih gl l' e4]
  · rw [h2 h, h2' h]

/-- C48: consequence: a key that validates may sign wrongly.  Whatever the last `hvector` entry `c`
of the first sub key is, signing succeeds, and the signature verifies iff `M·c = M·rho·h_d`. -/
theorem C48_validated_key_signs_wrongly [DecidableEq GT] {E : Ext G1 G2 GT} (H : HashLaws E)
    (L : GroupLaws E) (pf : Profile) {pp : PubParam G1 G2} (W : ParamWF E pp)
    (hsup : Supported pp.ciphersuite) {pk : PublicKey G2} {x rho : Nat} (hpk : pk.pk = x • pp.g2)
    {v : List Nat} {sk : SecretKey G1 G2} {s : SubSecretKey G1 G2} {l : List (SubSecretKey G1 G2)}
    (hcs : sk.ciphersuite = pp.ciphersuite) (hs : sk.ssk = s :: l) (ht : s.time = sk.time)
    (hn : NodeAt pp.depth s.time v) (hg : s.g2r = rho • pp.g2)
    (hp : s.hpoly = x • pp.h + rho • nodePoint pp v) {c : G1} (hv : s.hvector.getLast? = some c)
    (hcsub : E.inSub1 c = true) (msg : Bytes) :
    ∃ sig, Signature.signPresent E.sha512 pf sk.time pp msg sk = (.ok sig, sk) ∧
      (Signature.verifyBytes E pf sig pk pp msg = .ok true ↔
        (msgField E.sha512 pp.ciphersuite msg).val • c =
          (msgField E.sha512 pp.ciphersuite msg).val • rho • pp.hlist.getLastD 0) := by
  set M := msgField E.sha512 pp.ciphersuite msg with hM
  obtain ⟨h0, hl, hhl, hlen⟩ := hlist_cons W.toParamShape
  have hnode := nodeAt_isNode hn
  have hloop := nodeLoop_eq (pp := pp) (v := v) hhl hnode.2 (by have := hnode.1; omega)
  have hi0 : idx pp.hlist 0 = .ok h0 := by rw [hhl]; rfl
  have hlast : s.lastHvectorCoeff = .ok c := by
    unfold SubSecretKey.lastHvectorCoeff
    rw [if_neg (by rw [List.isEmpty_iff]; intro hc; rw [hc] at hv; cases hv), idx_eq_ok,
      ← List.getLast?_eq_getElem?, hv]
  let r := drawVal E.sha512 sk.prng (signInfo msg sk.time)
  let sig : Signature G1 G2 :=
    { ciphersuite := pp.ciphersuite, time := sk.time, sigma1 := s.g2r + mulFr r pp.g2,
      sigma2 := s.hpoly + mulFr M c +
        mulFr r (nodePoint pp v + mulFr M (pp.hlist.getLastD 0)) }
  have hsign : Signature.signPresent E.sha512 pf sk.time pp msg sk = (.ok sig, sk) := by
    rw [Signature.signPresent_eq rfl]
    unfold Signature.signBytes
    simp only [validCiphersuite_contains.2 hsup, Bool.not_true, Bool.false_eq_true, if_false, hcs,
      ne_eq, not_true_eq_false, decide_true, assertRes_true, Res.ok_bind]
    rw [sample_exec H.sha_len]
    simp only [Res.ok_bind]
    rw [hashMsg_eq H.sha_len, Res.ok_bind]
    unfold Signature.signFr SecretKey.firstSsk SubSecretKey.timeVec
    simp only [decide_true, assertRes_true, Res.ok_bind, hs, List.isEmpty_cons, Bool.false_eq_true,
      if_false, idx_zero_cons]
    rw [← nodeAt_num_eq hn, init_num W.depth_le hnode]
    simp only [Res.ok_bind, tvOf]
    rw [hi0, Res.ok_bind, hloop, Res.ok_bind, hlist_last W.toParamShape, Res.ok_bind, hlast,
      Res.ok_bind]
  refine ⟨sig, hsign, ?_⟩
  have hs1 : sig.sigma1 = (rho + r.val) • pp.g2 := by
    change s.g2r + mulFr r pp.g2 = _
    rw [hg, add_smul]; rfl
  have hs2 : sig.sigma2 = x • pp.h + rho • nodePoint pp v + M.val • c +
      r.val • (nodePoint pp v + M.val • pp.hlist.getLastD 0) := by
    change s.hpoly + mulFr M c + _ = _
    rw [hp]; rfl
  have hlastsub : E.inSub1 (pp.hlist.getLastD 0) = true := by
    have := hlist_last W.toParamShape
    rw [idx_eq_ok] at this
    exact W.hlist_sub _ (List.mem_of_getElem? this)
  have hsub2 : E.inSub1 sig.sigma2 = true := by
    rw [hs2]
    exact L.sub1_add _ _ (L.sub1_add _ _ (L.sub1_add _ _ (L.sub1_nsmul W.h_sub _)
      (L.sub1_nsmul (L.sub1_nodePoint W v) _)) (L.sub1_nsmul hcsub _))
      (L.sub1_nsmul (L.sub1_add _ _ (L.sub1_nodePoint W v) (L.sub1_nsmul hlastsub _)) _)
  have hs1sub : E.inSub2 sig.sigma1 = true := by
    rw [hs1, W.g2_gen]; exact L.sub2_nsmul L.gen2_sub _
  have hnt : NodeAt pp.depth sig.time v := by
    change NodeAt pp.depth sk.time v
    rw [← ht]; exact hn
  have hcheck := L.sig_check W (v := v) (M := M) hsub2 hs1 hpk
  rw [Signature.verifyBytes_eq H W.toParamShape]
  have hfin : (sig.sigma2 = x • pp.h + (rho + r.val) • sigPoint pp v M) ↔
      M.val • c = M.val • rho • pp.hlist.getLastD 0 := by
    rw [hs2, sigPoint]
    have e : x • pp.h + (rho + r.val) • (nodePoint pp v + M.val • pp.hlist.getLastD 0) =
        x • pp.h + rho • nodePoint pp v + M.val • rho • pp.hlist.getLastD 0 +
          r.val • (nodePoint pp v + M.val • pp.hlist.getLastD 0) := by
      rw [add_smul, smul_add rho, smul_comm M.val rho]
      abel
    rw [e]
    constructor
    · intro h
      exact add_left_cancel (add_right_cancel h)
    · intro h
      rw [h]
  rw [← hfin, ← hcheck]
  constructor
  · intro h
    obtain ⟨_, _, _, _, w, hw, h⟩ := @of_decide_eq_true _ (_) (Res.ok.inj h)
    have : w = v := num_inj (nodeAt_isNode hw) hnode (by
      rw [nodeAt_num_eq hw, ← nodeAt_num_eq hnt])
    rw [this] at h
    exact h
  · intro h
    exact congrArg Res.ok (@decide_eq_true _ (_) ⟨hsup, rfl, hs1sub, hsub2, v, hnt, h⟩)

/-! ## C49 -/

/-- C49: `==` on signatures looks at the two group elements only. -/
theorem C49_signature_eq [DecidableEq G1] [DecidableEq G2] (s s' : Signature G1 G2) :
    Signature.eq s s' = true ↔ s.sigma1 = s'.sigma1 ∧ s.sigma2 = s'.sigma2 := by
  simp [Signature.eq]

/-- C49: so equal signatures may verify differently: change the ciphersuite or the time of an
accepted signature. -/
theorem C49_equal_but_different_verdict [DecidableEq GT] [DecidableEq G1] [DecidableEq G2]
    {E : Ext G1 G2 GT} (H : HashLaws E) {pp : PubParam G1 G2} (S : ParamShape pp) (pf : Profile)
    {s : Signature G1 G2} {pk : PublicKey G2} {msg : Bytes}
    (h : Signature.verifyBytes E pf s pk pp msg = .ok true) :
    (Signature.eq s { s with time := 0 } = true ∧
      Signature.verifyBytes E pf { s with time := 0 } pk pp msg = .ok false ∧
      Signature.verifyBytes E pf s pk pp msg = .ok true) ∧
    ∀ c, c ≠ pp.ciphersuite → Signature.eq s { s with ciphersuite := c } = true ∧
      Signature.verifyBytes E pf { s with ciphersuite := c } pk pp msg = .ok false := by
  refine ⟨⟨(C49_signature_eq _ _).2 ⟨rfl, rfl⟩, ?_, h⟩, fun c hc =>
    ⟨(C49_signature_eq _ _).2 ⟨rfl, rfl⟩, ?_⟩⟩
  · rw [Signature.verifyBytes_eq H S]
    refine congrArg Res.ok (@decide_eq_false _ (_) ?_)
    rintro ⟨_, _, _, _, v, hv, _⟩
    exact absurd hv.1 (by simp)
  · rw [Signature.verifyBytes_eq H S]
    refine congrArg Res.ok (@decide_eq_false _ (_) ?_)
    rintro ⟨_, h2, _⟩
    exact hc h2

/-- C49: `==` on public keys is equality. -/
theorem C49_public_key_eq [DecidableEq G2] (k k' : PublicKey G2) :
    PublicKey.eq k k' = true ↔ k = k' := by
  cases k; cases k'
  simp [PublicKey.eq]

/-- C49: `==` on secret keys (whose PRNG states are 64-byte arrays) is equality. -/
theorem C49_secret_key_eq [DecidableEq G1] [DecidableEq G2] (k k' : SecretKey G1 G2)
    (h : k.prng.seed.length = 64) (h' : k'.prng.seed.length = 64) :
    SecretKey.eq k k' = true ↔ k = k' := by
  have hss : ∀ a b : SubSecretKey G1 G2, SecretKey.sskEq a b = true ↔ a = b := by
    intro a b
    cases a; cases b
    simp [SecretKey.sskEq, and_assoc]
  have hl : ∀ l l' : List (SubSecretKey G1 G2), l.length = l'.length →
      (((l.zip l').any fun p => !SecretKey.sskEq p.1 p.2) = false ↔ l = l') := by
    intro l
    induction l with
    | nil => intro l' hlen; cases l' with
      | nil => simp
      | cons a l' => simp at hlen
    | cons a l ih => intro l' hlen; cases l' with
      | nil => simp at hlen
      | cons a' l' =>
        have := ih l' (by simpa using hlen)
        rw [List.zip_cons_cons, List.any_cons, Bool.or_eq_false_iff, this, Bool.not_eq_false',
          hss, List.cons.injEq]
  unfold SecretKey.eq
  by_cases hlen : k.ssk.length = k'.ssk.length
  · rw [if_neg (by simpa using hlen)]
    have hp := Prng.eq_iff (a := k.prng) (b := k'.prng) h h'
    have := hl k.ssk k'.ssk hlen
    cases hb : (k.ssk.zip k'.ssk).any fun p => !SecretKey.sskEq p.1 p.2 with
    | false =>
      have hssk := this.1 hb
      simp only [Bool.false_eq_true, if_false, Bool.and_eq_true, decide_eq_true_eq, hp]
      constructor
      · rintro ⟨⟨h1, h2⟩, h3⟩
        cases k; cases k'
        simp_all
      · rintro rfl
        exact ⟨⟨rfl, rfl⟩, rfl⟩
    | true =>
      simp only [if_true, Bool.false_eq_true, false_iff]
      rintro rfl
      rw [this.2 rfl] at hb
      cases hb
  · rw [if_pos (by simpa using hlen)]
    simp only [Bool.false_eq_true, false_iff]
    rintro rfl
    exact hlen rfl

/-! ### Concrete cases -/

section Examples
open Pixel.Toy

/-- the public key of the concrete secret key -/
def toyPkV : PublicKey G := { ciphersuite := 1, pk := 3 • (param 5 1).g2 }

/-- C48: an accepted key whose truncation is accepted too, with the elements in the subgroup -/
example : SecretKey.validate (ext sha0) .debug (sk0 5 1) toyPkV (param 5 1) = .ok true ∧
    (∀ s ∈ (sk0 5 1).ssk, (ext sha0).inSub2 s.g2r = true ∧ (ext sha0).inSub1 s.hpoly = true) ∧
    SecretKey.validate (ext sha0) .debug { sk0 5 1 with ssk := [] } toyPkV (param 5 1) = .ok true := by
  have W := param_wf sha0 (d := 5) (by omega) (by omega) 1
  have h := SecretKey.validate_honest (groupLaws sha0) W .debug (hkey_sk0 (by omega) 1)
    (pk := toyPkV) rfl rfl
  refine ⟨h, ?_, ?_⟩
  · intro s hs
    have := KeyFor.skValid (groupLaws sha0) W (by decide) (Or.inr rfl)
      ((groupLaws sha0).sub1_nsmul W.h_sub 3) (keyFor_sk0 (by omega) 1)
    exact ⟨(this.ssk s hs).g2r, (this.ssk s hs).hpoly⟩
  · have := C48_truncation (ext sha0) .debug toyPkV (param 5 1) (by decide) _ h 0
    simpa using this

/-- C48: a validated key that signs wrongly: the last `hvector` entry replaced by 0 -/
example : ∃ (sk : SecretKey G G) (sig : Signature G G),
    SecretKey.validate (ext sha0) .debug sk toyPkV (param 5 1) = .ok true ∧
    Signature.signPresent sha0 .debug 1 (param 5 1) [1] sk = (.ok sig, sk) ∧
    Signature.verifyBytes (ext sha0) .debug sig toyPkV (param 5 1) [1] ≠ .ok true := by
  have W := param_wf sha0 (d := 5) (by omega) (by omega) 1
  have h := SecretKey.validate_honest (groupLaws sha0) W .debug (hkey_sk0 (by omega) 1)
    (pk := toyPkV) rfl rfl
  let sk' : SecretKey G G := { sk0 5 1 with ssk := [{ ssk0 5 with hvector := [0] }] }
  obtain ⟨sig, h1, h2⟩ := C48_validated_key_signs_wrongly hashLaws (groupLaws sha0) .debug W
    (Or.inr rfl) (pk := toyPkV) (x := 3) (rho := 5) (v := []) (sk := sk')
    (s := { ssk0 5 with hvector := [0] }) (l := []) (c := 0) rfl rfl rfl rfl
    (by have := nodeAt_num (isNode_nil.2 (show 1 ≤ (param 5 1).depth by decide))
        simpa [ssk0] using this) rfl rfl rfl
    ((groupLaws sha0).sub1_zero) [1]
  refine ⟨sk', sig, ?_, h1, ?_⟩
  · rw [← h]
    exact C48_ignores_hvector_and_prng (ext sha0) .debug toyPkV (param 5 1) (by decide) _ _ rfl rfl
      rfl
  · rw [Ne, h2]
    intro he
    have e : ((param 5 1).hlist.getLastD 0) = ((45 : ZMod rOrder), 0) := by decide +kernel
    rw [e] at he
    have key : ∀ N : Nat, (N : Fr).val • (0 : G) = (N : Fr).val • 5 • ((45 : ZMod rOrder), (0 : ZMod 3)) →
        (0 : ZMod rOrder) = ((N * 225 : Nat) : ZMod rOrder) := by
      intro N h
      have h1 := congrArg Prod.fst h
      simp only [smul_zero, Prod.fst_zero, Prod.smul_mk, nsmul_eq_mul, ZMod.natCast_val,
        ZMod.cast_id', id_eq] at h1
      rw [h1, Nat.cast_mul]
      norm_num
    have h3 := key _ he
    have h4 := (ZMod.natCast_eq_zero_iff _ _).1 h3.symm
    exact absurd h4 (by decide +kernel)

/-- C49: an accepted signature -/
example : ∃ sig, Signature.verifyBytes (ext sha0) .debug sig toyPkV (param 5 1) [1, 2, 3] =
    .ok true := by
  obtain ⟨sig, _, _, hv⟩ := toy_sig
  exact ⟨sig, hv⟩

end Examples

end Pixel.Props
