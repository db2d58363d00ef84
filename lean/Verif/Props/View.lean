import Verif.Proof.View
import Verif.Proof.Tests
import Verif.Props.Seed
import Verif.Props.Signer

/-!
# Property C92: what is seen of a signer depends only on the master secret and the time

Vocabulary: `Verif/Spec/View.lean`, `Verif/Spec/Prf.lean`.
-/

namespace Pixel.Props

open Pixel Pixel.Spec

set_option linter.unusedSectionVars false

variable {G1 G2 GT : Type} [AddCommGroup G1] [AddCommGroup G2] [CommGroup GT]

/-! ## C92 -/

/-- C92: with a uniform scalar for the randomness, signing with a key of master secret `x` gives every
signature that is accepted for the message, the time and the public key with the same chance, `1/r`:
exactly one scalar leads to it.  The sub keys and the history of the key do not matter. -/
theorem C92_uniform_signature [DecidableEq GT] {E : Ext G1 G2 GT} (H : HashLaws E) (L : GroupLaws E)
    (pf pf' : Profile) {pp : PubParam G1 G2} (W : ParamWF E pp) (hg : pp.g2 ≠ 0) {x : Fr} {t : Nat}
    {sk : SecretKey G1 G2} (h : KeyFor pp (x.val • pp.h) t sk) {pk : PublicKey G2}
    (hpk : pk.pk = x.val • pp.g2) {msg : Bytes} {sig : Signature G1 G2} (ht : sig.time = t)
    (ha : Signature.verifyBytes E pf' sig pk pp msg = .ok true) :
    ∃! r : Fr, Signature.signFr pf sk t pp (msgField E.sha512 pp.ciphersuite msg) r = .ok sig := by
  obtain ⟨rho, hk⟩ := keyAs_of_keyFor L W h
  obtain ⟨l, hl⟩ := hk.head
  obtain ⟨hc, v, a, hs⟩ := (C24_accept_sigFor H L W pf' sig hpk msg).1 ha
  have hv : v = path pp.depth t := by
    refine Pixel.Tests.nodeAt_unique (ht ▸ hs.node) ?_
    have := nodeAt_num (path_isNode hk.valid)
    rwa [num_path hk.valid] at this
  subst hv
  have hg2 : rOrder • pp.g2 = 0 := by rw [W.g2_gen]; exact L.sub2_order _ L.gen2_sub
  have hp : rOrder • sigPoint pp (path pp.depth t) (msgField E.sha512 pp.ciphersuite msg) = 0 :=
    L.sub1_order _ (L.sub1_sigPoint W _ _)
  have hsig : signatureOf pp x t (msgField E.sha512 pp.ciphersuite msg) (a : Fr) = sig := by
    have h1 := hs.sigma1
    have h2 := hs.sigma2
    have h3 := hs.suite
    rw [← mulFr_natCast hg2] at h1
    rw [← mulFr_natCast hp] at h2
    rcases sig with ⟨c, t', s1, s2⟩
    simp only at h1 h2 h3 ht
    rw [h1, h2, h3, ht]
    rfl
  refine ⟨(a : Fr) - rho.headD 0, ?_, fun r hr => ?_⟩
  · show Signature.signFr pf sk t pp _ _ = _
    rw [signFr_exponents L pf W hk.valid hk.time hl, add_sub_cancel, hsig]
  · have hr' : Signature.signFr pf sk t pp (msgField E.sha512 pp.ciphersuite msg) r = .ok sig := hr
    rw [signFr_exponents L pf W hk.valid hk.time hl, ← hsig] at hr'
    have h4 := congrArg Signature.sigma1 (Res.ok.inj hr')
    rw [← exponent_unique hg2 hg h4, add_sub_cancel_left]

theorem accepted_shape [DecidableEq GT] {E : Ext G1 G2 GT} (H : HashLaws E) (L : GroupLaws E)
    (pf : Profile) {pp : PubParam G1 G2} (W : ParamWF E pp) {x t : Nat} (hv : ValidTime pp.depth t)
    {pk : PublicKey G2} (hpk : pk.pk = x • pp.g2) {msg : Bytes} {sig : Signature G1 G2}
    (ht : sig.time = t) (ha : Signature.verifyBytes E pf sig pk pp msg = .ok true) :
    sig.ciphersuite = pp.ciphersuite ∧ ∃ r : Fr, sig.sigma1 = mulFr r pp.g2 ∧
      sig.sigma2 = x • pp.h +
        mulFr r (sigPoint pp (path pp.depth t) (msgField E.sha512 pp.ciphersuite msg)) := by
  obtain ⟨hc, v, a, hs⟩ := (C24_accept_sigFor H L W pf sig hpk msg).1 ha
  have hv' : v = path pp.depth t := by
    refine Pixel.Tests.nodeAt_unique (ht ▸ hs.node) ?_
    have := nodeAt_num (path_isNode hv)
    rwa [num_path hv] at this
  subst hv'
  have hg2 : rOrder • pp.g2 = 0 := by rw [W.g2_gen]; exact L.sub2_order _ L.gen2_sub
  have hp : rOrder • sigPoint pp (path pp.depth t) (msgField E.sha512 pp.ciphersuite msg) = 0 :=
    L.sub1_order _ (L.sub1_sigPoint W _ _)
  refine ⟨hs.suite, (a : Fr), ?_, ?_⟩
  · rw [mulFr_natCast hg2]; exact hs.sigma1
  · rw [mulFr_natCast hp]; exact hs.sigma2

/-- C92: an aggregate tells nothing about the signatures in it but that it is accepted: when one signer
signs with a uniform scalar, every signature that is accepted for the list of public keys is the
aggregate for exactly one scalar, whatever the signatures of the others. -/
theorem C92_aggregate [DecidableEq GT] {E : Ext G1 G2 GT} (H : HashLaws E) (L : GroupLaws E)
    (pf pf' : Profile) {pp : PubParam G1 G2} (W : ParamWF E pp) (hg : pp.g2 ≠ 0) {x : Fr} {t : Nat}
    {sk : SecretKey G1 G2} (h : KeyFor pp (x.val • pp.h) t sk) {pk : PublicKey G2}
    (hpk : pk.pk = x.val • pp.g2) (hsuite : pk.ciphersuite = pp.ciphersuite) {msg : Bytes}
    (others : List (Fr × Signature G1 G2 × PublicKey G2))
    (ho : ∀ p ∈ others, p.2.2.pk = p.1.val • pp.g2 ∧ p.2.2.ciphersuite = pp.ciphersuite ∧
      p.2.1.time = t ∧ Signature.verifyBytes E pf' p.2.1 p.2.2 pp msg = .ok true)
    {agg : Signature G1 G2} (ht : agg.time = t)
    (ha : Signature.verifyBytesAggregated E pf' agg (pk :: others.map (·.2.2)) pp msg = .ok true) :
    ∃! r : Fr, ∃ s, Signature.signFr pf sk t pp (msgField E.sha512 pp.ciphersuite msg) r = .ok s ∧
      Signature.aggregateWithoutValidate (s :: others.map (·.2.1)) = .ok agg := by
  obtain ⟨rho, hk⟩ := keyAs_of_keyFor L W h
  obtain ⟨l, hl⟩ := hk.head
  have hg2 : rOrder • pp.g2 = 0 := by rw [W.g2_gen]; exact L.sub2_order _ L.gen2_sub
  have hp : rOrder • sigPoint pp (path pp.depth t) (msgField E.sha512 pp.ciphersuite msg) = 0 :=
    L.sub1_order _ (L.sub1_sigPoint W _ _)
  rw [Signature.verifyBytesAggregated_eq E pf' agg _ pp msg (by simp) (by
    intro q hq
    rcases List.mem_cons.1 hq with rfl | hq
    · exact hsuite
    · obtain ⟨p, hp, rfl⟩ := List.mem_map.1 hq
      exact (ho p hp).2.1)] at ha
  have hsum : ((pk :: others.map (·.2.2)).map (·.pk)).sum =
      (x.val + (others.map fun p => p.1.val).sum) • pp.g2 := by
    rw [List.map_cons, List.sum_cons, hpk, add_nsmul]
    congr 1
    clear ha
    induction others with
    | nil => simp
    | cons p l ih =>
      simp only [List.map_cons, List.sum_cons, add_nsmul]
      rw [(ho p (by simp)).1]
      congr 1
      exact ih fun q hq => ho q (by simp [hq])
  obtain ⟨c1, A, a1, a2⟩ := accepted_shape H L pf' W hk.valid hsum ht ha
  obtain ⟨R, r1, r2⟩ := shares_sum (h := pp.h) hg2 hp (others.map fun p => (p.1, p.2.1)) (by
    intro q hq
    obtain ⟨p, hp', rfl⟩ := List.mem_map.1 hq
    obtain ⟨o1, o2, o3, o4⟩ := ho p hp'
    exact (accepted_shape H L pf' W hk.valid o1 o3 o4).2)
  rw [List.map_map, List.map_map] at r2
  rw [List.map_map] at r1
  have hagg : ∀ r : Fr, Signature.aggregateWithoutValidate (signatureOf pp x t
      (msgField E.sha512 pp.ciphersuite msg) r :: others.map (·.2.1)) = .ok agg ↔ r + R = A := by
    intro r
    rw [Signature.aggregate_ok_iff]
    have e1 : ((signatureOf pp x t (msgField E.sha512 pp.ciphersuite msg) r ::
        others.map (·.2.1)).map (·.sigma1)).sum = mulFr (r + R) pp.g2 := by
      rw [List.map_cons, List.sum_cons, mulFr_add hg2, ← r1, List.map_map]
      rfl
    have e2 : ((signatureOf pp x t (msgField E.sha512 pp.ciphersuite msg) r ::
        others.map (·.2.1)).map (·.sigma2)).sum =
        (x.val + (others.map fun p => p.1.val).sum) • pp.h + mulFr (r + R)
          (sigPoint pp (path pp.depth t) (msgField E.sha512 pp.ciphersuite msg)) := by
      rw [List.map_cons, List.sum_cons, mulFr_add hp, add_nsmul, List.map_map]
      refine (congrArg (_ + ·) r2).trans ?_
      show _ + mulFr r _ + _ = _
      simp only [Function.comp_def]
      abel
    rw [e1, e2, a1, a2]
    constructor
    · rintro ⟨_, _, k1, _⟩
      exact (exponent_unique hg2 hg k1).symm
    · intro hr
      rw [hr]
      refine ⟨by simp, ?_, rfl, rfl⟩
      intro e he
      rcases List.mem_cons.1 he with rfl | he
      · exact ⟨c1.symm, ht.symm⟩
      · obtain ⟨p, hp', rfl⟩ := List.mem_map.1 he
        obtain ⟨o1, o2, o3, o4⟩ := ho p hp'
        exact ⟨(accepted_shape H L pf' W hk.valid o1 o3 o4).1.trans c1.symm, o3.trans ht.symm⟩
  refine ⟨A - R - rho.headD 0, ⟨_, signFr_exponents L pf W hk.valid hk.time hl _ _, (hagg _).2 ?_⟩, ?_⟩
  · rw [add_sub_cancel, sub_add_cancel]
  · rintro r ⟨s, h1, h2⟩
    rw [signFr_exponents L pf W hk.valid hk.time hl] at h1
    cases h1
    rw [← (hagg _).1 h2]
    ring

/-- C92: someone makes a key pair from a uniform seed of at least 32 bytes, is given the public key and
the proof of possession, makes up to `u` calls of the API, sees all outcomes, panics included, and
decides on a number between 0 and 1.  The expected number exceeds the one with the ideal signer by at
most the gains of `u (d + 2) + 3` adversaries against HMAC, what HKDF-extract differs from a uniform
state for one function, and `1/2^257 + u (1/2^257 + d (1/r + 1/2^512))`. -/
theorem C92_at_most {E : Ext G1 G2 GT} (H : HashLaws E) (L : GroupLaws E) (pf : Profile)
    {pp : PubParam G1 G2} (W : ParamWF E pp) (hc : Supported pp.ciphersuite) {n : Nat} (hn : 32 ≤ n)
    (U : PublicKey G2 → ProofOfPossession G1 → Watcher G1 G2) (hb : ∀ pk pop, (U pk pop).Bounded)
    {u : Nat} (hu : ∀ pk pop, (U pk pop).Calls u) :
    seesFromSeed E pf pp n U ≤ imaginesAtAll E pp U +
      ∑ j ∈ Finset.range (u * (pp.depth + 2) + 3),
        prfGain E.sha512 (prfAttack E.sha512 (viewGame E pp U) j) +
      extractGain E.sha512 (text "Pixel master key" ++ [pp.ciphersuite]) n (seesFrom E pf pp U) +
      (1 / 2 ^ 257 + u * (1 / 2 ^ 257 + pp.depth * (1 / rOrder + 1 / 2 ^ 512))) := by
  have h1 : seesFromSeed E pf pp n U =
      avg (fun K : Digest => seesFrom E pf pp U ⟨K.bytes⟩) +
        extractGain E.sha512 (text "Pixel master key" ++ [pp.ciphersuite]) n (seesFrom E pf pp U) := by
    rw [extractGain, add_sub_cancel]
    refine avg_congr fun s => seesFromSeed_eq H pf W.toParamShape hc U ?_
    unfold Seed.bytes
    rw [natToBE_length]
    exact hn
  have h2 : avg (fun K : Digest => seesFrom E pf pp U ⟨K.bytes⟩) ≤
      realOutput E.sha512 (viewGame E pp U) := avg_mono fun K => seesFrom_le H L pf W hc U hb _
  have h3 := real_sub_ideal H.sha_len (viewGame E pp U) (viewGame_careful U) (viewGame_keys U hu)
  have h4 := viewGame_ideal (E := E) (pp := pp) U hb hu
  rw [h1, ← h3]
  unfold viewLoss at h4
  linarith

/-- C92: and it falls short of it by at most as much, with other adversaries: those of the watcher who
decides the opposite. -/
theorem C92_at_least {E : Ext G1 G2 GT} (H : HashLaws E) (L : GroupLaws E) (pf : Profile)
    {pp : PubParam G1 G2} (W : ParamWF E pp) (hc : Supported pp.ciphersuite) {n : Nat} (hn : 32 ≤ n)
    (U : PublicKey G2 → ProofOfPossession G1 → Watcher G1 G2) (hb : ∀ pk pop, (U pk pop).Bounded)
    {u : Nat} (hu : ∀ pk pop, (U pk pop).Calls u) :
    imaginesAtAll E pp U ≤ seesFromSeed E pf pp n U +
      ∑ j ∈ Finset.range (u * (pp.depth + 2) + 3),
        prfGain E.sha512 (prfAttack E.sha512 (viewGame E pp fun pk pop => (U pk pop).flip) j) +
      extractGain E.sha512 (text "Pixel master key" ++ [pp.ciphersuite]) n
        (seesFrom E pf pp fun pk pop => (U pk pop).flip) +
      (1 / 2 ^ 257 + u * (1 / 2 ^ 257 + pp.depth * (1 / rOrder + 1 / 2 ^ 512))) := by
  have h := C92_at_most H L pf W hc hn (fun pk pop => (U pk pop).flip)
    (fun pk pop => flip_bounded _ (hb pk pop)) (fun pk pop => flip_calls _ (hu pk pop))
  have h1 : (imaginesAtAll E pp fun pk pop => (U pk pop).flip) = 1 - imaginesAtAll E pp U := by
    unfold imaginesAtAll
    simp only [flip_imagines]
    exact avg_flip _
  have h2 : (seesFromSeed E pf pp n fun pk pop => (U pk pop).flip) = 1 - seesFromSeed E pf pp n U := by
    unfold seesFromSeed
    refine Eq.trans (avg_congr fun s => ?_) (avg_flip _)
    have hs : 32 ≤ s.bytes.length := by unfold Seed.bytes; rw [natToBE_length]; exact hn
    exact (seesFromSeed_eq H pf W.toParamShape hc (fun pk pop => (U pk pop).flip) hs).trans
      ((seesFrom_flip H L pf W hc U _).trans
        (congrArg _ (seesFromSeed_eq H pf W.toParamShape hc U hs).symm))
  rw [h1, h2] at h
  linarith

/-- C92: each of the adversaries asks for at most `u (2 d + 3) + 3` values. -/
theorem C92_questions {E : Ext G1 G2 GT} (H : HashLaws E) {pp : PubParam G1 G2}
    (U : PublicKey G2 → ProofOfPossession G1 → Watcher G1 G2) {u : Nat}
    (hu : ∀ pk pop, (U pk pop).Calls u) (j : Nat) :
    (prfAttack E.sha512 (viewGame E pp U) j).Asks (u * (2 * pp.depth + 3) + 3) :=
  attack_asks H.sha_len _ (viewGame_uses U hu) _

/-- C92: two keys with the same master secret and the same time, whatever their sub keys and histories,
with uniform states of their generators, look the same to everyone, up to such gains. -/
theorem C92_same_view {E : Ext G1 G2 GT} (H : HashLaws E) (L : GroupLaws E) (pf : Profile)
    {pp : PubParam G1 G2} (W : ParamWF E pp) (hc : Supported pp.ciphersuite) {x : Fr} {t : Nat}
    {rho rho' : List Fr} {sk sk' : SecretKey G1 G2} (hk : KeyAs pp x t rho sk)
    (hk' : KeyAs pp x t rho' sk') (U : Watcher G1 G2) (hb : U.Bounded) {u : Nat} (hu : U.Calls u) :
    (avg fun K : Digest => U.sees E.sha512 pf pp { sk with prng := ⟨K.bytes⟩ }) -
      (avg fun K : Digest => U.sees E.sha512 pf pp { sk' with prng := ⟨K.bytes⟩ }) ≤
      ∑ j ∈ Finset.range (u * (pp.depth + 2) + 1),
        prfGain E.sha512 (prfAttack E.sha512 (U.watch E.sha512 pp x t rho) j) +
      ∑ j ∈ Finset.range (u * (pp.depth + 2) + 1),
        prfGain E.sha512 (prfAttack E.sha512 (U.flip.watch E.sha512 pp x t rho') j) +
      2 * (u * (1 / 2 ^ 257 + pp.depth * (1 / rOrder + 1 / 2 ^ 512))) := by
  have key : ∀ {rho : List Fr} {sk : SecretKey G1 G2}, KeyAs pp x t rho sk → ∀ U : Watcher G1 G2,
      U.Bounded → U.Calls u →
      (avg fun K : Digest => U.sees E.sha512 pf pp { sk with prng := ⟨K.bytes⟩ }) ≤
        U.imagines E.sha512 pp x t [] + ∑ j ∈ Finset.range (u * (pp.depth + 2) + 1),
          prfGain E.sha512 (prfAttack E.sha512 (U.watch E.sha512 pp x t rho) j) +
        u * (1 / 2 ^ 257 + pp.depth * (1 / rOrder + 1 / 2 ^ 512)) := by
    intro rho sk hk U hb hu
    have h2 : (avg fun K : Digest => U.sees E.sha512 pf pp { sk with prng := ⟨K.bytes⟩ }) ≤
        realOutput E.sha512 (U.watch E.sha512 pp x t rho) := by
      refine avg_mono fun K => sees_le_watch H L pf W hc U hb
        (sk := { sk with prng := ⟨K.bytes⟩ }) ?_
      exact ⟨hk.suite, hk.time, hk.valid, hk.length, hk.ssk, digest_wf K⟩
    have h3 := real_sub_ideal H.sha_len (U.watch E.sha512 pp x t rho) (view_careful U t rho false)
      (view_keys U hu t rho)
    have h4 := watch_imagines (sha := E.sha512) (pp := pp) (x := x) (t := t) (rho := rho) U hb hu
      (memo := []) (tab := []) fun _ => rfl
    unfold viewLoss at h4
    rw [← h3]
    linarith
  have h1 := key hk U hb hu
  have h2 := key hk' U.flip (flip_bounded _ hb) (flip_calls _ hu)
  simp only [flip_sees, flip_imagines] at h2
  rw [avg_flip] at h2
  linarith

/-- somebody who has two messages signed at time 1 and looks whether the first components are the same -/
noncomputable def compareFirst (m m' : Bytes) : Watcher G1 G2 :=
  .call (.signPresent 1 m) fun o => .call (.signPresent 1 m') fun o' => .stop <| by
    classical exact match o, o' with
      | .ok (some s), .ok (some s') => if s.sigma1 = s'.sigma1 then 1 else 0
      | _, _ => 0

/-- C92: without a condition on the hash function the key is told from the ideal signer: with a hash
function whose values are all the same, two signatures always have the same first component; with the
ideal signer this has chance `1/r`. -/
theorem C92_weak_hash {E : Ext G1 G2 GT} (H : HashLaws E) (L : GroupLaws E) (pf : Profile)
    {pp : PubParam G1 G2} (W : ParamWF E pp) (hc : Supported pp.ciphersuite) (hg : pp.g2 ≠ 0) {n : Nat}
    (hn : 32 ≤ n) (hw : ∀ a b, E.sha512 a = E.sha512 b) {m m' : Bytes} (hm : m ≠ m') :
    seesFromSeed E pf pp n (fun _ _ => compareFirst m m') = 1 ∧
      imaginesAtAll E pp (fun _ _ => compareFirst m m') = 1 / rOrder := by
  have hg2 : rOrder • pp.g2 = 0 := by rw [W.g2_gen]; exact L.sub2_order _ L.gen2_sub
  constructor
  · unfold seesFromSeed
    refine (avg_congr fun s => ?_).trans (avg_const (α := Seed n) (1 : ℚ))
    obtain ⟨sk, k1, k2⟩ := keygen_init H W.toParamShape (seed := s.bytes)
      (by unfold Seed.bytes; rw [natToBE_length]; exact hn) hc
    obtain ⟨sk', e1, e2, e3⟩ := init_keyAs H L W hc (kgSecret E.sha512 s.bytes pp.ciphersuite)
      (kgNext E.sha512 s.bytes pp.ciphersuite)
    rw [k1] at e1
    cases e1
    rw [k2]
    have hd : signDraw E.sha512 sk.prng 1 m = signDraw E.sha512 sk.prng 1 m' := by
      rw [signDraw_eq H.sha_len, signDraw_eq H.sha_len]
      unfold drawVal okm1
      simp only [hmac]
      rw [hw _ (_ ++ E.sha512 _)]
    simp only [compareFirst, Watcher.sees, Call.run, signPresent_exponents H L pf W hc e2, hd]
    exact if_pos rfl
  · unfold imaginesAtAll
    refine (avg_congr fun x => ?_).trans (avg_const (α := Fr) (1 / rOrder : ℚ))
    simp only [compareFirst, Watcher.imagines, Call.imagine, if_true, exponent, List.lookup_nil,
      List.nil_append, List.lookup_cons, beq_eq_false_iff_ne.2 hm.symm]
    refine (avg_congr fun r => ?_).trans (avg_const (α := Fr) (1 / rOrder : ℚ))
    refine Eq.trans (avg_congr fun r' => ?_) ((avg_single r).trans ?_)
    · by_cases h : r' = r
      · subst h
        exact (if_pos rfl).trans (if_pos rfl).symm
      · exact (if_neg fun hs => h (exponent_unique hg2 hg hs).symm).trans (if_neg h).symm
    · rw [ZMod.card]

/-! ### Concrete cases -/

section Examples
open Pixel.Toy

/-- C92: a signature of the key given by hand: it is accepted, and one scalar leads to it -/
example (msg : Bytes) : ∃ sig pk, Signature.verifyBytes (ext sha0) .debug sig pk (param 5 1) msg = .ok true ∧
    ∃! r : Fr, Signature.signFr .debug (sk0 5 1) 1 (param 5 1) (msgField sha0 1 msg) r = .ok sig := by
  have W := param_wf sha0 (d := 5) (by omega) (by omega) 1
  have h3 : (3 : Fr).val = 3 := by decide +kernel
  have hk : KeyFor (param 5 1) ((3 : Fr).val • (param 5 1).h) 1 (sk0 5 1) := by
    rw [h3]; exact keyFor_sk0 (by omega) 1
  obtain ⟨sig, v, a, h1, h2, h4⟩ := Signature.signBytes_keyFor hashLaws.sha_len .debug
    W.toParamShape (Or.inr rfl) hk msg
  have hv := SigFor.verifies hashLaws (groupLaws sha0) W .debug (Or.inr rfl) h2
    (pk := ⟨1, (3 : Fr).val • (param 5 1).g2⟩) rfl
  exact ⟨sig, _, hv, C92_uniform_signature hashLaws (groupLaws sha0) .debug .debug W
    (by intro h; exact absurd (congrArg Prod.fst h) (by decide +kernel)) hk rfl h4 hv⟩

/-- C92: the same key twice: the aggregate of its signature with itself is accepted, and one scalar leads
to it -/
example (msg : Bytes) : ∃ sig agg, ∃ pk : PublicKey G,
    Signature.verifyBytesAggregated (ext sha0) .debug agg [pk, pk] (param 5 1) msg = .ok true ∧
    ∃! r : Fr, ∃ s, Signature.signFr .debug (sk0 5 1) 1 (param 5 1) (msgField sha0 1 msg) r = .ok s ∧
      Signature.aggregateWithoutValidate [s, sig] = .ok agg := by
  have W := param_wf sha0 (d := 5) (by omega) (by omega) 1
  have h3 : (3 : Fr).val = 3 := by decide +kernel
  have hk : KeyFor (param 5 1) ((3 : Fr).val • (param 5 1).h) 1 (sk0 5 1) := by
    rw [h3]; exact keyFor_sk0 (by omega) 1
  obtain ⟨sig, v, a, h1, h2, h4⟩ := Signature.signBytes_keyFor hashLaws.sha_len .debug
    W.toParamShape (Or.inr rfl) hk msg
  have hv := SigFor.verifies hashLaws (groupLaws sha0) W .debug (Or.inr rfl) h2
    (pk := ⟨1, (3 : Fr).val • (param 5 1).g2⟩) rfl
  have h5 : SigFor (param 5 1) (((3 : Fr).val + (3 : Fr).val) • (param 5 1).h) v
      (msgField sha0 1 msg) (a + a)
      ({ sig with sigma1 := sig.sigma1 + sig.sigma1, sigma2 := sig.sigma2 + sig.sigma2 }) := by
    refine ⟨h2.suite, h2.node, ?_, ?_⟩
    · simp only [h2.sigma1, add_nsmul]
    · simp only [h2.sigma2, add_nsmul]
      exact add_add_add_comm _ _ _ _
  have hv2 := SigFor.verifies hashLaws (groupLaws sha0) W .debug (Or.inr rfl) h5
    (pk := ⟨1, ((3 : Fr).val + (3 : Fr).val) • (param 5 1).g2⟩) rfl
  have hv3 : Signature.verifyBytesAggregated (ext sha0) .debug
      { sig with sigma1 := sig.sigma1 + sig.sigma1, sigma2 := sig.sigma2 + sig.sigma2 }
      [⟨1, (3 : Fr).val • (param 5 1).g2⟩, ⟨1, (3 : Fr).val • (param 5 1).g2⟩] (param 5 1) msg =
        .ok true := by
    rw [Signature.verifyBytesAggregated_eq _ _ _ _ _ _ (by simp) (by simp [param])]
    rw [List.map_cons, List.map_cons, List.map_nil, List.sum_cons, List.sum_cons, List.sum_nil,
      add_zero, ← add_nsmul]
    exact hv2
  refine ⟨sig, _, ⟨1, (3 : Fr).val • (param 5 1).g2⟩, hv3,
    C92_aggregate hashLaws (groupLaws sha0) .debug .debug W
      (by intro h; exact absurd (congrArg Prod.fst h) (by decide +kernel)) hk
      (pk := ⟨1, (3 : Fr).val • (param 5 1).g2⟩) rfl rfl
      [(3, sig, ⟨1, (3 : Fr).val • (param 5 1).g2⟩)] ?_ h4 hv3⟩
  intro p hp
  rw [List.mem_singleton.1 hp]
  exact ⟨rfl, rfl, h4, hv⟩

/-- somebody who signs at time 1, goes on to time 3, signs there twice and goes on, tosses a coin, signs
for a later time, and decides by the components of the signatures -/
noncomputable def toyWatcher (pk : PublicKey G) (_ : ProofOfPossession G) : Watcher G G :=
  .call (.signPresent 1 [1, 2]) fun o =>
    .call (.update (match o with
      | .ok (some s) => if s.sigma1 = pk.pk then 3 else 4
      | _ => 9) [7]) fun _ =>
    .call (.signThenUpdate 4 [3] [8]) fun _ => .call (.signPresent 5 [3]) fun o' =>
    .toss 2 (by omega) fun c => .call (.sign (9 + c.val) [] [9]) fun _ => .stop (match o, o' with
      | .ok (some s), .ok (some s') => if s.sigma2 = s'.sigma2 then 1 else 1 / 3
      | .panic _, _ => 1
      | _, _ => 0)

theorem toyWatcher_ok (pk : PublicKey G) (pop : ProofOfPossession G) :
    (toyWatcher pk pop).Bounded ∧ (toyWatcher pk pop).Calls 5 := by
  refine ⟨fun o _ _ o' _ _ => ?_, ⟨by omega, fun _ => ⟨by omega, fun _ => ⟨by omega, fun _ =>
    ⟨by omega, fun _ _ => ⟨by omega, fun _ => trivial⟩⟩⟩⟩⟩⟩
  show 0 ≤ _ ∧ _ ≤ _
  split <;> (try split_ifs) <;> norm_num

/-- C92: the hypotheses are met by this watcher -/
example : seesFromSeed (ext sha0) .debug (param 5 1) 32 toyWatcher ≤
    imaginesAtAll (ext sha0) (param 5 1) toyWatcher +
    ∑ j ∈ Finset.range (5 * (5 + 2) + 3), prfGain (ext sha0).sha512
      (prfAttack (ext sha0).sha512 (viewGame (ext sha0) (param 5 1) toyWatcher) j) +
    extractGain (ext sha0).sha512 (text "Pixel master key" ++ [1]) 32
      (seesFrom (ext sha0) .debug (param 5 1) toyWatcher) +
    (1 / 2 ^ 257 + (5 : Nat) * (1 / 2 ^ 257 + (5 : Nat) * (1 / rOrder + 1 / 2 ^ 512))) :=
  C92_at_most hashLaws (groupLaws sha0) .debug (param_wf sha0 (d := 5) (by omega) (by omega) 1)
    (Or.inr rfl) (by omega) toyWatcher (fun pk pop => (toyWatcher_ok pk pop).1) (u := 5)
    (fun pk pop => (toyWatcher_ok pk pop).2)

/-- a key at time 2 with the given exponents -/
def keyAtTwo (rho : List Fr) : SecretKey G G where
  ciphersuite := 1
  time := 2
  ssk := keysOf (param 5 1) 3 2 rho
  prng := ⟨List.replicate 64 9⟩

/-- C92: two keys of the same master secret with different sub keys -/
example : KeyAs (param 5 1) 3 2 [5, 6] (keyAtTwo [5, 6]) ∧ KeyAs (param 5 1) 3 2 [8, 0] (keyAtTwo [8, 0]) ∧
    (keyAtTwo [5, 6]).ssk ≠ (keyAtTwo [8, 0]).ssk := by
  have hv : ValidTime (param 5 1).depth 2 := by unfold ValidTime; decide
  have hl : (coverTimes (param 5 1).depth 2).length = 2 := by decide +kernel
  refine ⟨⟨rfl, rfl, hv, hl.symm, rfl, ?_⟩, ⟨rfl, rfl, hv, hl.symm, rfl, ?_⟩, ?_⟩
  · simp [keyAtTwo, Prng.WF]
  · simp [keyAtTwo, Prng.WF]
  · intro h
    have := congrArg (fun l => (l.map fun s => s.g2r.1).headD 0) h
    revert this
    decide +kernel

/-- C92: the constant hash -/
example : seesFromSeed (ext fun _ => List.replicate 64 0) .release (param 5 1) 40
      (fun _ _ => compareFirst [1] []) = 1 ∧
    imaginesAtAll (ext fun _ => List.replicate 64 0) (param 5 1)
      (fun _ _ => compareFirst [1] []) = 1 / rOrder :=
  C92_weak_hash (E := ext fun _ => List.replicate 64 0) ⟨fun _ => by simp [ext]⟩ (groupLaws _) .release
    (param_wf _ (d := 5) (by omega) (by omega) 1) (Or.inr rfl)
    (by intro h; exact absurd (congrArg Prod.fst h) (by decide +kernel)) (by omega) (fun _ _ => rfl)
    (by simp)

end Examples

end Pixel.Props
