import Verif.Proof.PyRef
import Verif.Proof.History
import Verif.Props.Update

/-!
# The Python reference implementation against the Rust crate (C53, C54)

`/repo/pixel-python` is the implementation the test vectors of the crate are cross-checked with.  It
has one ciphersuite, 0.
-/

namespace Pixel.Props

open Pixel Pixel.Spec

set_option linter.unusedSectionVars false

variable {G1 G2 GT : Type} [AddCommGroup G1] [AddCommGroup G2] [CommGroup GT]

/-- A Rust key and a Python key with the same PRNG state and the same sub keys.  (The Python key has
no time and no ciphersuite of its own.) -/
def SameKey (sk : SecretKey G1 G2) (k : Py.Key G1 G2) : Prop :=
  k.prng = sk.prng.seed ∧ k.ssk = sk.ssk

/-- A sequence of successful Rust updates. -/
inductive Updates (sha : Bytes → Bytes) (pf : Profile) (pp : PubParam G1 G2) :
    SecretKey G1 G2 → List (Nat × Bytes) → SecretKey G1 G2 → Prop
  | nil (sk : SecretKey G1 G2) : Updates sha pf pp sk [] sk
  | cons {sk sk1 sk2 : SecretKey G1 G2} {tar : Nat} {seed : Bytes} {cs : List (Nat × Bytes)}
      (h : SecretKey.update sha pf pp tar seed sk = (.ok (), sk1))
      (hs : Updates sha pf pp sk1 cs sk2) : Updates sha pf pp sk ((tar, seed) :: cs) sk2

/-- The same sequence of calls in Python. -/
def pyUpdates (sha : Bytes → Bytes) (pp : PubParam G1 G2) (k : Py.Key G1 G2) :
    List (Nat × Bytes) → Res (Py.Key G1 G2)
  | [] => .ok k
  | (tar, seed) :: cs => do
    let k ← Py.skUpdate sha k pp tar seed
    pyUpdates sha pp k cs

theorem sameKey_iff {sk : SecretKey G1 G2} {k : Py.Key G1 G2} : SameKey sk k ↔ Py.ofRust sk = k := by
  cases k
  simp only [SameKey, Py.ofRust, Py.Key.mk.injEq]
  exact ⟨fun h => ⟨h.1.symm, h.2.symm⟩, fun h => ⟨h.1.symm, h.2.symm⟩⟩

/-! ## C53 -/

/-- C53: key generation.  For seeds the crate accepts both give the same public point, the same sub
key and the same PRNG state. -/
theorem C53_keygen_agrees {E : Ext G1 G2 GT} (H : HashLaws E) {pp : PubParam G1 G2}
    (S : ParamShape pp) (hc : pp.ciphersuite = 0) {seed : Bytes} (hl : 32 ≤ seed.length) :
    ∃ pk sk pop k, keygen E seed pp = .ok (pk, sk, pop) ∧
      Py.keyGen E.sha512 pp seed = .ok (pk.pk, k) ∧ SameKey sk k := by
  obtain ⟨s, _, h2, h3⟩ := keygen_eq H S hl (Or.inl hc)
  obtain ⟨s', h4, h5⟩ := Py.keyGen_eq H S seed
  rw [hc] at h2 h3
  have := Py.subKeyFor_unique h2 h4
  subst this
  exact ⟨_, _, _, _, h3, h5, rfl, rfl⟩

/-- C53: one update.  On equal honest keys and a later valid time the Python update succeeds; the
crate's update gives the same key, or its assertion on the PRNG state fails. -/
theorem C53_update_agrees {sha : Bytes → Bytes} (hsha : ∀ m, (sha m).length = 64) (pf : Profile)
    {pp : PubParam G1 G2} (S : ParamShape pp) {alpha : G1} {t tar : Nat} {sk : SecretKey G1 G2}
    (h : KeyFor pp alpha t sk) {k : Py.Key G1 G2} (hk : SameKey sk k) (h32 : t < 2 ^ 32)
    (h1 : t < tar) (h2 : tar ≤ 2 ^ pp.depth - 1) (seed : Bytes) :
    ∃ k', Py.skUpdate sha k pp tar seed = .ok k' ∧
      ((∃ sk', SecretKey.update sha pf pp tar seed sk = (.ok (), sk') ∧ SameKey sk' k') ∨
        SecretKey.update sha pf pp tar seed sk = (.panic .assertion, sk)) := by
  obtain ⟨v, hv, hh⟩ := keyFor_iff.1 h
  have hvt := nodeAt_num_eq hv
  have hval : ValidTime pp.depth tar := ⟨by omega, h2⟩
  have hu : num pp.depth (path pp.depth tar) = tar := num_path hval
  rw [sameKey_iff] at hk
  subst hk
  obtain ⟨k', h3, h4⟩ := Py.skUpdate_eq hsha pf S hh (path_isNode hval)
    (by rw [hu, hvt]; exact h1) (by rw [hvt]; exact h32) seed
  rw [hu] at h3 h4
  refine ⟨k', h3, ?_⟩
  rcases h4 with ⟨sk', h5, h6⟩ | h5
  · exact Or.inl ⟨sk', h5, sameKey_iff.2 h6⟩
  · exact Or.inr h5

/-- C53: signing.  From equal honest keys both make the same signature. -/
theorem C53_sign_agrees {sha : Bytes → Bytes} (hsha : ∀ m, (sha m).length = 64) (pf : Profile)
    {pp : PubParam G1 G2} (S : ParamShape pp) (hc : pp.ciphersuite = 0) {alpha : G1} {t : Nat}
    {sk : SecretKey G1 G2} (h : KeyFor pp alpha t sk) {k : Py.Key G1 G2} (hk : SameKey sk k)
    (h32 : t < 2 ^ 32) (msg : Bytes) :
    ∃ sig, Signature.signPresent sha pf t pp msg sk = (.ok sig, sk) ∧
      Py.signPresent sha k t pp msg = .ok (sig.time, sig.sigma1, sig.sigma2) ∧ sig.time = t ∧
      sig.ciphersuite = 0 := by
  obtain ⟨v, hv, hh⟩ := keyFor_iff.1 h
  have ht := h.time
  rw [sameKey_iff] at hk
  subst hk
  obtain ⟨sig, h1, h2, h3, h4⟩ := Py.signPresent_eq hsha pf S hc hh (by rw [ht]; exact h32) msg
  rw [ht] at h1 h3 h4
  refine ⟨sig, ?_, by rw [h3]; exact h4, h3, h2⟩
  unfold Signature.signPresent
  rw [SM.get_bind]
  simp only [ht, ne_eq, not_true_eq_false, if_false]
  rw [h1]
  rfl

/-- a sequence of successful updates, in both -/
theorem updates_agree {sha : Bytes → Bytes} (hsha : ∀ m, (sha m).length = 64) {pf : Profile}
    {pp : PubParam G1 G2} (S : ParamShape pp) (hd : pp.depth ≤ 32) {alpha : G1} {t : Nat}
    {sk sk' : SecretKey G1 G2} (hk : KeyFor pp alpha t sk) {k : Py.Key G1 G2} (hs : SameKey sk k)
    {cs : List (Nat × Bytes)} (hup : Updates sha pf pp sk cs sk') :
    ∃ k', pyUpdates sha pp k cs = .ok k' ∧ SameKey sk' k' ∧ KeyFor pp alpha sk'.time sk' := by
  have h32 : 2 ^ pp.depth ≤ 2 ^ 32 := Nat.pow_le_pow_right (by omega) hd
  induction hup generalizing t k with
  | nil sk => exact ⟨k, rfl, hs, by rw [hk.time]; exact hk⟩
  | @cons sk sk1 sk2 tar seed cs h _ ih =>
    have hval := hk.valid
    have hout := C15_update_outcome hsha pf S hk tar seed
    have hok : t < tar ∧ tar ≤ 2 ^ pp.depth - 1 := by
      by_contra hc
      have := hout.1 hc
      rw [h] at this
      cases (Prod.mk.inj this).1
    obtain ⟨k1, h4, h5⟩ := C53_update_agrees hsha pf S hk hs
      (by have := hval.2; omega) hok.1 hok.2 seed
    have hk1 : KeyFor pp alpha tar sk1 := by
      rcases hout.2 hok with ⟨a, ha, hka⟩ | ⟨ha, _⟩
      · rw [h] at ha
        obtain ⟨_, rfl⟩ := Prod.mk.inj ha
        exact hka
      · rw [h] at ha
        cases (Prod.mk.inj ha).1
    rcases h5 with ⟨sk1', h5, h6⟩ | h5
    · rw [h] at h5
      obtain ⟨_, rfl⟩ := Prod.mk.inj h5
      obtain ⟨k', h7, h8⟩ := ih hk1 h6
      refine ⟨k', ?_, h8⟩
      rw [pyUpdates, h4, Res.ok_bind, h7]
    · rw [h] at h5
      cases (Prod.mk.inj h5).1

/-- C53: whole histories.  From one seed, after any successful sequence of updates in the crate, the
Python code has gone through without an exception, and public key, secret key and every signature
have the same bytes in both. -/
theorem C53_history_bytes_agree {E : Ext G1 G2 GT} (H : HashLaws E) (pf : Profile)
    {pp : PubParam G1 G2} (S : ParamShape pp) (hd : pp.depth ≤ 32) (hc : pp.ciphersuite = 0)
    {seed : Bytes} {pk : PublicKey G2} {sk sk' : SecretKey G1 G2} {pop : ProofOfPossession G1}
    (hkg : keygen E seed pp = .ok (pk, sk, pop)) {cs : List (Nat × Bytes)}
    (hup : Updates E.sha512 pf pp sk cs sk') :
    ∃ pk0 k0 k b, Py.keyGen E.sha512 pp seed = .ok (pk0, k0) ∧
      pyUpdates E.sha512 pp k0 cs = .ok k ∧
      pk.serialize E true = .ok (Py.serializePk E pk0) ∧
      sk'.serialize E true = .ok b ∧ Py.serializeSk E k = .ok b ∧
      ∀ msg, ∃ sig sig0 bs, Signature.signPresent E.sha512 pf sk'.time pp msg sk' = (.ok sig, sk') ∧
        Py.signPresent E.sha512 k sk'.time pp msg = .ok sig0 ∧
        sig.serialize E true = .ok bs ∧ Py.serializeSig E sig0 = .ok bs := by
  have h32 : 2 ^ pp.depth ≤ 2 ^ 32 := Nat.pow_le_pow_right (by omega) hd
  have hlen : 32 ≤ seed.length := by
    by_contra hl
    rw [keygen_short (by omega)] at hkg; cases hkg
  obtain ⟨pk1, sk1, pop1, k0, h1, h2, h3⟩ := C53_keygen_agrees H S hc hlen
  rw [hkg] at h1
  obtain ⟨rfl, h1'⟩ := Prod.mk.inj (Res.ok.inj h1)
  obtain ⟨rfl, rfl⟩ := Prod.mk.inj h1'
  obtain ⟨x, _, hpc, hk⟩ := keygen_keyFor H S hkg
  obtain ⟨k, h4, h5, h6⟩ := updates_agree H.sha_len S hd hk h3 hup
  have hval := h6.valid
  obtain ⟨v, hv, hh⟩ := keyFor_iff.1 h6
  have hfit : sk'.ssk.length < 256 ∧
      ∀ s ∈ sk'.ssk, s.time < 2 ^ 32 ∧ s.hvector.length < 256 := by
    refine ⟨?_, ?_⟩
    · have := gam_length_le hh.node
      have := hh.ssk.length_eq
      omega
    · intro s hs
      obtain ⟨g, _, rho, hr⟩ := forall₂_mem_right hh.ssk hs
      have hb := num_bounds hr.isNode
      refine ⟨by rw [hr.time_eq]; omega, ?_⟩
      rw [hr.hvector_length S]; omega
  have hsc : sk'.ciphersuite = 0 := by rw [h6.suite, hc]
  have hser : Py.serializeSk E k = sk'.serialize E true := by
    rw [sameKey_iff] at h5
    rw [← h5]
    exact Py.serializeSk_eq E hsc hfit.1 hfit.2
  have hok : sk'.serialize E true = .ok (skLayout E true sk') := by
    rw [SecretKey.serialize_eq, validCiphersuite_contains.2 (Or.inl hsc), if_pos rfl,
      if_pos (fun s hs => Nat.le_of_lt (hfit.2 s hs).1)]
  refine ⟨_, k0, k, _, h2, h4, ?_, hok, by rw [hser, hok], fun msg => ?_⟩
  · rw [PublicKey.serialize_eq, validCiphersuite_contains.2 (Or.inl (hpc.trans hc)), if_pos rfl,
      pkLayout, hpc, hc]
    rfl
  · have ht32 : sk'.time < 2 ^ 32 := by have := hval.2; omega
    obtain ⟨sig, h7, h8, h9, h10⟩ := C53_sign_agrees H.sha_len pf S hc h6 h5 ht32 msg
    have ht : sig.time < 2 ^ 32 := by rw [h9]; exact ht32
    have hsok : sig.serialize E true = .ok (sigLayout E true sig) := by
      rw [Signature.serialize_eq, validCiphersuite_contains.2 (Or.inl h10), if_pos rfl, if_pos ht]
    exact ⟨sig, _, _, h7, h8, hsok, by rw [Py.serializeSig_eq E h10 ht, hsok]⟩

/-! ## C54 -/

/-- C54: the Python key generation accepts every seed, also those the crate refuses. -/
theorem C54_python_short_seeds {E : Ext G1 G2 GT} (H : HashLaws E) {pp : PubParam G1 G2}
    (S : ParamShape pp) {seed : Bytes} (hl : seed.length < 32) :
    keygen E seed pp = .err .seedTooShort ∧ ∃ r, Py.keyGen E.sha512 pp seed = .ok r := by
  obtain ⟨s, _, h⟩ := Py.keyGen_eq H S seed
  exact ⟨keygen_short hl, _, h⟩

/-- C54: the Python code has no end of time.  It updates a fresh key to time `2^d`, which the crate
refuses; the result holds one sub key with an empty vector, and signing with it raises an
exception. -/
theorem C54_python_time_limit {sha : Bytes → Bytes} (hsha : ∀ m, (sha m).length = 64) (pf : Profile)
    {pp : PubParam G1 G2} (S : ParamShape pp) (hd : pp.depth ≤ 31) {alpha : G1}
    {sk : SecretKey G1 G2} (h : KeyFor pp alpha 1 sk) {k : Py.Key G1 G2} (hk : SameKey sk k)
    (seed msg : Bytes) :
    SecretKey.update sha pf pp (2 ^ pp.depth) seed sk = (.err .timeStamp, sk) ∧
    ∃ k' s, Py.skUpdate sha k pp (2 ^ pp.depth) seed = .ok k' ∧ k'.ssk = [s] ∧
      s.time = 2 ^ pp.depth ∧ s.hvector = [] ∧
      (Py.signPresent sha k' (2 ^ pp.depth) pp msg).isPanic = true := by
  have hpos : 0 < 2 ^ pp.depth := Nat.two_pow_pos _
  refine ⟨(C15_update_outcome hsha pf S h _ seed).1 (by omega), ?_⟩
  rw [sameKey_iff] at hk
  subst hk
  obtain ⟨v, hv, hh⟩ := keyFor_iff.1 h
  have hnil : v = [] := by
    have h1 := nodeAt_num_eq hv
    have h2 : num pp.depth [] = 1 := num_nil _
    exact num_inj hh.node (isNode_nil.2 S.depth_pos) (h1.trans h2.symm)
  subst hnil
  obtain ⟨k', s, h1, h2, h3, h4⟩ := Py.skUpdate_max sha S hh seed
  refine ⟨k', s, h1, h2, h3, h4, ?_⟩
  unfold Py.signPresent
  have h32 : 2 ^ pp.depth < 2 ^ 32 := Nat.pow_lt_pow_right (by omega) (by omega)
  rw [h2, idx_zero_cons, Res.ok_bind, h3]
  simp only [decide_true, assertRes_true, Res.ok_bind, Py.timeToVec_max, Py.i2osp4_eq h32]
  rw [Py.nodeSum_eq (by rw [S.hlist_len]; simp), Res.ok_bind, hlist_last S, Res.ok_bind, h4]
  rfl

/-- C54: the Python update goes back in time.  For an earlier valid time it raises no exception and
returns a key whose first sub key carries the earlier time; when that time is not deeper in the tree
than the present one, this sub key is the present one with the label changed.  The crate refuses. -/
theorem C54_python_update_into_past {sha : Bytes → Bytes} (hsha : ∀ m, (sha m).length = 64)
    (pf : Profile) {pp : PubParam G1 G2} (S : ParamShape pp) {alpha : G1} {t tar : Nat}
    {sk : SecretKey G1 G2} (h : KeyFor pp alpha t sk) {k : Py.Key G1 G2} (hk : SameKey sk k)
    (h32 : t < 2 ^ 32) (h1 : 1 ≤ tar) (h2 : tar < t) (seed : Bytes) :
    SecretKey.update sha pf pp tar seed sk = (.err .timeStamp, sk) ∧
    ∃ k' s0 s l, Py.skUpdate sha k pp tar seed = .ok k' ∧ sk.ssk.head? = some s0 ∧
      s0.time = t ∧ k'.ssk = s :: l ∧ s.time = tar ∧ s.g2r = s0.g2r ∧
      ((∃ u v, NodeAt pp.depth tar u ∧ NodeAt pp.depth t v ∧ u.length ≤ v.length) →
        s = { s0 with time := tar }) := by
  refine ⟨(C15_update_outcome hsha pf S h _ seed).1 (by omega), ?_⟩
  rw [sameKey_iff] at hk
  subst hk
  obtain ⟨v, hv, hh⟩ := keyFor_iff.1 h
  have hvt := nodeAt_num_eq hv
  have hval : ValidTime pp.depth tar := ⟨h1, by have := h.valid.2; omega⟩
  have hu : num pp.depth (path pp.depth tar) = tar := num_path hval
  obtain ⟨k', s0, s, l, h3, h4, h5, h6, h7, h8⟩ := Py.skUpdate_past sha S hh (path_isNode hval)
    (by rw [hu, hvt]; exact h2) (by rw [hvt]; exact h32) seed
  rw [hu] at h3 h6 h8
  have ht0 := (C15_no_past h).2.1
  rw [h4] at ht0
  refine ⟨k', s0, s, l, h3, h4, Option.some.inj ht0, h5, h6, h7, ?_⟩
  rintro ⟨u, v', hu', hv', hle⟩
  apply h8
  have e1 : path pp.depth tar = u := num_inj (path_isNode hval) (nodeAt_isNode hu')
    (by rw [hu, nodeAt_num_eq hu'])
  have e2 : v = v' := num_inj hh.node (nodeAt_isNode hv') (by rw [hvt, nodeAt_num_eq hv'])
  rw [e1, e2]
  exact hle

/-! ## examples -/

section Examples

open Toy

/-- the PRNG states met when a fresh toy key is updated -/
theorem chain_kg : ∀ k < 5, 1 ≤ k →
    SecretKey.chain sha0 (mixed sha0 (drawNext sha0 (kgNext sha0 (List.replicate 32 7) 0)
      (DOM_SEP_SK_INIT ++ [0, 0, 0, 1])) [8] (SecretKey.reseedInfo 1)) k ≠
      drawNext sha0 (kgNext sha0 (List.replicate 32 7) 0) (DOM_SEP_SK_INIT ++ [0, 0, 0, 1]) := by
  decide +kernel

/-- C53: a history with an update that draws randomness -/
example : ∃ pk sk pop sk', keygen (ext sha0) (List.replicate 32 7) (param 5 0) = .ok (pk, sk, pop) ∧
    Updates (ext sha0).sha512 .debug (param 5 0) sk [(4, [8])] sk' ∧ sk'.time = 4 := by
  have W := param_wf sha0 (d := 5) (by omega) (by omega) 0
  have hs : ∀ m, (sha0 m).length = 64 := hashLaws.sha_len
  obtain ⟨s, _, _, h3⟩ := keygen_eq hashLaws W.toParamShape
    (seed := List.replicate 32 7) (by simp) (Or.inl rfl)
  rw [ext_sha, show (param 5 0).ciphersuite = 0 from rfl] at h3
  obtain ⟨x, _, _, hk⟩ := keygen_keyFor hashLaws W.toParamShape h3
  have main : ∀ sk : SecretKey G G, KeyFor (param 5 0) (x • (param 5 0).h) 1 sk →
      sk.prng = drawNext sha0 (kgNext sha0 (List.replicate 32 7) 0)
        (DOM_SEP_SK_INIT ++ [0, 0, 0, 1]) →
      ∃ sk', Updates sha0 .debug (param 5 0) sk [(4, [8])] sk' ∧ sk'.time = 4 := by
    intro sk hk hp
    rcases (C15_update_outcome hs .debug W.toParamShape hk 4 [8]).2 ⟨by omega, by decide⟩ with
      ⟨a, ha, hka⟩ | ⟨_, k, hk1, hk2, hk3⟩
    · exact ⟨a, .cons ha (.nil _), hka.time⟩
    · rw [afterDraws_eq hs, reseeded_eq hs, hp] at hk3
      exact absurd hk3 (chain_kg k hk2 hk1)
  obtain ⟨sk', h4, h5⟩ := main _ hk rfl
  exact ⟨_, _, _, sk', h3, h4, h5⟩

/-- C53, C54: an honest key at time 1, and its Python counterpart -/
example : KeyFor (param 5 0) (3 • (param 5 0).h) 1 (sk0 5 0) ∧
    SameKey (sk0 5 0) { prng := List.replicate 64 9, ssk := [ssk0 5] } :=
  ⟨keyFor_sk0 (by omega) 0, rfl, rfl⟩

/-- C54: going back from time 9 to time 4 and to time 1 -/
example : ∃ sk, KeyFor (param 5 1) (3 • (param 5 1).h) 9 sk ∧
    (∃ k', Py.skUpdate sha0 { prng := sk.prng.seed, ssk := sk.ssk } (param 5 1) 4 [] = .ok k') ∧
    ∃ k' s0 l, Py.skUpdate sha0 { prng := sk.prng.seed, ssk := sk.ssk } (param 5 1) 1 [] = .ok k' ∧
      sk.ssk.head? = some s0 ∧ k'.ssk = { s0 with time := 1 } :: l := by
  have hs : ∀ m, (sha0 m).length = 64 := hashLaws.sha_len
  have S := (param_wf sha0 (d := 5) (by omega) (by omega) 1).toParamShape
  obtain ⟨c, _, hkc⟩ := toy_update (tar := 9) (by omega) (by omega)
  obtain ⟨_, k1, _, _, _, h1, _⟩ := C54_python_update_into_past hs .debug S hkc
    (k := { prng := c.prng.seed, ssk := c.ssk }) ⟨rfl, rfl⟩ (by omega) (tar := 4) (by omega)
    (by omega) []
  obtain ⟨_, k2, s0, s, l, h2, h3, _, h4, _, _, h5⟩ := C54_python_update_into_past hs .debug S hkc
    (k := { prng := c.prng.seed, ssk := c.ssk }) ⟨rfl, rfl⟩ (by omega) (tar := 1) (by omega)
    (by omega) []
  have hv9 : ValidTime (param 5 1).depth 9 := ⟨by omega, by decide⟩
  have hv1 : ValidTime (param 5 1).depth 1 := ⟨by omega, by decide⟩
  have h6 := h5 ⟨path 5 1, path 5 9, nodeAt_iff.2 ⟨hv1, rfl⟩, nodeAt_iff.2 ⟨hv9, rfl⟩, by decide⟩
  exact ⟨c, hkc, ⟨k1, h1⟩, k2, s0, l, h2, h3, by rw [h4, h6]⟩

end Examples

end Pixel.Props
