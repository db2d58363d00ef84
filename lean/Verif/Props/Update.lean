import Verif.Proof.Update
import Verif.Proof.Domain
import Verif.ToyKey

/-!
# Properties C15, C16, C22, C45: key update

Vocabulary: `Verif/Spec/Tree.lean`, `Verif/Spec/Key.lean`, `Verif/Spec/Domain.lean`.
-/

namespace Pixel.Props

open Pixel Pixel.Spec

set_option linter.unusedSectionVars false

variable {G1 G2 GT : Type} [AddCommGroup G1] [AddCommGroup G2] [CommGroup GT]

/-- the PRNG state after mixing in the caller's seed at time `t` (documented string) -/
def reseeded (sha : Bytes → Bytes) (p : Prng) (seed : Bytes) (t : Nat) : Prng :=
  (Prng.rerandomize sha seed (text "Pixel secret key rerandomize expand" ++ be32 t) p).2

/-- the PRNG state after one draw for a key update (documented string) -/
def afterDraw (sha : Bytes → Bytes) (p : Prng) : Prng :=
  (Prng.sampleThenUpdate sha (text "Pixel secret key update") p).2

/-- the states after `0, 1, 2, …` draws -/
def afterDraws (sha : Bytes → Bytes) (p : Prng) : Nat → Prng
  | 0 => p
  | k + 1 => afterDraw sha (afterDraws sha p k)

theorem reseeded_eq {sha : Bytes → Bytes} (h : ∀ m, (sha m).length = 64) (p : Prng) (seed : Bytes)
    (t : Nat) : reseeded sha p seed t = mixed sha p seed (SecretKey.reseedInfo t) := by
  unfold reseeded SecretKey.reseedInfo
  rw [text_reseed, timeBytes_eq, rerandomize_eq h]

theorem afterDraws_eq {sha : Bytes → Bytes} (h : ∀ m, (sha m).length = 64) (p : Prng) (k : Nat) :
    afterDraws sha p k = SecretKey.chain sha p k := by
  induction k with
  | zero => rfl
  | succ k ih =>
    rw [afterDraws, ih, SecretKey.chain, SecretKey.chain, Function.iterate_succ_apply', afterDraw,
      ← text_update, sampleThenUpdate_eq h]

/-! ## C15 -/

/-- C15: the complete outcome of an update of an honest key with the matching ciphersuite. -/
theorem C15_update_outcome {sha : Bytes → Bytes} (hsha : ∀ m, (sha m).length = 64) (pf : Profile)
    {pp : PubParam G1 G2} (S : ParamShape pp) {alpha : G1} {t : Nat} {sk : SecretKey G1 G2}
    (h : KeyFor pp alpha t sk) (tar : Nat) (seed : Bytes) :
    (¬ (t < tar ∧ tar ≤ 2 ^ pp.depth - 1) →
      SecretKey.update sha pf pp tar seed sk = (.err .timeStamp, sk)) ∧
    (t < tar ∧ tar ≤ 2 ^ pp.depth - 1 →
      (∃ sk', SecretKey.update sha pf pp tar seed sk = (.ok (), sk') ∧ KeyFor pp alpha tar sk') ∨
      (SecretKey.update sha pf pp tar seed sk = (.panic .assertion, sk) ∧
        ∃ k, 1 ≤ k ∧ k < pp.depth ∧
          afterDraws sha (reseeded sha sk.prng seed t) k = sk.prng)) := by
  obtain ⟨v, hv, hk⟩ := keyFor_iff.1 h
  have ht : sk.time = t := by rw [hk.time, nodeAt_num_eq hv]
  constructor
  · intro hn
    exact SecretKey.update_time S.depth_le hk.suite (by omega)
  · rintro ⟨h1, h2⟩
    have hval : ValidTime pp.depth tar := ⟨by omega, h2⟩
    have hu := path_isNode hval
    have hnt := num_path hval
    have hlt : num pp.depth v < num pp.depth (path pp.depth tar) := by
      rw [hnt, ← hk.time, ht]; exact h1
    rcases SecretKey.update_honest hsha (pf := pf) S hk hu hlt seed with ⟨sk', h3, h4⟩ | h3
    · left
      rw [hnt] at h3
      refine ⟨sk', h3, ?_⟩
      have := h4.keyFor
      rwa [h4.time, hnt] at this
    · right
      rw [hnt] at h3
      refine ⟨h3, ?_⟩
      obtain ⟨A, g, SA, sg, SB, _, _, _, _, _, h6⟩ :=
        SecretKey.update_eq hsha (pf := pf) S hk hu hlt seed
      rw [hnt, h3] at h6
      rcases h6 with ⟨_, h6⟩ | ⟨w, hw, hgw, h6⟩
      · cases (Prod.mk.inj h6).1
      · by_contra hc
        have hok := (SecretKey.freshLoop_ok_iff (sha := sha) (pp := pp) (p0 := sk.prng) (g := g)
          (s := sg) (sibs w) (mixed sha sk.prng seed (SecretKey.reseedInfo sk.time))).1 (by
            intro k hk1 hk2 hk3
            refine hc ⟨k, hk1, ?_, by rw [afterDraws_eq hsha, reseeded_eq hsha, ← ht, hk3]⟩
            have h7 := sibs_length_le w
            have h8 := hu.1
            rw [hgw, List.length_append] at h8
            omega)
        obtain ⟨l, hl, _⟩ := hok
        rw [hl] at h6
        cases (Prod.mk.inj h6).1

/-- C15: a mismatch of ciphersuites is reported, for any key, and nothing changes. -/
theorem C15_suite_mismatch (sha : Bytes → Bytes) (pf : Profile) (pp : PubParam G1 G2) (tar : Nat)
    (seed : Bytes) (sk : SecretKey G1 G2) (h : sk.ciphersuite ≠ pp.ciphersuite) :
    SecretKey.update sha pf pp tar seed sk = (.err .ciphersuite, sk) :=
  SecretKey.update_suite h

/-- C15: in a key for time `t` no sub key for an earlier time is left; the first one is for `t`. -/
theorem C15_no_past {pp : PubParam G1 G2} {alpha : G1} {t : Nat} {sk : SecretKey G1 G2}
    (h : KeyFor pp alpha t sk) :
    (∀ s ∈ sk.ssk, t ≤ s.time ∧ s.time ≤ 2 ^ pp.depth - 1) ∧
      (sk.ssk.head?.map SubSecretKey.time) = some t ∧ sk.time = t := by
  obtain ⟨v, hv, hk⟩ := keyFor_iff.1 h
  have ht := nodeAt_num_eq hv
  refine ⟨?_, ?_, by rw [hk.time, ht]⟩
  · intro s hs
    obtain ⟨a, ha, hr⟩ := forall₂_mem_right hk.ssk hs
    rw [hr.time_eq]
    refine ⟨?_, (num_bounds hr.isNode).2⟩
    rcases List.mem_cons.1 ha with rfl | ha
    · rw [ht]
    · have := gam_num_lt hk.node ha
      omega
  · cases hc : sk.ssk with
    | nil => have := hk.ssk; rw [hc] at this; cases this
    | cons a l =>
      have h1 := hk.ssk
      rw [hc] at h1
      cases h1 with
      | cons h2 _ => simp [h2.time_eq, ht]

/-! ## C16 -/

/-- C16: for every key, well formed or not, an update that returns an error or panics leaves the
key unchanged. -/
theorem C16_failed_update_atomic (sha : Bytes → Bytes) (pf : Profile) (pp : PubParam G1 G2)
    (tar : Nat) (seed : Bytes) (sk : SecretKey G1 G2)
    (h : (SecretKey.update sha pf pp tar seed sk).1 ≠ .ok ()) :
    (SecretKey.update sha pf pp tar seed sk).2 = sk := by
  refine SecretKey.update_atomic sha pf pp tar seed sk ?_
  cases hr : (SecretKey.update sha pf pp tar seed sk).1 with
  | ok u => exact absurd hr h
  | err e => rfl
  | panic p => rfl

/-! ## C22 -/

/-- C22: what a successful update of an honest key writes.  With `dlg` the sub key above the
target, `kept` the sub keys after it: either `dlg` is already the one for the target and the result
is `dlg, kept`; or the result is `first, fresh, kept` where `first` is `dlg` delegated to the target
(hence with the same `g2r`) and the `k`-th element of `fresh` is `dlg` delegated to its own time and
re-randomised with the `k`-th draw of the re-seeded PRNG. -/
theorem C22_what_update_writes {sha : Bytes → Bytes} (hsha : ∀ m, (sha m).length = 64)
    (pf : Profile) {pp : PubParam G1 G2} (S : ParamShape pp) {alpha : G1} {t tar : Nat}
    {seed : Bytes} {sk sk' : SecretKey G1 G2} (h : KeyFor pp alpha t sk)
    (hu : SecretKey.update sha pf pp tar seed sk = (.ok (), sk')) :
    ∃ old dlg kept, sk.ssk = old ++ dlg :: kept ∧
      ((dlg.time = tar ∧ sk'.ssk = dlg :: kept ∧ sk'.prng = reseeded sha sk.prng seed t) ∨
       (dlg.time < tar ∧ ∃ first fresh, sk'.ssk = first :: (fresh ++ kept) ∧
          SubSecretKey.delegate pf tar pp.depth dlg = (.ok (), first) ∧ first.g2r = dlg.g2r ∧
          (∀ k (hk : k < fresh.length), ∃ mid r,
            SubSecretKey.delegate pf fresh[k].time pp.depth dlg = (.ok (), mid) ∧
            (Prng.sampleThenUpdate sha (text "Pixel secret key update")
              (afterDraws sha (reseeded sha sk.prng seed t) k)).1 = .ok r ∧
            SubSecretKey.randomization pf pp r mid = (.ok (), fresh[k])) ∧
          sk'.prng = afterDraws sha (reseeded sha sk.prng seed t) fresh.length ∧
          fresh.length ≤ pp.depth - 1)) := by
  obtain ⟨v, hv, hk⟩ := keyFor_iff.1 h
  have ht : sk.time = t := by rw [hk.time, nodeAt_num_eq hv]
  have htime : t < tar ∧ tar ≤ 2 ^ pp.depth - 1 := by
    by_contra hc
    rw [SecretKey.update_time S.depth_le hk.suite (by omega)] at hu
    cases (Prod.mk.inj hu).1
  have hval : ValidTime pp.depth tar := ⟨by omega, htime.2⟩
  have hun := path_isNode hval
  have hnt := num_path hval
  have hlt : num pp.depth v < num pp.depth (path pp.depth tar) := by
    rw [hnt, ← hk.time, ht]; exact htime.1
  obtain ⟨A, g, SA, sg, SB, h1, h2, h3, h4, h5, h6⟩ :=
    SecretKey.update_eq hsha (pf := pf) S hk hun hlt seed
  rw [hnt, hu] at h6
  refine ⟨SA, sg, SB, h2, ?_⟩
  rcases h6 with ⟨hg, h6⟩ | ⟨w, hw, hgw, h6⟩
  · left
    have h7 := (Prod.mk.inj h6).2
    subst h7
    refine ⟨by rw [h4.time_eq, hg, hnt], rfl, ?_⟩
    rw [reseeded_eq hsha, ← ht]
  · right
    rw [hgw] at hun hnt
    obtain ⟨rho, hrho⟩ := h4
    have hdlg : sg.time < tar := by
      rw [hrho.time_eq, ← hnt]; exact num_lt_of_append hun hw
    refine ⟨hdlg, ?_⟩
    have hfl := SecretKey.freshLoop_ok_iff (sha := sha) (pp := pp) (p0 := sk.prng) (g := g)
      (s := sg) (sibs w) (mixed sha sk.prng seed (SecretKey.reseedInfo sk.time))
    by_cases hc : ∃ k, 1 ≤ k ∧ k ≤ (sibs w).length ∧
        SecretKey.chain sha (mixed sha sk.prng seed (SecretKey.reseedInfo sk.time)) k = sk.prng
    · rw [hfl.2 hc] at h6
      cases (Prod.mk.inj h6).1
    · obtain ⟨l, hl, hf⟩ := hfl.1 (fun k h1 h2 h3 => hc ⟨k, h1, h2, h3⟩)
      rw [hl] at h6
      have h7 := (Prod.mk.inj h6).2
      subst h7
      have hlen : (sibs w).length = l.length := by
        have := hf.length_eq
        simpa using this
      have hdel := hrho.delegate_eq S pf hun hw
      rw [hnt] at hdel
      refine ⟨_, l, rfl, hdel, rfl, ?_, ?_, ?_⟩
      · intro k hk'
        have hk2 : k < (sibs w).length := by omega
        have hk3 : k < (sibs w).zipIdx.length := by simpa using hk2
        have he := List.Forall₂.get hf hk3 hk'
        simp only [List.get_eq_getElem, List.getElem_zipIdx, Nat.zero_add] at he
        set x := (sibs w)[k] with hx
        have hxm : x ∈ sibs w := List.getElem_mem hk2
        have hxn : IsNode pp.depth (g ++ x) := by
          apply sibs_isNode hun
          rw [sibs_append]
          exact List.mem_append_left _ (List.mem_map_of_mem hxm)
        have hx0 : x ≠ [] := by
          obtain ⟨a, b, _, hab⟩ := mem_sibs.1 hxm
          rw [hab]; simp
        have hd1 := hrho.delegate_eq S pf hxn hx0
        have hd2 := hrho.delegated S hxn
        refine ⟨sg.delegated (num pp.depth (g ++ x)) x,
          drawVal sha (SecretKey.chain sha
            (mixed sha sk.prng seed (SecretKey.reseedInfo sk.time)) k) DOM_SEP_SK_UPDATE,
          ?_, ?_, ?_⟩
        · rw [he]; exact hd1
        · rw [← text_update, sampleThenUpdate_eq hsha, afterDraws_eq hsha, reseeded_eq hsha, ht]
        · rw [he]; exact hd2.randomization_eq S pf _
      · rw [afterDraws_eq hsha, reseeded_eq hsha, ← ht, hlen]
      · have h8 := sibs_length_le w
        have h9 := hun.1
        rw [List.length_append] at h9
        omega

/-- C22: the number of draws can be `d - 1` (not "zero or one", as a comment in the code says): the
update from time 1 to the leftmost leaf, time `d`, refreshes `d - 1` sub keys. -/
theorem C22_many_draws {sha : Bytes → Bytes} (hsha : ∀ m, (sha m).length = 64)
    (pf : Profile) {pp : PubParam G1 G2} (S : ParamShape pp) (hd2 : 2 ≤ pp.depth) {alpha : G1}
    {seed : Bytes} {sk sk' : SecretKey G1 G2} (h : KeyFor pp alpha 1 sk)
    (hu : SecretKey.update sha pf pp pp.depth seed sk = (.ok (), sk')) :
    sk.ssk.length = 1 ∧ sk'.ssk.length = pp.depth ∧
      sk'.prng = afterDraws sha (reseeded sha sk.prng seed 1) (pp.depth - 1) := by
  obtain ⟨v, hv, hk⟩ := keyFor_iff.1 h
  have hv0 : v = [] := by
    have h1 := nodeAt_num_eq hv
    have h2 : IsNode pp.depth [] := isNode_nil.2 (by omega)
    exact num_inj (nodeAt_isNode hv) h2 (by rw [h1, num_nil])
  subst hv0
  have hl1 : sk.ssk.length = 1 := by
    have := hk.ssk.length_eq
    simpa [gam] using this.symm
  -- the leftmost leaf
  have hrep : ∀ d k, k < d → IsNode d (List.replicate k 1) ∧ num d (List.replicate k 1) = k + 1 := by
    intro d k
    induction k generalizing d with
    | zero => intro hk; exact ⟨isNode_nil.2 hk, by simp⟩
    | succ k ih =>
      intro hk
      obtain ⟨d', rfl⟩ : ∃ d', d = d' + 1 := ⟨d - 1, by omega⟩
      obtain ⟨h1, h2⟩ := ih d' (by omega)
      rw [List.replicate_succ]
      refine ⟨isNode_cons.2 ⟨Or.inl rfl, h1⟩, ?_⟩
      rw [num_one, h2]; omega
  have hsib : ∀ k, (sibs (List.replicate k 1)).length = k := by
    intro k
    induction k with
    | zero => rfl
    | succ k ih => rw [List.replicate_succ, sibs_one]; simp [ih]
  obtain ⟨hn, hnum⟩ := hrep pp.depth (pp.depth - 1) (by omega)
  have hnum' : num pp.depth (List.replicate (pp.depth - 1) 1) = pp.depth := by rw [hnum]; omega
  obtain ⟨out1, out2⟩ := C15_update_outcome hsha pf S h pp.depth seed
  have hk' : KeyFor pp alpha pp.depth sk' := by
    by_cases hc : 1 < pp.depth ∧ pp.depth ≤ 2 ^ pp.depth - 1
    · rcases out2 hc with ⟨sk2, h1, h2⟩ | ⟨h1, _⟩
      · rw [hu] at h1; cases (Prod.mk.inj h1).2; exact h2
      · rw [hu] at h1; cases (Prod.mk.inj h1).1
    · have := out1 hc
      rw [hu] at this; cases (Prod.mk.inj this).1
  obtain ⟨v', hv', hk2⟩ := keyFor_iff.1 hk'
  have hv'' : v' = List.replicate (pp.depth - 1) 1 :=
    num_inj (nodeAt_isNode hv') hn (by rw [nodeAt_num_eq hv', hnum'])
  subst hv''
  have hl2 : sk'.ssk.length = pp.depth := by
    have := hk2.ssk.length_eq
    rw [← this]
    simp [gam, hsib]; omega
  refine ⟨hl1, hl2, ?_⟩
  obtain ⟨old, dlg, kept, h1, h2⟩ := C22_what_update_writes hsha pf S h hu
  have hle : old = [] ∧ kept = [] := by
    rw [h1] at hl1
    simp at hl1
    constructor
    · exact List.length_eq_zero_iff.1 (by omega)
    · exact List.length_eq_zero_iff.1 (by omega)
  obtain ⟨rfl, rfl⟩ := hle
  rcases h2 with ⟨_, h3, _⟩ | ⟨_, first, fresh, h3, _, _, _, h4, _⟩
  · rw [h3] at hl2; simp at hl2; omega
  · rw [h3] at hl2
    simp at hl2
    rw [h4]
    congr 1
    omega

/-! ## C45 -/

/-- C45: after a successful update of an honest key, the PRNG state is the old state with the
caller's seed and the old time stamp mixed in, followed by one draw per refreshed sub key. -/
theorem C45_prng_after_update {sha : Bytes → Bytes} (hsha : ∀ m, (sha m).length = 64)
    (pf : Profile) {pp : PubParam G1 G2} (S : ParamShape pp) {alpha : G1} {t tar : Nat}
    {seed : Bytes} {sk sk' : SecretKey G1 G2} (h : KeyFor pp alpha t sk)
    (hu : SecretKey.update sha pf pp tar seed sk = (.ok (), sk')) :
    ∃ k < pp.depth, sk'.prng = afterDraws sha (reseeded sha sk.prng seed t) k := by
  obtain ⟨old, dlg, kept, _, h2⟩ := C22_what_update_writes hsha pf S h hu
  have := S.depth_pos
  rcases h2 with ⟨_, _, h3⟩ | ⟨_, first, fresh, _, _, _, _, h3, h4⟩
  · exact ⟨0, by omega, h3⟩
  · exact ⟨_, by omega, h3⟩

/-- C45: the mixing step is an HMAC whose key does not depend on the seed and whose message is a
fixed string followed by the seed; so the input of the HMAC determines the seed. -/
theorem C45_seed_enters {sha : Bytes → Bytes} (hsha : ∀ m, (sha m).length = 64) (p : Prng)
    (t : Nat) :
    ∃ key pre : Bytes, pre.length = 64 ∧
      ∀ seed, (reseeded sha p seed t).seed = hmac sha key (pre ++ seed) := by
  refine ⟨okm2 sha p.seed (SecretKey.reseedInfo t), okm1 sha p.seed (SecretKey.reseedInfo t),
    okm1_length hsha _ _, fun seed => ?_⟩
  rw [reseeded_eq hsha]
  rfl

/-! ### Concrete cases -/

section Examples
open Pixel.Toy

/-- an update from time 1 to any later time of the tree of depth 5 succeeds on the concrete key -/
theorem toy_update {tar : Nat} (h1 : 1 < tar) (h2 : tar ≤ 31) :
    ∃ sk', SecretKey.update sha0 .debug (param 5 1) tar [] (sk0 5 1) = (.ok (), sk') ∧
      KeyFor (param 5 1) (3 • (param 5 1).h) tar sk' := by
  have hs : ∀ m, (sha0 m).length = 64 := hashLaws.sha_len
  have S := (param_wf sha0 (d := 5) (by omega) (by omega) 1).toParamShape
  rcases (C15_update_outcome hs .debug S (keyFor_sk0 (by omega) 1) tar []).2 ⟨h1, h2⟩ with
    h | ⟨_, k, hk1, hk2, hk3⟩
  · exact h
  · exact absurd (by rw [afterDraws_eq hs, reseeded_eq hs] at hk3; exact hk3)
      (chain_sk0 1 k hk1 hk2)

/-- C15, C22, C45: an update that delegates (1 to 9) and the one with the most draws (1 to 5) -/
example : (∃ sk', SecretKey.update sha0 .debug (param 5 1) 9 [] (sk0 5 1) = (.ok (), sk') ∧
      sk'.time = 9) ∧
    ∃ sk', SecretKey.update sha0 .debug (param 5 1) (param 5 1).depth [] (sk0 5 1) = (.ok (), sk') ∧
      sk'.ssk.length = 5 := by
  have hs : ∀ m, (sha0 m).length = 64 := hashLaws.sha_len
  have S := (param_wf sha0 (d := 5) (by omega) (by omega) 1).toParamShape
  obtain ⟨a, ha, hka⟩ := toy_update (tar := 9) (by omega) (by omega)
  obtain ⟨b, hb, hkb⟩ := toy_update (tar := (param 5 1).depth) (by decide) (by decide)
  have h5 := @C22_many_draws G G _ _ sha0 hs .debug (param 5 1) S (by decide +kernel)
    (3 • (param 5 1).h) [] (sk0 5 1) b (keyFor_sk0 (by omega) 1) hb
  exact ⟨⟨a, ha, hka.time⟩, b, hb, h5.2.1⟩

/-- C15, C16: failing updates -/
example : SecretKey.update sha0 .debug (param 5 1) 32 [] (sk0 5 1) = (.err .timeStamp, sk0 5 1) ∧
    SecretKey.update sha0 .debug (param 5 1) 1 [] (sk0 5 1) = (.err .timeStamp, sk0 5 1) ∧
    SecretKey.update sha0 .debug (param 5 0) 9 [] (sk0 5 1) = (.err .ciphersuite, sk0 5 1) := by
  have hs : ∀ m, (sha0 m).length = 64 := hashLaws.sha_len
  have S := (param_wf sha0 (d := 5) (by omega) (by omega) 1).toParamShape
  have h := fun tar => (C15_update_outcome hs .debug S (keyFor_sk0 (by omega) 1) tar []).1
  exact ⟨h 32 (by decide), h 1 (by decide), C15_suite_mismatch _ _ _ _ _ _ (by decide)⟩

end Examples

end Pixel.Props
