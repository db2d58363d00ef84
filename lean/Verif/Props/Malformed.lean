import Verif.Proof.Malformed
import Verif.Props.Validate
import Verif.Props.Serdes

/-!
# Property C103: updates of secret keys that did not come from key generation

Vocabulary: `Verif/Spec/Malformed.lean`.
-/

namespace Pixel.Props

open Pixel Pixel.Spec

set_option linter.unusedSectionVars false

variable {G1 G2 GT : Type} [AddCommGroup G1] [AddCommGroup G2] [CommGroup GT]

/-! ## C103 -/

/-- C103: whatever the time stamps and the group elements of a key are, and in whatever order its sub
keys come: if each sub key has as many elements as there are levels below it, an update never indexes
out of range.  The only panic left is the assertion that the PRNG moved on. -/
theorem C103_right_lengths {sha : Bytes → Bytes} (hsha : ∀ m, (sha m).length = 64) (pf : Profile)
    {pp : PubParam G1 G2} (S : ParamShape pp) {sk : SecretKey G1 G2} (hl : RightLengths pp sk)
    (tar : Nat) (seed : Bytes) {p : Panic}
    (h : (SecretKey.update sha pf pp tar seed sk).1 = .panic p) : p = .assertion :=
  SecretKey.update_only hsha pf S sk hl tar seed p h

/-- C103: how an update ends for a key that has the right times, but otherwise any content.  All that
counts is the number `n` of elements of the sub key `s` above the target.  Let `g` be its node and
`g ++ w` the one of the target.
* If `s` is for the target itself, the update succeeds.
* If `n` is less than the number of levels from `s` to the target, it panics.
* If `n` is more than the number of levels below `s`, and there is something to draw, it panics.
* Otherwise it succeeds unless the state of the PRNG comes back, and gives a key with the right times.
A panic leaves the key alone, and there are no errors. -/
theorem C103_exact {sha : Bytes → Bytes} (hsha : ∀ m, (sha m).length = 64) (pf : Profile)
    {pp : PubParam G1 G2} (S : ParamShape pp) {t tar : Nat} {sk : SecretKey G1 G2}
    (h : TimesFor pp t sk) (h1 : t < tar) (h2 : tar ≤ 2 ^ pp.depth - 1) (seed : Bytes) :
    ∃ s ∈ sk.ssk, ∃ g w, NodeAt pp.depth s.time g ∧ NodeAt pp.depth tar (g ++ w) ∧
      (w = [] → ∃ sk', SecretKey.update sha pf pp tar seed sk = (.ok (), sk') ∧
        TimesFor pp tar sk') ∧
      (s.hvector.length < w.length →
        SecretKey.update sha pf pp tar seed sk = (.panic .index, sk)) ∧
      (w ≠ [] → w.length ≤ s.hvector.length →
        pp.depth < g.length + s.hvector.length → 0 < drawsNeeded pp.depth t tar →
        SecretKey.update sha pf pp tar seed sk =
          (.panic (if afterDraws sha (reseeded sha sk.prng seed t) 1 = sk.prng then .assertion
            else .index), sk)) ∧
      (w ≠ [] → w.length ≤ s.hvector.length →
        g.length + s.hvector.length ≤ pp.depth ∨ drawsNeeded pp.depth t tar = 0 →
        (ComesBack sha pp.depth sk.prng seed t tar →
          SecretKey.update sha pf pp tar seed sk = (.panic .assertion, sk)) ∧
        (¬ ComesBack sha pp.depth sk.prng seed t tar →
          ∃ sk', SecretKey.update sha pf pp tar seed sk = (.ok (), sk') ∧ TimesFor pp tar sk')) := by
  obtain ⟨v, hv, hk⟩ := SecretKey.timesFor_iff.1 h
  have ht : sk.time = t := h.time
  have hval : ValidTime pp.depth tar := ⟨by omega, h2⟩
  have hun := path_isNode hval
  have hnt := num_path hval
  have hvt : num pp.depth v = t := by rw [← hk.time, ht]
  have hvn := nodeAt_isNode hv
  have htarN : NodeAt pp.depth tar (path pp.depth tar) := nodeAt_iff.2 ⟨hval, rfl⟩
  obtain ⟨A, g, SA, sg, SB, a1, a2, hgn, hst, a5, a6⟩ :=
    SecretKey.update_raw hsha (pf := pf) S hk hun (by rw [hnt, hvt]; exact h1) seed
  have hgN : NodeAt pp.depth sg.time g := by rw [hst]; exact nodeAt_num hgn
  rw [hnt] at a6
  refine ⟨sg, by rw [a2]; simp, g, ?_⟩
  rcases a6 with ⟨hg, a6⟩ | ⟨w, hw, hgw, b1, b2⟩
  · refine ⟨[], hgN, by rw [List.append_nil, hg]; exact htarN, fun _ => ⟨_, a6, ?_⟩, fun hc => ?_,
      fun hc => absurd rfl hc, fun hc => absurd rfl hc⟩
    · refine SecretKey.timesFor_iff.2 ⟨_, htarN, hk.suite, hnt.symm, hun, mixed_wf hsha _ _ _, ?_⟩
      rw [← hg]
      exact .cons ⟨hgn, hst⟩ a5
    · simp at hc
  · have hd0 := drawsNeeded_below hvn (hgw ▸ hun) hw a1
    rw [← hgw, hnt, hvt] at hd0
    have hcb : ComesBack sha pp.depth sk.prng seed t tar ↔ ∃ k, 1 ≤ k ∧ k ≤ (sibs w).length ∧
        SecretKey.chain sha (mixed sha sk.prng seed (SecretKey.reseedInfo sk.time)) k = sk.prng := by
      unfold ComesBack
      rw [hd0]
      simp only [afterDraws_eq hsha, reseeded_eq hsha, ht]
    refine ⟨w, hgN, by rw [← hgw]; exact htarN, fun hc => absurd hc hw, b1, fun _ c1 c2 c3 => ?_,
      fun _ c1 c2 => ?_⟩
    · rw [(b2 c1).2 c2 (by intro hc; rw [hc] at hd0; simp at hd0; omega), afterDraws_eq hsha,
        reseeded_eq hsha, ht]
      rfl
    · have e := (b2 c1).1 (c2.imp id fun hc => List.length_eq_zero_iff.1 (by rw [← hd0]; exact hc))
      have hfl := SecretKey.freshLoop_ok_iff (sha := sha) (pp := pp) (p0 := sk.prng) (g := g)
        (s := sg) (sibs w) (mixed sha sk.prng seed (SecretKey.reseedInfo sk.time))
      rw [hcb]
      refine ⟨fun hc => ?_, fun hc => ?_⟩
      · rw [e, hfl.2 hc]
        rfl
      · obtain ⟨l, hl, _⟩ := hfl.1 (fun k h1 h2 h3 => hc ⟨k, h1, h2, h3⟩)
        rw [hl] at e
        refine ⟨_, e, SecretKey.timesFor_iff.2 ⟨_, htarN, hk.suite, hnt.symm, hun, ?_, ?_⟩⟩
        · exact SecretKey.freshLoop_wf hsha (mixed_wf hsha _ _ _) hl
        · have hall : ∀ x ∈ sibs w, IsNode pp.depth (g ++ x) := by
            intro x hx
            apply sibs_isNode (hgw ▸ hun)
            rw [sibs_append]
            exact List.mem_append_left _ (List.mem_map_of_mem hx)
          rw [hgw, gam, sibs_append]
          refine .cons ⟨hgw ▸ hun, ?_⟩ (SecretKey.forall₂_raw (SecretKey.freshLoop_raw hl) ?_ a5)
          · rw [← hgw, hnt]
            rfl
          · intro b hb
            obtain ⟨x, hx, rfl⟩ := List.mem_map.1 hb
            exact hall x hx

/-- C103: how an update ends for a key with valid times and the right lengths, but sub keys for any times
in any order.  The sub key `s` that is used is the first one with the time of the last one not after
the target; `B` are the sub keys after it.
* If `s` is for the target, `s` and `B` are kept.
* Otherwise the times of a key for the target are gone through in order, up to the first that occurs in
  `B`.  If all of them lie below `s`, the result has sub keys for these times, and then `B`; the time of
  the key is the one of its first sub key, which need not be the target.
* If one of them does not lie below `s`, the update reports that, and the key stays as it was.
In the last two cases the assertion on the PRNG may panic instead. -/
theorem C103_any_times {sha : Bytes → Bytes} (hsha : ∀ m, (sha m).length = 64) (pf : Profile)
    {pp : PubParam G1 G2} (S : ParamShape pp) {sk : SecretKey G1 G2} (hl : RightLengths pp sk)
    (hv : ∀ s ∈ sk.ssk, ValidTime pp.depth s.time) (hc : sk.ciphersuite = pp.ciphersuite) {tar : Nat}
    (h1 : sk.time < tar) (h2 : tar ≤ 2 ^ pp.depth - 1)
    (h3 : ∃ s ∈ sk.ssk.head?, s.time < tar) (seed : Bytes) :
    ∃ A s B, sk.ssk = A ++ s :: B ∧ (∀ a ∈ A, a.time ≠ s.time) ∧
      (∃ C x D, sk.ssk = C ++ x :: D ∧ x.time = s.time ∧ x.time ≤ tar ∧ ∀ y ∈ D, tar < y.time) ∧
      (s.time = tar → ∃ sk', SecretKey.update sha pf pp tar seed sk = (.ok (), sk') ∧
        sk'.time = tar ∧ sk'.ssk = s :: B) ∧
      (s.time ≠ tar → (∀ t ∈ upTo pp.depth tar (B.map (·.time)), Below pp.depth s.time t) →
        (∃ sk' new, SecretKey.update sha pf pp tar seed sk = (.ok (), sk') ∧
          sk'.ssk = new ++ B ∧ new.map (·.time) = upTo pp.depth tar (B.map (·.time)) ∧
          sk'.ssk.head?.map (·.time) = some sk'.time) ∨
        SecretKey.update sha pf pp tar seed sk = (.panic .assertion, sk)) ∧
      (s.time ≠ tar → (¬ ∀ t ∈ upTo pp.depth tar (B.map (·.time)), Below pp.depth s.time t) →
        SecretKey.update sha pf pp tar seed sk = (.err .timeNonePrefix, sk) ∨
        SecretKey.update sha pf pp tar seed sk = (.panic .assertion, sk)) := by
  have hd := S.depth_le
  have hval : ValidTime pp.depth tar := ⟨by omega, h2⟩
  have hu := path_isNode hval
  obtain ⟨s0, hs0, h0⟩ := h3
  obtain ⟨C, x, D, hCD, hx, hD⟩ := SecretKey.exists_last (tar := tar) sk.ssk
    ⟨s0, List.mem_of_mem_head? hs0, by omega⟩
  have hfa : SecretKey.findAncestor sk tar = .ok x.time := SecretKey.findAncestor_eq hCD hx hD (by
    intro s hs
    rw [Option.mem_def.1 hs0] at hs
    cases hs
    exact h0)
  obtain ⟨A, s, B, hAB, hst, hA, hdrop⟩ := SecretKey.dropUntil_first (t := x.time) sk.ssk
    ⟨x, by rw [hCD]; simp, rfl⟩
  have hcov : coverTimes pp.depth tar = (gam (path pp.depth tar)).map (num pp.depth) := by
    rw [← coverTimes_num hu, num_path hval]
  obtain ⟨l1, l2⟩ := SecretKey.updateLoop_any hsha (pf := pf) S (p0 := sk.prng)
    (hl s (by rw [hAB]; simp)) (hv s (by rw [hAB]; simp)) B
    (fun b hb => hv b (by rw [hAB]; simp [hb])) (gam (path pp.depth tar))
    (fun u hu' => gam_isNode hu hu') [] 0 rfl
    { ciphersuite := sk.ciphersuite, time := x.time, ssk := s :: B,
      prng := mixed sha sk.prng seed (SecretKey.reseedInfo sk.time) } rfl
    (upTo pp.depth tar (B.map (·.time))) (by rw [← hcov]; rfl)
  have hrun : x.time ≠ tar → SecretKey.update sha pf pp tar seed sk =
      (SM.lift (SecretKey.updateLoop sha pf pp sk.prng 0
        ((gam (path pp.depth tar)).map (tvOf pp.depth))
        { ciphersuite := sk.ciphersuite, time := x.time, ssk := s :: B,
          prng := mixed sha sk.prng seed (SecretKey.reseedInfo sk.time) }) >>= fun newSk => do
            let ssk ← SM.lift (removeFirst newSk.ssk)
            let newSk := { newSk with ssk := ssk }
            let first ← SM.lift (idx newSk.ssk 0)
            let newSk := { newSk with time := first.time }
            SM.set newSk
            pure ()) sk := by
    intro hne
    unfold SecretKey.update
    rw [SM.get_bind, if_neg (by simp [hc])]
    simp only
    rw [(SecretKey.maxTime_eq pf hd).1, SM.lift_ok_bind, (SecretKey.maxTime_eq pf hd).2,
      SM.lift_ok_bind, if_neg (by omega), hfa, SM.lift_ok_bind, rerandomize_exec hsha,
      SM.lift_ok_bind]
    simp only
    rw [hdrop, SM.lift_ok_bind]
    simp only [List.isEmpty_cons, Bool.false_eq_true, if_false]
    rw [if_neg hne, init_valid hd hval, SM.lift_ok_bind]
    have htv : ({ time := tar, vec := path pp.depth tar } : TimeVec) =
        tvOf pp.depth (path pp.depth tar) := by simp [tvOf, num_path hval]
    rw [htv, gammaList_eq hd hu, SM.lift_ok_bind]
    rfl
  refine ⟨A, s, B, hAB, fun a ha => by rw [hst]; exact hA a ha,
    ⟨C, x, D, hCD, hst.symm, hx, hD⟩, fun hs => ?_, fun hs hall => ?_, fun hs hall => ?_⟩
  · refine ⟨{ ciphersuite := sk.ciphersuite, time := x.time, ssk := s :: B,
              prng := mixed sha sk.prng seed (SecretKey.reseedInfo sk.time) }, ?_, by rw [← hs, hst], rfl⟩
    unfold SecretKey.update
    rw [SM.get_bind, if_neg (by simp [hc])]
    simp only
    rw [(SecretKey.maxTime_eq pf hd).1, SM.lift_ok_bind, (SecretKey.maxTime_eq pf hd).2,
      SM.lift_ok_bind, if_neg (by omega), hfa, SM.lift_ok_bind, rerandomize_exec hsha,
      SM.lift_ok_bind]
    simp only
    rw [hdrop, SM.lift_ok_bind]
    simp only [List.isEmpty_cons, Bool.false_eq_true, if_false]
    rw [if_pos (by rw [← hst, hs])]
    rfl
  · rcases l1 hall with ⟨sk2, new, e1, e2, e3⟩ | e1
    · left
      rw [hrun (by rw [← hst]; exact hs), e1, SM.lift_ok_bind, e2]
      simp only [removeFirst, List.nil_append]
      rw [SM.lift_ok_bind]
      obtain ⟨a, l, hal⟩ : ∃ a l, new ++ B = a :: l := by
        cases hN : new ++ B with
        | cons a l => exact ⟨a, l, rfl⟩
        | nil =>
          obtain ⟨rfl, rfl⟩ := List.append_eq_nil_iff.1 hN
          unfold upTo at e3
          rw [hcov] at e3
          simp [gam] at e3
      rw [hal, idx_zero_cons, SM.lift_ok_bind]
      exact ⟨_, new, rfl, hal.symm, e3, rfl⟩
    · right
      rw [hrun (by rw [← hst]; exact hs), e1]
      rfl
  · rcases l2 hall with e1 | e1
    · left
      rw [hrun (by rw [← hst]; exact hs), e1]
      rfl
    · right
      rw [hrun (by rw [← hst]; exact hs), e1]
      rfl

/-- C103: at depth 32, every key read from bytes has the times that `C103_any_times` asks for. -/
theorem C103_read_times {E : Ext G1 G2 GT} (C : CodecLaws E) {c : Bool} {inp rest : Bytes}
    {sk : SecretKey G1 G2} (h : SecretKey.deserialize E c inp = (.ok sk, rest)) {tar : Nat}
    (h1 : sk.time < tar) :
    (∀ s ∈ sk.ssk, ValidTime 32 s.time) ∧ ∃ s ∈ sk.ssk.head?, s.time < tar := by
  have hv := (C39_only_well_formed C c inp rest).2.2.2 sk h
  refine ⟨fun s hs => ?_, ?_⟩
  · have h2 := (hv.ssk s hs).time_pos
    have h3 := (hv.ssk s hs).time_lt
    exact ⟨h2, by omega⟩
  · obtain ⟨s, hs, ht⟩ := Option.map_eq_some_iff.1 hv.time
    exact ⟨s, hs, by rw [ht]; exact h1⟩

/-- `sk` with the `hvector` of every sub key replaced -/
def withVectors (f : SubSecretKey G1 G2 → List G1) (sk : SecretKey G1 G2) : SecretKey G1 G2 :=
  { sk with ssk := sk.ssk.map fun s => { s with hvector := f s } }

theorem withVectors_times (f : SubSecretKey G1 G2 → List G1) {pp : PubParam G1 G2} {t : Nat}
    {sk : SecretKey G1 G2} (h : TimesFor pp t sk) : TimesFor pp t (withVectors f sk) := by
  obtain ⟨vs, h1, h2⟩ := h.ssk
  refine ⟨h.suite, h.time, h.valid, h.prng, vs, h1, ?_⟩
  unfold withVectors
  rw [List.forall₂_map_right_iff]
  exact h2

/-- C103: validation does not protect against this.  Take a key with the right times that can be written,
and cut the elements of its sub keys off.  The result is written and read back without complaint and
gets the same verdict from `validate`, but every update to a time it has no sub key for panics. -/
theorem C103_cut_off [DecidableEq GT] {E : Ext G1 G2 GT} (H : HashLaws E) (C : CodecLaws E)
    (pf : Profile) {pp : PubParam G1 G2} (S : ParamShape pp) {t tar : Nat} {sk : SecretKey G1 G2}
    (h : TimesFor pp t sk) (hv : SkValid E sk) (h1 : t < tar) (h2 : tar ≤ 2 ^ pp.depth - 1)
    (h3 : ∀ s ∈ sk.ssk, s.time ≠ tar) (seed : Bytes) :
    (∀ c, ∃ b, (withVectors (fun _ => []) sk).serialize E c = .ok b ∧
      SecretKey.deserialize E c b = (.ok (withVectors (fun _ => []) sk), [])) ∧
    (∀ pk, SecretKey.validate E pf (withVectors (fun _ => []) sk) pk pp =
      SecretKey.validate E pf sk pk pp) ∧
    SecretKey.update E.sha512 pf pp tar seed (withVectors (fun _ => []) sk) =
      (.panic .index, withVectors (fun _ => []) sk) := by
  refine ⟨fun c => ?_, fun pk => ?_, ?_⟩
  · have hv' : SkValid E (withVectors (fun _ => []) sk) := by
      refine ⟨hv.suite, hv.seed, by simpa [withVectors] using hv.len_pos,
        by simpa [withVectors] using hv.len, ?_, ?_⟩
      · have := hv.time
        unfold withVectors
        cases hs : sk.ssk with
        | nil => rw [hs] at this; exact this
        | cons a l => rw [hs] at this; exact this
      · intro s hs
        obtain ⟨s, hs', rfl⟩ := List.mem_map.1 hs
        have := hv.ssk s hs'
        exact ⟨this.time_pos, this.time_lt, by simp, this.g2r, this.hpoly, by simp⟩
    obtain ⟨e1, e2⟩ := C36_secret_key C c hv' []
    rw [List.append_nil] at e2
    exact ⟨_, e1, e2⟩
  · refine C48_ignores_hvector_and_prng E pf pk pp S.depth_le _ _ rfl rfl ?_
    unfold withVectors
    rw [List.map_map]
    rfl
  · obtain ⟨s, hs, g, w, n1, n2, _, a2, _⟩ := C103_exact H.sha_len pf S
      (withVectors_times (fun _ => []) h) h1 h2 seed
    obtain ⟨s, hs', rfl⟩ := List.mem_map.1 hs
    refine a2 ?_
    have hw : w ≠ [] := by
      rintro rfl
      rw [List.append_nil] at n2
      exact h3 s hs' (by rw [← nodeAt_num_eq n1, nodeAt_num_eq n2])
    simpa [List.length_pos_iff] using hw

/-- C103: the same with one element too many for each sub key: then the updates that draw a scalar
panic. -/
theorem C103_one_more [DecidableEq GT] {E : Ext G1 G2 GT} (H : HashLaws E) (pf : Profile)
    {pp : PubParam G1 G2} (S : ParamShape pp) {t tar : Nat} {sk : SecretKey G1 G2}
    (h : TimesFor pp t sk) (hl : RightLengths pp sk) (h1 : t < tar) (h2 : tar ≤ 2 ^ pp.depth - 1)
    (h3 : 0 < drawsNeeded pp.depth t tar) (a : G1) (seed : Bytes) :
    (∀ pk, SecretKey.validate E pf (withVectors (fun s => s.hvector ++ [a]) sk) pk pp =
      SecretKey.validate E pf sk pk pp) ∧
    ∃ p, SecretKey.update E.sha512 pf pp tar seed (withVectors (fun s => s.hvector ++ [a]) sk) =
      (.panic p, withVectors (fun s => s.hvector ++ [a]) sk) := by
  refine ⟨fun pk => ?_, ?_⟩
  · refine C48_ignores_hvector_and_prng E pf pk pp S.depth_le _ _ rfl rfl ?_
    unfold withVectors
    rw [List.map_map]
    rfl
  · have hT := withVectors_times (fun s => s.hvector ++ [a]) h
    obtain ⟨s, hs, g, w, n1, n2, a1, a2, a3, _⟩ := C103_exact H.sha_len pf S hT h1 h2 seed
    obtain ⟨s, hs', rfl⟩ := List.mem_map.1 hs
    have hlen := hl s hs' g n1
    have hglen := (nodeAt_isNode n2).1
    rw [List.length_append] at hglen
    have hw : w ≠ [] := by
      rintro rfl
      obtain ⟨vs, c1, c2⟩ := h.ssk
      rw [List.append_nil] at n2
      obtain ⟨v, hv, hk⟩ := SecretKey.timesFor_iff.1 h
      have hmem : g ∈ gam v := by
        obtain ⟨b, hb, hbt⟩ := forall₂_mem_right hk.ssk hs'
        rw [show g = b from num_inj (nodeAt_isNode n1) hbt.1 (by
          rw [nodeAt_num_eq n1]; exact hbt.2)]
        exact hb
      obtain ⟨A, B, hAB⟩ := List.append_of_mem hmem
      have hB := gam_split hAB
      subst hB
      have := drawsNeeded_self hk.node hAB
      rw [nodeAt_num_eq n2, nodeAt_num_eq hv] at this
      omega
    exact ⟨_, a3 hw (by simp; omega) (by simp; omega) h3⟩

/-! ### Concrete cases -/

section Examples
open Pixel.Toy

theorem KeyFor.timesFor {pp : PubParam G1 G2} {alpha : G1} {t : Nat} {sk : SecretKey G1 G2}
    (h : KeyFor pp alpha t sk) : TimesFor pp t sk := by
  obtain ⟨vs, h1, h2⟩ := h.ssk
  exact ⟨h.suite, h.time, h.valid, h.prng, vs, h1, h2.imp fun _ _ ⟨_, h⟩ => h.node⟩

/-- C103: a key for time 1 of a tree of depth 5, cut off: it can be read, it validates, and going to
time 2 panics -/
example : (∃ b, SecretKey.deserialize (ext sha0) true b =
      (.ok (withVectors (fun _ => []) (sk0 5 1)), [])) ∧
    SecretKey.validate (ext sha0) .release (withVectors (fun _ => []) (sk0 5 1)) toyPkV (param 5 1) =
      .ok true ∧
    SecretKey.update (ext sha0).sha512 .release (param 5 1) 2 [7] (withVectors (fun _ => []) (sk0 5 1)) =
      (.panic .index, withVectors (fun _ => []) (sk0 5 1)) := by
  have W := param_wf sha0 (d := 5) (by omega) (by omega) 1
  have hv := KeyFor.skValid (groupLaws sha0) W (by decide) (Or.inr rfl)
    ((groupLaws sha0).sub1_nsmul W.h_sub 3) (keyFor_sk0 (by omega) 1)
  obtain ⟨a1, a2, a3⟩ := C103_cut_off (E := ext sha0) hashLaws (codecLaws sha0) .release
    W.toParamShape (KeyFor.timesFor (keyFor_sk0 (d := 5) (by omega) 1)) hv (tar := 2) (by omega)
    (by decide) (by simp [sk0, ssk0]) [7]
  obtain ⟨b, _, hb⟩ := a1 true
  refine ⟨⟨b, hb⟩, ?_, a3⟩
  rw [a2]
  exact SecretKey.validate_honest (groupLaws sha0) W .release (hkey_sk0 (by omega) 1)
    (pk := toyPkV) rfl rfl

/-- C103: a key with valid times in a strange order: sub keys for the times 2, 5 and 2 again.  Updated to
time 5, it goes back to the first, finds the time 5 after it, and ends with sub keys for 5 and 2.
Updated to time 20, which is not below time 2, it reports that. -/
example :
    let sk : SecretKey G G := { sk0 5 1 with time := 2, ssk :=
      [{ ssk0 5 with time := 2, hvector := [0, 0, 0, 0] }, { ssk0 5 with time := 5, hvector := [0] },
       { ssk0 5 with time := 2, hvector := [0, 0, 0, 0] }] }
    RightLengths (param 5 1) sk ∧ (∀ s ∈ sk.ssk, ValidTime (param 5 1).depth s.time) ∧
    ((SecretKey.update (ext sha0).sha512 .debug (param 5 1) 5 [7] sk).2.ssk.map (·.time),
      (SecretKey.update (ext sha0).sha512 .debug (param 5 1) 20 [7] sk).1) =
      ([5, 2], .err .timeNonePrefix) := by
  intro sk
  refine ⟨?_, ?_, ?_⟩
  · intro s hs v hv
    obtain ⟨h1, rfl⟩ := nodeAt_iff.1 hv
    simp only [sk, List.mem_cons, List.not_mem_nil, or_false] at hs
    rcases hs with rfl | rfl | rfl <;> decide +kernel
  · intro s hs
    simp only [sk, List.mem_cons, List.not_mem_nil, or_false] at hs
    rcases hs with rfl | rfl | rfl <;> exact ⟨by decide +kernel, by decide +kernel⟩
  · decide +kernel

/-- C103: the key for time 1 with an element too many -/
example : ∃ p, SecretKey.update (ext sha0).sha512 .debug (param 5 1) 2 [7]
      (withVectors (fun s => s.hvector ++ [0]) (sk0 5 1)) =
    (.panic p, withVectors (fun s => s.hvector ++ [0]) (sk0 5 1)) := by
  refine (C103_one_more (E := ext sha0) hashLaws .debug
    (param_wf sha0 (d := 5) (by omega) (by omega) 1).toParamShape
    (KeyFor.timesFor (keyFor_sk0 (d := 5) (by omega) 1)) ?_ (by omega) (by decide)
    (by decide +kernel) 0 [7]).2
  intro s hs v hv
  have : s = ssk0 5 := by simpa [sk0] using hs
  subst this
  have h1 : v = [] := num_inj (nodeAt_isNode hv) (isNode_nil.2 (by decide)) (by
    rw [nodeAt_num_eq hv]
    simp [ssk0])
  subst h1
  decide +kernel

/-- C103: a key with strange times, in a strange order, but the right lengths: after the sub key for
time 1 come one for time 31 (a leaf, with one element) and one for time 33, which does not exist.  Its
update to time 5 ends with an error. -/
example : RightLengths (param 5 1) { sk0 5 1 with ssk :=
      [ssk0 5, { ssk0 5 with time := 31, hvector := [0] }, { ssk0 5 with time := 33 }] } ∧
    (SecretKey.update sha0 .debug (param 5 1) 5 [7] { sk0 5 1 with ssk :=
      [ssk0 5, { ssk0 5 with time := 31, hvector := [0] }, { ssk0 5 with time := 33 }] }).1.isErr =
      true := by
  constructor
  · intro s hs v hv
    obtain ⟨h1, rfl⟩ := nodeAt_iff.1 hv
    simp only [List.mem_cons, List.not_mem_nil, or_false] at hs
    rcases hs with rfl | rfl | rfl
    · decide +kernel
    · decide +kernel
    · exact absurd h1.2 (by decide +kernel)
  · decide +kernel

end Examples

end Pixel.Props
