import Verif.Proof.Schedule
import Verif.Props.Ffi
import Verif.Props.Python

/-!
# The stream of PRNG states of a signer (C62)

C15 and C46 say that updates succeed unless the assertion "prng not updated" fails.  Here: exactly
when it fails, and which states the PRNG goes through.  Both depend on the first state, the depth,
the times and the seeds alone.
-/

namespace Pixel.Props

open Pixel Pixel.Spec

set_option linter.unusedSectionVars false

variable {G1 G2 GT : Type} [AddCommGroup G1] [AddCommGroup G2] [CommGroup GT]

/-- C62: `coverTimes` lists the times of the sub keys of every honest key. -/
theorem C62_cover_times {pp : PubParam G1 G2} {alpha : G1} {t : Nat} {sk : SecretKey G1 G2}
    (h : KeyFor pp alpha t sk) : sk.ssk.map SubSecretKey.time = coverTimes pp.depth t := by
  obtain ⟨v, hv, hk⟩ := keyFor_iff.1 h
  rw [← nodeAt_num_eq hv, coverTimes_num (nodeAt_isNode hv)]
  have := hk.ssk
  revert this
  generalize gam v = vs
  generalize sk.ssk = l
  intro hf
  induction hf with
  | nil => rfl
  | cons h1 _ ih =>
    rw [List.map_cons, List.map_cons, ih, h1.time_eq]

/-- C62: and it is the cover of the present and the future: the node of `t` and the right siblings
of the path to it. -/
theorem C62_cover_times_iff {d t s : Nat} (h : ValidTime d t) :
    s ∈ coverTimes d t ↔
      ∃ v a, NodeAt d t v ∧ NodeAt d s a ∧ (a = v ∨ RightSiblingOnPath v a) := by
  have hn := path_isNode h
  have ht := num_path h
  have hat : NodeAt d t (path d t) := nodeAt_iff.2 ⟨h, rfl⟩
  constructor
  · intro hs
    rw [← ht, coverTimes_num hn, List.mem_map] at hs
    obtain ⟨a, ha, rfl⟩ := hs
    refine ⟨_, a, hat, nodeAt_num (gam_isNode hn ha), ?_⟩
    rcases List.mem_cons.1 ha with ha | ha
    · exact Or.inl ha
    · exact Or.inr (mem_sibs.1 ha)
  · rintro ⟨v, a, hv, ha, hva⟩
    rw [← nodeAt_num_eq hv, ← nodeAt_num_eq ha,
      mem_coverTimes (nodeAt_isNode hv) (nodeAt_isNode ha)]
    rcases hva with rfl | hva
    · exact List.mem_cons_self
    · exact List.mem_cons_of_mem _ (mem_sibs.2 hva)

/-- C62: an update of an honest key to a later time of the tree: the exact condition for its
success, and the PRNG state it leaves. -/
theorem C62_update_exact {sha : Bytes → Bytes} (hsha : ∀ m, (sha m).length = 64) (pf : Profile)
    {pp : PubParam G1 G2} (S : ParamShape pp) {alpha : G1} {t tar : Nat} {sk : SecretKey G1 G2}
    (h : KeyFor pp alpha t sk) (h1 : t < tar) (h2 : tar ≤ 2 ^ pp.depth - 1) (seed : Bytes) :
    ((∃ k, 1 ≤ k ∧ k ≤ drawsNeeded pp.depth t tar ∧
        afterDraws sha (reseeded sha sk.prng seed t) k = sk.prng) →
      SecretKey.update sha pf pp tar seed sk = (.panic .assertion, sk)) ∧
    ((∀ k, 1 ≤ k → k ≤ drawsNeeded pp.depth t tar →
        afterDraws sha (reseeded sha sk.prng seed t) k ≠ sk.prng) →
      ∃ sk', SecretKey.update sha pf pp tar seed sk = (.ok (), sk') ∧ KeyFor pp alpha tar sk' ∧
        sk'.prng = afterDraws sha (reseeded sha sk.prng seed t) (drawsNeeded pp.depth t tar)) := by
  rcases update_exact hsha pf S h h1 h2 seed with ⟨hc, hp⟩ | ⟨hc, hp⟩
  · refine ⟨fun _ => hp, fun hn => ?_⟩
    obtain ⟨k, k1, k2, k3⟩ := hc
    exact absurd k3 (hn k k1 k2)
  · exact ⟨fun hh => absurd hh hc, fun _ => hp⟩

/-- C45: the number of draws of a successful update, counted on the two keys: one for each sub key of
the new key whose time the old key does not have, but the first of them. -/
theorem C45_draws_counted {sha : Bytes → Bytes} (hsha : ∀ m, (sha m).length = 64) (pf : Profile)
    {pp : PubParam G1 G2} (S : ParamShape pp) {alpha : G1} {t tar : Nat} {seed : Bytes}
    {sk sk' : SecretKey G1 G2} (h : KeyFor pp alpha t sk)
    (hu : SecretKey.update sha pf pp tar seed sk = (.ok (), sk')) :
    sk'.prng = afterDraws sha (reseeded sha sk.prng seed t)
      ((sk'.ssk.filter (fun s => ! (sk.ssk.map SubSecretKey.time).contains s.time)).length - 1) := by
  by_cases hr : t < tar ∧ tar ≤ 2 ^ pp.depth - 1
  · rcases update_exact hsha pf S h hr.1 hr.2 seed with ⟨_, hp⟩ | ⟨_, a, ha, hk, hp⟩
    · rw [hp] at hu; cases hu
    · rw [ha] at hu
      obtain rfl : a = sk' := (Prod.mk.inj hu).2
      rw [hp, drawsNeeded, newTimes, ← C62_cover_times hk, ← C62_cover_times h, List.filter_map,
        List.length_map]
      rfl
  · rw [(C15_update_outcome hsha pf S h tar seed).1 hr] at hu; cases hu

/-- C62: the number of draws is never more than `d - 1`, and none if the key holds the sub key of
`tar` already. -/
theorem C62_draws_bound {d t tar : Nat} (h : ValidTime d t) (h1 : t < tar) (h2 : tar ≤ 2 ^ d - 1) :
    drawsNeeded d t tar ≤ d - 1 ∧ (tar ∈ coverTimes d t → drawsNeeded d t tar = 0) ∧
      (newTimes d t tar).length ≤ d := by
  have hval : ValidTime d tar := ⟨by omega, h2⟩
  have hv := path_isNode h
  have hu := path_isNode hval
  have et := num_path h
  have eu := num_path hval
  have hlen : (newTimes d t tar).length ≤ d := by
    unfold newTimes
    refine (List.length_filter_le _ _).trans ?_
    rw [← eu, coverTimes_num hu, List.length_map, gam, List.length_cons]
    have := sibs_length_le (path d tar)
    have := hu.1
    omega
  refine ⟨by unfold drawsNeeded; omega, fun hm => ?_, hlen⟩
  rw [← et, ← eu, mem_coverTimes hv hu] at hm
  obtain ⟨A, B, hAB⟩ := List.append_of_mem hm
  have hB := gam_split hAB
  subst hB
  rw [← et, ← eu]
  exact drawsNeeded_self hv hAB

/-- C62: an update to the next time makes no new sub key or two, so it draws at most one scalar. -/
theorem C62_draws_next {d t : Nat} (h1 : 1 ≤ t) (h2 : t + 1 ≤ 2 ^ d - 1) :
    drawsNeeded d t (t + 1) ≤ 1 := by
  unfold drawsNeeded
  have := newTimes_next d t h1 h2
  omega

/-- C62: a whole history of updates to increasing times of the tree.  It goes through exactly if the
stream of PRNG states is defined, and then the key holds the last state of the stream. -/
theorem C62_history_exact {sha : Bytes → Bytes} (hsha : ∀ m, (sha m).length = 64) (pf : Profile)
    {pp : PubParam G1 G2} (S : ParamShape pp) {alpha : G1} {t : Nat} {sk : SecretKey G1 G2}
    (h : KeyFor pp alpha t sk) {us : List (Nat × Bytes)}
    (hi : Increasing (2 ^ pp.depth - 1) t us) :
    ((∃ sk', Updates sha pf pp sk us sk') ↔ (prngStream sha pp.depth sk.prng t us).isSome = true) ∧
    ∀ sk', Updates sha pf pp sk us sk' →
      KeyFor pp alpha (lastTime t us) sk' ∧
        prngStream sha pp.depth sk.prng t us = some sk'.prng := by
  induction us generalizing t sk with
  | nil =>
    refine ⟨⟨fun _ => rfl, fun _ => ⟨sk, .nil sk⟩⟩, ?_⟩
    rintro sk' ⟨⟩
    exact ⟨h, rfl⟩
  | cons u us ih =>
    obtain ⟨tar, seed⟩ := u
    obtain ⟨i1, i2, i3⟩ := hi
    rcases update_step hsha pf S h i1 i2 seed with ⟨e1, e2⟩ | ⟨sk1, e1, e2, e3⟩
    · rw [prngStream, e1]
      refine ⟨⟨?_, fun h => by simp at h⟩, ?_⟩
      · rintro ⟨sk', hu⟩
        cases hu with
        | cons hu _ => rw [e2] at hu; cases (Prod.mk.inj hu).1
      · intro sk' hu
        cases hu with
        | cons hu _ => rw [e2] at hu; cases (Prod.mk.inj hu).1
    · rw [prngStream, e1]
      obtain ⟨j1, j2⟩ := ih e3 i3
      refine ⟨⟨?_, ?_⟩, ?_⟩
      · rintro ⟨sk', hu⟩
        cases hu with
        | cons hu hs =>
          rw [e2] at hu
          obtain rfl := (Prod.mk.inj hu).2
          exact j1.1 ⟨_, hs⟩
      · intro hh
        obtain ⟨sk', hs⟩ := j1.2 hh
        exact ⟨sk', .cons e2 hs⟩
      · intro sk' hu
        cases hu with
        | cons hu hs =>
          rw [e2] at hu
          obtain rfl := (Prod.mk.inj hu).2
          exact j2 _ hs

/-- C62: so the PRNG knows nothing of the group: two keys, in any two groups, under any two
parameters with the same depth and for any two master secrets, that have the same time and the same
PRNG state keep having the same PRNG state through the same updates, and fail at the same point. -/
theorem C62_group_free {G1' G2' : Type} [AddCommGroup G1'] [AddCommGroup G2'] {sha : Bytes → Bytes}
    (hsha : ∀ m, (sha m).length = 64) (pf pf' : Profile)
    {pp : PubParam G1 G2} (S : ParamShape pp) {pp' : PubParam G1' G2'} (S' : ParamShape pp')
    (hd : pp.depth = pp'.depth) {alpha : G1} {alpha' : G1'} {t : Nat} {sk : SecretKey G1 G2}
    {sk' : SecretKey G1' G2'} (h : KeyFor pp alpha t sk) (h' : KeyFor pp' alpha' t sk')
    (hp : sk.prng = sk'.prng) {us : List (Nat × Bytes)} (hi : Increasing (2 ^ pp.depth - 1) t us) :
    ((∃ a, Updates sha pf pp sk us a) ↔ ∃ a, Updates sha pf' pp' sk' us a) ∧
    ∀ a b, Updates sha pf pp sk us a → Updates sha pf' pp' sk' us b → a.prng = b.prng := by
  obtain ⟨a1, a2⟩ := C62_history_exact hsha pf S h hi
  rw [hd] at hi
  obtain ⟨b1, b2⟩ := C62_history_exact hsha pf' S' h' hi
  rw [← hd, ← hp] at b1 b2
  refine ⟨a1.trans b1.symm, fun a b ha hb => ?_⟩
  have h1 := (a2 a ha).2
  rw [(b2 b hb).2] at h1
  exact (Option.some.inj h1).symm

/-- C62: the PRNG state of a new key is a function of seed and ciphersuite. -/
theorem C62_first_state {E : Ext G1 G2 GT} (H : HashLaws E) {pp : PubParam G1 G2}
    (S : ParamShape pp) {seed : Bytes} {pk : PublicKey G2} {sk : SecretKey G1 G2}
    {pop : ProofOfPossession G1} (h : keygen E seed pp = .ok (pk, sk, pop)) :
    sk.prng = firstState E.sha512 seed pp.ciphersuite := by
  have hl : 32 ≤ seed.length := by
    by_contra hl
    rw [keygen_short (by omega)] at h
    cases h
  have hc : Supported pp.ciphersuite := by
    by_contra hc
    rw [keygen_suite hl hc] at h
    cases h
  obtain ⟨s, _, _, hk⟩ := keygen_eq H S hl hc
  rw [hk] at h
  obtain ⟨_, rfl, _⟩ := Prod.mk.inj (Res.ok.inj h) |>.imp id (fun h => Prod.mk.inj h)
  have hm : text "Pixel master key" = DOM_SEP_MASTER_KEY := by decide +kernel
  have hb : be32 1 = [0, 0, 0, 1] := by decide +kernel
  unfold firstState
  rw [hm, hb, ← text_init, ← text_master, sampleThenUpdate_eq H.sha_len, sampleThenUpdate_eq H.sha_len]
  rfl

/-- C62: the same for a C program of updates from the blob of an honest key, without assumption on
the times: it returns exactly if times increase up to `2^32 - 1` and the stream is defined. -/
theorem C62_c_program_exact {E : Ext G1 G2 GT} (H : HashLaws E) (L : GroupLaws E)
    (C : CodecLaws E) (D : DefaultLaws E) (pf : Profile) {x t : Nat} {sk : SecretKey G1 G2}
    (h : KeyFor E.defaultParam (x • E.defaultParam.h) t sk) (us : List (Nat × Bytes)) :
    (∃ b, cUpdates E pf (skLayout E true sk) us = .ok b) ↔
      Increasing (2 ^ 32 - 1) t us ∧ (prngStream E.sha512 32 sk.prng t us).isSome = true := by
  induction us generalizing t sk with
  | nil => exact ⟨fun _ => ⟨trivial, rfl⟩, fun _ => ⟨_, rfl⟩⟩
  | cons u us ih =>
    obtain ⟨tar, seed⟩ := u
    rw [cUpdates, prngStream, Increasing]
    have hs := Ffi.cSkUpdate_honest H L C D pf h seed tar []
    rw [List.append_nil] at hs
    by_cases hr : t < tar ∧ tar ≤ 2 ^ 32 - 1
    · have hup := update_step H.sha_len pf D.wf.toParamShape h hr.1 (by rw [D.depth]; exact hr.2) seed
      rw [D.depth] at hup
      have hpa := Ffi.parse_sk C (D.skValid L h) []
      rw [List.append_nil] at hpa
      rcases hup with ⟨e1, e2⟩ | ⟨sk1, e1, e2, e3⟩
      · have : Ffi.cSkUpdate E pf (skLayout E true sk) seed tar = .panic .assertion := by
          unfold Ffi.cSkUpdate
          simp only [hpa, Res.ok_bind, SM.exec, e2, Ffi.unwrap, Res.panic_bind]
        rw [this, e1]
        constructor
        · rintro ⟨b, hb⟩; cases hb
        · rintro ⟨_, hb⟩; simp at hb
      · have : Ffi.cSkUpdate E pf (skLayout E true sk) seed tar = .ok (skLayout E true sk1) := by
          unfold Ffi.cSkUpdate
          simp only [hpa, Res.ok_bind, SM.exec, e2, Ffi.unwrap, D.serialize_sk L C e3]
        rw [this, e1]
        simp only [ih e3]
        tauto
    · rw [hs.1 hr]
      constructor
      · rintro ⟨b, hb⟩; cases hb
      · rintro ⟨⟨h1, h2, _⟩, _⟩; exact absurd ⟨h1, h2⟩ hr

/-! ### concrete cases -/

open Toy

/-- C62: covers and numbers of draws in a tree with 3 levels: the times of the sub keys at each time;
an update from 1 to 3 draws two scalars, one from 2 to 5 none -/
example : (List.range' 1 7).map (coverTimes 3) = [[1], [2, 5], [3, 4, 5], [4, 5], [5], [6, 7], [7]] ∧
    drawsNeeded 3 1 3 = 2 ∧ drawsNeeded 3 2 5 = 0 ∧ drawsNeeded 3 1 7 = 0 ∧
    newTimes 3 1 7 = [7] := by decide +kernel

/-- C62: a history of updates with the toy hash function: the stream is defined, so the updates
succeed from every generated key, whatever the parameters of depth 5 -/
theorem toy_stream : (prngStream sha0 5 (firstState sha0 (List.replicate 32 7) 0) 1
    [(2, [1]), (5, []), (6, [2, 3]), (19, []), (31, [])]).isSome = true := by decide +kernel

example : ∃ pk sk pop sk', keygen (ext sha0) (List.replicate 32 7) (param 5 0) = .ok (pk, sk, pop) ∧
    Updates sha0 .debug (param 5 0) sk [(2, [1]), (5, []), (6, [2, 3]), (19, []), (31, [])] sk' ∧
    sk'.time = 31 ∧ sk'.ssk.map SubSecretKey.time = [31] := by
  have W : ParamWF (ext sha0) (param 5 0) := param_wf sha0 (by omega) (by omega) 0
  obtain ⟨pk, sk, pop, h1, _, _, ⟨x, _, h5⟩, _⟩ :=
    (C12_keygen_outcome hashLaws (groupLaws sha0) .debug W (List.replicate 32 7)).2.2 (by simp)
      (Or.inl rfl)
  have hp := C62_first_state hashLaws W.toParamShape h1
  obtain ⟨a, b⟩ := C62_history_exact (us := [(2, [1]), (5, []), (6, [2, 3]), (19, []), (31, [])])
    hashLaws.sha_len .debug W.toParamShape h5 (by simp [Increasing, param])
  rw [hp] at a
  obtain ⟨sk', h⟩ := a.2 toy_stream
  have hk := (b sk' h).1
  refine ⟨pk, sk, pop, sk', h1, h, hk.time, ?_⟩
  rw [C62_cover_times hk]
  decide +kernel

/-- C62: and one that fails: with a constant hash function the first update that draws panics -/
example : prngStream (fun _ => List.replicate 64 0) 5
      (firstState (fun _ => List.replicate 64 0) (List.replicate 32 7) 0) 1 [(2, [])] = none ∧
    prngStream (fun _ => List.replicate 64 0) 5
      (firstState (fun _ => List.replicate 64 0) (List.replicate 32 7) 0) 1 [(31, [])] ≠ none := by
  decide +kernel

end Pixel.Props
