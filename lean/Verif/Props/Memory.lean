import Verif.Proof.MemoryUse
import Verif.Props.History
import Verif.Props.Serdes

/-!
# Properties C52, C56: what stays in memory, and what it is good for

Vocabulary: `Verif/Spec/Memory.lean`; the rules are in `Verif/Model/Memory.lean`.

The full statement of C52 is that no function that handles secrets leaves any of them behind:
`Clean` for each of them.  It is false; the theorems marked `_partial` say what does hold, and the
others what is left.
-/

namespace Pixel.Props

open Pixel Pixel.Spec

set_option linter.unusedSectionVars false

variable {G1 G2 GT : Type} [AddCommGroup G1] [AddCommGroup G2] [CommGroup GT]

/-! ## C52: the second model computes the same as the first -/

/-- C52: PRNG functions with their variables give the results of the first model. -/
theorem C52_same_prng {sha : Bytes → Bytes} (hsha : ∀ m, (sha m).length = 64) (m : Mem G1 G2)
    (seed info : Bytes) (p : Prng) :
    (Prng.initM sha seed info m).1 = Prng.init sha seed info ∧
    (Prng.sampleThenUpdateM sha info p m).1 = (Prng.sampleThenUpdate sha info).exec p ∧
    (Prng.sampleM sha info p m).1 = ((Prng.sample sha info).exec p >>= fun q => .ok q.1) ∧
    (Prng.rerandomizeM sha seed info p m).1 = after (Prng.rerandomize sha seed info) p := by
  refine ⟨?_, ?_, ?_, ?_⟩
  · rw [(Prng.initM_ends hsha seed info).fst, init_prng_eq hsha]
  · rw [(Prng.sampleThenUpdateM_ends hsha info p).fst, sampleThenUpdate_exec hsha]
  · rw [(Prng.sampleM_ends hsha info p).fst, sample_exec hsha]; rfl
  · rw [(Prng.rerandomizeM_ends hsha seed info p).fst, after, rerandomize_exec hsha]; rfl

/-- C52: the same for the functions on sub keys and secret keys, on every input. -/
theorem C52_same_keys {E : Ext G1 G2 GT} (H : HashLaws E) (pf : Profile) {pp : PubParam G1 G2}
    (S : ParamShape pp) (m : Mem G1 G2) :
    (∀ alpha r, (SubSecretKey.initM pp alpha r m).1 = SubSecretKey.init pp alpha r) ∧
    (∀ s tar, (SubSecretKey.delegateM pf tar pp.depth s m).1 =
      after (SubSecretKey.delegate pf tar pp.depth) s) ∧
    (∀ s r, (SubSecretKey.randomizationM pf pp r s m).1 =
      after (SubSecretKey.randomization pf pp r) s) ∧
    (∀ sk tar seed, (SecretKey.updateM E.sha512 pf pp tar seed sk m).1 =
      after (SecretKey.update E.sha512 pf pp tar seed) sk) ∧
    (∀ seed, (keygenM E seed pp m).1 = keygen E seed pp) ∧
    (∀ sk t msg, (Signature.signBytesM E.sha512 pf sk t pp msg m).1 =
      Signature.signBytes E.sha512 pf sk t pp msg) := by
  refine ⟨fun alpha r => ?_, fun s tar => ?_, fun s r => ?_, fun sk tar seed => ?_, fun seed => ?_,
    fun sk t msg => ?_⟩
  · obtain ⟨s, hs, _⟩ := SubSecretKey.init_for S alpha r
    rw [(SubSecretKey.initM_ends hs).fst, hs]
  · exact (SubSecretKey.delegateM_ends pf tar pp.depth s).fst m
  · by_cases hv : ValidTime pp.depth s.time
    · have := nodeAt_num (path_isNode hv)
      rw [num_path hv] at this
      exact (SubSecretKey.randomizationM_ends S r this).fst m
    · obtain ⟨e, h1, h2⟩ := SubSecretKey.randomizationM_bad (pf := pf) S.depth_le r hv
      rw [h1, h2.fst]
  · obtain ⟨n, L, h1, _⟩ := SecretKey.updateM_ends H.sha_len (pf := pf) S tar seed sk
    exact h1.fst m
  · by_cases hr : seed.length < 32 ∨ ¬ Supported pp.ciphersuite
    · exact (keygenM_refused hr).fst m
    · obtain ⟨h1, h2⟩ := not_or.1 hr
      obtain ⟨s, _, h3⟩ := keygenM_ends H S (seed := seed) (by omega) (not_not.1 h2)
      exact h3.fst m
  · exact Signature.signBytesM_fst H.sha_len pf sk t pp msg m

/-- C52: the same for writing and reading secret keys, on every input. -/
theorem C52_same_serdes (E : Ext G1 G2 GT) (c : Bool) (m : Mem G1 G2) :
    (∀ sk, (SecretKey.serializeM E c true sk m).1 = SecretKey.serialize E c sk) ∧
    (∀ inp, (SecretKey.deserializeM E c inp m).1 = (SecretKey.deserialize E c).exec inp) :=
  ⟨fun sk => SecretKey.serializeM_fst E c sk m, fun inp => SecretKey.deserializeM_fst E c inp m⟩

/-! ## C52: what is cleared -/

/-- C52 (part): mixing a seed into the PRNG, delegating a sub key (on every input, whether or not it
succeeds) and a refused key generation leave nothing behind. -/
theorem C52_clean_partial {sha : Bytes → Bytes} (hsha : ∀ m, (sha m).length = 64) (pf : Profile) :
    (∀ seed info p, Clean (Prng.rerandomizeM sha seed info p : MM G1 G2 Prng)) ∧
    (∀ tar d (s : SubSecretKey G1 G2), Clean (SubSecretKey.delegateM pf tar d s)) ∧
    (∀ (E : Ext G1 G2 GT) seed (pp : PubParam G1 G2),
      seed.length < 32 ∨ ¬ Supported pp.ciphersuite → Clean (keygenM E seed pp)) :=
  ⟨fun seed info p => (Prng.rerandomizeM_ends hsha seed info p).leaves,
    fun tar d s => (SubSecretKey.delegateM_ends pf tar d s).leaves,
    fun _ _ _ h => (keygenM_refused h).leaves⟩

/-- C52 (part): a draw from the PRNG leaves the drawn scalar behind and nothing else, in particular
neither the old nor the new state.  Missing: the scalar itself is not cleared. -/
theorem C52_draw_partial {sha : Bytes → Bytes} (hsha : ∀ m, (sha m).length = 64) (info : Bytes)
    (p : Prng) :
    ∃ r p', (Prng.sampleThenUpdate sha info).exec p = .ok (r, p') ∧
      Leaves (Prng.sampleThenUpdateM sha info p : MM G1 G2 (Fr × Prng))
        [.num r.val, .bytes filler] ∧
    ∃ r', (Prng.sample sha info).exec p = .ok (r', p) ∧
      Leaves (Prng.sampleM sha info p : MM G1 G2 Fr) [.num r'.val, .bytes filler] :=
  ⟨_, _, sampleThenUpdate_exec hsha info p, (Prng.sampleThenUpdateM_ends hsha info p).leaves,
    _, sample_exec hsha info p, (Prng.sampleM_ends hsha info p).leaves⟩

/-- C52 (part): an update, of any key and whether or not it succeeds, leaves behind nothing but the
scalars it has drawn: no PRNG state, and no part of a sub key.  Missing: the scalars are not
cleared (see `C52_update_leaves_its_draws` and C56). -/
theorem C52_update_partial {sha : Bytes → Bytes} (hsha : ∀ m, (sha m).length = 64) (pf : Profile)
    {pp : PubParam G1 G2} (S : ParamShape pp) (tar : Nat) (seed : Bytes) (sk : SecretKey G1 G2) :
    LeavesOnly (SecretKey.updateM sha pf pp tar seed sk) (fun c => ∃ k r,
      (Prng.sampleThenUpdate sha (text "Pixel secret key update")
        (afterDraws sha (reseeded sha sk.prng seed sk.time) k)).1 = .ok r ∧ ShowsOnly r c) := by
  obtain ⟨n, L, h1, h2, _⟩ := SecretKey.updateM_ends hsha (pf := pf) S tar seed sk
  refine ⟨L, h1.leaves, fun c hc => ?_⟩
  have := h2 c hc
  unfold SecretKey.drawsLeft at this
  obtain ⟨k, hk, h3⟩ := List.mem_flatMap.1 this
  refine ⟨k, _, ?_, drawLeft_shows h3⟩
  rw [afterDraws_eq hsha, reseeded_eq hsha, ← text_update, sampleThenUpdate_eq hsha]
  rfl

/-- C52 (part): signing leaves behind the signature itself and the scalar it was randomised with,
nothing else.  Missing: the scalar is not cleared. -/
theorem C52_sign_partial {sha : Bytes → Bytes} (hsha : ∀ m, (sha m).length = 64) (pf : Profile)
    {pp : PubParam G1 G2} {sk : SecretKey G1 G2} {t : Nat} {msg : Bytes} {sig : Signature G1 G2}
    (hs : Signature.signBytes sha pf sk t pp msg = .ok sig) :
    ∃ r, (Prng.sample sha (signInfo msg t)).exec sk.prng = .ok (r, sk.prng) ∧
      LeavesBehind (Signature.signBytesM sha pf sk t pp msg) (.fr r) ∧
      LeavesOnly (Signature.signBytesM sha pf sk t pp msg) (fun c =>
        ShowsOnly r c ∨ c = .g1 sig.sigma2 ∨ c = .g2 sig.sigma1) := by
  have h := (Signature.signBytesM_ok hsha pf hs).leaves
  refine ⟨_, sample_exec hsha _ _, ⟨_, h, by simp⟩, _, h, ?_⟩
  intro c hc
  rcases List.mem_append.1 hc with hc | hc
  · exact Or.inl (osLeft_shows hc)
  · simp only [List.mem_cons, List.not_mem_nil, or_false] at hc
    rcases hc with hc | hc | hc
    · exact Or.inr (Or.inl hc)
    · exact Or.inr (Or.inr hc)
    · exact Or.inl (Or.inl hc)

/-! ## C52: what is not cleared -/

/-- C52 (refuted): setting up a PRNG leaves its whole state behind. -/
theorem C52_init_leaves_seed {sha : Bytes → Bytes} (hsha : ∀ m, (sha m).length = 64)
    (seed salt : Bytes) :
    ∃ p, Prng.init sha seed salt = .ok p ∧
      Leaves (Prng.initM sha seed salt : MM G1 G2 Prng) [.bytes p.seed] :=
  ⟨_, init_prng_eq hsha seed salt, (Prng.initM_ends hsha seed salt).leaves⟩

/-- C52 (refuted): every successful key generation leaves behind the secret exponent `x` of the
public key, the master secret `x·h`, the PRNG state `x` was drawn from, and a copy of the root sub
key. -/
theorem C52_keygen_leaves_everything {E : Ext G1 G2 GT} (H : HashLaws E) {pp : PubParam G1 G2}
    (S : ParamShape pp) {seed : Bytes} {pk : PublicKey G2} {sk : SecretKey G1 G2}
    {pop : ProofOfPossession G1} (hk : keygen E seed pp = .ok (pk, sk, pop)) :
    ∃ (x : Fr) (p : Prng) (s : SubSecretKey G1 G2),
      pk.pk = mulFr x pp.g2 ∧ sk.ssk = [s] ∧
      Prng.init E.sha512 seed (text "Pixel master key" ++ [pp.ciphersuite]) = .ok p ∧
      (Prng.sampleThenUpdate E.sha512 (text "key initialization") p).1 = .ok x ∧
      LeavesBehind (keygenM E seed pp) (.fr x) ∧
      LeavesBehind (keygenM E seed pp) (.g1 (mulFr x pp.h)) ∧
      LeavesBehind (keygenM E seed pp) (.bytes p.seed) ∧
      LeavesBehind (keygenM E seed pp) (.g1 s.hpoly) ∧
      LeavesBehind (keygenM E seed pp) (.g2 s.g2r) ∧
      LeavesBehind (keygenM E seed pp) (.g1s (pp.hlist.take 1 ++ s.hvector ++
        pp.hlist.drop (pp.depth + 1))) := by
  have hs : 32 ≤ seed.length := by
    by_contra hc
    rw [keygen_short (by omega)] at hk
    cases hk
  have hc := keygen_supported hk
  obtain ⟨s, h1, h2⟩ := keygenM_ends H S hs hc
  obtain ⟨s', h3, h4, h5⟩ := keygen_eq H S hs hc
  have e : s' = s := by rw [h1] at h3; exact (Res.ok.inj h3).symm
  subst e
  rw [hk] at h5
  have h6 := Res.ok.inj h5
  simp only [Prod.mk.injEq] at h6
  obtain ⟨hpk, hsk, _⟩ := h6
  refine ⟨kgSecret E.sha512 seed pp.ciphersuite, kgState E.sha512 seed pp.ciphersuite, s',
    by rw [hpk], by rw [hsk], ?_, ?_, ⟨_, h2.leaves, ?_⟩, ⟨_, h2.leaves, ?_⟩, ⟨_, h2.leaves, ?_⟩,
    ⟨_, h2.leaves, ?_⟩, ⟨_, h2.leaves, ?_⟩, ⟨_, h2.leaves, ?_⟩⟩
  · rw [← text_masterSalt, init_prng_eq H.sha_len]; rfl
  · rw [← text_master, sampleThenUpdate_eq H.sha_len]; rfl
  all_goals simp [masterLeft, SubSecretKey.rootLeft]

/-- C52 (refuted): a successful update leaves every scalar it has drawn behind. -/
theorem C52_update_leaves_its_draws {sha : Bytes → Bytes} (hsha : ∀ m, (sha m).length = 64)
    (pf : Profile) {pp : PubParam G1 G2} (S : ParamShape pp) {tar : Nat} {seed : Bytes}
    {sk sk' : SecretKey G1 G2} (hu : SecretKey.update sha pf pp tar seed sk = (.ok (), sk'))
    {k : Nat} (hk : k + sk.ssk.length < sk'.ssk.length) :
    ∃ r, (Prng.sampleThenUpdate sha (text "Pixel secret key update")
        (afterDraws sha (reseeded sha sk.prng seed sk.time) k)).1 = .ok r ∧
      LeavesBehind (SecretKey.updateM sha pf pp tar seed sk) (.fr r) := by
  obtain ⟨n, L, h1, _, h2⟩ := SecretKey.updateM_ends hsha (pf := pf) S tar seed sk
  obtain ⟨h3, A, h4, h5⟩ := h2 sk' hu
  have hn : k < n := by omega
  refine ⟨drawVal sha (SecretKey.chain sha (mixed sha sk.prng seed
    (SecretKey.reseedInfo sk.time)) k) DOM_SEP_SK_UPDATE, ?_, L, h1.leaves, ?_⟩
  · rw [afterDraws_eq hsha, reseeded_eq hsha, ← text_update, sampleThenUpdate_eq hsha]
  · rw [h3]
    exact List.mem_flatMap.2 ⟨k, List.mem_range.2 hn, by simp [SecretKey.drawLeft,
      SecretKey.reseedInfo]⟩

/-- C52 (refuted): writing a secret key leaves a copy of every sub key's vector behind; if the
writer fails, the whole serialised key stays behind as well. -/
theorem C52_serialize_leaves_key {E : Ext G1 G2 GT} {c : Bool} {sk : SecretKey G1 G2} {b : Bytes}
    (h : SecretKey.serialize E c sk = .ok b) :
    Leaves (SecretKey.serializeM E c true sk) (sk.ssk.map (fun s => .g1s s.hvector)) ∧
    Leaves (SecretKey.serializeM E c false sk)
      (sk.ssk.map (fun s => .g1s s.hvector) ++ [.bytes b]) :=
  ⟨(SecretKey.serializeM_ok h).1.leaves, (SecretKey.serializeM_ok h).2.leaves⟩

/-- C52 (refuted): reading a secret key leaves its PRNG state behind, and two of the three secret
components of every sub key. -/
theorem C52_deserialize_leaves_seed {E : Ext G1 G2 GT} {c : Bool} {inp out : Bytes}
    {sk : SecretKey G1 G2} (h : (SecretKey.deserialize E c).exec inp = .ok (sk, out)) :
    Leaves (SecretKey.deserializeM E c inp)
      (sk.ssk.flatMap (fun s => [.g1 s.hpoly, .g2 s.g2r]) ++ [.bytes sk.prng.seed]) :=
  (SecretKey.deserializeM_ok h).leaves

/-- C52 (refuted): signing with a sub key whose vector is empty fails and leaves the secret
component `hpoly` of the sub key behind; re-randomising a sub key with an invalid time stamp fails
and leaves the scalar and its multiple of the generator behind. -/
theorem C52_failures_leave_secrets {pp : PubParam G1 G2} (S : ParamShape pp) (pf : Profile)
    (M r : Fr) :
    (∀ (sk : SecretKey G1 G2) s l, sk.ssk = s :: l → ValidTime pp.depth s.time → s.hvector = [] →
      Signature.signFr pf sk sk.time pp M r = .err .sskEmpty ∧
      LeavesBehind (Signature.signFrM pf sk sk.time pp M r) (.g1 s.hpoly)) ∧
    (∀ s : SubSecretKey G1 G2, ¬ ValidTime pp.depth s.time →
      Leaves (SubSecretKey.randomizationM pf pp r s) [.g2 (mulFr r pp.g2), .fr r]) := by
  refine ⟨fun sk s l hs hv he => ?_, fun s hv => ?_⟩
  · have hn := nodeAt_num (path_isNode hv)
    rw [num_path hv] at hn
    obtain ⟨h1, h2⟩ := Signature.signFrM_empty S pf hs hn he M r
    exact ⟨h1, _, h2.leaves, by simp⟩
  · obtain ⟨e, _, h2⟩ := SubSecretKey.randomizationM_bad (pf := pf) S.depth_le r hv
    exact h2.leaves

/-! ## C56: consequences -/

/-- C56: from what key generation leaves behind anyone can set up a complete secret key for time 1:
a root sub key made with any scalar `r`, with any PRNG state.  It signs for every valid time, and
the signatures verify under the generated public key. -/
theorem C56_keygen_memory_signs_always [DecidableEq GT] {E : Ext G1 G2 GT} (H : HashLaws E)
    (L : GroupLaws E) (pf pf' : Profile) {pp : PubParam G1 G2} (W : ParamWF E pp) {seed : Bytes}
    {pk : PublicKey G2} {sk : SecretKey G1 G2} {pop : ProofOfPossession G1}
    (hk : keygen E seed pp = .ok (pk, sk, pop)) :
    ∃ a : G1, LeavesBehind (keygenM E seed pp) (.g1 a) ∧
      ∀ (r : Fr) (p : Prng), p.seed.length = 64 →
      ∃ s, SubSecretKey.init pp a r = .ok s ∧
        ∀ t, ValidTime pp.depth t → ∀ msg seed',
          let mine : SecretKey G1 G2 :=
            { ciphersuite := pp.ciphersuite, time := 1, ssk := [s], prng := p }
          (∃ sig mine', Signature.sign E.sha512 pf t pp msg seed' mine = (.ok sig, mine') ∧
            sig.time = t ∧ Signature.verifyBytes E pf' sig pk pp msg = .ok true) ∨
          (1 < t ∧ ∃ k, 1 ≤ k ∧ k < pp.depth ∧
            afterDraws E.sha512 (reseeded E.sha512 p seed' 1) k = p) := by
  obtain ⟨x, _, _, hx, _, _, _, _, h1, _⟩ := C52_keygen_leaves_everything H W.toParamShape hk
  have hsup := keygen_supported hk
  refine ⟨_, h1, fun r p hp => ?_⟩
  obtain ⟨s, h2, h3⟩ := SubSecretKey.init_for W.toParamShape (mulFr x pp.h) r
  refine ⟨s, h2, fun t ht msg seed' => ?_⟩
  have hn : IsNode pp.depth [] := isNode_nil.2 W.depth_pos
  have hkey : HKey pp (x.val • pp.h) []
      { ciphersuite := pp.ciphersuite, time := 1, ssk := [s], prng := p } :=
    { suite := rfl, time := by simp, node := hn, prng := hp, ssk := .cons ⟨_, h3⟩ .nil }
  have hkf := hkey.keyFor
  rcases C23_sign_succeeds H L pf pf' W hsup hkf (tar := t) (show 1 ≤ t from ht.1)
    ht.2 hx msg seed' with ⟨sig, sk', h4, _, h5, h6⟩ | ⟨_, h4, k, h5⟩
  · exact Or.inl ⟨sig, sk', h4, h5, h6⟩
  · exact Or.inr ⟨h4, k, h5⟩

/-- C56: an update to a time below the left child of the present node (for instance to the next
time, when the present node has children) can be undone with the help of one of the scalars it
leaves behind: the old sub keys, all of them and exactly, are a function of the new key and that
scalar. -/
theorem C56_update_undone {sha : Bytes → Bytes} (hsha : ∀ m, (sha m).length = 64) (pf : Profile)
    {pp : PubParam G1 G2} (S : ParamShape pp) {alpha : G1} {t tar : Nat} {v w : List Nat}
    {seed : Bytes} {sk sk' : SecretKey G1 G2} (h : KeyFor pp alpha t sk)
    (hv : NodeAt pp.depth t v) (hw : NodeAt pp.depth tar (v ++ 1 :: w))
    (hu : SecretKey.update sha pf pp tar seed sk = (.ok (), sk')) :
    ∃ (r : Fr) (first sib : SubSecretKey G1 G2) (mid kept : List (SubSecretKey G1 G2)),
      LeavesBehind (SecretKey.updateM sha pf pp tar seed sk) (.fr r) ∧
      sk'.ssk = first :: (mid ++ sib :: kept) ∧ NodeAt pp.depth sib.time (v ++ [2]) ∧
      sk.ssk = undo pp t v w r first sib :: kept := by
  obtain ⟨v', hv', hk⟩ := keyFor_iff.1 h
  have ht : sk.time = t := by rw [hk.time, nodeAt_num_eq hv']
  have hvv : v' = v := num_inj hk.node (nodeAt_isNode hv)
    (by rw [nodeAt_num_eq hv', nodeAt_num_eq hv])
  subst hvv
  have hn := nodeAt_isNode hw
  rw [← nodeAt_num_eq hw] at hu
  obtain ⟨s, SB, l, h1, ⟨rho, h2⟩, h3, h4⟩ := update_below_left hsha S hk hn hu
  have hn2 : IsNode pp.depth (v' ++ [2]) := by
    have h5 := isNode_append.1 hn
    refine ⟨?_, ?_⟩
    · have := hn.1
      simp only [List.length_append, List.length_cons] at this ⊢
      simp only [List.length_nil]
      omega
    · intro x hx
      rcases List.mem_append.1 hx with hx | hx
      · exact hk.node.2 x hx
      · exact Or.inr (List.mem_singleton.1 hx)
  have hlen : s.hvector.length = pp.depth - v'.length := by
    rw [h2.hvector, List.length_map, List.length_drop, S.hlist_len]
    omega
  have hvl : v'.length + 1 < pp.depth := by
    have := hn2.1
    simpa using this
  obtain ⟨y, hvec, hy⟩ : ∃ y hvec, s.hvector = y :: hvec := by
    cases hs : s.hvector with
    | nil => rw [hs] at hlen; simp at hlen; omega
    | cons a b => exact ⟨a, b, rfl⟩
  obtain ⟨r, h6, h7⟩ := C52_update_leaves_its_draws hsha pf S hu (k := (sibs w).length) (by
    rw [h1, h4]
    simp
    omega)
  refine ⟨r, _, _, l, SB, by rw [← nodeAt_num_eq hw]; exact h7, h4, nodeAt_num hn2, ?_⟩
  have hr : r = drawVal sha (SecretKey.chain sha (mixed sha sk.prng seed
      (SecretKey.reseedInfo sk.time)) (sibs w).length) DOM_SEP_SK_UPDATE := by
    rw [afterDraws_eq hsha, reseeded_eq hsha, ← text_update, sampleThenUpdate_eq hsha] at h6
    exact (Res.ok.inj h6).symm
  rw [← hr, h1]
  have hst : s.time = t := by
    rw [← nodeAt_num_eq h2.node, nodeAt_num_eq hv]
  rw [← hst]
  rw [undo_eq pp v' w r s hy (by
    rw [List.length_drop, S.hlist_len]
    rw [hy] at hlen
    simp only [List.length_cons] at hlen
    omega)]

/-- C56: hence forward security is lost: with the new key and one of the scalars the update leaves
behind, one can sign any message for the time before the update. -/
theorem C56_forward_security_lost [DecidableEq GT] {E : Ext G1 G2 GT} (H : HashLaws E)
    (L : GroupLaws E) (pf pf' : Profile) {pp : PubParam G1 G2} (W : ParamWF E pp)
    (hsup : Supported pp.ciphersuite) {x t tar : Nat} {v w : List Nat} {seed : Bytes}
    {sk sk' : SecretKey G1 G2} (h : KeyFor pp (x • pp.h) t sk)
    (hv : NodeAt pp.depth t v) (hw : NodeAt pp.depth tar (v ++ 1 :: w))
    (hu : SecretKey.update E.sha512 pf pp tar seed sk = (.ok (), sk'))
    {pk : PublicKey G2} (hpk : pk.pk = x • pp.g2) :
    t < tar ∧
    ∃ (r : Fr) (first sib : SubSecretKey G1 G2) (mid kept : List (SubSecretKey G1 G2)),
      LeavesBehind (SecretKey.updateM E.sha512 pf pp tar seed sk) (.fr r) ∧
      sk'.ssk = first :: (mid ++ sib :: kept) ∧
      ∀ msg, ∃ sig mine', Signature.sign E.sha512 pf t pp msg []
          { sk' with time := t, ssk := undo pp t v w r first sib :: kept } = (.ok sig, mine') ∧
        sig.time = t ∧ Signature.verifyBytes E pf' sig pk pp msg = .ok true := by
  have hlt : t < tar := by
    rw [← nodeAt_num_eq hv, ← nodeAt_num_eq hw]
    exact num_lt_of_append (nodeAt_isNode hw) (by simp)
  refine ⟨hlt, ?_⟩
  obtain ⟨r, first, sib, mid, kept, h1, h2, h3, h4⟩ :=
    C56_update_undone H.sha_len pf W.toParamShape h hv hw hu
  refine ⟨r, first, sib, mid, kept, h1, h2, fun msg => ?_⟩
  have hk' : KeyFor pp (x • pp.h) tar sk' := by
    rcases (C15_update_outcome H.sha_len pf W.toParamShape h tar seed).2 ⟨hlt, by
      rw [← nodeAt_num_eq hw]; exact (valid_num (nodeAt_isNode hw)).2⟩ with
      ⟨s', h5, h6⟩ | ⟨h5, _⟩
    · rw [hu] at h5
      rw [(Prod.mk.inj h5).2]; exact h6
    · rw [hu] at h5; cases (Prod.mk.inj h5).1
  have hmine : KeyFor pp (x • pp.h) t
      { sk' with time := t, ssk := undo pp t v w r first sib :: kept } := by
    rw [← h4]
    exact { suite := hk'.suite, time := rfl, valid := h.valid, prng := hk'.prng, ssk := h.ssk }
  rcases C23_sign_succeeds H L pf pf' W hsup hmine (tar := t) (le_refl _) h.valid.2 hpk msg [] with
    ⟨sig, mine', h7, _, h8, h9⟩ | ⟨_, h7, _⟩
  · exact ⟨sig, mine', h7, h8, h9⟩
  · exact absurd h7 (lt_irrefl _)

/-- C56: two signatures made with the same secret key on messages with different hash values, and
the scalars that making them leaves behind, give a signature on any message for that time. -/
theorem C56_two_signatures_give_all [DecidableEq GT] {E : Ext G1 G2 GT} (H : HashLaws E)
    (L : GroupLaws E) (pf pf' : Profile) {pp : PubParam G1 G2} (W : ParamWF E pp)
    (hsup : Supported pp.ciphersuite) {x t : Nat} {v : List Nat} {sk : SecretKey G1 G2}
    (h : KeyFor pp (x • pp.h) t sk) (hv : NodeAt pp.depth t v)
    {pk : PublicKey G2} (hpk : pk.pk = x • pp.g2) {msg1 msg2 : Bytes}
    (hne : msgField E.sha512 pp.ciphersuite msg1 ≠ msgField E.sha512 pp.ciphersuite msg2) :
    ∃ (sig1 sig2 : Signature G1 G2) (r1 r2 : Fr),
      Signature.signBytes E.sha512 pf sk t pp msg1 = .ok sig1 ∧
      Signature.signBytes E.sha512 pf sk t pp msg2 = .ok sig2 ∧
      LeavesBehind (Signature.signBytesM E.sha512 pf sk t pp msg1) (.fr r1) ∧
      LeavesBehind (Signature.signBytesM E.sha512 pf sk t pp msg2) (.fr r2) ∧
      ∀ msg, Signature.verifyBytes E pf'
        (mixSignatures pp v (msgField E.sha512 pp.ciphersuite msg1) r1 sig1
          (msgField E.sha512 pp.ciphersuite msg2) r2 sig2 (msgField E.sha512 pp.ciphersuite msg))
        pk pp msg = .ok true := by
  obtain ⟨v', hv', hk⟩ := keyFor_iff.1 h
  have hvv : v' = v := num_inj hk.node (nodeAt_isNode hv)
    (by rw [nodeAt_num_eq hv', nodeAt_num_eq hv])
  subst hvv
  obtain ⟨rho, h1⟩ := Signature.signBytes_explicit H.sha_len pf W.toParamShape hsup hk
  rw [h.time] at h1
  refine ⟨_, _, _, _, h1 msg1, h1 msg2,
    ⟨_, (Signature.signBytesM_ok H.sha_len pf (h1 msg1)).leaves, by simp; exact Or.inr rfl⟩,
    ⟨_, (Signature.signBytesM_ok H.sha_len pf (h1 msg2)).leaves, by simp; exact Or.inr rfl⟩,
    fun msg => ?_⟩
  refine SigFor.verifies H L W pf' hsup (mixSignatures_sigFor (rho := rho) ?_ hne rfl hv' rfl rfl rfl
    _) hpk
  have hl : E.inSub1 (pp.hlist.getLastD 0) = true := by
    cases hh : pp.hlist with
    | nil => exact L.sub1_zero
    | cons a l =>
      rw [← hh]
      refine W.hlist_sub _ ?_
      rw [List.getLastD_eq_getLast?, List.getLast?_eq_some_getLast (by rw [hh]; simp)]
      exact List.getLast_mem _
  exact L.sub1_order _ (L.sub1_nsmul hl rho)

/-! ### Concrete cases -/

section Examples
open Pixel.Toy

-- the group structure of `Verif/Toy.lean`: without this the one of the field `Z/3` is found
attribute [-instance] ZMod.instField

/-- C52, C56: a key generation that succeeds, and one that is refused -/
example : (∃ pk sk pop, keygen (ext sha0) (List.replicate 32 7) (param 5 1) = .ok (pk, sk, pop)) ∧
    ¬ Clean (keygenM (ext sha0) (List.replicate 32 7) (param 5 1)) ∧
    Clean (keygenM (ext sha0) [1, 2] (param 5 1)) := by
  have W := param_wf sha0 (d := 5) (by omega) (by omega) 1
  obtain ⟨s, _, _, h3⟩ := keygen_eq hashLaws W.toParamShape
    (seed := List.replicate 32 7) (by simp) (Or.inr rfl)
  refine ⟨⟨_, _, _, h3⟩, fun hc => ?_,
    (C52_clean_partial (sha := sha0) hashLaws.sha_len .debug).2.2 _ _ _ (Or.inl (by decide))⟩
  obtain ⟨x, _, _, _, _, _, _, ⟨l, h4, h5⟩, _⟩ :=
    C52_keygen_leaves_everything hashLaws W.toParamShape h3
  rw [Leaves.unique h4 hc] at h5
  cases h5

/-- C52, C56: the update of the concrete key from time 1 to time 2, which draws once, and its
undoing -/
example : ∃ sk', SecretKey.update sha0 .debug (param 5 1) 2 [] (sk0 5 1) = (.ok (), sk') ∧
    0 + (sk0 5 1).ssk.length < sk'.ssk.length ∧
    ∃ (r : Fr) (first sib : SubSecretKey G G) (mid kept : List (SubSecretKey G G)),
      LeavesBehind (SecretKey.updateM sha0 .debug (param 5 1) 2 [] (sk0 5 1)) (.fr r) ∧
      sk'.ssk = first :: (mid ++ sib :: kept) ∧
      (sk0 5 1).ssk = undo (param 5 1) 1 [] [] r first sib :: kept := by
  have hs : ∀ m, (sha0 m).length = 64 := hashLaws.sha_len
  have S := (param_wf sha0 (d := 5) (by omega) (by omega) 1).toParamShape
  obtain ⟨sk', h1, h2⟩ := toy_update (tar := 2) (by omega) (by omega)
  obtain ⟨r, first, sib, mid, kept, h3, h4, _, h5⟩ :=
    C56_update_undone hs .debug S (keyFor_sk0 (by omega) 1) (v := []) (w := []) (tar := 2)
      ⟨by omega, by decide +kernel⟩ ⟨by omega, by decide +kernel⟩ h1
  refine ⟨sk', h1, ?_, r, first, sib, mid, kept, h3, h4, h5⟩
  rw [h4]
  show 0 + 1 < _
  simp only [List.length_cons, List.length_append]
  omega

/-- C56: messages with different hash values, for the two signatures -/
example : msgField sha0 1 [1] ≠ msgField sha0 1 [2] ∧
    KeyFor (param 5 1) (3 • (param 5 1).h) 1 (sk0 5 1) ∧ NodeAt (param 5 1).depth 1 [] :=
  ⟨by decide +kernel, keyFor_sk0 (by omega) 1, by omega, by decide +kernel⟩

/-- C52: valid keys can be written and read -/
theorem written_and_read {E : Ext G1 G2 GT} (C : CodecLaws E) {k : SecretKey G1 G2}
    (h : SkValid E k) : ∃ b, k.serialize E true = .ok b ∧
      (SecretKey.deserialize E true).exec b = .ok (k, []) := by
  obtain ⟨h1, h2⟩ := C36_secret_key C true h []
  rw [List.append_nil] at h2
  exact ⟨_, h1, SM.exec_ok h2⟩

/-- C52: a key that is written and read -/
example : ∃ b, (sk0 5 1).serialize (ext sha0) true = .ok b ∧
    (SecretKey.deserialize (ext sha0) true).exec b = .ok (sk0 5 1, []) ∧
    ¬ Clean (SecretKey.serializeM (ext sha0) true true (sk0 5 1)) := by
  have W := param_wf sha0 (d := 5) (by omega) (by omega) 1
  have hv := KeyFor.skValid (groupLaws sha0) W (by decide) (Or.inr rfl)
    ((groupLaws sha0).sub1_nsmul W.h_sub 3) (keyFor_sk0 (by omega) 1)
  obtain ⟨b, h1, h2⟩ := written_and_read (codecLaws sha0) hv
  refine ⟨b, h1, h2, fun hc => ?_⟩
  have := congrArg List.length (Leaves.unique (C52_serialize_leaves_key h1).1 hc)
  rw [List.length_map] at this
  exact absurd (show 1 = 0 from this) (by omega)

/-- C52: a signature made by the concrete key, and the failing paths -/
example : (∃ sig, Signature.signBytes sha0 .debug (sk0 5 1) 1 (param 5 1) [4] = .ok sig) ∧
    (∃ s : SubSecretKey G G, ValidTime (param 5 1).depth s.time ∧ s.hvector = []) ∧
    ∃ s : SubSecretKey G G, ¬ ValidTime (param 5 1).depth s.time := by
  have W := param_wf sha0 (d := 5) (by omega) (by omega) 1
  obtain ⟨sig, _, _, h, _⟩ := Signature.signBytes_keyFor (hashLaws.sha_len : ∀ m, (sha0 m).length = 64)
    .debug W.toParamShape (Or.inr rfl) (keyFor_sk0 (by omega) 1) [4]
  exact ⟨⟨sig, h⟩, ⟨⟨1, 0, 0, []⟩, ⟨le_refl 1, show 1 ≤ 2 ^ 5 - 1 by omega⟩, rfl⟩,
    ⟨⟨0, 0, 0, []⟩, fun h => absurd (show 1 ≤ 0 from h.1) (by omega)⟩⟩

end Examples

end Pixel.Props
