import Verif.Spec.Tests
import Verif.Props.Schedule
import Verif.Props.Keys
import Verif.Props.SubKey
import Verif.Props.Serdes
import Verif.Props.Agg
import Verif.Props.Ffi
import Verif.Props.Sig
import Verif.Props.Validate

/-! # Lemmas about the unit tests -/

namespace Pixel.Tests

open Pixel Spec Props

set_option linter.unusedSectionVars false

/-! ### tests that pass exactly if -/

theorem _root_.Pixel.Spec.PassesIff.congr {x : Res Unit} {P Q : Prop} (h : PassesIff x P) (e : P ↔ Q) :
    PassesIff x Q := by
  rwa [← propext e]

theorem _root_.Pixel.Spec.PassesIff.ok : PassesIff (.ok ()) True := ⟨fun _ => rfl, fun h => absurd trivial h⟩

theorem _root_.Pixel.Spec.PassesIff.bind_ok {α : Type} {x : Res α} {a : α} {f : α → Res Unit} {P : Prop}
    (e : x = .ok a) (h : PassesIff (f a) P) : PassesIff (x >>= f) P := by
  rw [e]; exact h

theorem _root_.Pixel.Spec.PassesIff.seq {x : Res Unit} {y : Unit → Res Unit} {P Q : Prop} (h1 : PassesIff x P)
    (h2 : P → PassesIff (y ()) Q) : PassesIff (x >>= y) (P ∧ Q) := by
  by_cases hP : P
  · rw [h1.1 hP]
    exact (h2 hP).congr ⟨fun hq => ⟨hP, hq⟩, fun hq => hq.2⟩
  · obtain ⟨p, hp⟩ := h1.2 hP
    rw [hp]
    exact ⟨fun h => absurd h.1 hP, fun _ => ⟨p, rfl⟩⟩

theorem _root_.Pixel.Spec.PassesIff.forEach {α : Type} {f : α → Res Unit} {P : α → Prop} {l : List α}
    (h : ∀ a ∈ l, PassesIff (f a) (P a)) : PassesIff (Kat.forEach l f) (∀ a ∈ l, P a) := by
  induction l with
  | nil => exact PassesIff.ok.congr (by simp)
  | cons a l ih =>
    rw [Kat.forEach]
    refine (PassesIff.seq (h a (by simp)) (fun _ => ih (fun b hb => h b (by simp [hb])))).congr ?_
    simp

theorem mem_range' {a n j : Nat} : j ∈ List.range' a (n - a) ↔ a ≤ j ∧ j < n := by
  rw [List.mem_range'_1]; omega

theorem _root_.Pixel.Spec.PassesIff.forRange {a n : Nat} {f : Nat → Res Unit} {P : Nat → Prop}
    (h : ∀ j, a ≤ j → j < n → PassesIff (f j) (P j)) :
    PassesIff (forRange a n f) (∀ j, a ≤ j → j < n → P j) := by
  refine (PassesIff.forEach (P := P) (fun j hj => ?_)).congr ?_
  · exact h j (mem_range'.1 hj).1 (mem_range'.1 hj).2
  · simp only [mem_range', and_imp]

theorem passes_assert (b : Bool) : PassesIff (assertRes b) (b = true) := by
  cases b
  · exact ⟨fun h => absurd h (by simp), fun _ => ⟨_, rfl⟩⟩
  · exact ⟨fun _ => rfl, fun h => absurd rfl h⟩

theorem passes_mustNot {b : Res Bool} (h : b = .ok true ∨ b = .ok false) :
    PassesIff (mustNot b) (b ≠ .ok true) := by
  rcases h with rfl | rfl
  · exact ⟨fun h => absurd rfl h, fun _ => ⟨_, rfl⟩⟩
  · exact ⟨fun _ => rfl, fun h => absurd (by simp) h⟩

theorem must_ok {b : Res Bool} (h : b = .ok true) : must b = .ok () := by rw [h]; rfl

theorem forEach_ok {α : Type} {l : List α} {f : α → Res Unit} (h : ∀ a ∈ l, f a = .ok ()) :
    Kat.forEach l f = .ok () := by
  induction l with
  | nil => rfl
  | cons a l ih =>
    rw [Kat.forEach, h a (by simp)]
    exact ih (fun b hb => h b (by simp [hb]))

/-! ### the common parts -/

variable {G1 G2 GT : Type} [AddCommGroup G1] [AddCommGroup G2] [CommGroup GT] [DecidableEq GT]
  {E : Ext G1 G2 GT} {pp : PubParam G1 G2}

theorem newKey_ok (H : HashLaws E) (L : GroupLaws E) (W : ParamWF E pp) {seed : Bytes}
    (hs : 32 ≤ seed.length) (hc : Supported pp.ciphersuite) :
    ∃ (pk : PublicKey G2) (sk : SecretKey G1 G2) (x : Nat), newKey E pp seed = .ok (pk, sk) ∧ pk.ciphersuite = pp.ciphersuite ∧
      pk.pk = x • pp.g2 ∧ KeyFor pp (x • pp.h) 1 sk ∧
      sk.prng = firstState E.sha512 seed pp.ciphersuite := by
  obtain ⟨pk, sk, pop, h1, h2, _, ⟨x, h3, h4⟩, _, _, h5⟩ :=
    (C12_keygen_outcome H L .debug W seed).2.2 hs hc
  refine ⟨pk, sk, x, ?_, h2, h3, h4, C62_first_state H W.toParamShape h1⟩
  unfold newKey
  rw [h1]
  show (assertRes _ >>= fun _ => Res.ok (pk, sk)) = _
  rw [h5]
  rfl

theorem updated_cases (H : HashLaws E) (pf : Profile) (W : ParamWF E pp) {alpha : G1} {t tar : Nat}
    {sk : SecretKey G1 G2} (h : KeyFor pp alpha t sk) (h1 : t < tar) (h2 : tar ≤ 2 ^ pp.depth - 1)
    (useed : Bytes) :
    (prngStep E.sha512 pp.depth sk.prng t tar useed = none ∧
      updated E pf pp sk tar useed = .panic .assertion) ∨
    ∃ sk', prngStep E.sha512 pp.depth sk.prng t tar useed = some sk'.prng ∧
      updated E pf pp sk tar useed = .ok sk' ∧ KeyFor pp alpha tar sk' := by
  rcases update_step H.sha_len pf W.toParamShape h h1 h2 useed with ⟨e1, e2⟩ | ⟨sk', e1, e2, e3⟩
  · refine Or.inl ⟨e1, ?_⟩
    unfold updated
    simp [SM.exec, e2, mustOk]
  · refine Or.inr ⟨sk', e1, ?_, e3⟩
    unfold updated
    simp [SM.exec, e2, mustOk]

/-- an update, then something that depends on the PRNG of the new key -/
theorem _root_.Pixel.Spec.PassesIff.updated (H : HashLaws E) (pf : Profile) (W : ParamWF E pp) {alpha : G1}
    {t tar : Nat} {sk : SecretKey G1 G2} (h : KeyFor pp alpha t sk) (h1 : t < tar)
    (h2 : tar ≤ 2 ^ pp.depth - 1) (useed : Bytes) {f : SecretKey G1 G2 → Res Unit} {Q : Prng → Prop}
    (hf : ∀ sk', KeyFor pp alpha tar sk' →
      prngStep E.sha512 pp.depth sk.prng t tar useed = some sk'.prng → PassesIff (f sk') (Q sk'.prng)) :
    PassesIff (Tests.updated E pf pp sk tar useed >>= f)
      (∃ q, prngStep E.sha512 pp.depth sk.prng t tar useed = some q ∧ Q q) := by
  rcases updated_cases H pf W h h1 h2 useed with ⟨e1, e2⟩ | ⟨sk', e1, e2, e3⟩
  · rw [e2, e1]
    exact ⟨fun ⟨_, h, _⟩ => (by cases h), fun _ => ⟨_, rfl⟩⟩
  · rw [e2, e1]
    refine (hf sk' e3 e1).congr ?_
    simp

theorem subKeysValid_ok (L : GroupLaws E) (pf : Profile) (W : ParamWF E pp) {x t : Nat}
    {sk : SecretKey G1 G2} (h : KeyFor pp (x • pp.h) t sk) {pk : PublicKey G2}
    (hpk : pk.pk = x • pp.g2) : subKeysValid E pf pp pk sk = .ok () := by
  refine forEach_ok fun s hs => must_ok ?_
  obtain ⟨vs, hvs, h2⟩ := h.ssk
  have : ∃ v rho, SubKeyFor pp (x • pp.h) v rho s := by
    clear h hvs
    revert hs
    generalize sk.ssk = l at h2
    intro hs
    induction h2 with
    | nil => cases hs
    | cons h _ ih =>
      rcases List.mem_cons.1 hs with rfl | hs
      · exact ⟨_, h⟩
      · exact ih hs
  obtain ⟨v, rho, h⟩ := this
  exact SubSecretKey.validate_honest L W h hpk

theorem validate_ok (L : GroupLaws E) (pf : Profile) (W : ParamWF E pp) {x t : Nat}
    {sk : SecretKey G1 G2} (h : KeyFor pp (x • pp.h) t sk) {pk : PublicKey G2}
    (hc : pk.ciphersuite = pp.ciphersuite) (hpk : pk.pk = x • pp.g2) :
    must (sk.validate E pf pk pp) = .ok () := by
  obtain ⟨v, _, hk⟩ := keyFor_iff.1 h
  exact must_ok (SecretKey.validate_honest L W pf hk hc hpk)

theorem signed_ok (H : HashLaws E) (L : GroupLaws E) (pf : Profile) (W : ParamWF E pp)
    (hc : Supported pp.ciphersuite) {x t : Nat} {sk : SecretKey G1 G2}
    (h : KeyFor pp (x • pp.h) t sk) {pk : PublicKey G2} (hpk : pk.pk = x • pp.g2) (msg : Bytes) :
    ∃ sig, signed E pf pp pk sk t msg = .ok sig ∧ sig.time = t ∧
      Signature.signBytes E.sha512 pf sk t pp msg = .ok sig ∧
      sig.verifyBytes E pf pk pp msg = .ok true := by
  obtain ⟨sig, v, a, h1, h2, h3⟩ := Signature.signBytes_keyFor H.sha_len pf W.toParamShape hc h msg
  have h4 := SigFor.verifies H L W pf hc h2 hpk
  refine ⟨sig, ?_, h3, h1, h4⟩
  unfold signed
  rw [h1]
  show (must _ >>= fun _ => Res.ok sig) = _
  rw [must_ok h4]
  rfl

theorem masterKeyGen_ok (H : HashLaws E) {seed : Bytes} (hs : 32 ≤ seed.length)
    (hc : Supported pp.ciphersuite) :
    ∃ (x : Fr) (prng : Prng) (pop : G1),
      masterKeyGen E seed pp = .ok (mulFr x pp.g2, mulFr x pp.h, pop, prng) := by
  have hv := validCiphersuite_contains.2 hc
  unfold masterKeyGen proofOfPossession
  simp only [hv, Bool.not_true, Bool.false_eq_true, if_false]
  rw [if_neg (by omega), init_prng_eq H.sha_len, Res.ok_bind, sampleThenUpdate_exec H.sha_len]
  exact ⟨_, _, _, rfl⟩

theorem validateMasterKey_ok (L : GroupLaws E) (W : ParamWF E pp) (x : Fr) :
    validateMasterKey E (mulFr x pp.g2) (mulFr x pp.h) pp = true := by
  have hg := L.gen2_sub
  have hh := L.sub1_nsmul W.h_sub x.val
  unfold validateMasterKey
  rw [W.g2_gen, L.pairing_prod]
  · simp only [List.map_cons, List.map_nil, List.prod_cons, List.prod_nil, mul_one,
      decide_eq_true_iff, mulFr]
    rw [L.pair_neg_left hg hh, L.pair_nsmul hg W.h_sub]
    exact inv_mul_cancel _
  · intro q hq
    simp only [List.mem_cons, List.not_mem_nil, or_false] at hq
    rcases hq with rfl | rfl
    · exact ⟨L.sub2_neg _ hg, hh⟩
    · exact ⟨L.sub2_nsmul hg _, W.h_sub⟩

/-! ### streams -/

theorem runs_one {sha : Bytes → Bytes} {d : Nat} {seed : Bytes} {cs : UInt8} {j : Nat} {u : Bytes} :
    Runs sha d seed cs [(j, u)] ↔ ∃ q, prngStep sha d (firstState sha seed cs) 1 j u = some q := by
  unfold Runs
  rw [prngStream]
  cases prngStep sha d (firstState sha seed cs) 1 j u <;> simp [prngStream]

theorem runs_two {sha : Bytes → Bytes} {d : Nat} {seed : Bytes} {cs : UInt8} {i j : Nat}
    {u : Bytes} :
    Runs sha d seed cs [(j, u), (i, u)] ↔
      ∃ q, prngStep sha d (firstState sha seed cs) 1 j u = some q ∧
        ∃ q', prngStep sha d q j i u = some q' := by
  unfold Runs
  rw [prngStream]
  cases prngStep sha d (firstState sha seed cs) 1 j u with
  | none => simp
  | some q =>
    simp only [prngStream, Option.some.injEq, exists_eq_left']
    cases prngStep sha d q j i u <;> simp

theorem twoSteps_iff {sha : Bytes → Bytes} {d : Nat} {seed : Bytes} {cs : UInt8} {j n : Nat}
    {u : Bytes} {p : Prng} (e : p = firstState sha seed cs) :
    (∃ q, prngStep sha d p 1 j u = some q ∧
      ∀ i, j + 1 ≤ i → i < n → ∃ q', prngStep sha d q j i u = some q') ↔
    Runs sha d seed cs [(j, u)] ∧
      ∀ i, j < i → i < n → Runs sha d seed cs [(j, u), (i, u)] := by
  simp only [runs_one, runs_two, ← e]
  constructor
  · rintro ⟨q, h1, h2⟩
    exact ⟨⟨q, h1⟩, fun i hi1 hi2 => ⟨q, h1, h2 i hi1 hi2⟩⟩
  · rintro ⟨⟨q, h1⟩, h2⟩
    refine ⟨q, h1, fun i hi1 hi2 => ?_⟩
    obtain ⟨q', h3, h4⟩ := h2 i hi1 hi2
    rw [h1] at h3
    rwa [Option.some.inj h3]

/-- a loop of updates, with a body that cannot fail -/
theorem passes_row (H : HashLaws E) (pf : Profile) (W : ParamWF E pp) {alpha : G1} (useed : Bytes)
    {g : SecretKey G1 G2 → Nat → Res (SecretKey G1 G2)}
    (hg : ∀ j sk, KeyFor pp alpha j sk → g sk j = .ok sk) (m : Nat) :
    ∀ {t : Nat} {sk : SecretKey G1 G2}, KeyFor pp alpha t sk → t + m ≤ 2 ^ pp.depth - 1 →
    PassesIff ((List.range' (t + 1) m).foldlM (fun sk j => updated E pf pp sk j useed >>= fun sk =>
        g sk j) sk >>= fun _ => .ok ())
      ((prngStream E.sha512 pp.depth sk.prng t
        ((List.range' (t + 1) m).map (fun i => (i, useed)))).isSome = true) := by
  induction m with
  | zero =>
    intro t sk h _
    exact PassesIff.ok.congr (by simp [prngStream])
  | succ m ih =>
    intro t sk h hm
    rw [List.range'_succ, List.foldlM_cons, List.map_cons, prngStream]
    have h1 : t < t + 1 := by omega
    rcases updated_cases H pf W h h1 (by omega) useed with ⟨e1, e2⟩ | ⟨sk', e1, e2, e3⟩
    · rw [e2, e1]
      exact ⟨fun h => by simp at h, fun _ => ⟨_, rfl⟩⟩
    · rw [e2, e1, Res.ok_bind, hg _ _ e3]
      exact ih e3 (by omega)

/-! ### the state of the PRNG after an update differs from the one before -/

theorem coverTimes_pos {d t s : Nat} (h : ValidTime d t) (hs : s ∈ coverTimes d t) : 1 ≤ s := by
  obtain ⟨_, _, _, h2, _⟩ := (C62_cover_times_iff h).1 hs
  exact h2.1

theorem coverTimes_self {d t : Nat} (h : ValidTime d t) : t ∈ coverTimes d t := by
  have := nodeAt_iff (v := path d t).2 ⟨h, rfl⟩
  exact (C62_cover_times_iff h).2 ⟨_, _, this, this, Or.inl rfl⟩

theorem draws_pos {d j : Nat} (h1 : 2 ≤ j) (h2 : j ≤ 2 ^ (d - 1)) : 1 ≤ drawsNeeded d 1 j := by
  cases d with
  | zero => simp at h2; omega
  | succ e =>
    rw [Nat.add_sub_cancel] at h2
    have hv : ValidTime e (j - 1) := ⟨by omega, by omega⟩
    have hself := coverTimes_self hv
    have hpos := fun s hs => coverTimes_pos (s := s) hv hs
    unfold drawsNeeded newTimes
    rw [show coverTimes (e + 1) 1 = [1] by simp [coverTimes],
      show coverTimes (e + 1) j = (coverTimes e (j - 1)).map (· + 1) ++ [2 ^ e + 1] by
        rw [coverTimes, if_neg (by omega), if_pos h2]]
    rw [List.filter_eq_self.2 (by
      intro s hs
      rcases List.mem_append.1 hs with hs | hs
      · obtain ⟨c, hc, rfl⟩ := List.mem_map.1 hs
        have := hpos c hc
        simp; omega
      · rw [List.mem_singleton.1 hs]; simp)]
    have := List.length_pos_of_mem hself
    simp only [List.length_append, List.length_map, List.length_singleton]
    omega

theorem prngStep_ne {sha : Bytes → Bytes} {d t tar : Nat} {p q : Prng} {u : Bytes}
    (h : prngStep sha d p t tar u = some q) (hn : 1 ≤ drawsNeeded d t tar) : p ≠ q := by
  unfold prngStep at h
  simp only at h
  split at h
  · cases h
  · rename_i h0
    rintro rfl
    refine h0 (List.any_eq_true.2 ⟨drawsNeeded d t tar - 1, List.mem_range.2 (by omega), ?_⟩)
    rw [Nat.sub_add_cancel hn]
    exact decide_eq_true (Option.some.inj h)

/-! ### delegation down the left spine -/

theorem spine_node {d k : Nat} (h : k < d) : NodeAt d (k + 1) (List.replicate k 1) := by
  have hn : ∀ (k d : Nat), k < d → num d (List.replicate k 1) = k + 1 := by
    intro k
    induction k with
    | zero => intro d _; simp
    | succ k ih =>
      intro d h
      cases d with
      | zero => omega
      | succ d => rw [List.replicate_succ, num_one, ih d (by omega)]; omega
  rw [← hn k d h]
  refine nodeAt_num ⟨by simpa using h, ?_⟩
  intro x hx
  exact Or.inl (List.eq_of_mem_replicate hx)

theorem delegateRound_ok (L : GroupLaws E) (pf : Profile) (W : ParamWF E pp) {x rho k k' : Nat}
    {s : SubSecretKey G1 G2} (h : SubKeyFor pp (x • pp.h) (List.replicate k 1) rho s)
    (h1 : k < k') (h2 : k' < pp.depth) {pk : PublicKey G2} (hpk : pk.pk = x • pp.g2) (r : Fr) :
    ∃ s' rho', delegateRound E pf pp pk r s (k' + 1) = .ok s' ∧
      SubKeyFor pp (x • pp.h) (List.replicate k' 1) rho' s' := by
  have hn := spine_node h2
  have hw : List.replicate k' 1 = List.replicate k 1 ++ List.replicate (k' - k) 1 := by
    rw [List.replicate_append_replicate]; congr 1; omega
  have hk := C07_delegate_iff_descendant pf W.toParamShape h (k' + 1)
  have hok : (SubSecretKey.delegate pf (k' + 1) pp.depth s).1.isOk = true :=
    hk.1.2 ⟨_, hn, List.replicate (k' - k) 1, by simp; omega, hw⟩
  rcases e : SubSecretKey.delegate pf (k' + 1) pp.depth s with ⟨a, s'⟩
  rw [e] at hok
  obtain ⟨b, hb⟩ := Res.isOk_iff.1 hok
  simp only at hb
  subst hb
  obtain ⟨ht, u, _, hs'⟩ := C07_delegate_result pf W.toParamShape h (by simpa using e)
  have hu : u = List.replicate k' 1 := by
    have := hs'.node
    rw [ht] at this
    exact num_inj (nodeAt_isNode this) (nodeAt_isNode hn)
      (by rw [nodeAt_num_eq this, nodeAt_num_eq hn])
  subst hu
  have er := SubKeyFor.randomization_eq W.toParamShape hs' pf r
  have hs'' := hs'.rerand r.val
  refine ⟨_, _, ?_, hs''⟩
  unfold delegateRound
  simp [SM.exec, e, mustOk, must_ok (SubSecretKey.validate_honest L W (pf := pf) hs' hpk), er,
    must_ok (SubSecretKey.validate_honest L W (pf := pf) hs'' hpk)]

theorem delegateRound_end (pf : Profile) (W : ParamWF E pp) {alpha : G1} {rho : Nat}
    {s : SubSecretKey G1 G2} (h : SubKeyFor pp alpha (List.replicate (pp.depth - 1) 1) rho s)
    (pk : PublicKey G2) (r : Fr) :
    delegateRound E pf pp pk r s (pp.depth + 1) = .panic .assertion := by
  have hk := C07_delegate_iff_descendant pf W.toParamShape h (pp.depth + 1)
  have hno : ¬ (SubSecretKey.delegate pf (pp.depth + 1) pp.depth s).1.isOk = true := by
    rw [hk.1]
    rintro ⟨u, h1, w, h2, rfl⟩
    have := (nodeAt_isNode h1).1
    have hw : w.length ≠ 0 := fun h => h2 (List.length_eq_zero_iff.1 h)
    rw [List.length_append, List.length_replicate] at this
    omega
  have h2 := hk.2
  rcases e : SubSecretKey.delegate pf (pp.depth + 1) pp.depth s with ⟨a, s'⟩
  rw [e] at hno h2
  cases a with
  | ok b => exact absurd rfl hno
  | panic p => cases h2
  | err b =>
    unfold delegateRound
    simp [SM.exec, e, mustOk]

theorem spine_loop (L : GroupLaws E) (pf : Profile) (W : ParamWF E pp) {x : Nat}
    {pk : PublicKey G2} (hpk : pk.pk = x • pp.g2) (r : Fr) (m : Nat) :
    ∀ {k rho : Nat} {s : SubSecretKey G1 G2},
    SubKeyFor pp (x • pp.h) (List.replicate k 1) rho s → k < pp.depth →
    (k + 1 + m ≤ pp.depth →
      ∃ s', (List.range' (k + 2) m).foldlM (delegateRound E pf pp pk r) s = .ok s') ∧
    (pp.depth < k + 1 + m →
      ∃ p, (List.range' (k + 2) m).foldlM (delegateRound E pf pp pk r) s = .panic p) := by
  induction m with
  | zero => intro k rho s h hk; exact ⟨fun _ => ⟨s, rfl⟩, fun h => by omega⟩
  | succ m ih =>
    intro k rho s h hk
    rw [List.range'_succ, List.foldlM_cons]
    by_cases hlt : k + 1 < pp.depth
    · obtain ⟨s', rho', e1, e2⟩ := delegateRound_ok L pf W h (Nat.lt_succ_self k) hlt hpk r
      rw [e1, Res.ok_bind]
      obtain ⟨h1, h2⟩ := ih e2 hlt
      exact ⟨fun h => h1 (by omega), fun h => h2 (by omega)⟩
    · have hkd : k = pp.depth - 1 := by omega
      subst hkd
      rw [show pp.depth - 1 + 2 = pp.depth + 1 by omega, delegateRound_end pf W h pk r]
      exact ⟨fun h => by omega, fun _ => ⟨_, rfl⟩⟩

/-! ### signing -/

theorem apiSign_now (H : HashLaws E) (L : GroupLaws E) (pf : Profile) (W : ParamWF E pp)
    (hc : Supported pp.ciphersuite) {x t : Nat} {sk : SecretKey G1 G2}
    (h : KeyFor pp (x • pp.h) t sk) {pk : PublicKey G2} (hpk : pk.pk = x • pp.g2)
    (useed msg : Bytes) : apiSign E pf pp pk useed msg sk t = .ok sk := by
  obtain ⟨sig, v, a, h1, h2, h3⟩ := Signature.signBytes_keyFor H.sha_len pf W.toParamShape hc h msg
  have h4 := SigFor.verifies H L W pf hc h2 hpk
  unfold apiSign
  rw [SM.exec, Signature.sign_now h.time, h1]
  simp [mustOk, must_ok h4]

theorem apiSign_later (H : HashLaws E) (L : GroupLaws E) (pf : Profile) (W : ParamWF E pp)
    (hc : Supported pp.ciphersuite) {x t tar : Nat} {sk : SecretKey G1 G2}
    (h : KeyFor pp (x • pp.h) t sk) (h1 : t < tar) (h2 : tar ≤ 2 ^ pp.depth - 1)
    {pk : PublicKey G2} (hpk : pk.pk = x • pp.g2) (useed msg : Bytes) :
    PassesIff (apiSign E pf pp pk useed msg sk tar >>= fun _ => .ok ())
      (∃ q, prngStep E.sha512 pp.depth sk.prng t tar useed = some q) := by
  rcases update_step H.sha_len pf W.toParamShape h h1 h2 useed with ⟨e1, e2⟩ | ⟨sk', e1, e2, e3⟩
  · rw [e1]
    refine ⟨fun ⟨_, h⟩ => (by cases h), fun _ => ⟨.assertion, ?_⟩⟩
    unfold apiSign
    rw [SM.exec, Signature.sign_future (by rw [h.time]; exact h1), e2]
    rfl
  · rw [e1]
    obtain ⟨sig, v, a, h3, h4, h5⟩ :=
      Signature.signBytes_keyFor H.sha_len pf W.toParamShape hc e3 msg
    have h6 := SigFor.verifies H L W pf hc h4 hpk
    refine ⟨fun _ => ?_, fun h => absurd ⟨_, rfl⟩ h⟩
    unfold apiSign
    rw [SM.exec, Signature.sign_future (by rw [h.time]; exact h1), e2]
    simp [h3, mustOk, must_ok h6]

theorem collect_ok {α β : Type} {l : List α} {f : α → Res β} {R : α → β → Prop}
    (h : ∀ a ∈ l, ∃ b, f a = .ok b ∧ R a b) :
    ∃ bs, collect l f = .ok bs ∧ List.Forall₂ R l bs := by
  induction l with
  | nil => exact ⟨[], rfl, .nil⟩
  | cons a l ih =>
    obtain ⟨b, h1, h2⟩ := h a (by simp)
    obtain ⟨bs, h3, h4⟩ := ih fun a ha => h a (by simp [ha])
    refine ⟨b :: bs, ?_, .cons h2 h4⟩
    rw [collect, h1, Res.ok_bind, h3]
    rfl

theorem bind_assoc' {α β γ : Type} (x : Res α) (f : α → Res β) (g : β → Res γ) :
    (x >>= f) >>= g = x >>= fun a => f a >>= g := by
  cases x <;> rfl

/-! ### serialization -/

theorem skWrite_ok [DecidableEq G1] [DecidableEq G2] (C : CodecLaws E) (pf : Profile)
    (S : ParamShape pp) {alpha : G1} {t : Nat} {sk : SecretKey G1 G2} (h : KeyFor pp alpha t sk)
    (hv : SkValid E sk) : skWrite E pf pp sk t = .ok () := by
  obtain ⟨s1, s2⟩ := C36_secret_key C true hv []
  rw [List.append_nil] at s2
  have hl := C37_secret_key_size C hv.seed s1
  unfold skWrite
  simp [C37_estimate_exact S pf h, s1, mustOk, hl, reread, s2,
    (C49_secret_key_eq sk sk hv.seed hv.seed).2 rfl, assertRes, Ffi.unwrap]

theorem subValid (L : GroupLaws E) (W : ParamWF E pp) (hd : pp.depth ≤ 32) {alpha : G1}
    (ha : E.inSub1 alpha = true) {v : List Nat} {rho : Nat} {s : SubSecretKey G1 G2}
    (hr : SubKeyFor pp alpha v rho s) : SubValid E s := by
  have hval : ValidTime pp.depth s.time := (nodeAt_iff.1 hr.node).1
  have hpow : 2 ^ pp.depth ≤ 2 ^ 32 := Nat.pow_le_pow_right (by omega) hd
  refine ⟨hval.1, by have := hval.2; have := hval.1; omega, ?_, ?_, ?_, ?_⟩
  · rw [SubKeyFor.hvector_length W.toParamShape hr]; omega
  · rw [hr.g2r, W.g2_gen]; exact L.sub2_nsmul L.gen2_sub _
  · rw [hr.hpoly]
    exact L.sub1_add _ _ ha (L.sub1_nsmul (L.sub1_nodePoint W _) _)
  · intro a ha'
    rw [hr.hvector] at ha'
    obtain ⟨b, hb, rfl⟩ := List.mem_map.1 ha'
    exact L.sub1_nsmul (W.hlist_sub b (List.mem_of_mem_drop hb)) _

/-! ### the C interface -/

theorem cKeygen_ok (H : HashLaws E) (L : GroupLaws E) (C : CodecLaws E) (D : DefaultLaws E)
    (pf : Profile) {seed : Bytes} (hs : 32 ≤ seed.length) :
    ∃ (keys : Ffi.Keys) (sk : SecretKey G1 G2) (x : Nat), Ffi.cKeygen E seed = .ok keys ∧
      keys.pk = pkLayout E true
        { ciphersuite := E.defaultParam.ciphersuite, pk := x • E.defaultParam.g2 } ∧
      keys.sk = skLayout E true sk ∧ KeyFor E.defaultParam (x • E.defaultParam.h) 1 sk ∧
      sk.prng = firstState E.sha512 seed E.defaultParam.ciphersuite ∧
      Ffi.cEstimateSkSize pf 1 Ffi.cGetDepth = .ok keys.sk.length ∧
      Ffi.cVerifyPop E keys.pk keys.pop = .ok true := by
  obtain ⟨keys, x, h1, h2, h3, h4, h5, ⟨sk, h6, h7⟩, h8⟩ := (C46_keygen H L C D pf seed).2 hs
  refine ⟨keys, sk, x, h1, h5, h7, h6, ?_, h4, h8⟩
  obtain ⟨pk', sk', pop', k1, k2, k3, ⟨x', k4, k5⟩, _, _, k6⟩ :=
    (C12_keygen_outcome H L pf D.wf seed).2.2 hs D.suite
  have k7 : keys.sk = skLayout E true sk' := by
    unfold Ffi.cKeygen at h1
    simp only [k1, Ffi.unwrap, Res.ok_bind, D.serialize_sk L C k5] at h1
    cases p1 : pk'.serialize E true with
    | ok b1 =>
      cases p2 : pop'.serialize E true with
      | ok b2 =>
        simp only [p1, p2, Res.ok_bind] at h1
        cases p3 : Ffi.toArray 49 b1 with
        | ok b3 =>
          cases p4 : Ffi.toArray 97 b2 with
          | ok b4 =>
            simp only [p3, p4, Res.ok_bind] at h1
            rw [← Res.ok.inj h1]
          | err _ => simp [p3, p4] at h1
          | panic _ => simp [p3, p4] at h1
        | err _ => simp [p3] at h1
        | panic _ => simp [p3] at h1
      | err _ => simp [p1, p2] at h1
      | panic _ => simp [p1, p2] at h1
    | err _ => simp [p1] at h1
    | panic _ => simp [p1] at h1
  have q1 := Ffi.parse_sk C (D.skValid L h6) []
  have q2 := Ffi.parse_sk C (D.skValid L k5) []
  rw [← h7, k7, q2] at q1
  rw [← Res.ok.inj q1]
  exact C62_first_state H D.wf.toParamShape k1

/-! ### mismatches -/

theorem nodeAt_unique {d t : Nat} {v w : List Nat} (hv : NodeAt d t v) (hw : NodeAt d t w) : v = w :=
  (nodeAt_iff.1 hv).2.trans (nodeAt_iff.1 hw).2.symm

/-- verification of an honest signature for time 1, with anything else -/
theorem accept_other (H : HashLaws E) (L : GroupLaws E) (pf : Profile) {pp' : PubParam G1 G2}
    (W : ParamWF E pp) (W' : ParamWF E pp') (hc : Supported pp'.ciphersuite)
    (he : pp'.ciphersuite = pp.ciphersuite) {alpha : G1} {M : Fr} {a x' : Nat} {s : Signature G1 G2}
    (h : SigFor pp alpha [] M a s) (ht : s.time = 1) {pk : PublicKey G2} (hpk : pk.pk = x' • pp'.g2)
    (msg : Bytes) :
    PassesIff (mustNot (s.verifyBytes E pf pk pp' msg))
      (alpha + a • sigPoint pp [] M ≠
        x' • pp'.h + a • sigPoint pp' [] (msgField E.sha512 pp'.ciphersuite msg)) := by
  have hb : s.verifyBytes E pf pk pp' msg = .ok true ∨ s.verifyBytes E pf pk pp' msg = .ok false := by
    obtain ⟨b, hb, _⟩ := C24_accept_iff H L W' pf s hpk msg
    cases b
    · exact Or.inr hb
    · exact Or.inl hb
  refine (passes_mustNot hb).congr (not_congr ?_)
  have hn : NodeAt pp'.depth s.time [] := by
    have := spine_node (d := pp'.depth) (k := 0) W'.depth_pos
    rw [ht]; exact this
  have h0 : SigFor pp' (x' • pp'.h) [] (msgField E.sha512 pp'.ciphersuite msg) a
      { s with sigma2 := x' • pp'.h +
        a • sigPoint pp' [] (msgField E.sha512 pp'.ciphersuite msg) } :=
    ⟨by rw [he]; exact h.suite, hn, by rw [W'.g2_gen, ← W.g2_gen]; exact h.sigma1, rfl⟩
  rw [C24_accept_sigFor H L W' pf s hpk msg, ← h.sigma2]
  constructor
  · rintro ⟨_, v, a', h'⟩
    obtain rfl : v = [] := nodeAt_unique h'.node hn
    exact L.sigma2_of_sigma1 W' h' h0 rfl
  · intro e
    exact ⟨hc, [], a, h0.suite, h0.node, h0.sigma1, e⟩

/-- a proof of possession with another public key -/
theorem pop_other (L : GroupLaws E) {k k' : PublicKey G2} {p p' : ProofOfPossession G1} {x x' : Nat}
    (hk : k.pk = x • E.gen2) (hk' : k'.pk = x' • E.gen2) (hs : k.ciphersuite = k'.ciphersuite)
    (hp : k.validate E p = true) (hp' : k'.validate E p' = true) :
    PassesIff (assertRes (!k.validate E p'))
      (x • E.hashToG1 (text "Pixel public key POP" ++ E.encG2 true k.pk) [k.ciphersuite] ≠
        x' • E.hashToG1 (text "Pixel public key POP" ++ E.encG2 true k'.pk) [k'.ciphersuite]) := by
  have h1 := (C13_pop_exact L hk p).1 hp
  have h2 := (C13_pop_exact L hk' p').1 hp'
  refine (passes_assert _).congr ?_
  rw [Bool.not_eq_true', Bool.eq_false_iff, ne_eq, C13_pop_exact L hk p', ← h2.2.2, hs,
    ← hs]
  constructor
  · exact fun h e => h ⟨h1.1, by rw [hs]; exact h2.2.1, e.symm⟩
  · exact fun h e => h e.2.2.symm

end Pixel.Tests
