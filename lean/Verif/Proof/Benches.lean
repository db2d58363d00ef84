import Verif.Model.Benches
import Verif.Spec.Benches
import Verif.Proof.Tests
import Verif.Props.Time

/-! # Lemmas about the benchmarks -/

namespace Pixel.Benches

open Pixel Spec Props Tests

set_option linter.unusedSectionVars false

/-! ### loops -/

theorem passes_collect {α β : Type} {l : List α} {f : α → Res β} {P : α → Prop} {R : α → β → Prop}
    {g : List β → Res Unit} {Q : Prop}
    (h1 : ∀ a ∈ l, (P a ∧ ∃ b, f a = .ok b ∧ R a b) ∨ (¬ P a ∧ ∃ p, f a = .panic p))
    (h2 : ∀ bs, List.Forall₂ R l bs → PassesIff (g bs) Q) :
    PassesIff (collect l f >>= g) ((∀ a ∈ l, P a) ∧ Q) := by
  by_cases hP : ∀ a ∈ l, P a
  · obtain ⟨bs, e, h⟩ := collect_ok (R := R) (f := f) (l := l) fun a ha => by
      rcases h1 a ha with ⟨_, h⟩ | ⟨h, _⟩
      · exact h
      · exact absurd (hP a ha) h
    exact PassesIff.bind_ok e ((h2 bs h).congr ⟨fun q => ⟨hP, q⟩, fun q => q.2⟩)
  · have : ∃ p, collect l f = .panic p := by
      clear h2
      induction l with
      | nil => exact absurd (fun a ha => by cases ha) hP
      | cons a l ih =>
        rw [collect]
        rcases h1 a (by simp) with ⟨h, b, e, _⟩ | ⟨_, p, e⟩
        · rw [e, Res.ok_bind]
          obtain ⟨p, e'⟩ := ih (fun b hb => h1 b (by simp [hb])) fun hl => hP fun c hc => by
            rcases List.mem_cons.1 hc with rfl | hc
            · exact h
            · exact hl c hc
          rw [e']
          exact ⟨p, rfl⟩
        · rw [e]
          exact ⟨p, rfl⟩
    obtain ⟨p, e⟩ := this
    rw [e]
    exact ⟨fun h => absurd h.1 hP, fun _ => ⟨p, rfl⟩⟩

theorem passes_rounds {α β : Type} {n : Nat} {l : List α} {bs : List β} {R : α → β → Prop}
    {f : Nat → β → Res Unit} {P : Nat → α → Prop} (hl : List.Forall₂ R l bs) (hne : l ≠ [])
    (hf : ∀ i a b, R a b → PassesIff (f i b) (P i a)) :
    PassesIff (rounds n bs f) (∀ i < n, AtRound l i (P i)) := by
  refine (PassesIff.forRange (P := fun i => AtRound l i (P i)) fun i _ _ => ?_).congr
    ⟨fun h i hi => h i (by omega) hi, fun h i _ hi => h i hi⟩
  have hlen := hl.length_eq
  have hpos : 0 < l.length := List.length_pos_iff.2 hne
  have hi : i % l.length < l.length := Nat.mod_lt _ hpos
  have hi' : i % l.length < bs.length := by omega
  have hR := (List.forall₂_iff_get.1 hl).2 _ hi hi'
  unfold idx AtRound
  rw [← hlen, List.getElem?_eq_getElem hi', List.getElem?_eq_getElem hi]
  refine (hf i _ _ hR).congr ?_
  simp

theorem passes_const {n : Nat} {f : Nat → Res Unit} (h : ∀ i, f i = .ok ()) :
    forRange 0 n f = .ok () := forEach_ok fun i _ => h i

theorem forRangeWith_ok {σ : Type} {I : Nat → σ → Prop} {f : σ → Nat → Res σ} (m : Nat) :
    ∀ {a : Nat} {s : σ}, I a s → (∀ i s, a ≤ i → i < a + m → I i s → ∃ s', f s i = .ok s' ∧ I (i + 1) s') →
    ∃ s', (List.range' a m).foldlM f s = .ok s' ∧ I (a + m) s' := by
  induction m with
  | zero => intro a s h _; exact ⟨s, rfl, h⟩
  | succ m ih =>
    intro a s h hf
    obtain ⟨s1, e1, h1⟩ := hf a s (by omega) (by omega) h
    obtain ⟨s2, e2, h2⟩ := ih h1 fun i s hi1 hi2 => hf i s (by omega) (by omega)
    refine ⟨s2, ?_, by rwa [show a + (m + 1) = a + 1 + m by omega]⟩
    rw [List.range'_succ, List.foldlM_cons, e1]
    exact e2

theorem genRange_ok {low high r : Nat} (h : low < high) :
    genRange low high r = .ok (low + r % (high - low)) := by
  unfold genRange
  rw [decide_eq_true h]
  rfl

/-! ### keys -/

variable {G1 G2 GT : Type} [AddCommGroup G1] [AddCommGroup G2] [CommGroup GT] [DecidableEq GT]
  {E : Ext G1 G2 GT} {pp : PubParam G1 G2}

theorem keygen_ok (H : HashLaws E) (L : GroupLaws E) (W : ParamWF E pp)
    (hc : Supported pp.ciphersuite) {seed : Bytes} (hs : 32 ≤ seed.length) :
    ∃ (pk : PublicKey G2) (sk : SecretKey G1 G2) (pop : ProofOfPossession G1) (x : Nat),
      keygen E seed pp = .ok (pk, sk, pop) ∧ pk.ciphersuite = pp.ciphersuite ∧
      pk.pk = x • pp.g2 ∧ KeyFor pp (x • pp.h) 1 sk ∧
      sk.prng = firstState E.sha512 seed pp.ciphersuite ∧ pk.validate E pop = true ∧
      sk.ssk.length = 1 := by
  obtain ⟨pk, sk, pop, h1, h2, _, ⟨x, h3, h4⟩, h6, _, h5⟩ :=
    (C12_keygen_outcome H L .debug W seed).2.2 hs hc
  exact ⟨pk, sk, pop, x, h1, h2, h3, h4, C62_first_state H W.toParamShape h1, h5, h6⟩

/-- what is known of a prepared key -/
def KeyOf (E : Ext G1 G2 GT) (pp : PubParam G1 G2) (seed : Bytes) (t : Nat) (sk : SecretKey G1 G2) :
    Prop :=
  (∃ x : Nat, KeyFor pp (x • pp.h) t sk) ∧
    prngStep E.sha512 pp.depth (firstState E.sha512 seed pp.ciphersuite) 1 t [] = some sk.prng

theorem sampleKey_cases (H : HashLaws E) (L : GroupLaws E) (pf : Profile) (W : ParamWF E pp)
    (hc : Supported pp.ciphersuite) {high : Nat} (h0 : 0 < high) (h1 : high ≤ 2 ^ pp.depth - 1)
    {s : Bytes × Nat} (hs : 32 ≤ s.1.length) :
    (Prepared E.sha512 pp.depth pp.ciphersuite high s ∧ ∃ sk, sampleKey E pf pp high s = .ok sk ∧
      KeyOf E pp s.1 (sampleTime high s) sk) ∨
    (¬ Prepared E.sha512 pp.depth pp.ciphersuite high s ∧
      ∃ p, sampleKey E pf pp high s = .panic p) := by
  obtain ⟨pk, sk, pop, x, e1, e2, e3, e4, e5, _⟩ := keygen_ok H L W hc hs
  have ht : sampleTime high s < high := Nat.mod_lt _ h0
  have hg : genRange 0 high s.2 = .ok (sampleTime high s) := by
    rw [genRange_ok h0]; simp [sampleTime]
  have hu : sampleKey E pf pp high s = updated E pf pp sk (sampleTime high s) [] := by
    unfold sampleKey
    rw [e1, hg]
    rfl
  rw [hu]
  unfold Prepared
  by_cases h2 : 2 ≤ sampleTime high s
  · rcases updated_cases H pf W e4 (by omega : 1 < sampleTime high s) (by omega) [] with
      ⟨f1, f2⟩ | ⟨sk', f1, f2, f3⟩
    · refine Or.inr ⟨fun h => ?_, _, f2⟩
      obtain ⟨q, hq⟩ := runs_one.1 h.2
      rw [← e5, f1] at hq
      cases hq
    · refine Or.inl ⟨⟨h2, runs_one.2 ⟨_, e5 ▸ f1⟩⟩, sk', f2, ⟨x, f3⟩, e5 ▸ f1⟩
  · refine Or.inr ⟨fun h => h2 h.1, .assertion, ?_⟩
    have := (C15_update_outcome H.sha_len pf W.toParamShape e4 (sampleTime high s) []).1 (by omega)
    unfold updated
    simp [SM.exec, this, mustOk]

theorem runs_then {sha : Bytes → Bytes} {d : Nat} {seed : Bytes} {cs : UInt8} {i j : Nat} {q : Prng}
    (h : prngStep sha d (firstState sha seed cs) 1 j [] = some q) :
    Runs sha d seed cs [(j, []), (i, [])] ↔ ∃ q', prngStep sha d q j i [] = some q' := by
  rw [runs_two, h]
  simp

/-- one more update of a prepared key -/
theorem passes_next (H : HashLaws E) (pf : Profile) (W : ParamWF E pp) {seed : Bytes} {t tar : Nat}
    {sk : SecretKey G1 G2} (h : KeyOf E pp seed t sk) (h1 : t < tar) (h2 : tar ≤ 2 ^ pp.depth - 1) :
    PassesIff (updated E pf pp sk tar [] >>= fun _ => .ok ())
      (Runs E.sha512 pp.depth seed pp.ciphersuite [(t, []), (tar, [])]) := by
  obtain ⟨⟨x, hk⟩, hq⟩ := h
  refine (PassesIff.updated (Q := fun _ => True) H pf W hk h1 h2 []
    fun _ _ _ => PassesIff.ok).congr ?_
  rw [runs_then hq]
  simp

theorem passes_sign (H : HashLaws E) (pf : Profile) (W : ParamWF E pp) (hc : Supported pp.ciphersuite)
    {seed : Bytes} {t tar : Nat} {sk : SecretKey G1 G2} (h : KeyOf E pp seed t sk) (h1 : t < tar)
    (h2 : tar ≤ 2 ^ pp.depth - 1) (msg : Bytes) :
    PassesIff (mustOk ((Signature.sign E.sha512 pf tar pp msg []).exec sk) >>= fun _ => .ok ())
      (Runs E.sha512 pp.depth seed pp.ciphersuite [(t, []), (tar, [])]) := by
  obtain ⟨⟨x, hk⟩, hq⟩ := h
  rw [runs_then hq, SM.exec, Signature.sign_future (by rw [hk.time]; exact h1)]
  rcases update_step H.sha_len pf W.toParamShape hk h1 h2 [] with ⟨e1, e2⟩ | ⟨sk', e1, e2, e3⟩
  · rw [e1, e2]
    exact ⟨fun ⟨_, h⟩ => (by cases h), fun _ => ⟨_, rfl⟩⟩
  · obtain ⟨sig, v, a, h3, _⟩ := Signature.signBytes_keyFor H.sha_len pf W.toParamShape hc e3 msg
    rw [e1, e2]
    simp only [h3]
    exact ⟨fun _ => rfl, fun h => absurd ⟨_, rfl⟩ h⟩

theorem passes_signThenUpdate (H : HashLaws E) (pf : Profile) (W : ParamWF E pp)
    (hc : Supported pp.ciphersuite) {seed : Bytes} {t : Nat} {sk : SecretKey G1 G2}
    (h : KeyOf E pp seed t sk) (h2 : t + 1 ≤ 2 ^ pp.depth - 1) (msg : Bytes) :
    PassesIff (mustOk ((Signature.signThenUpdate E.sha512 pf sk.time pp msg []).exec sk) >>=
        fun x => assertRes (decide (x.2.time = sk.time + 1)))
      (Runs E.sha512 pp.depth seed pp.ciphersuite [(t, []), (t + 1, [])]) := by
  obtain ⟨⟨x, hk⟩, hq⟩ := h
  obtain ⟨sig, v, a, h3, _⟩ := Signature.signBytes_keyFor H.sha_len pf W.toParamShape hc hk msg
  have hp : 2 ^ pp.depth ≤ 2 ^ 63 := Nat.pow_le_pow_right (by omega) W.depth_le
  rw [runs_then hq, hk.time, SM.exec, Signature.signThenUpdate_eq hk.time, h3]
  simp only [add64_lt (pf := pf) (a := t) (b := 1) (by omega)]
  rcases update_step H.sha_len pf W.toParamShape hk (Nat.lt_succ_self t) h2 [] with
    ⟨e1, e2⟩ | ⟨sk', e1, e2, e3⟩
  · rw [e1, e2]
    exact ⟨fun ⟨_, h⟩ => (by cases h), fun _ => ⟨_, rfl⟩⟩
  · rw [e1, e2]
    refine ⟨fun _ => ?_, fun h => absurd ⟨_, rfl⟩ h⟩
    simp [mustOk, e3.time, assertRes]

theorem sampleSig_cases (H : HashLaws E) (L : GroupLaws E) (pf : Profile) (W : ParamWF E pp)
    (hc : Supported pp.ciphersuite) (h0 : 0 < maxTime pp - 2)
    (h1 : maxTime pp - 2 ≤ 2 ^ pp.depth - 1) (msg : Bytes) {s : Bytes × Nat} (hs : 32 ≤ s.1.length) :
    ((sampleTime (maxTime pp - 2) s ≠ 0 ∧ (2 ≤ sampleTime (maxTime pp - 2) s →
        Runs E.sha512 pp.depth s.1 pp.ciphersuite [(sampleTime (maxTime pp - 2) s, [])])) ∧
      ∃ a, sampleSig E pf pp msg s = .ok a ∧ a.1.validate E a.2.1 = true ∧
        a.2.2.verifyBytes E pf a.1 pp msg = .ok true) ∨
    (¬ (sampleTime (maxTime pp - 2) s ≠ 0 ∧ (2 ≤ sampleTime (maxTime pp - 2) s →
        Runs E.sha512 pp.depth s.1 pp.ciphersuite [(sampleTime (maxTime pp - 2) s, [])])) ∧
      ∃ p, sampleSig E pf pp msg s = .panic p) := by
  obtain ⟨pk, sk, pop, x, e1, e2, e3, e4, e5, e6, _⟩ := keygen_ok H L W hc hs
  have ht : sampleTime (maxTime pp - 2) s < maxTime pp - 2 := Nat.mod_lt _ h0
  have hg : genRange 0 (maxTime pp - 2) s.2 = .ok (sampleTime (maxTime pp - 2) s) := by
    rw [genRange_ok h0]; simp [sampleTime]
  unfold sampleSig
  rw [e1, hg]
  simp only [Ffi.unwrap, Res.ok_bind, SM.exec]
  generalize sampleTime (maxTime pp - 2) s = t at ht ⊢
  rcases (by omega : t = 0 ∨ t = 1 ∨ 2 ≤ t) with rfl | rfl | h2
  · refine Or.inr ⟨fun h => h.1 rfl, .assertion, ?_⟩
    rw [(C25_wrong_time_refused E.sha512 pf pp sk 0 msg []).1 (by rw [e4.time]; omega)]
    rfl
  · obtain ⟨sig, v, a, h3, h4, h5⟩ :=
      Signature.signBytes_keyFor H.sha_len pf W.toParamShape hc e4 msg
    refine Or.inl ⟨⟨by omega, fun h => by omega⟩, (pk, pop, sig), ?_, e6,
      SigFor.verifies H L W pf hc h4 e3⟩
    rw [Signature.sign_now e4.time, h3]
    rfl
  · rw [runs_one, ← e5, Signature.sign_future (by rw [e4.time]; omega)]
    rcases update_step H.sha_len pf W.toParamShape e4 (by omega : 1 < t) (by omega) [] with
      ⟨f1, f2⟩ | ⟨sk', f1, f2, f3⟩
    · refine Or.inr ⟨fun h => ?_, .assertion, ?_⟩
      · obtain ⟨q, hq⟩ := h.2 h2
        rw [f1] at hq
        cases hq
      · rw [f2]
        rfl
    · obtain ⟨sig, v, a, h3, h4, h5⟩ :=
        Signature.signBytes_keyFor H.sha_len pf W.toParamShape hc f3 msg
      refine Or.inl ⟨⟨by omega, fun _ => ⟨_, f1⟩⟩, (pk, pop, sig), ?_, e6,
        SigFor.verifies H L W pf hc h4 e3⟩
      rw [f2]
      simp only [h3]
      rfl

theorem forall₂_left {α β : Type} {R : α → β → Prop} {l : List α} {bs : List β}
    (h : List.Forall₂ R l bs) {a : α} (ha : a ∈ l) : ∃ b ∈ bs, R a b := by
  induction h with
  | nil => cases ha
  | cons h _ ih =>
    rcases List.mem_cons.1 ha with rfl | ha
    · exact ⟨_, by simp, h⟩
    · obtain ⟨b, h1, h2⟩ := ih ha
      exact ⟨b, by simp [h1], h2⟩

theorem forall₂_right {α β : Type} {R : α → β → Prop} {l : List α} {bs : List β}
    (h : List.Forall₂ R l bs) {b : β} (hb : b ∈ bs) : ∃ a ∈ l, R a b := by
  induction h with
  | nil => cases hb
  | cons h _ ih =>
    rcases List.mem_cons.1 hb with rfl | hb
    · exact ⟨_, by simp, h⟩
    · obtain ⟨a, h1, h2⟩ := ih hb
      exact ⟨a, by simp [h1], h2⟩

/-- all keys are updated from time to time, and some more often in between -/
theorem passes_seq (H : HashLaws E) (pf : Profile) (W : ParamWF E pp) (n m : Nat) :
    ∀ {i t : Nat} {sklist : List (SecretKey G1 G2)},
    (∀ sk ∈ sklist, ∃ x : Nat, KeyFor pp (x • pp.h) t sk) → sklist ≠ [] → i + m ≤ sklist.length →
    t + m ≤ 2 ^ pp.depth - 1 →
    PassesIff ((List.range' i m).foldlM (fun (sklist : List (SecretKey G1 G2)) i => (do
        let _ ← idx sklist i
        rounds n sklist fun _ sk => do
          let _ ← updated E pf pp sk (sk.time + 1) []
          .ok ()
        collect sklist fun sk => updated E pf pp sk (sk.time + 1) [] : Res _)) sklist >>= fun _ => .ok ())
      (∀ sk ∈ sklist, (prngStream E.sha512 pp.depth sk.prng t
        ((List.range' (t + 1) m).map (fun i => (i, [])))).isSome = true) := by
  induction m with
  | zero =>
    intro i t sklist _ _ _ _
    exact PassesIff.ok.congr (by simp [prngStream])
  | succ m ih =>
    intro i t sklist hk hne hi ht
    rw [List.range'_succ, List.foldlM_cons]
    have hi' : i < sklist.length := by omega
    simp only [idx, List.getElem?_eq_getElem hi', Res.ok_bind, bind_assoc']
    have hself : List.Forall₂ (fun a b => a = b ∧ a ∈ sklist) sklist sklist :=
      List.forall₂_iff_get.2 ⟨rfl, fun j h _ => ⟨rfl, List.get_mem _ _⟩⟩
    refine (PassesIff.seq (passes_rounds (P := fun _ sk =>
        ∃ q, prngStep E.sha512 pp.depth sk.prng t (t + 1) [] = some q) hself hne
        fun j sk sk' h => ?_) fun _ => passes_collect
      (P := fun sk : SecretKey G1 G2 => ∃ q, prngStep E.sha512 pp.depth sk.prng t (t + 1) [] = some q)
      (R := fun (sk sk' : SecretKey G1 G2) => prngStep E.sha512 pp.depth sk.prng t (t + 1) [] = some sk'.prng ∧
        ∃ x : Nat, KeyFor pp (x • pp.h) (t + 1) sk')
      (Q := ∀ sk ∈ sklist, ∃ q, prngStep E.sha512 pp.depth sk.prng t (t + 1) [] = some q ∧
        (prngStream E.sha512 pp.depth q (t + 1)
          ((List.range' (t + 1 + 1) m).map (fun i => (i, [])))).isSome = true)
      (fun sk hsk => ?_) fun bs hbs => ?_).congr ?_
    · obtain ⟨rfl, h⟩ := h
      obtain ⟨x, hx⟩ := hk sk h
      rw [hx.time]
      exact (PassesIff.updated (Q := fun _ => True) H pf W hx (Nat.lt_succ_self t) (by omega) []
        fun _ _ _ => PassesIff.ok).congr (by simp)
    · obtain ⟨x, hx⟩ := hk sk hsk
      rw [hx.time]
      rcases updated_cases H pf W hx (Nat.lt_succ_self t) (by omega) [] with
        ⟨f1, f2⟩ | ⟨sk', f1, f2, f3⟩
      · exact Or.inr ⟨by rw [f1]; simp, _, f2⟩
      · exact Or.inl ⟨⟨_, f1⟩, sk', f2, f1, x, f3⟩
    · have hlen := hbs.length_eq
      refine (ih (i := i + 1) (t := t + 1) (sklist := bs) (fun sk' h => ?_) ?_ (by omega)
        (by omega)).congr ?_
      · obtain ⟨_, _, _, h⟩ := forall₂_right hbs h
        exact h
      · rintro rfl
        exact hne (List.length_eq_zero_iff.1 hlen)
      · constructor
        · intro h sk hsk
          obtain ⟨sk', h1, h2, _⟩ := forall₂_left hbs hsk
          exact ⟨_, h2, h sk' h1⟩
        · intro h sk' hsk'
          obtain ⟨sk, h1, h2, _⟩ := forall₂_right hbs hsk'
          obtain ⟨q, h3, h4⟩ := h sk h1
          rw [h2] at h3
          rwa [Option.some.inj h3]
    · have key : ∀ sk : SecretKey G1 G2, (prngStream E.sha512 pp.depth sk.prng t
          ((List.range' (t + 1) (m + 1)).map (fun i => (i, ([] : Bytes))))).isSome = true ↔
          ∃ q, prngStep E.sha512 pp.depth sk.prng t (t + 1) [] = some q ∧
            (prngStream E.sha512 pp.depth q (t + 1)
              ((List.range' (t + 1 + 1) m).map (fun i => (i, [])))).isSome = true := by
        intro sk
        rw [List.range'_succ, List.map_cons, prngStream]
        cases prngStep E.sha512 pp.depth sk.prng t (t + 1) [] <;> simp
      constructor
      · rintro ⟨_, _, h⟩ sk hsk
        exact (key sk).2 (h sk hsk)
      · intro h
        have h' := fun sk hsk => (key sk).1 (h sk hsk)
        refine ⟨fun j _ s hs => ?_, fun sk hsk => ?_, h'⟩
        · obtain ⟨q, hq, _⟩ := h' s (List.mem_of_getElem? hs)
          exact ⟨q, hq⟩
        · obtain ⟨q, hq, _⟩ := h' sk hsk
          exact ⟨q, hq⟩

/-! ### sub keys -/

theorem rootSsk_ok (H : HashLaws E) (L : GroupLaws E) (W : ParamWF E pp)
    (hc : Supported pp.ciphersuite) {seed : Bytes} (hs : 32 ≤ seed.length) :
    ∃ (s : SubSecretKey G1 G2) (x rho : Nat), rootSsk E pp seed = .ok s ∧
      SubKeyFor pp (x • pp.h) (List.replicate 0 1) rho s := by
  obtain ⟨pk, sk, pop, x, e1, e2, e3, e4, e5, e6, e7⟩ := keygen_ok H L W hc hs
  obtain ⟨v, hv, hk⟩ := keyFor_iff.1 e4
  obtain rfl : v = [] := nodeAt_unique hv (spine_node (k := 0) W.depth_pos)
  have h2 := hk.ssk
  rcases hl : sk.ssk with _ | ⟨s, l⟩
  · rw [hl] at e7; cases e7
  · rw [hl] at h2
    rcases h2 with _ | ⟨⟨rho, h3⟩, h4⟩
    refine ⟨s, x, rho, ?_, h3⟩
    unfold rootSsk
    rw [e1]
    simp [Ffi.unwrap, SecretKey.firstSsk, hl, idx]

theorem spine_delegate (pf : Profile) (W : ParamWF E pp) {alpha : G1} {rho k k' : Nat}
    {s : SubSecretKey G1 G2} (h : SubKeyFor pp alpha (List.replicate k 1) rho s)
    (h1 : k < k') (h2 : k' < pp.depth) :
    ∃ s', SubSecretKey.delegate pf (k' + 1) pp.depth s = (.ok (), s') ∧
      SubKeyFor pp alpha (List.replicate k' 1) rho s' := by
  have hn := spine_node h2
  have hw : List.replicate k' 1 = List.replicate k 1 ++ List.replicate (k' - k) 1 := by
    rw [List.replicate_append_replicate]; congr 1; omega
  have hk := C07_delegate_iff_descendant pf W.toParamShape h (k' + 1)
  have hok : (SubSecretKey.delegate pf (k' + 1) pp.depth s).1.isOk = true :=
    hk.1.2 ⟨_, hn, List.replicate (k' - k) 1, by simp; omega, hw⟩
  rcases e : SubSecretKey.delegate pf (k' + 1) pp.depth s with ⟨a, s'⟩
  rw [e] at hok
  obtain ⟨b, hb⟩ := Res.isOk_iff.1 hok
  simp only at hb
  subst hb
  obtain ⟨ht, u, _, hs'⟩ := C07_delegate_result pf W.toParamShape h (by simpa using e)
  have hu : u = List.replicate k' 1 := by
    have := hs'.node
    rw [ht] at this
    exact nodeAt_unique this hn
  subst hu
  exact ⟨s', rfl, hs'⟩

theorem spine_time {alpha : G1} {rho k : Nat} {s : SubSecretKey G1 G2} (hk : k < pp.depth)
    (h : SubKeyFor pp alpha (List.replicate k 1) rho s) : s.time = k + 1 := by
  have := nodeAt_num_eq h.node
  rw [← this, nodeAt_num_eq (spine_node hk)]

theorem delegateNext_ok (pf : Profile) (W : ParamWF E pp) {alpha : G1} {rho k : Nat}
    {s : SubSecretKey G1 G2} (h : SubKeyFor pp alpha (List.replicate k 1) rho s)
    (h2 : k + 1 < pp.depth) :
    ∃ s', delegateNext pf pp s = .ok s' ∧ SubKeyFor pp alpha (List.replicate (k + 1) 1) rho s' := by
  obtain ⟨s', e1, e2⟩ := spine_delegate pf W h (Nat.lt_succ_self k) h2
  refine ⟨s', ?_, e2⟩
  unfold delegateNext
  rw [spine_time (by omega) h]
  simp [SM.exec, e1, mustOk]

end Pixel.Benches
