import Verif.Proof.Agg
import Verif.Props.Sig
import Verif.Props.Keys

/-!
# Properties C31–C35: aggregation

Vocabulary: `Verif/Spec/Key.lean`, `Verif/Spec/Sig.lean`; assumptions: `Verif/Spec/Laws.lean`.
-/

namespace Pixel.Props

open Pixel Pixel.Spec

set_option linter.unusedSectionVars false

variable {G1 G2 GT : Type} [AddCommGroup G1] [AddCommGroup G2] [CommGroup GT]

/-! ## C31 -/

/-- C31: if every signature of a non-empty list verifies under its own public key, for one message
and one time, then the aggregate exists and verifies under the list of public keys. -/
theorem C31_aggregate_verifies [DecidableEq GT] {E : Ext G1 G2 GT} (H : HashLaws E)
    (L : GroupLaws E) {pp : PubParam G1 G2} (W : ParamWF E pp) (pf : Profile) (msg : Bytes) (t : Nat)
    (l : List (PublicKey G2 × Signature G1 G2)) (hne : l ≠ [])
    (hpk : ∀ p ∈ l, E.inSub2 p.1.pk = true ∧ p.1.ciphersuite = pp.ciphersuite)
    (ht : ∀ p ∈ l, p.2.time = t)
    (hv : ∀ p ∈ l, Signature.verifyBytes E pf p.2 p.1 pp msg = .ok true) :
    ∃ s, Signature.aggregateWithoutValidate (l.map (·.2)) = .ok s ∧ s.time = t ∧
      s.ciphersuite = pp.ciphersuite ∧
      Signature.verifyBytesAggregated E pf s (l.map (·.1)) pp msg = .ok true := by
  -- the sums satisfy the verification equation with the sums of the exponents
  have key : ∀ l : List (PublicKey G2 × Signature G1 G2),
      (∀ p ∈ l, E.inSub2 p.1.pk = true ∧ p.1.ciphersuite = pp.ciphersuite) →
      (∀ p ∈ l, p.2.time = t) →
      (∀ p ∈ l, Signature.verifyBytes E pf p.2 p.1 pp msg = .ok true) →
      ∃ x a : Nat, ((l.map (·.1)).map (·.pk)).sum = x • pp.g2 ∧
        ((l.map (·.2)).map (·.sigma1)).sum = a • pp.g2 ∧
        ∀ v, NodeAt pp.depth t v → ((l.map (·.2)).map (·.sigma2)).sum =
          x • pp.h + a • sigPoint pp v (msgField E.sha512 pp.ciphersuite msg) := by
    intro l
    induction l with
    | nil => exact fun _ _ _ => ⟨0, 0, by simp, by simp, fun _ _ => by simp⟩
    | cons p l ih =>
      intro hpk ht hv
      obtain ⟨x, a, h1, h2, h3⟩ := ih (fun q hq => hpk q (by simp [hq]))
        (fun q hq => ht q (by simp [hq])) (fun q hq => hv q (by simp [hq]))
      obtain ⟨x', hx'⟩ := L.gen2_gen _ (hpk p (by simp)).1
      rw [← W.g2_gen] at hx'
      obtain ⟨_, v', a', hs⟩ := (C24_accept_sigFor H L W pf p.2 hx' msg).1 (hv p (by simp))
      refine ⟨x' + x, a' + a, ?_, ?_, ?_⟩
      · simp only [List.map_cons, List.sum_cons]
        rw [h1, hx', add_smul]
      · simp only [List.map_cons, List.sum_cons]
        rw [h2, hs.sigma1, add_smul]
      · intro v hn
        have hvv : v' = v := num_inj (nodeAt_isNode hs.node) (nodeAt_isNode hn)
          (by rw [nodeAt_num_eq hs.node, nodeAt_num_eq hn, ht p (by simp)])
        subst hvv
        simp only [List.map_cons, List.sum_cons]
        rw [h3 v' hn, hs.sigma2, add_smul, add_smul]
        abel
  obtain ⟨x, a, h1, h2, h3⟩ := key l hpk ht hv
  obtain ⟨p, hp⟩ := List.exists_mem_of_ne_nil l hne
  obtain ⟨x', hx'⟩ := L.gen2_gen _ (hpk p hp).1
  rw [← W.g2_gen] at hx'
  obtain ⟨hsup, v, _, hs⟩ := (C24_accept_sigFor H L W pf p.2 hx' msg).1 (hv p hp)
  have hn : NodeAt pp.depth t v := by have := hs.node; rwa [ht p hp] at this
  have hsuite : ∀ q ∈ l, q.2.ciphersuite = pp.ciphersuite := by
    intro q hq
    obtain ⟨x', hx'⟩ := L.gen2_gen _ (hpk q hq).1
    rw [← W.g2_gen] at hx'
    obtain ⟨_, _, _, hs⟩ := (C24_accept_sigFor H L W pf q.2 hx' msg).1 (hv q hq)
    exact hs.suite
  refine ⟨{ ciphersuite := pp.ciphersuite, time := t
            sigma1 := ((l.map (·.2)).map (·.sigma1)).sum
            sigma2 := ((l.map (·.2)).map (·.sigma2)).sum },
    Signature.aggregate_ok_iff.2 ⟨by simpa using hne, ?_, rfl, rfl⟩, rfl, rfl, ?_⟩
  · intro e he
    obtain ⟨q, hq, rfl⟩ := List.mem_map.1 he
    exact ⟨hsuite q hq, ht q hq⟩
  · rw [Signature.verifyBytesAggregated_eq E pf _ _ pp msg (by simpa using hne) (by
      intro pk hpk'
      obtain ⟨q, hq, rfl⟩ := List.mem_map.1 hpk'
      exact (hpk q hq).2)]
    refine (C24_accept_sigFor H L W pf _ h1 msg).2 ⟨hsup, v, a, rfl, hn, h2, h3 v hn⟩

/-- C31: the converse fails: two signatures that are both rejected can aggregate to an accepted one,
so an accepted aggregate says nothing about the individual signatures. -/
theorem C31_bad_signatures_cancel [DecidableEq GT] {E : Ext G1 G2 GT} (H : HashLaws E)
    (L : GroupLaws E) {pp : PubParam G1 G2} (W : ParamWF E pp) (pf : Profile) (msg : Bytes)
    {s s' : Signature G1 G2} {pk pk' : PublicKey G2} (hpk : E.inSub2 pk.pk = true)
    (hpk' : E.inSub2 pk'.pk = true) (hc : pk.ciphersuite = pp.ciphersuite)
    (hc' : pk'.ciphersuite = pp.ciphersuite) (ht : s.time = s'.time)
    (h : Signature.verifyBytes E pf s pk pp msg = .ok true)
    (h' : Signature.verifyBytes E pf s' pk' pp msg = .ok true)
    {e : G1} (he : e ≠ 0) :
    let b : Signature G1 G2 := { s with sigma2 := s.sigma2 + e }
    let b' : Signature G1 G2 := { s' with sigma2 := s'.sigma2 - e }
    Signature.verifyBytes E pf b pk pp msg = .ok false ∧
      Signature.verifyBytes E pf b' pk' pp msg = .ok false ∧
      ∃ a, Signature.aggregateWithoutValidate [b, b'] = .ok a ∧
        Signature.verifyBytesAggregated E pf a [pk, pk'] pp msg = .ok true := by
  intro b b'
  have rej : ∀ {u w : Signature G1 G2} {p : PublicKey G2}, E.inSub2 p.pk = true →
      Signature.verifyBytes E pf u p pp msg = .ok true → u.time = w.time → u.sigma1 = w.sigma1 →
      u.sigma2 ≠ w.sigma2 → Signature.verifyBytes E pf w p pp msg = .ok false := by
    intro u w p hp hu h1 h2 h3
    obtain ⟨c, hb⟩ := C24_total H W.toParamShape pf w p msg
    cases c with
    | false => exact hb
    | true => exact absurd ((C29_sigma2_determined H L W pf hp h1 hu hb).2 h2) h3
  refine ⟨rej hpk h rfl rfl ?_, rej hpk' h' rfl rfl ?_, ?_⟩
  · intro hh
    exact he (by simpa [b] using hh)
  · intro hh
    have h1 : s'.sigma2 = s'.sigma2 - e := hh
    exact he (by rwa [eq_comm, sub_eq_self] at h1)
  · obtain ⟨a, h1, _, _, h2⟩ := C31_aggregate_verifies H L W pf msg s.time
      [(pk, s), (pk', s')] (by simp) (by simp [hpk, hpk', hc, hc']) (by simp [ht])
      (by simp [h, h'])
    refine ⟨a, ?_, h2⟩
    obtain ⟨_, h3, h4, h5⟩ := Signature.aggregate_ok_iff.1 h1
    refine Signature.aggregate_ok_iff.2 ⟨by simp, ?_, ?_, ?_⟩
    · simpa [b, b'] using h3
    · simpa [b, b'] using h4
    · rw [h5]
      simp only [b, b', List.map_cons, List.map_nil, List.sum_cons, List.sum_nil]
      abel

/-! ## C32 -/

/-- C32: aggregation of a non-empty list succeeds exactly when all ciphersuites agree and all times
agree; the result has that ciphersuite and time, and the sums of the components. -/
theorem C32_success_iff (l : List (Signature G1 G2)) (s : Signature G1 G2) :
    Signature.aggregateWithoutValidate l = .ok s ↔ l ≠ [] ∧
      (∀ e ∈ l, e.ciphersuite = s.ciphersuite ∧ e.time = s.time) ∧
      s.sigma1 = (l.map (·.sigma1)).sum ∧ s.sigma2 = (l.map (·.sigma2)).sum :=
  Signature.aggregate_ok_iff

/-- C32: otherwise the error is that of the first entry that differs from the first signature, its
ciphersuite before its time. -/
theorem C32_first_offender (x e : Signature G1 G2) (pre post : List (Signature G1 G2))
    (hpre : ∀ p ∈ pre, p.ciphersuite = x.ciphersuite ∧ p.time = x.time) :
    (e.ciphersuite ≠ x.ciphersuite →
      Signature.aggregateWithoutValidate (x :: (pre ++ e :: post)) = .err .ciphersuite) ∧
    (e.ciphersuite = x.ciphersuite → e.time ≠ x.time →
      Signature.aggregateWithoutValidate (x :: (pre ++ e :: post)) = .err .timeStamp) := by
  constructor
  · intro h
    rw [Signature.aggregate_cons, Signature.aggCheck_append _ _ _ hpre, Signature.aggCheck,
      if_pos (Ne.symm h)]
    rfl
  · intro h h'
    rw [Signature.aggregate_cons, Signature.aggCheck_append _ _ _ hpre, Signature.aggCheck,
      if_neg (by simp [h]), if_pos (Ne.symm h')]
    rfl

/-- C32: aggregation of a non-empty list never panics. -/
theorem C32_no_panic (l : List (Signature G1 G2)) (hne : l ≠ []) (p : Panic) :
    Signature.aggregateWithoutValidate l ≠ .panic p := by
  cases l with
  | nil => exact absurd rfl hne
  | cons x l =>
    rw [Signature.aggregate_cons]
    have key : ∀ l, Signature.aggCheck x l ≠ .panic p := by
      intro l
      induction l with
      | nil => intro h; cases h
      | cons e l ih =>
        rw [Signature.aggCheck]
        split
        · intro h; cases h
        · split
          · intro h; cases h
          · exact ih
    cases hc : Signature.aggCheck x l with
    | ok u => intro h; cases h
    | err e => intro h; cases h
    | panic q => intro h; cases h; exact key l hc

/-! ## C33 -/

/-- C33: permuting the signatures does not change the aggregate. -/
theorem C33_order {l l' : List (Signature G1 G2)} (h : l.Perm l') (s : Signature G1 G2) :
    Signature.aggregateWithoutValidate l = .ok s ↔
      Signature.aggregateWithoutValidate l' = .ok s := by
  rw [Signature.aggregate_ok_iff, Signature.aggregate_ok_iff, (h.map _).sum_eq,
    (h.map (fun e : Signature G1 G2 => e.sigma2)).sum_eq]
  simp only [h.mem_iff, ne_eq]
  rw [show (l = [] ↔ l' = []) from ⟨fun e => by subst e; exact h.nil_eq.symm,
    fun e => by subst e; exact h.eq_nil⟩]

/-- C33: aggregating the aggregates of groups gives the same outcome - result or error - as
aggregating everything at once. -/
theorem C33_grouping {ls : List (List (Signature G1 G2))} {ss : List (Signature G1 G2)}
    (h : List.Forall₂ (fun l s => Signature.aggregateWithoutValidate l = .ok s) ls ss) :
    Signature.aggregateWithoutValidate ss = Signature.aggregateWithoutValidate ls.flatten := by
  cases h with
  | nil => rfl
  | @cons l s ls ss hl hrest =>
    obtain ⟨hne, hall, h1, h2⟩ := Signature.aggregate_ok_iff.1 hl
    cases l with
    | nil => exact absurd rfl hne
    | cons y l =>
      obtain ⟨hy1, hy2⟩ := hall y (by simp)
      obtain ⟨e1, e2⟩ := Signature.sums_flatten (.cons hl hrest)
      rw [List.flatten_cons, List.cons_append, Signature.aggregate_cons, Signature.aggregate_cons,
        Signature.aggCheck_append y l _ (by
          intro e he; rw [hy1, hy2]; exact hall e (by simp [he])),
        Signature.aggCheck_flatten s hrest, Signature.aggCheck_congr hy1.symm hy2.symm, hy1, hy2,
        e1, e2]
      rfl

/-- C33: aggregated verification does not depend on the order of the public keys. -/
theorem C33_key_order [DecidableEq GT] (E : Ext G1 G2 GT) (pf : Profile) (sig : Signature G1 G2)
    {pks pks' : List (PublicKey G2)} (h : pks.Perm pks') (pp : PubParam G1 G2) (msg : Bytes) :
    Signature.verifyBytesAggregated E pf sig pks pp msg =
      Signature.verifyBytesAggregated E pf sig pks' pp msg := by
  by_cases hc : ∀ pk ∈ pks, pk.ciphersuite = pp.ciphersuite
  · by_cases hne : pks = []
    · subst hne
      rw [h.nil_eq]
    · rw [Signature.verifyBytesAggregated_eq E pf sig pks pp msg hne hc,
        Signature.verifyBytesAggregated_eq E pf sig pks' pp msg
          (fun e => hne (by subst e; exact h.eq_nil)) (fun pk hpk => hc pk (h.mem_iff.2 hpk)),
        (h.map _).sum_eq]
  · push Not at hc
    obtain ⟨pk, h1, h2⟩ := hc
    rw [C28_aggregated_checks_suite E pf sig pks pp msg ⟨pk, h1, h2⟩,
      C28_aggregated_checks_suite E pf sig pks' pp msg ⟨pk, h.mem_iff.1 h1, h2⟩]

/-! ## C34 -/

/-- C34: aggregating the empty list panics. -/
theorem C34_aggregate_empty :
    Signature.aggregateWithoutValidate ([] : List (Signature G1 G2)) = .panic .index := rfl

/-- C34: aggregated verification under the empty key list panics as soon as the signature has the
ciphersuite of the parameters, and returns `false` otherwise. -/
theorem C34_verify_empty [DecidableEq GT] (E : Ext G1 G2 GT) (pf : Profile)
    (sig : Signature G1 G2) (pp : PubParam G1 G2) (msg : Bytes) :
    Signature.verifyBytesAggregated E pf sig [] pp msg =
      if sig.ciphersuite = pp.ciphersuite then .panic .index else .ok false := by
  unfold Signature.verifyBytesAggregated
  by_cases h : sig.ciphersuite = pp.ciphersuite
  · simp only [List.any_nil, Bool.false_eq_true, if_false, h, ne_eq, not_true, if_true]
    rfl
  · simp [h]

/-! ## C35 -/

/-- C35: aggregated verification under a non-empty list of keys with the ciphersuite of the
parameters is verification under the sum of the keys: nothing else of the list matters. -/
theorem C35_only_the_sum [DecidableEq GT] (E : Ext G1 G2 GT) (pf : Profile)
    (sig : Signature G1 G2) (pks : List (PublicKey G2)) (pp : PubParam G1 G2) (msg : Bytes)
    (hne : pks ≠ []) (hc : ∀ pk ∈ pks, pk.ciphersuite = pp.ciphersuite) (cs : UInt8) :
    Signature.verifyBytesAggregated E pf sig pks pp msg =
      Signature.verifyBytes E pf sig { ciphersuite := cs, pk := (pks.map (·.pk)).sum } pp msg :=
  Signature.verifyBytesAggregated_eq E pf sig pks pp msg hne hc

/-- C35, the rogue-key attack: for any list of honest keys an attacker holding a single signature
under their own key can name a public key that makes it verify as a joint signature of everybody. -/
theorem C35_rogue_key [DecidableEq GT] {E : Ext G1 G2 GT} (L : GroupLaws E) (pf : Profile)
    {pp : PubParam G1 G2} (pks : List (PublicKey G2))
    (hc : ∀ pk ∈ pks, pk.ciphersuite = pp.ciphersuite ∧ E.inSub2 pk.pk = true)
    {own : PublicKey G2} (hown : E.inSub2 own.pk = true) {sig : Signature G1 G2} {msg : Bytes}
    (h : Signature.verifyBytes E pf sig own pp msg = .ok true) :
    ∃ rogue : PublicKey G2, rogue.ciphersuite = pp.ciphersuite ∧ E.inSub2 rogue.pk = true ∧
      Signature.verifyBytesAggregated E pf sig (rogue :: pks) pp msg = .ok true := by
  refine ⟨{ ciphersuite := pp.ciphersuite, pk := own.pk - (pks.map (·.pk)).sum }, rfl, ?_, ?_⟩
  · simp only []
    rw [sub_eq_add_neg]
    refine L.sub2_add _ _ hown (L.sub2_neg _ ?_)
    have : ∀ l : List (PublicKey G2), (∀ pk ∈ l, E.inSub2 pk.pk = true) →
        E.inSub2 (l.map (·.pk)).sum = true := by
      intro l
      induction l with
      | nil => exact fun _ => L.sub2_zero
      | cons p l ih =>
        intro hl
        rw [List.map_cons, List.sum_cons]
        exact L.sub2_add _ _ (hl p (by simp)) (ih (fun q hq => hl q (by simp [hq])))
    exact this pks (fun pk hpk => (hc pk hpk).2)
  · rw [C35_only_the_sum E pf sig _ pp msg (by simp) (by
      intro pk hpk
      rcases List.mem_cons.1 hpk with rfl | hpk
      · rfl
      · exact (hc pk hpk).1) own.ciphersuite]
    simp only [List.map_cons, List.sum_cons, sub_add_cancel]
    exact h

/-- C35: what the proof of possession adds: for the rogue key `own - honest`, the only accepted
proof is `(own - honest)·H`, so whoever finds one learns `honest·H`, i.e. a BLS signature of the
honest key on the encoding of the rogue key. -/
theorem C35_pop_stops_rogue [DecidableEq GT] {E : Ext G1 G2 GT} (L : GroupLaws E)
    {rogue : PublicKey G2} {own honest : Nat}
    (hr : rogue.pk + honest • E.gen2 = own • E.gen2) {pop : ProofOfPossession G1}
    (h : rogue.validate E pop = true) :
    honest • E.hashToG1 (text "Pixel public key POP" ++ E.encG2 true rogue.pk) [rogue.ciphersuite] =
      own • E.hashToG1 (text "Pixel public key POP" ++ E.encG2 true rogue.pk) [rogue.ciphersuite] -
        pop.pop := by
  have hs : E.inSub2 rogue.pk = true := by
    have : rogue.pk = own • E.gen2 - honest • E.gen2 := eq_sub_of_add_eq hr
    rw [this, sub_eq_add_neg]
    exact L.sub2_add _ _ (L.sub2_nsmul L.gen2_sub _) (L.sub2_neg _ (L.sub2_nsmul L.gen2_sub _))
  obtain ⟨x, hx⟩ := L.gen2_gen _ hs
  obtain ⟨_, _, h3⟩ := (PublicKey.validate_iff L hx pop).1 h
  set Q := E.hashToG1 (text "Pixel public key POP" ++ E.encG2 true rogue.pk) [rogue.ciphersuite]
    with hQ
  have hQs : E.inSub1 Q = true := L.hash_sub _ _
  -- transfer the relation between the exponents through the pairing
  have hrel : pair E E.gen2 (x • Q + honest • Q - own • Q) = 1 := by
    rw [sub_eq_add_neg, L.pair_add_right _ _ _ L.gen2_sub
      (L.sub1_add _ _ (L.sub1_nsmul hQs _) (L.sub1_nsmul hQs _)) (L.sub1_neg _ (L.sub1_nsmul hQs _)),
      L.pair_add_right _ _ _ L.gen2_sub (L.sub1_nsmul hQs _) (L.sub1_nsmul hQs _),
      L.pair_neg_right L.gen2_sub (L.sub1_nsmul hQs _), ← L.pair_nsmul L.gen2_sub hQs,
      ← L.pair_nsmul L.gen2_sub hQs, ← L.pair_nsmul L.gen2_sub hQs,
      ← L.pair_add_left _ _ _ (L.sub2_nsmul L.gen2_sub _) (L.sub2_nsmul L.gen2_sub _) hQs, ← hx, hr,
      mul_inv_cancel]
  have h0 := L.pair_nondeg _ (L.sub1_sub (L.sub1_add _ _ (L.sub1_nsmul hQs _)
    (L.sub1_nsmul hQs _)) (L.sub1_nsmul hQs _)) hrel
  rw [h3, ← sub_eq_zero.1 h0]
  abel

/-! ### Concrete cases -/

section Examples
open Pixel.Toy

/-- C31, C33: two signers (here twice the same one) -/
example : ∃ sig, ∃ s : Signature G G, Signature.aggregateWithoutValidate [sig, sig] = .ok s ∧
    Signature.verifyBytesAggregated (ext sha0) .debug s [toyPk, toyPk] (param 5 1) [1, 2, 3] =
      .ok true := by
  have W := param_wf sha0 (d := 5) (by omega) (by omega) 1
  obtain ⟨sig, _, ht, hv⟩ := toy_sig
  have hpk : (ext sha0).inSub2 toyPk.pk = true := by
    unfold toyPk
    exact (groupLaws sha0).sub2_nsmul (by simp [ext, param]) 3
  obtain ⟨s, h1, _, _, h2⟩ := C31_aggregate_verifies hashLaws (groupLaws sha0) W .debug [1, 2, 3] 1
    [(toyPk, sig), (toyPk, sig)] (by simp) (by
      intro p hp
      simp only [List.mem_cons, List.not_mem_nil, or_false, or_self] at hp
      subst hp
      exact ⟨hpk, rfl⟩) (by simp [ht])
    (by simp [hv])
  exact ⟨sig, s, h1, h2⟩

/-- C31: an aggregate of two rejected signatures is accepted -/
example : ∃ b b' a : Signature G G,
    Signature.verifyBytes (ext sha0) .debug b toyPk (param 5 1) [1, 2, 3] = .ok false ∧
    Signature.verifyBytes (ext sha0) .debug b' toyPk (param 5 1) [1, 2, 3] = .ok false ∧
    Signature.aggregateWithoutValidate [b, b'] = .ok a ∧
    Signature.verifyBytesAggregated (ext sha0) .debug a [toyPk, toyPk] (param 5 1) [1, 2, 3] =
      .ok true := by
  have W := param_wf sha0 (d := 5) (by omega) (by omega) 1
  obtain ⟨sig, _, ht, hv⟩ := toy_sig
  have hpk : (ext sha0).inSub2 toyPk.pk = true := by
    unfold toyPk
    exact (groupLaws sha0).sub2_nsmul (by simp [ext, param]) 3
  obtain ⟨h1, h2, a, h3, h4⟩ := C31_bad_signatures_cancel hashLaws (groupLaws sha0) W .debug
    [1, 2, 3] hpk hpk rfl rfl rfl hv hv (e := ((1, 0) : G)) (by decide +kernel)
  exact ⟨_, _, a, h1, h2, h3, h4⟩

/-- C32: the second entry has another time; C33: a permutation that is not the identity -/
example : Signature.aggregateWithoutValidate
    [({ ciphersuite := 0, time := 1, sigma1 := (1, 0), sigma2 := (2, 0) } : Signature G G),
     { ciphersuite := 0, time := 1, sigma1 := (3, 0), sigma2 := (4, 0) },
     { ciphersuite := 0, time := 2, sigma1 := (3, 0), sigma2 := (4, 0) },
     { ciphersuite := 1, time := 1, sigma1 := (3, 0), sigma2 := (4, 0) }] = .err .timeStamp :=
  (C32_first_offender _ _ [_] _ (by simp)).2 rfl (by decide)

/-- C35: the attack works on the concrete key -/
example : ∃ (sig : Signature G G) (rogue : PublicKey G),
    Signature.verifyBytesAggregated (ext sha0) .debug sig
      [rogue, { ciphersuite := 1, pk := 11 • (param 5 1).g2 }] (param 5 1) [1, 2, 3] = .ok true := by
  obtain ⟨sig, _, _, hv⟩ := toy_sig
  have hs : ∀ n : Nat, (ext sha0).inSub2 (n • (param 5 1).g2) = true := fun n =>
    (groupLaws sha0).sub2_nsmul (by simp [ext, param]) n
  obtain ⟨rogue, _, _, h⟩ := C35_rogue_key (groupLaws sha0) .debug
    [{ ciphersuite := 1, pk := 11 • (param 5 1).g2 }] (by
      intro pk hpk
      rw [List.mem_singleton.1 hpk]
      exact ⟨rfl, hs 11⟩) (own := toyPk) (hs 3) hv
  exact ⟨sig, rogue, h⟩

end Examples

end Pixel.Props
