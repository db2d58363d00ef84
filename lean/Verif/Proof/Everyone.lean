import Verif.Proof.Hashing

/-! # Many signers and one random function, played against one of the signers -/

namespace Pixel

open Spec Props

set_option linter.unusedSectionVars false

variable {G1 G2 GT : Type} [AddCommGroup G1] [AddCommGroup G2] [CommGroup GT] {N : Nat}
  {E : Ext G1 G2 GT} {g : G1} {pp : PubParam G1 G2}

/-! ## The game -/

theorem everyone_same [DecidableEq GT] {pf : Profile} {pk : Fin N → PublicKey G2} {who : Fin N → Prop}
    (P : HashCrowd G1 G2 N) (S : Fin N → CodeSigner G1 G2) {pts pts' : Curve G1} (h : Same pts pts') :
    P.chance E pf g pp pk who S pts = P.chance E pf g pp pk who S pts' := by
  induction P generalizing S pts pts' with
  | toss n hn next ih => exact avg_congr fun c => ih c S h
  | eval m next ih => exact ih _ S h
  | curve i next ih => exact curveOracle_same h fun p q q' hq => ih _ S hq
  | sign j msg next ih =>
    simp only [HashCrowd.chance]
    rcases Signature.signPresent E.sha512 pf (S j).sk.time pp msg (S j).sk with ⟨s | e | e, sk⟩
    · exact ih s _ h
    · rfl
    · rfl
  | update j tar seed next ih =>
    simp only [HashCrowd.chance]
    rcases SecretKey.update E.sha512 pf pp tar seed (S j).sk with ⟨⟨⟩ | e | e, sk⟩
    · exact ih _ h
    · exact ih _ h
    · rfl
  | breakIn j next ih => exact ih _ _ h
  | forge F =>
    simp only [HashCrowd.chance]
    refine curveOracles_same _ h fun q q' hq => ?_
    rw [hq.hash]

open Classical in
theorem some_le_sum (Q : Fin N → Prop) : (if ∃ i, True ∧ Q i then (1 : ℚ) else 0) ≤
    ∑ i, if ∃ k, k = i ∧ Q k then (1 : ℚ) else 0 := by
  by_cases hw : ∃ i, True ∧ Q i
  · rw [if_pos hw]
    obtain ⟨i, _, hi⟩ := hw
    refine le_trans ?_ (Finset.single_le_sum (f := fun i => if ∃ k, k = i ∧ Q k then (1 : ℚ) else 0)
      (fun i _ => by split <;> norm_num) (Finset.mem_univ i))
    rw [if_pos ⟨i, rfl, hi⟩]
  · rw [if_neg hw]
    exact Finset.sum_nonneg fun i _ => by split <;> norm_num

theorem everyone_sum [DecidableEq GT] {pf : Profile} {pk : Fin N → PublicKey G2}
    (P : HashCrowd G1 G2 N) (S : Fin N → CodeSigner G1 G2) (pts : Curve G1) :
    P.chance E pf g pp pk (fun _ => True) S pts ≤ ∑ i, P.chance E pf g pp pk (· = i) S pts := by
  induction P generalizing S pts with
  | toss n hn next ih =>
    simp only [HashCrowd.chance]
    rw [← avg_sum]
    exact avg_mono fun c => ih c S pts
  | eval m next ih => exact ih _ S pts
  | curve q next ih =>
    simp only [HashCrowd.chance]
    rw [← curveOracle_sum]
    exact curveOracle_mono fun p pts' => ih _ S pts'
  | sign j msg next ih =>
    simp only [HashCrowd.chance]
    rcases Signature.signPresent E.sha512 pf (S j).sk.time pp msg (S j).sk with ⟨s | e | e, sk⟩
    · exact ih s _ pts
    · simp
    · simp
  | update j tar seed next ih =>
    simp only [HashCrowd.chance]
    rcases SecretKey.update E.sha512 pf pp tar seed (S j).sk with ⟨⟨⟩ | e | e, sk⟩
    · exact ih _ pts
    · exact ih _ pts
    · simp
  | breakIn j next ih => exact ih _ _ pts
  | forge F =>
    simp only [HashCrowd.chance]
    rw [← curveOracles_sum]
    refine curveOracles_mono _ fun q => ?_
    have h := some_le_sum fun i => F.Wins { E with hashToG1 := q.hash } pf pp (pk i) (S i)
    convert h

/-! ## The other signers are played -/

theorem hashPoints_chance [DecidableEq GT] {pf : Profile} {S : CodeSigner G1 G2}
    (is done : List (Bytes × Bytes)) {pts : Curve G1} {W : World G1 G2} (T : TableFor E W pts)
    (hd : ∀ i ∈ done, ∃ p, pts.lookup i = some p) {f : Curve G1 → ℚ} {P : Curve G1 → HashPlayer G1 G2}
    (h : ∀ pts' ans, TableFor E { W with answers := ans } pts' → Extends pts pts' →
      (∀ i ∈ done ++ is, ∃ p, pts'.lookup i = some p) →
      f pts' ≤ (P pts').chance E pf g S { W with answers := ans }) :
    curveOracles g is pts f ≤ (HashPlayer.points is pts P).chance E pf g S W := by
  induction is generalizing done pts W with
  | nil => exact h pts W.answers T (fun _ _ hj => hj) (by simpa using hd)
  | cons i is ih =>
    unfold curveOracles HashPlayer.points curveOracle
    rcases hl : pts.lookup i with _ | p
    · simp only [HashPlayer.chance]
      refine avg_mono fun r => ?_
      refine ih (done ++ [i]) (T.add i _) ?_ ?_
      · intro j hj
        rcases List.mem_append.1 hj with hj | hj
        · obtain ⟨p, hp⟩ := hd j hj
          exact ⟨p, lookup_append_some hp _⟩
        · rw [List.mem_singleton.1 hj]
          exact ⟨_, lookup_append_new hl _⟩
      · intro pts' ans T' he h'
        exact h pts' ans T' (fun j p hj => he j p (lookup_append_some hj _)) (by simpa using h')
    · simp only []
      refine ih (done ++ [i]) T ?_ ?_
      · intro j hj
        rcases List.mem_append.1 hj with hj | hj
        · exact hd j hj
        · rw [List.mem_singleton.1 hj]
          exact ⟨_, hl⟩
      · intro pts' ans T' he h'
        exact h pts' ans T' he (by simpa using h')

theorem everyone_one [DecidableEq GT] (H : HashLaws E) (L : GroupLaws E) (C : CodecLaws E) (pf : Profile)
    (WF : ParamWF E pp) (hc : Supported pp.ciphersuite) {pk : Fin N → PublicKey G2} (i : Fin N)
    (hpk : E.inSub2 (pk i).pk = true) (P : HashCrowd G1 G2 N) (S : Fin N → CodeSigner G1 G2)
    (hS : ∀ j, ∃ x t rho, KeyAs pp x t rho (S j).sk) (sk : Fin N → SecretKey G1 G2)
    (hsk : ∀ j, j ≠ i → sk j = (S j).sk) {pts : Curve G1} {W : World G1 G2} (T : TableFor E W pts)
    (hW : W.pp = pp) (hWk : W.pk = pk i) :
    P.chance E pf g pp pk (· = i) S pts ≤ (P.one E pf pp (pk i) i sk pts).chance E pf g (S i) W := by
  induction P generalizing S sk pts W with
  | toss n hn next ih =>
    simp only [HashCrowd.chance, HashCrowd.one, HashPlayer.chance]
    exact avg_mono fun c => ih c S hS sk hsk T hW hWk
  | eval m next ih =>
    simp only [HashCrowd.chance, HashCrowd.one, HashPlayer.chance]
    exact ih _ S hS sk hsk T hW hWk
  | curve q next ih =>
    simp only [HashCrowd.chance, HashCrowd.one]
    unfold curveOracle
    rcases hl : pts.lookup q with _ | p
    · simp only [HashPlayer.chance]
      exact avg_mono fun r => ih _ S hS sk hsk (T.add q _) hW hWk
    · exact ih _ S hS sk hsk T hW hWk
  | sign j msg next ih =>
    obtain ⟨x, t, rho, hk⟩ := hS j
    have hv := sign_value H L pf WF hc hk msg
    have hS' : ∀ (z : CodeSigner G1 G2), z.sk = (S j).sk → ∀ k, ∃ x t rho,
        KeyAs pp x t rho (Function.update S j z k).sk := by
      intro z hz k
      by_cases hkj : k = j
      · subst hkj; rw [Function.update_self, hz]; exact hS k
      · rw [Function.update_of_ne hkj]; exact hS k
    simp only [HashCrowd.chance, HashCrowd.one]
    rw [hv]
    simp only []
    by_cases hj : j = i
    · subst hj
      rw [if_pos rfl]
      simp only [HashPlayer.chance]
      rw [hW, hv]
      simp only []
      refine (ih _ _ (hS' ⟨(S j).sk, (S j).signed ++ [((S j).sk.time, msg)], (S j).broken⟩ rfl) sk ?_ T
        hW hWk).trans (le_of_eq ?_)
      · intro k hk
        rw [Function.update_of_ne hk]; exact hsk k hk
      · rw [Function.update_self]
    · rw [if_neg hj, runs_chance H, hsk j hj]
      refine (ih _ _ (hS' ⟨(S j).sk, (S j).signed ++ [((S j).sk.time, msg)], (S j).broken⟩ rfl) sk ?_ T
        hW hWk).trans (le_of_eq ?_)
      · intro k hki
        by_cases hkj : k = j
        · subst hkj; rw [Function.update_self]; exact hsk k hki
        · rw [Function.update_of_ne hkj]; exact hsk k hki
      · rw [Function.update_of_ne (Ne.symm hj)]
  | update j tar seed next ih =>
    obtain ⟨x, t, rho, hk⟩ := hS j
    have key : ∀ r sk', SecretKey.update E.sha512 pf pp tar seed (S j).sk = (r, sk') →
        (∀ e, r ≠ .panic e) →
        next.chance E pf g pp pk (· = i) (Function.update S j { S j with sk := sk' }) pts ≤
          ((HashCrowd.update j tar seed next).one E pf pp (pk i) i sk pts).chance E pf g (S i) W := by
      intro r sk' hr hp
      obtain ⟨hv, t', rho', hk'⟩ := update_value H L pf WF hk tar seed hr hp
      have hS' : ∀ k, ∃ x t rho, KeyAs pp x t rho (Function.update S j { S j with sk := sk' } k).sk := by
        intro k
        by_cases hkj : k = j
        · subst hkj; rw [Function.update_self]; exact ⟨x, t', rho', hk'⟩
        · rw [Function.update_of_ne hkj]; exact hS k
      simp only [HashCrowd.one]
      by_cases hj : j = i
      · subst hj
        rw [if_pos rfl]
        have h1 := ih _ hS' sk (fun k hk => by rw [Function.update_of_ne hk]; exact hsk k hk) T hW hWk
        rw [Function.update_self] at h1
        simp only [HashPlayer.chance]
        rw [hW, hr]
        rcases r with ⟨⟩ | e | e
        · exact h1
        · exact h1
        · exact absurd rfl (hp e)
      · rw [if_neg hj, runs_chance H, hsk j hj, hv]
        refine (ih _ hS' (Function.update sk j sk') (fun k hk => ?_) T hW hWk).trans (le_of_eq ?_)
        · by_cases hkj : k = j
          · subst hkj; rw [Function.update_self, Function.update_self]
          · rw [Function.update_of_ne hkj, Function.update_of_ne hkj]; exact hsk k hk
        · rw [Function.update_of_ne (Ne.symm hj)]
    simp only [HashCrowd.chance]
    rcases hr : SecretKey.update E.sha512 pf pp tar seed (S j).sk with ⟨⟨⟩ | e | e, sk'⟩
    · exact key _ _ hr (fun e he => by cases he)
    · exact key _ _ hr (fun e he => by cases he)
    · exact HashPlayer.chance_nonneg pf _ _ _
  | breakIn j next ih =>
    simp only [HashCrowd.chance]
    refine (ih _ _ ?_ sk ?_ T hW hWk).trans (le_of_eq ?_)
    · intro k
      by_cases hkj : k = j
      · subst hkj; rw [Function.update_self]; exact hS k
      · rw [Function.update_of_ne hkj]; exact hS k
    · intro k hk
      rw [hsk k hk]
      by_cases hkj : k = j
      · subst hkj; rw [Function.update_self]
      · rw [Function.update_of_ne hkj]
    · simp only [HashCrowd.one]
      by_cases hj : j = i
      · subst hj
        rw [if_pos rfl, Function.update_self]
        simp only [HashPlayer.chance]
      · rw [if_neg hj, Function.update_of_ne (Ne.symm hj), hsk j hj]
  | forge F =>
    simp only [HashCrowd.chance, HashCrowd.one]
    rw [← hWk]
    refine hashPoints_chance _ [] T (by simp) fun pts' ans T' _ h' => ?_
    split
    · rename_i hw
      obtain ⟨k, rfl, hw⟩ := hw
      simp only [HashPlayer.chance]
      have hl := claim_lower C pf T' (show E.inSub2 W.pk.pk = true by rw [hWk]; exact hpk)
        E.sha512 (by simpa using h') (S := S k) (show F.Wins { E with hashToG1 := pts'.hash } pf W.pp
          W.pk (S k) by rw [hW, hWk]; exact hw)
      rw [if_pos ⟨hl.2.1, hl.2.2⟩]
    · exact HashPlayer.chance_nonneg pf _ _ _

/-! ## The start of the game -/

theorem everyone_entry {pf : Profile} {pk : PublicKey G2} (i : Fin N)
    (P : HashCrowd G1 G2 N) {sk sk' : Fin N → SecretKey G1 G2} (h : ∀ j, j ≠ i → sk j = sk' j)
    (pts : Curve G1) : P.one E pf pp pk i sk pts = P.one E pf pp pk i sk' pts := by
  induction P generalizing sk sk' pts with
  | toss n hn next ih => simp only [HashCrowd.one, fun c => ih c h]
  | eval m next ih => simp only [HashCrowd.one, fun c => ih c h]
  | curve q next ih => simp only [HashCrowd.one, fun c => ih c h]
  | sign j msg next ih =>
    simp only [HashCrowd.one, fun c => ih c h]
    by_cases hj : j = i
    · rw [if_pos hj, if_pos hj]
    · rw [if_neg hj, if_neg hj, h j hj]
  | update j tar seed next ih =>
    simp only [HashCrowd.one]
    by_cases hj : j = i
    · rw [if_pos hj, if_pos hj, ih h]
    · rw [if_neg hj, if_neg hj, h j hj]
      congr 1
      funext k0
      refine ih (fun k hk => ?_) _
      by_cases hkj : k = j
      · subst hkj; rw [Function.update_self, Function.update_self]
      · rw [Function.update_of_ne hkj, Function.update_of_ne hkj, h k hk]
  | breakIn j next ih =>
    simp only [HashCrowd.one]
    by_cases hj : j = i
    · simp only [if_pos hj, fun c => ih c h]
    · rw [if_neg hj, if_neg hj, h j hj, ih _ h]
  | forge F => rfl

theorem everyone_start [DecidableEq GT] (H : HashLaws E) (L : GroupLaws E) (C : CodecLaws E) (pf : Profile)
    (WF : ParamWF E pp) (hc : Supported pp.ciphersuite)
    (A : (Fin N → PublicKey G2) → (Fin N → ProofOfPossession G1) → HashCrowd G1 G2 N) (i : Fin N)
    (pks : Fin N → PublicKey G2) (hpk : ∀ j, E.inSub2 (pks j).pk = true) (x x' : Fin N → Fr)
    (hx : ∀ j, j ≠ i → x j = x' j) (sk sk' : Fin N → SecretKey G1 G2)
    (hsk : ∀ j, j ≠ i → sk j = sk' j) (hka : ∀ j, ∃ y t rho, KeyAs pp y t rho (sk j)) (q : G1) :
    (curveOracles g (List.ofFn fun j => popInput E (pks j)) [(popInput E (pks i), q)] fun pts =>
      (A pks (fun j => ⟨pp.ciphersuite, (x j).val • pts.hash (popInput E (pks j)).1
        (popInput E (pks j)).2⟩)).chance E pf g pp pks (· = i) (fun j => ⟨sk j, [], []⟩) pts) ≤
    (HashPlayer.points (List.ofFn fun j => popInput E (pks j)) [(popInput E (pks i), q)] fun pts =>
      (A pks (Function.update (fun j => ⟨pp.ciphersuite, (x' j).val •
        pts.hash (popInput E (pks j)).1 (popInput E (pks j)).2⟩) i
          ⟨pp.ciphersuite, (x i).val • q⟩)).one E pf pp (pks i) i sk' pts).chance E pf g
      ⟨sk i, [], []⟩ ⟨pp, pks i, q, (x i).val • q, []⟩ := by
  obtain ⟨W, hW⟩ : ∃ W : World G1 G2, W = ⟨pp, pks i, q, (x i).val • q, []⟩ := ⟨_, rfl⟩
  have w1 : W.pp = pp := by rw [hW]
  have w2 : W.pk = pks i := by rw [hW]
  have w3 : W.q = q := by rw [hW]
  have w4 : W.answers = [] := by rw [hW]
  rw [← hW]
  have T : TableFor E W [(popInput E (pks i), q)] := ⟨[], by rw [w2, w3], by rw [w4]; rfl⟩
  refine hashPoints_chance _ [] T (by simp) fun pts ans T' hq _ => ?_
  have e2 : Function.update (fun j => (⟨pp.ciphersuite, (x' j).val • pts.hash (popInput E (pks j)).1
      (popInput E (pks j)).2⟩ : ProofOfPossession G1)) i ⟨pp.ciphersuite, (x i).val • q⟩ =
      fun j => ⟨pp.ciphersuite, (x j).val • pts.hash (popInput E (pks j)).1 (popInput E (pks j)).2⟩ := by
    funext j
    by_cases hj : j = i
    · subst hj
      rw [Function.update_self]
      have : pts.hash (popInput E (pks j)).1 (popInput E (pks j)).2 = q := by
        unfold Curve.hash
        rw [hq (popInput E (pks j)) q (by simp)]
        rfl
      rw [this]
    · rw [Function.update_of_ne hj, hx j hj]
  rw [e2]
  exact everyone_one H L C pf WF hc i (hpk i) _ _ hka sk' (fun j hj => (hsk j hj).symm) T' w1 w2

theorem everyone_le [DecidableEq GT] (H : HashLaws E) (L : GroupLaws E) (C : CodecLaws E) (pf : Profile)
    (hsub : E.inSub1 g = true) {d : Nat} (hd : 1 ≤ d) (hd' : d ≤ 63) {cs : UInt8}
    (hsup : Supported cs) {n : Nat} (hn : 32 ≤ n)
    (A : PubParam G1 G2 → (Fin N → PublicKey G2) → (Fin N → ProofOfPossession G1) →
      HashCrowd G1 G2 N) :
    hashCrowdChance E pf g d cs n N (fun _ => True) A ≤
      ∑ i, hashForgeChance E pf g d cs n (hashOne E pf d n i A) := by
  have hpp : ∀ (a : Secret d 0 → Fr) (r : Fr), gameParam E g cs (Function.update a .q r) =
      gameParam E g cs a := by
    intro a r
    unfold gameParam
    simp
  have h1 : ∀ i, hashForgeChance E pf g d cs n (hashOne E pf d n i A) =
      avg fun a : Secret d 0 → Fr => avg fun r : Fr => avg fun s : Seed n =>
        match keygen { E with hashToG1 := fun _ _ => r.val • g } s.bytes (gameParam E g cs a) with
        | .ok (pk, sk, pop) => (hashOne E pf d n i A ⟨gameParam E g cs a, pk, r.val • g, pop.pop,
            []⟩).chance E pf g ⟨sk, [], []⟩ ⟨gameParam E g cs a, pk, r.val • g, pop.pop, []⟩
        | _ => 0 := by
    intro i
    unfold hashForgeChance
    rw [← avg_update Secret.q]
    refine avg_congr fun a => avg_congr fun r => ?_
    simp only [hpp, Function.update_self]
    rfl
  simp only [h1]
  rw [← avg_sum]
  unfold hashCrowdChance
  refine avg_mono fun a => ?_
  have WF : ParamWF E (gameParam E g cs a) := viewOf_wf (E := E) (cs := cs) L hsub hd hd' (toVar a)
  have hcs : (gameParam E g cs a).ciphersuite = cs := rfl
  have hdep : (gameParam E g cs a).depth = d := rfl
  generalize gameParam E g cs a = pp at WF hcs hdep ⊢
  subst hcs
  have hne : Nonempty (Seed n) := ⟨⟨0, Nat.pow_pos (by omega)⟩⟩
  have hk : ∀ s : Seed n, ∃ (x : Fr) (r : Fr) (sk : SecretKey G1 G2), _ := fun s =>
    keys_value H.sha_len rfl L WF hsup (seed := s.bytes)
      (by unfold Seed.bytes; rw [natToBE_length]; exact hn)
  choose x rr sk hv hka hk using hk
  have hk0 : ∀ s : Seed n, keygen E s.bytes pp = _ := fun s => hk s E.hashToG1
  obtain ⟨K, hK⟩ : ∃ K : Seed n → PublicKey G2, ∀ s, K s = ⟨pp.ciphersuite, (x s).val • E.gen2⟩ :=
    ⟨_, fun _ => rfl⟩
  simp only [← hK] at hk hk0
  have hb : ∀ f s, born { E with hashToG1 := f } pp (Seed.bytes s) = (K s, sk s,
      ⟨pp.ciphersuite, (x s).val • f (popInput E (K s)).1 (popInput E (K s)).2⟩) := by
    intro f s
    unfold born
    rw [hk]
  have hb0 : ∀ s, (born E pp (Seed.bytes s)).1 = K s := by
    intro s
    unfold born
    rw [hk0]
  simp only [hb, hk]
  -- the game, counted against signer `i`
  obtain ⟨X, hX⟩ : ∃ X : Fin N → (Fin N → Seed n) → Curve G1 → ℚ, ∀ i s pts, X i s pts =
      (A pp (fun j => K (s j)) (fun j => ⟨pp.ciphersuite, (x (s j)).val •
        pts.hash (popInput E (K (s j))).1 (popInput E (K (s j))).2⟩)).chance E pf g pp
          (fun j => K (s j)) (· = i) (fun j => ⟨sk (s j), [], []⟩) pts :=
    ⟨_, fun _ _ _ => rfl⟩
  have hXs : ∀ i s q q', Same q q' → X i s q = X i s q' := by
    intro i s q q' hq
    rw [hX, hX, hq.hash]
    exact everyone_same _ _ hq
  have h2 : ∀ i, (avg fun s : Fin N → Seed n =>
        curveOracles g (List.ofFn fun j => popInput E (K (s j))) [] (X i s)) ≤
      avg fun r : Fr => avg fun s : Seed n => (hashOne E pf d n i A
        ⟨pp, K s, r.val • g, (x s).val • r.val • g, []⟩).chance E pf g ⟨sk s, [], []⟩
          ⟨pp, K s, r.val • g, (x s).val • r.val • g, []⟩ := by
    intro i
    have h3 : ∀ (r : Fr) (s0 : Seed n), (avg fun s' : Fin N → Seed n => curveOracles g
          (List.ofFn fun j => popInput E (K (Function.update s' i s0 j)))
          [(popInput E (K s0), r.val • g)] (X i (Function.update s' i s0))) ≤
        (hashOne E pf d n i A ⟨pp, K s0, r.val • g, (x s0).val • r.val • g, []⟩).chance E pf g
          ⟨sk s0, [], []⟩ ⟨pp, K s0, r.val • g, (x s0).val • r.val • g, []⟩ := by
      intro r s0
      unfold hashOne
      simp only []
      rw [if_pos hdep]
      simp only [HashPlayer.chance, runs_chance H, all_value, hv, ← hK]
      refine le_trans (avg_mono fun s' => ?_) (avg_equiv finFunctionFinEquiv.symm
        fun s' : Fin N → Seed n => HashPlayer.chance E pf g (HashPlayer.points
          (List.ofFn fun j => popInput E (Function.update (fun j => K (s' j)) i (K s0) j))
          [(popInput E (K s0), r.val • g)] fun pts =>
            (A pp (Function.update (fun j => K (s' j)) i (K s0)) (Function.update
              (fun j => ⟨pp.ciphersuite, (x (s' j)).val • pts.hash
                (popInput E (Function.update (fun j => K (s' j)) i (K s0) j)).1
                (popInput E (Function.update (fun j => K (s' j)) i (K s0) j)).2⟩) i
              ⟨pp.ciphersuite, (x s0).val • r.val • g⟩)).one E pf pp (K s0) i (fun j => sk (s' j)) pts)
          ⟨sk s0, [], []⟩ ⟨pp, K s0, r.val • g, (x s0).val • r.val • g, []⟩).ge
      have e1 : Function.update (fun j => K (s' j)) i (K s0) = fun j => K (Function.update s' i s0 j) := by
        funext j
        by_cases hj : j = i
        · subst hj; simp
        · simp [hj]
      rw [e1]
      have e3 := everyone_start (g := g) H L C pf WF hsup (A pp) i (fun j => K (Function.update s' i s0 j))
        (fun j => by rw [hK]; exact L.sub2_nsmul L.gen2_sub _)
        (fun j => x (Function.update s' i s0 j)) (fun j => x (s' j))
        (fun j hj => by simp only [Function.update_of_ne hj])
        (fun j => sk (Function.update s' i s0 j)) (fun j => sk (s' j))
        (fun j hj => by simp only [Function.update_of_ne hj]) (fun j => ⟨_, _, _, hka _⟩)
        (r.val • g)
      simp only [Function.update_self] at e3
      refine le_trans (le_of_eq ?_) e3
      exact congrArg _ (funext fun pts => hX _ _ _)
    refine le_trans (le_of_eq ?_) (avg_mono fun r => avg_mono fun s0 => h3 r s0)
    refine Eq.trans ?_ (avg_thrice fun (r : Fr) (s0 : Seed n) (s' : Fin N → Seed n) => curveOracles g
      (List.ofFn fun j => popInput E (K (Function.update s' i s0 j)))
      [(popInput E (K s0), r.val • g)] (X i (Function.update s' i s0))).symm
    rw [← avg_replace i fun s : Fin N → Seed n => curveOracles g
      (List.ofFn fun j => popInput E (K (s j))) [] (X i s)]
    refine avg_congr fun s' => avg_congr fun s0 => ?_
    rw [← curveOracles_absorb (i := popInput E (K s0)) _ (by
      rw [List.mem_ofFn]
      exact ⟨i, by rw [Function.update_self]⟩) (hXs i _)]
    rfl
  refine le_trans ?_ (Finset.sum_le_sum fun i _ => h2 i)
  rw [← avg_sum]
  refine avg_mono fun s => ?_
  rw [if_pos fun i => ⟨_, hk0 (s i)⟩, ← curveOracles_sum]
  refine curveOracles_mono _ fun pts => ?_
  simp only [hX]
  exact everyone_sum _ _ _

/-! ## What is counted -/

theorem hashPoints_legal (is : List (Bytes × Bytes)) (pts : Curve G1) {P : Curve G1 → HashPlayer G1 G2}
    (h : ∀ pts, (P pts).Legal) : (HashPlayer.points is pts P).Legal := by
  induction is generalizing pts with
  | nil => exact h pts
  | cons i is ih =>
    unfold HashPlayer.points
    rcases pts.lookup i with _ | p
    · exact fun p => ih _
    · exact ih _

theorem hashPlayer_points_mono {P : HashPlayer G1 G2} {k k' : Nat} (h : P.Points k) (hk : k ≤ k') :
    P.Points k' := by
  induction P generalizing k k' with
  | toss n hn next ih => exact fun c => ih c (h c) hk
  | eval m next ih => exact fun c => ih c (h c) hk
  | point next ih => exact ⟨Nat.lt_of_lt_of_le h.1 hk, fun c => ih c (h.2 c) (by omega)⟩
  | sign msg next ih => exact fun c => ih c (h c) hk
  | update tar seed next ih => exact ih h hk
  | breakIn next ih => exact fun c => ih c (h c) hk
  | forge F => trivial

theorem hashPoints_points (is : List (Bytes × Bytes)) (pts : Curve G1)
    {P : Curve G1 → HashPlayer G1 G2} {k k' : Nat} (h : ∀ pts, (P pts).Points k)
    (hk : k + is.length ≤ k') : (HashPlayer.points is pts P).Points k' := by
  induction is generalizing pts k' with
  | nil => exact hashPlayer_points_mono (h pts) (by simpa using hk)
  | cons i is ih =>
    rw [List.length_cons] at hk
    unfold HashPlayer.points
    rcases pts.lookup i with _ | p
    · exact ⟨by omega, fun p => ih _ (by omega)⟩
    · exact ih _ (by omega)

theorem hashPoints_within {B q s u : Nat} (is : List (Bytes × Bytes)) (pts : Curve G1)
    {P : Curve G1 → HashPlayer G1 G2} (h : ∀ pts, (P pts).Within B q s u) :
    (HashPlayer.points is pts P).Within B q s u := by
  induction is generalizing pts with
  | nil => exact h pts
  | cons i is ih =>
    unfold HashPlayer.points
    rcases pts.lookup i with _ | p
    · exact fun p => ih _
    · exact ih _

theorem lower_msg (E : Ext G1 G2 GT) (pk : PublicKey G2) (pts : Curve G1) {F : ByteClaim} {B : Nat}
    (h : F.msg.length + 300 ≤ B) : (F.lower E pk pts).msg.length + 300 ≤ B := by
  have h2 : (Claim.none : Claim G1 G2).msg.length + 300 ≤ B := by
    show 0 + 300 ≤ B
    omega
  unfold ByteClaim.lower
  split
  · split
    · exact h
    · exact h2
  · exact h2

theorem everyoneOne_legal {pf : Profile} {pk : PublicKey G2} (i : Fin N) (P : HashCrowd G1 G2 N)
    (sk : Fin N → SecretKey G1 G2) (pts : Curve G1) (h : P.Legal) :
    (P.one E pf pp pk i sk pts).Legal := by
  induction P generalizing sk pts with
  | toss n hn next ih => exact fun c => ih c _ _ (h c)
  | eval m next ih => exact fun c => ih c _ _ (h c)
  | curve q next ih =>
    unfold HashCrowd.one
    rcases pts.lookup q with _ | p
    · exact fun p => ih p _ _ (h p)
    · exact ih p _ _ (h p)
  | sign j msg next ih =>
    simp only [HashCrowd.one]
    split
    · exact fun c => ih c _ _ (h c)
    · exact runs_legal fun c => ih c _ _ (h c)
  | update j tar seed next ih =>
    simp only [HashCrowd.one]
    split
    · exact ih _ _ h
    · exact runs_legal fun c => ih _ _ h
  | breakIn j next ih =>
    simp only [HashCrowd.one]
    split
    · exact fun c => ih c _ _ (h c)
    · exact ih _ _ _ (h _)
  | forge F => exact hashPoints_legal _ _ fun pts' => lower_cosigners E pk pts' h

theorem everyoneOne_points {pf : Profile} {pk : PublicKey G2} (i : Fin N) (P : HashCrowd G1 G2 N)
    (sk : Fin N → SecretKey G1 G2) (pts : Curve G1) {k : Nat} (h : P.Points k) :
    (P.one E pf pp pk i sk pts).Points k := by
  induction P generalizing sk pts k with
  | toss n hn next ih => exact fun c => ih c _ _ (h c)
  | eval m next ih => exact fun c => ih c _ _ (h c)
  | curve q next ih =>
    unfold HashCrowd.one
    rcases pts.lookup q with _ | p
    · exact ⟨h.1, fun p => ih p _ _ (h.2 p)⟩
    · exact hashPlayer_points_mono (ih p _ _ (h.2 p)) (by omega)
  | sign j msg next ih =>
    simp only [HashCrowd.one]
    split
    · exact fun c => ih c _ _ (h c)
    · exact runs_points fun c => ih c _ _ (h c)
  | update j tar seed next ih =>
    simp only [HashCrowd.one]
    split
    · exact ih (k := k) _ _ h
    · exact runs_points fun c => ih _ _ h
  | breakIn j next ih =>
    simp only [HashCrowd.one]
    split
    · exact fun c => ih c _ _ (h c)
    · exact ih _ _ _ (h _)
  | forge F =>
    exact hashPoints_points (P := fun pts' => .forge (F.lower E pk pts')) (k := 0) _ _
      (fun _ => trivial) (by rw [Nat.zero_add]; exact (inputs_length E F).trans h)

theorem everyoneOne_within {B : Nat} {pf : Profile} {pk : PublicKey G2} (i : Fin N)
    (P : HashCrowd G1 G2 N) (sk : Fin N → SecretKey G1 G2) (pts : Curve G1) {q s u e : Nat}
    (h : P.Within B q s u) (he : q + 3 * s + u * (4 * pp.depth + 6) ≤ e) :
    (P.one E pf pp pk i sk pts).Within B e s u := by
  induction P generalizing sk pts q s u e with
  | toss n hn next ih => exact fun c => ih c _ _ (h c) he
  | eval m next ih =>
    obtain ⟨h1, h2, h3⟩ := h
    exact ⟨h1, by omega, fun c => ih c _ _ (h3 c) (by omega)⟩
  | curve x next ih =>
    unfold HashCrowd.one
    rcases pts.lookup x with _ | p
    · exact fun p => ih p _ _ (h p) he
    · exact ih p _ _ (h p) he
  | sign j msg next ih =>
    obtain ⟨h1, h2, h3⟩ := h
    simp only [HashCrowd.one]
    split
    · exact ⟨h1, h2, fun c => ih c _ _ (h3 c) (by omega)⟩
    · refine runs_within (hashSign_within pf _ h1) (q := e - 3) (fun c => ?_) (by omega)
      exact player_within_mono (ih c _ _ (h3 c) (e := e - 3) (by omega)) le_rfl (by omega) le_rfl
  | update j tar seed next ih =>
    obtain ⟨h1, h2, h3⟩ := h
    obtain ⟨v, rfl⟩ : ∃ v, u = v + 1 := ⟨u - 1, by omega⟩
    rw [Nat.add_mul, Nat.one_mul] at he
    have h4 : v + 1 - 1 = v := rfl
    simp only [HashCrowd.one]
    split
    · exact ⟨h1, h2, ih _ _ h3 (by rw [h4]; omega)⟩
    · refine runs_within (hashUpdate_within pf tar h1 _) (q := e - (4 * pp.depth + 6)) (fun c => ?_)
        (by omega)
      exact player_within_mono (ih _ _ h3 (e := e - (4 * pp.depth + 6)) (by rw [h4]; omega)) le_rfl le_rfl
        (by omega)
  | breakIn j next ih =>
    simp only [HashCrowd.one]
    split
    · exact fun c => ih c _ _ (h c) he
    · exact ih _ _ _ (h _) he
  | forge F => exact hashPoints_within _ _ fun pts' => lower_msg E pk pts' h

theorem hashOne_legal {pf : Profile} {d n : Nat} (i : Fin N)
    {A : PubParam G1 G2 → (Fin N → PublicKey G2) → (Fin N → ProofOfPossession G1) →
      HashCrowd G1 G2 N} (hA : ∀ pp pk pop, (A pp pk pop).Legal) (W : World G1 G2) :
    (hashOne E pf d n i A W).Legal := by
  unfold hashOne
  split
  · exact fun c => runs_legal fun k => hashPoints_legal _ _ fun pts =>
      everyoneOne_legal _ _ _ _ (hA _ _ _)
  · show 0 + 1 < rOrder
    decide +kernel

theorem hashOne_points {pf : Profile} {d n : Nat} (i : Fin N)
    {A : PubParam G1 G2 → (Fin N → PublicKey G2) → (Fin N → ProofOfPossession G1) →
      HashCrowd G1 G2 N} {m : Nat} (hm : ∀ pp pk pop, (A pp pk pop).Points m) (W : World G1 G2) :
    (hashOne E pf d n i A W).Points (m + N) := by
  unfold hashOne
  split
  · exact fun c => runs_points fun k => hashPoints_points _ _ (fun pts =>
      everyoneOne_points _ _ _ _ (hm _ _ _)) (by rw [List.length_ofFn])
  · trivial

theorem hashOne_within {B : Nat} {pf : Profile} {d n : Nat} (hB : 300 ≤ B) (hnB : 128 + n ≤ B) (i : Fin N)
    {A : PubParam G1 G2 → (Fin N → PublicKey G2) → (Fin N → ProofOfPossession G1) →
      HashCrowd G1 G2 N} {q s u : Nat} (hw : ∀ pp pk pop, (A pp pk pop).Within B q s u)
    (W : World G1 G2) :
    (hashOne E pf d n i A W).Within B (q + 3 * s + u * (4 * d + 6) + 10 * N) s u := by
  unfold hashOne
  split
  · rename_i hd
    subst hd
    refine fun c => runs_within (q := q + 3 * s + u * (4 * W.pp.depth + 6))
      (all_within (Q := fun _ => True) (k := 10) fun j => keys_within hB ?_) (fun k =>
      hashPoints_within _ _ fun pts => everyoneOne_within _ _ _ _ (hw _ _ _) le_rfl) (by omega)
    have : (Seed.bytes (finFunctionFinEquiv.symm c j : Seed n)).length = n := natToBE_length n _
    omega
  · show 0 + 300 ≤ B
    omega

end Pixel
