import Verif.Proof.Code

/-!
# From the signer of the code to the signer with uniform scalars
-/

namespace Pixel

open Spec Props

set_option linter.unusedSectionVars false

variable {G1 G2 GT : Type} [AddCommGroup G1] [AddCommGroup G2] [CommGroup GT]
  {E : Ext G1 G2 GT} {g : G1} {pp : PubParam G1 G2}

/-! ## The claim, and what comes after `t0` -/

/-- what the signer of the other game has signed at time `t0` was signed -/
structure Fewer (t0 : Nat) (S : Signer) (sg : List (Nat × Bytes)) : Prop where
  signed : ∀ m, (t0, m) ∈ S.signed → (t0, m) ∈ sg
  broken : ∀ t ∈ S.broken, t0 < t

theorem forge_lift [DecidableEq GT] (pf : Profile) (x : Fr) {t0 : Nat} (F : Claim G1 G2)
    (Z : CodeSigner G1 G2) (S : Signer) (hS : Fewer t0 S Z.signed) (tab : Table)
    (W : World G1 G2) (SP : ParamShape W.pp) (hpk : W.pk.ciphersuite = W.pp.ciphersuite) :
    ((CodePlayer.forge F).only t0).chance E pf g Z tab W ≤
      (if F.time = t0 then ApiPlayer.forge F else .forge .none).chance E pf g x S tab W := by
  simp only [CodePlayer.only]
  by_cases hF : F.time = t0
  · rw [if_pos hF, if_pos hF]
    simp only [CodePlayer.chance, ApiPlayer.chance]
    refine oracle_mono fun D _ => ?_
    split_ifs with h1 h2
    · exact le_rfl
    · refine absurd ⟨h1.1, ?_, ?_⟩ h2
      · intro t ht
        rw [hF]
        exact hS.broken t ht
      · intro hm
        rw [hF] at hm
        have := h1.2.2
        rw [hF] at this
        exact this (hS.signed _ hm)
    · exact zero_le_one
    · exact le_rfl
  · rw [if_neg hF, if_neg hF, none_code pf SP hpk]
    exact ApiPlayer.chance_nonneg pf x _ _ _ _

theorem run_le [DecidableEq GT] (pf : Profile) (x : Fr) {t0 : Nat} (P : CodePlayer G1 G2)
    (Z : CodeSigner G1 G2) (S : Signer) (hS : Fewer t0 S Z.signed) (tab : Table)
    (W : World G1 G2) (hW : W.pp = pp) (SP : ParamShape W.pp)
    (hpk : W.pk.ciphersuite = W.pp.ciphersuite) :
    (P.only t0).chance E pf g Z tab W ≤
      (P.run E.sha512 pf pp t0 Z.sk).chance E pf g x S tab W := by
  induction P generalizing Z tab W with
  | toss m hm n ih => exact avg_mono fun c => ih c Z hS tab W hW SP hpk
  | hash msg n ih => exact oracle_mono fun D tab' => ih _ Z hS tab' W hW SP hpk
  | point n ih =>
    refine avg_mono fun r : Fr => ?_
    exact ih _ Z hS tab _ hW SP hpk
  | sign msg n ih =>
    simp only [CodePlayer.only, CodePlayer.chance, CodePlayer.run, ApiPlayer.chance]
    refine oracle_mono fun D tab' => ?_
    rw [digest_value, hW]
    rcases signHashed E.sha512 pf pp Z.sk msg D.field with s | e | e
    · exact ih _ ⟨Z.sk, _, _⟩
        ⟨fun m hm => List.mem_append_left _ (hS.signed m hm), hS.broken⟩ tab' W hW SP hpk
    · exact ApiPlayer.chance_nonneg pf x _ _ _ _
    · exact ApiPlayer.chance_nonneg pf x _ _ _ _
  | update tar seed n ih =>
    simp only [CodePlayer.only, CodePlayer.chance, CodePlayer.run]
    rw [hW]
    rcases SecretKey.update E.sha512 pf pp tar seed Z.sk with ⟨_ | e | e, sk⟩
    · exact ih ⟨sk, Z.signed, Z.broken⟩ hS tab W hW SP hpk
    · exact ih ⟨sk, Z.signed, Z.broken⟩ hS tab W hW SP hpk
    · exact ApiPlayer.chance_nonneg pf x _ _ _ _
  | breakIn n ih =>
    simp only [CodePlayer.only, CodePlayer.chance, CodePlayer.run]
    exact ih _ ⟨Z.sk, Z.signed, Z.broken ++ [Z.sk.time]⟩ hS tab W hW SP hpk
  | forge F => exact forge_lift pf x F Z S hS tab W SP hpk

/-! ## Up to `t0` -/

/-- the signatures kept are those that the strings given out lead to -/
structure Kept (pp : PubParam G1 G2) (x : Fr) (t : Nat) (r0 : Fr)
    (memo : List (Bytes × Signature G1 G2)) (ptab tab : Table) : Prop where
  new : ∀ msg, memo.lookup msg = none → ptab.lookup (signInfo msg t) = none
  old : ∀ msg s, memo.lookup msg = some s → ∃ D D' : Digest, tab.lookup msg = some D ∧
    ptab.lookup (signInfo msg t) = some D' ∧ s = signatureOf pp x t D.field (r0 + D'.field)

theorem kept_nil {x : Fr} {t : Nat} {r0 : Fr} {tab : Table} : Kept pp x t r0 [] [] tab :=
  ⟨fun _ _ => rfl, fun _ _ h => by simp at h⟩

/-- the oracle's table only grows, and knows the message afterwards -/
theorem oracle_mono' {tab : Table} {msg : Bytes} {f f' : Digest → Table → ℚ}
    (h : ∀ D tab', (∀ m D0, tab.lookup m = some D0 → tab'.lookup m = some D0) →
      tab'.lookup msg = some D → f D tab' ≤ f' D tab') : oracle tab msg f ≤ oracle tab msg f' := by
  unfold oracle
  rcases hl : tab.lookup msg with _ | D
  · refine avg_mono fun D => h _ _ (fun m D0 hm => ?_) ?_
    · rw [lookup_snoc, hm]; rfl
    · rw [lookup_snoc, hl, if_pos rfl]; rfl
  · exact h _ _ (fun m D0 hm => hm) hl

theorem oracle_add_const {tab : Table} {msg : Bytes} (f : Digest → Table → ℚ) (c : ℚ) :
    oracle tab msg (fun D tab' => f D tab' + c) = oracle tab msg f + c := by
  unfold oracle
  rcases tab.lookup msg with _ | D
  · exact avg_add_const _ c
  · rfl

theorem Kept.table {x : Fr} {t : Nat} {r0 : Fr} {memo : List (Bytes × Signature G1 G2)}
    {ptab tab tab' : Table} (h : Kept pp x t r0 memo ptab tab)
    (ht : ∀ m D0, tab.lookup m = some D0 → tab'.lookup m = some D0) :
    Kept pp x t r0 memo ptab tab' :=
  ⟨h.new, fun msg s hs => by
    obtain ⟨D, D', a, b, c⟩ := h.old msg s hs
    exact ⟨D, D', ht _ _ a, b, c⟩⟩

theorem signInfo_inj {m m' : Bytes} {t : Nat} (h : signInfo m t = signInfo m' t) : m = m' := by
  unfold signInfo at h
  exact List.append_cancel_left (List.append_cancel_right h)

theorem lookup_snoc' {β : Type} {T : List (Bytes × β)} {b c : Bytes} {D : β} :
    (T ++ [(c, D)]).lookup b = (T.lookup b).or (if b = c then some D else none) := by
  induction T with
  | nil =>
    rw [List.nil_append, List.lookup_cons]
    by_cases hb : b = c
    · subst hb; simp
    · rw [if_neg hb, show (b == c) = false from beq_eq_false_iff_ne.mpr hb]; rfl
  | cons x T ih =>
    obtain ⟨y, E⟩ := x
    rw [List.cons_append, List.lookup_cons, List.lookup_cons]
    by_cases hb : b == y
    · simp [hb]
    · simp only [hb]; exact ih

theorem Kept.snoc {x : Fr} {t : Nat} {r0 : Fr} {memo : List (Bytes × Signature G1 G2)}
    {ptab tab : Table} (h : Kept pp x t r0 memo ptab tab) {msg : Bytes}
    (hm : memo.lookup msg = none) {D : Digest} (hD : tab.lookup msg = some D) (D' : Digest) :
    Kept pp x t r0 (memo ++ [(msg, signatureOf pp x t D.field (r0 + D'.field))])
      (ptab ++ [(signInfo msg t, D')]) tab := by
  constructor
  · intro m hm'
    rw [lookup_snoc'] at hm'
    obtain ⟨h1, h2⟩ := Option.or_eq_none_iff.1 hm'
    have hne : m ≠ msg := fun hc => by rw [if_pos hc] at h2; cases h2
    rw [lookup_snoc, h.new m h1, if_neg fun hc => hne (signInfo_inj hc)]
    rfl
  · intro m s hs
    rw [lookup_snoc'] at hs
    by_cases hne : m = msg
    · subst hne
      rw [hm, if_pos rfl] at hs
      refine ⟨D, D', hD, ?_, ?_⟩
      · rw [lookup_snoc, h.new m hm, if_pos rfl]; rfl
      · exact (Option.some.inj hs).symm
    · rw [if_neg hne, Option.or_none] at hs
      obtain ⟨D1, D1', a, b, c⟩ := h.old m s hs
      exact ⟨D1, D1', a, by rw [lookup_snoc, b]; rfl, c⟩

theorem scalars_nat {k : Nat} {δ : ℚ} (hk : 0 < k) : ((k - 1 : Nat) : ℚ) * δ + δ = k * δ := by
  rw [Nat.cast_sub hk, Nat.cast_one]
  ring

theorem play_ideal_le [DecidableEq GT] (pf : Profile) (x : Fr) {t0 : Nat} (SP : ParamShape pp)
    (P : CodePlayer G1 G2) (k : Nat) (hP : P.Scalars pp.depth k) (t : Nat) (htt : t ≤ t0)
    (rho : List Fr) (sg : List (Nat × Bytes)) (sh : List Fr) (sg' : List (Nat × Bytes))
    (hsg : ∀ m, (t0, m) ∈ sg' → (t0, m) ∈ sg) (memo : List (Bytes × Signature G1 G2))
    (ptab tab : Table) (hM : Kept pp x t (rho.headD 0) memo ptab tab)
    (W : World G1 G2) (hW : W.pp = pp) (hpk : W.pk.ciphersuite = W.pp.ciphersuite) :
    (P.play E pf g t0 x ⟨t, rho, sg⟩ tab W).ideal ptab ≤
      (P.lift E.sha512 pf pp t0 t memo).chance E pf g x ⟨t, rho, sh, sg', []⟩ tab W +
        k * (1 / 2 ^ 257) := by
  have hδ : (0 : ℚ) ≤ 1 / 2 ^ 257 := by positivity
  have hkδ : ∀ k : Nat, (0 : ℚ) ≤ k * (1 / 2 ^ 257) := fun k => mul_nonneg (Nat.cast_nonneg k) hδ
  have SPW : ∀ V : World G1 G2, V.pp = pp → ParamShape V.pp := fun V hV => by rw [hV]; exact SP
  induction P generalizing k t rho sg sh sg' memo ptab tab W with
  | toss m hm n ih =>
    have : Nonempty (Fin m) := ⟨⟨0, hm⟩⟩
    refine (avg_mono fun c => ih c k (hP c) t htt rho sg sh sg' hsg memo ptab tab hM W hW hpk).trans
      (le_of_eq ?_)
    exact avg_add_const _ _
  | hash msg n ih =>
    rw [CodePlayer.play, table_ideal]
    have h2 := oracle_mono' (tab := tab) (msg := msg)
      fun D tab' h1 _ => ih D.bytes k (hP _) t htt rho sg sh sg' hsg memo ptab tab' (hM.table h1)
        W hW hpk
    refine h2.trans (le_of_eq ?_)
    exact oracle_add_const _ _
  | point n ih =>
    simp only [CodePlayer.play, CodePlayer.lift, ApiPlayer.chance, PrngPlayer.ideal]
    rw [← avg_equiv dieEquiv, ← avg_add_const]
    exact avg_mono fun c => ih _ k (hP _) t htt rho sg sh sg' hsg memo ptab tab hM
      { W with answers := _ } hW hpk
  | sign msg n ih =>
    obtain ⟨hk, hP⟩ := hP
    rw [CodePlayer.play, table_ideal, CodePlayer.lift]
    rcases hm : memo.lookup msg with _ | s
    · simp only [ApiPlayer.chance, PrngPlayer.ideal]
      rw [← oracle_add_const]
      refine oracle_mono' fun D tab' h1 h2 => ?_
      have e : ∀ f : Digest → Table → ℚ, oracle ptab (signInfo msg t) f =
          avg fun D' : Digest => f D' (ptab ++ [(signInfo msg t, D')]) := by
        intro f
        rw [oracle, hM.new msg hm]
      rw [e, hW]
      have h3 : ∀ D' : Digest, ((n (signatureOf pp x t D.field (rho.headD 0 + D'.field))).play E pf g
          t0 x ⟨t, rho, sg ++ [(t, msg)]⟩ tab' W).ideal (ptab ++ [(signInfo msg t, D')]) ≤
          ((n (signatureOf pp x t D.field (rho.headD 0 + D'.field))).lift E.sha512 pf pp t0 t
            (memo ++ [(msg, signatureOf pp x t D.field (rho.headD 0 + D'.field))])).chance E pf g x
            ⟨t, rho, sh ++ [D'.field], sg' ++ [(t, msg)], []⟩ tab' W +
              ((k - 1 : Nat) : ℚ) * (1 / 2 ^ 257) := by
        intro D'
        refine ih _ (k - 1) (hP _) t htt rho _ _ _ ?_ _ _ tab' ?_ W hW hpk
        · intro m hmm
          rcases List.mem_append.1 hmm with h | h
          · exact List.mem_append_left _ (hsg m h)
          · exact List.mem_append_right _ h
        · exact (hM.table h1).snoc hm h2 D'
      refine (avg_mono h3).trans ?_
      rw [avg_add_const]
      have h4 := avg_digest_le (f := fun r => ((n (signatureOf pp x t D.field (rho.headD 0 + r))).lift
          E.sha512 pf pp t0 t
          (memo ++ [(msg, signatureOf pp x t D.field (rho.headD 0 + r))])).chance E pf g x
          ⟨t, rho, sh ++ [r], sg' ++ [(t, msg)], []⟩ tab' W)
        (fun r => ApiPlayer.chance_nonneg pf x _ _ _ _) (fun r => ApiPlayer.chance_le_one pf x _ _ _ _)
      rw [← scalars_nat hk]
      refine (add_le_add_left h4 _).trans (le_of_eq ?_)
      rw [add_assoc, add_comm ((1 : ℚ) / 2 ^ 257)]
      rfl
    · obtain ⟨D, D', a, b, c⟩ := hM.old msg s hm
      simp only [PrngPlayer.ideal]
      rw [oracle, a]
      simp only []
      rw [oracle, b]
      simp only []
      rw [hW, ← c]
      refine (ih s (k - 1) (hP s) t htt rho (sg ++ [(t, msg)]) sh sg' (fun m h =>
        List.mem_append_left _ (hsg m h)) memo ptab tab hM W hW hpk).trans ?_
      refine add_le_add_right ?_ _
      rw [← scalars_nat hk]
      exact le_add_of_nonneg_right hδ
  | update tar seed n ih =>
    obtain ⟨hk, hP⟩ := hP
    simp only [CodePlayer.play, CodePlayer.lift]
    rw [hW]
    by_cases h1 : t < tar ∧ tar ≤ 2 ^ pp.depth - 1
    · rw [if_pos h1, if_pos h1]
      simp only [PrngPlayer.ideal, ApiPlayer.chance]
      rw [hW, if_pos h1]
      have hd := drawsNeeded_le pp.depth t tar
      refine (draws_ideal (f := fun rs => (if tar ≤ t0 then n.lift E.sha512 pf pp t0 tar []
        else ApiPlayer.breakIn fun keys _ => ApiPlayer.toss (256 ^ 64) digests_pos fun K =>
          n.run E.sha512 pf pp t0 ⟨pp.ciphersuite, tar, keys, ⟨Digest.bytes K⟩⟩).chance E pf g x (Signer.updated pp.depth tar rs ⟨t, rho, sh, sg', []⟩) tab W)
        (c := ((k - pp.depth : Nat) : ℚ) * (1 / 2 ^ 257))
        (fun l => ApiPlayer.chance_nonneg pf x _ _ _ _)
        (fun l => ApiPlayer.chance_le_one pf x _ _ _ _) fun rs hrs => ?_).trans ?_
      · by_cases h2 : tar ≤ t0
        · rw [if_pos h2, if_pos h2]
          exact ih (k - pp.depth) hP tar h2 (stepExponents pp.depth t tar rho rs) sg [] sg' hsg [] []
            tab kept_nil W hW hpk
        · rw [if_neg h2, if_neg h2]
          refine le_add_of_le_of_nonneg ?_ (hkδ _)
          simp only [PrngPlayer.ideal, ApiPlayer.chance]
          refine avg_mono fun K => ?_
          rw [hW]
          refine run_le (pp := pp) pf x n _ _ ⟨hsg, ?_⟩ tab W hW (SPW W hW) hpk
          intro b hb
          simp only [Signer.caught, Signer.updated, List.nil_append, List.mem_singleton] at hb
          omega
      · rw [add_assoc, ← add_mul]
        refine add_le_add_right (mul_le_mul_of_nonneg_right ?_ hδ) _
        have : drawsNeeded pp.depth t tar + (k - pp.depth) ≤ k := by omega
        exact_mod_cast this
    · rw [if_neg h1, if_neg h1]
      refine (ih (k - pp.depth) hP t htt rho sg sh sg' hsg memo ptab tab hM W hW hpk).trans ?_
      refine add_le_add_right (mul_le_mul_of_nonneg_right ?_ hδ) _
      exact_mod_cast Nat.sub_le k pp.depth
  | breakIn n ih =>
    simp only [CodePlayer.play, PrngPlayer.ideal, CodePlayer.lift]
    exact add_nonneg (ApiPlayer.chance_nonneg pf x _ _ _ _) (hkδ k)
  | forge F =>
    simp only [CodePlayer.play, PrngPlayer.ideal, CodePlayer.lift]
    refine le_add_of_le_of_nonneg ?_ (hkδ k)
    exact forge_lift pf x F _ _ ⟨hsg, by simp⟩ tab W (SPW W hW) hpk

/-! ## The adversary of the game with uniform scalars -/

theorem run_only {sha : Bytes → Bytes} {pf : Profile} {t0 : Nat} (P : CodePlayer G1 G2)
    (sk : SecretKey G1 G2) : (P.run sha pf pp t0 sk).only t0 = P.run sha pf pp t0 sk := by
  induction P generalizing sk with
  | toss m hm n ih => simp only [CodePlayer.run, ApiPlayer.only, ih]
  | hash msg n ih => simp only [CodePlayer.run, ApiPlayer.only, ih]
  | point n ih => simp only [CodePlayer.run, ApiPlayer.only, ih]
  | sign msg n ih =>
    simp only [CodePlayer.run, ApiPlayer.only]
    congr 1
    funext b
    rcases signHashed sha pf pp sk msg (natOfBytes b) with s | e | e
    · exact ih _ _
    · exact ite_self _
    · exact ite_self _
  | update tar seed n ih =>
    simp only [CodePlayer.run]
    rcases SecretKey.update sha pf pp tar seed sk with ⟨_ | e | e, sk'⟩
    · exact ih _
    · exact ih _
    · exact ite_self _
  | breakIn n ih => simp only [CodePlayer.run, ih]
  | forge F =>
    simp only [CodePlayer.run]
    by_cases h : F.time = t0
    · rw [if_pos h, ApiPlayer.only, if_pos h]
    · rw [if_neg h]; exact ite_self _

theorem lift_only {sha : Bytes → Bytes} {pf : Profile} {t0 : Nat} (P : CodePlayer G1 G2) (t : Nat)
    (memo : List (Bytes × Signature G1 G2)) :
    (P.lift sha pf pp t0 t memo).only t0 = P.lift sha pf pp t0 t memo := by
  induction P generalizing t memo with
  | toss m hm n ih => simp only [CodePlayer.lift, ApiPlayer.only, ih]
  | hash msg n ih => simp only [CodePlayer.lift, ApiPlayer.only, ih]
  | point n ih => simp only [CodePlayer.lift, ApiPlayer.only, ih]
  | sign msg n ih =>
    simp only [CodePlayer.lift]
    rcases memo.lookup msg with _ | s
    · simp only [ApiPlayer.only, ih]
    · exact ih _ _ _
  | update tar seed n ih =>
    simp only [CodePlayer.lift]
    split_ifs
    · simp only [ApiPlayer.only, ih]
    · simp only [ApiPlayer.only, run_only]
    · exact ih _ _
  | breakIn n ih => exact ite_self _
  | forge F =>
    simp only [CodePlayer.lift]
    by_cases h : F.time = t0
    · rw [if_pos h, ApiPlayer.only, if_pos h]
    · rw [if_neg h]; exact ite_self _

theorem run_legal {sha : Bytes → Bytes} {pf : Profile} {t0 : Nat} (P : CodePlayer G1 G2)
    (h : P.Legal) (sk : SecretKey G1 G2) : (P.run sha pf pp t0 sk).Legal := by
  induction P generalizing sk with
  | toss m hm n ih => exact fun c => ih c (h c) sk
  | hash msg n ih => exact fun b => ih b (h b) sk
  | point n ih => exact fun p => ih p (h p) sk
  | sign msg n ih =>
    simp only [CodePlayer.run, ApiPlayer.Legal]
    intro b
    rcases signHashed sha pf pp sk msg (natOfBytes b) with s | e | e
    · exact ih _ (h _) _
    · exact one_lt_order
    · exact one_lt_order
  | update tar seed n ih =>
    simp only [CodePlayer.run]
    rcases SecretKey.update sha pf pp tar seed sk with ⟨_ | e | e, sk'⟩
    · exact ih h _
    · exact ih h _
    · exact one_lt_order
  | breakIn n ih => exact ih _ (h _) _
  | forge F =>
    simp only [CodePlayer.run]
    split_ifs
    · exact h
    · exact one_lt_order

theorem lift_legal {sha : Bytes → Bytes} {pf : Profile} {t0 : Nat} (P : CodePlayer G1 G2)
    (h : P.Legal) (t : Nat) (memo : List (Bytes × Signature G1 G2)) :
    (P.lift sha pf pp t0 t memo).Legal := by
  induction P generalizing t memo with
  | toss m hm n ih => exact fun c => ih c (h c) t memo
  | hash msg n ih => exact fun b => ih b (h b) t memo
  | point n ih => exact fun p => ih p (h p) t memo
  | sign msg n ih =>
    simp only [CodePlayer.lift]
    rcases memo.lookup msg with _ | s
    · exact fun s => ih s (h s) _ _
    · exact ih _ (h _) _ _
  | update tar seed n ih =>
    simp only [CodePlayer.lift]
    split_ifs
    · exact ih h _ _
    · exact fun l s c => run_legal n h _
    · exact ih h _ _
  | breakIn n ih => exact one_lt_order
  | forge F =>
    simp only [CodePlayer.lift]
    split_ifs
    · exact h
    · exact one_lt_order

theorem run_points {sha : Bytes → Bytes} {pf : Profile} {t0 : Nat} (P : CodePlayer G1 G2) {k : Nat}
    (h : P.Points k) (sk : SecretKey G1 G2) : (P.run sha pf pp t0 sk).Points k := by
  induction P generalizing sk k with
  | toss m hm n ih => exact fun c => ih c (h c) sk
  | hash msg n ih => exact fun b => ih b (h b) sk
  | point n ih => exact ⟨h.1, fun p => ih p (h.2 p) sk⟩
  | sign msg n ih =>
    simp only [CodePlayer.run, ApiPlayer.Points]
    intro b
    rcases signHashed sha pf pp sk msg (natOfBytes b) with s | e | e
    · exact ih _ (h _) _
    · trivial
    · trivial
  | update tar seed n ih =>
    simp only [CodePlayer.run]
    rcases SecretKey.update sha pf pp tar seed sk with ⟨_ | e | e, sk'⟩
    · exact ih h _
    · exact ih h _
    · trivial
  | breakIn n ih => exact ih _ (h _) _
  | forge F =>
    simp only [CodePlayer.run]
    split_ifs <;> trivial

theorem lift_points {sha : Bytes → Bytes} {pf : Profile} {t0 : Nat} (P : CodePlayer G1 G2) {k : Nat}
    (h : P.Points k) (t : Nat) (memo : List (Bytes × Signature G1 G2)) :
    (P.lift sha pf pp t0 t memo).Points k := by
  induction P generalizing t memo k with
  | toss m hm n ih => exact fun c => ih c (h c) t memo
  | hash msg n ih => exact fun b => ih b (h b) t memo
  | point n ih => exact ⟨h.1, fun p => ih p (h.2 p) t memo⟩
  | sign msg n ih =>
    simp only [CodePlayer.lift]
    rcases memo.lookup msg with _ | s
    · exact fun s => ih s (h s) _ _
    · exact ih _ (h _) _ _
  | update tar seed n ih =>
    simp only [CodePlayer.lift]
    split_ifs
    · exact ih h _ _
    · exact fun l s c => run_points n h _
    · exact ih h _ _
  | breakIn n ih => trivial
  | forge F =>
    simp only [CodePlayer.lift]
    split_ifs <;> trivial

theorem code_hashes_pos {P : CodePlayer G1 G2} {k : Nat} (h : P.Hashes k) : 0 < k := by
  induction P generalizing k with
  | toss m hm n ih => exact ih ⟨0, hm⟩ (h _)
  | hash msg n ih => exact h.1
  | point n ih => exact ih 0 (h _)
  | sign msg n ih => exact h.1
  | update tar seed n ih => exact ih h
  | breakIn n ih => exact ih ⟨0, 0, [], ⟨[]⟩⟩ (h _)
  | forge F => exact h

theorem code_hashes_mono {P : CodePlayer G1 G2} {k k' : Nat} (h : P.Hashes k) (hk : k ≤ k') :
    P.Hashes k' := by
  induction P generalizing k k' with
  | toss m hm n ih => exact fun c => ih c (h c) hk
  | hash msg n ih => exact ⟨by have := h.1; omega, fun b => ih b (h.2 b) (by omega)⟩
  | point n ih => exact fun p => ih p (h p) hk
  | sign msg n ih => exact ⟨by have := h.1; omega, fun s => ih s (h.2 s) (by omega)⟩
  | update tar seed n ih => exact ih h hk
  | breakIn n ih => exact fun sk => ih sk (h sk) hk
  | forge F => exact lt_of_lt_of_le h hk

theorem run_hashes {sha : Bytes → Bytes} {pf : Profile} {t0 : Nat} (P : CodePlayer G1 G2) {k : Nat}
    (h : P.Hashes k) (sk : SecretKey G1 G2) : (P.run sha pf pp t0 sk).Hashes k := by
  induction P generalizing sk k with
  | toss m hm n ih => exact fun c => ih c (h c) sk
  | hash msg n ih => exact ⟨h.1, fun b => ih b (h.2 b) sk⟩
  | point n ih => exact fun p => ih p (h p) sk
  | sign msg n ih =>
    simp only [CodePlayer.run, ApiPlayer.Hashes]
    refine ⟨h.1, fun b => ?_⟩
    have hp := code_hashes_pos (h.2 ⟨0, 0, 0, 0⟩)
    rcases signHashed sha pf pp sk msg (natOfBytes b) with s | e | e
    · exact ih _ (h.2 _) _
    · exact hp
    · exact hp
  | update tar seed n ih =>
    simp only [CodePlayer.run]
    rcases SecretKey.update sha pf pp tar seed sk with ⟨_ | e | e, sk'⟩
    · exact ih h _
    · exact ih h _
    · exact code_hashes_pos (P := n) h
  | breakIn n ih => exact ih _ (h _) _
  | forge F =>
    simp only [CodePlayer.run]
    split_ifs
    · exact h
    · exact h

theorem lift_hashes {sha : Bytes → Bytes} {pf : Profile} {t0 : Nat} (P : CodePlayer G1 G2) {k : Nat}
    (h : P.Hashes k) (t : Nat) (memo : List (Bytes × Signature G1 G2)) :
    (P.lift sha pf pp t0 t memo).Hashes k := by
  induction P generalizing t memo k with
  | toss m hm n ih => exact fun c => ih c (h c) t memo
  | hash msg n ih => exact ⟨h.1, fun b => ih b (h.2 b) t memo⟩
  | point n ih => exact fun p => ih p (h p) t memo
  | sign msg n ih =>
    simp only [CodePlayer.lift]
    rcases memo.lookup msg with _ | s
    · exact ⟨h.1, fun s => ih s (h.2 s) _ _⟩
    · exact ih _ (code_hashes_mono (h.2 s) (Nat.sub_le k 1)) _ _
  | update tar seed n ih =>
    simp only [CodePlayer.lift]
    split_ifs
    · exact ih h _ _
    · exact fun l s c => run_hashes n h _
    · exact ih h _ _
  | breakIn n ih => exact code_hashes_pos (P := .breakIn n) h
  | forge F =>
    simp only [CodePlayer.lift]
    split_ifs
    · exact h
    · exact h

/-! ## Key generation -/

theorem init_keyAs (H : HashLaws E) (L : GroupLaws E) (W : ParamWF E pp)
    (hc : Supported pp.ciphersuite) (x : Fr) (p : Prng) :
    ∃ sk, SecretKey.init E.sha512 pp (mulFr x pp.h) p = .ok sk ∧
      KeyAs pp x 1 [drawVal E.sha512 p (DOM_SEP_SK_INIT ++ [0, 0, 0, 1])] sk ∧
      sk.prng = drawNext E.sha512 p (DOM_SEP_SK_INIT ++ [0, 0, 0, 1]) := by
  obtain ⟨s, h1, h2⟩ := SubSecretKey.init_for W.toParamShape (mulFr x pp.h)
    (drawVal E.sha512 p (DOM_SEP_SK_INIT ++ [0, 0, 0, 1]))
  have hd := W.depth_pos
  have hnil : num pp.depth [] = 1 := by simp
  have hv1 : ValidTime pp.depth 1 := hnil ▸ valid_num (isNode_nil.2 hd)
  have hcov : coverTimes pp.depth 1 = [1] := by
    obtain ⟨d, e⟩ : ∃ d, pp.depth = d + 1 := ⟨pp.depth - 1, by omega⟩
    rw [e, coverTimes_one]
  refine ⟨⟨pp.ciphersuite, 1, [s], drawNext E.sha512 p (DOM_SEP_SK_INIT ++ [0, 0, 0, 1])⟩, ?_,
    ⟨rfl, rfl, hv1, by rw [hcov]; rfl, ?_, drawNext_wf H.sha_len _ _⟩, rfl⟩
  · have hv := validCiphersuite_contains.2 hc
    unfold SecretKey.init
    simp only [hv, Bool.not_true, Bool.false_eq_true, if_false]
    rw [sampleThenUpdate_exec H.sha_len]
    simp only [Res.ok_bind]
    rw [h1]
    rfl
  · rw [keysOf, hcov]
    show [s] = [subKeyOf pp _ 1 _]
    rw [subKey_eq L W h2 (val_cast _), hnil]

theorem init_unsupported {sha : Bytes → Bytes} (hc : ¬ Supported pp.ciphersuite) (a : G1) (p : Prng) :
    SecretKey.init sha pp a p = .err .ciphersuite := by
  have hv : validCiphersuite.contains pp.ciphersuite = false :=
    Bool.eq_false_iff.2 fun h => hc (validCiphersuite_contains.1 h)
  unfold SecretKey.init
  rw [hv]
  rfl

/-! ## The whole game -/

theorem game_careful [DecidableEq GT] (pf : Profile) (d : Nat) (cs : UInt8)
    (A : World G1 G2 → CodePlayer G1 G2) (t0 : Nat) : (codeGame E pf g d cs A t0).Careful false :=
  fun _ _ _ => play_careful pf t0 _ _ _ _ _ _

theorem game_keys [DecidableEq GT] (pf : Profile) (d : Nat) (cs : UInt8)
    (A : World G1 G2 → CodePlayer G1 G2) (t0 : Nat) {u : Nat} (h : ∀ W, (A W).Updates u) :
    (codeGame E pf g d cs A t0).Keys (u * (d + 2) + 2) :=
  fun _ => ⟨by omega, fun _ => ⟨by omega, fun _ => play_keys pf t0 _ _ _ _ _ rfl (h _)⟩⟩

theorem code_le_games [DecidableEq GT] (H : HashLaws E) (L : GroupLaws E) {d : Nat} {cs : UInt8}
    (hsub : E.inSub1 g = true) (hd : 0 < d) (hd' : d ≤ 63) (pf : Profile)
    (A : World G1 G2 → CodePlayer G1 G2) :
    codeForgeChance E pf g d cs A ≤
      ∑ t ∈ Finset.Icc 1 (2 ^ d - 1), realOutput E.sha512 (codeGame E pf g d cs A t) := by
  unfold codeForgeChance realOutput
  rw [avg_comm, ← avg_sum]
  refine avg_mono fun K => ?_
  simp only [codeGame, PrngPlayer.real]
  rw [← avg_sum, ← avg_equiv (Fintype.equivFin (Secret d 0 → Fr)).symm]
  refine avg_mono fun c => ?_
  generalize (Fintype.equivFin (Secret d 0 → Fr)).symm c = a
  rw [sampleThenUpdate_eq H.sha_len]
  simp only []
  generalize hx : drawVal E.sha512 ⟨K.bytes⟩ (ascii "key initialization") = x
  have WF : ParamWF E (worldOf E g cs (Function.update a .x x) []).pp :=
    viewOf_wf (E := E) (cs := cs) L hsub hd hd' (toVar (Function.update a .x x))
  have hpk : (worldOf E g cs (Function.update a .x x) []).pk.ciphersuite =
    (worldOf E g cs (Function.update a .x x) []).pp.ciphersuite := rfl
  have hdep : (worldOf E g cs (Function.update a .x x) []).pp.depth = d := rfl
  generalize worldOf E g cs (Function.update a .x x) [] = W at *
  by_cases hc : Supported W.pp.ciphersuite
  swap
  · rw [init_unsupported hc]
    refine Finset.sum_nonneg fun t _ => ?_
    rw [sampleThenUpdate_eq H.sha_len]
    exact play_real_nonneg H _ _ _ _ _ _ _ _
  obtain ⟨sk, h1, h2, h3⟩ := init_keyAs H L WF hc x (drawNext E.sha512 ⟨K.bytes⟩ (ascii "key initialization"))
  rw [h1]
  simp only []
  refine ((A W).chance_le_only pf ⟨sk, [], []⟩ [] W WF.toParamShape hpk
    (T := Finset.Icc 1 (2 ^ d - 1)) fun t v h => ?_).trans (Finset.sum_le_sum fun t ht => ?_)
  · rw [hdep] at h
    exact Finset.mem_Icc.2 (nodeAt_iff.1 h).1
  · rw [sampleThenUpdate_eq H.sha_len]
    simp only []
    rw [← h3]
    exact code_le_play H L pf x WF t (A W) 1 _ [] (Finset.mem_Icc.1 ht).1 sk h2 [] W rfl hpk

theorem avg_digest_of_le {F f : Fr → ℚ} {c : ℚ} (h : ∀ x, F x ≤ f x + c) (h0 : ∀ x, 0 ≤ f x)
    (h1 : ∀ x, f x ≤ 1) : (avg fun D : Digest => F D.field) ≤ avg f + 1 / 2 ^ 257 + c := by
  have h2 : (avg fun D : Digest => F D.field) ≤ avg fun D : Digest => f D.field + c :=
    avg_mono fun D => h _
  rw [avg_add_const] at h2
  exact h2.trans (add_le_add_left (avg_digest_le h0 h1) c)

theorem ideal_le_api [DecidableEq GT] (L : GroupLaws E) {d : Nat} {cs : UInt8}
    (hsub : E.inSub1 g = true) (hd : 0 < d) (hd' : d ≤ 63) (pf : Profile)
    (A : World G1 G2 → CodePlayer G1 G2) {k : Nat} (hk : ∀ W, (A W).Scalars d k) {t0 : Nat}
    (h0 : 1 ≤ t0) :
    (codeGame E pf g d cs A t0).ideal [] ≤
      apiForgeChance E pf g d cs (codeLift E.sha512 pf t0 A) + (k + 2) * (1 / 2 ^ 257) := by
  simp only [codeGame, PrngPlayer.ideal, oracle_new]
  rw [avg_equiv (Fintype.equivFin (Secret d 0 → Fr)).symm fun a => avg fun D : Digest =>
    avg fun D' : Digest => ((A (worldOf E g cs (Function.update a .x D.field) [])).play E pf g t0
      D.field ⟨1, [D'.field], []⟩ [] (worldOf E g cs (Function.update a .x D.field) [])).ideal []]
  unfold apiForgeChance
  rw [← avg_update Secret.x fun a => avg fun r : Fr => (codeLift E.sha512 pf t0 A
    (worldOf E g cs a [])).chance E pf g (a .x) (.new r) [] (worldOf E g cs a []), ← avg_add_const]
  refine avg_mono fun a => ?_
  have hstep : ∀ x r : Fr, ((A (worldOf E g cs (Function.update a .x x) [])).play E pf g t0
      x ⟨1, [r], []⟩ [] (worldOf E g cs (Function.update a .x x) [])).ideal [] ≤
      (codeLift E.sha512 pf t0 A (worldOf E g cs (Function.update a .x x) [])).chance E pf g x
        (.new r) [] (worldOf E g cs (Function.update a .x x) []) + k * (1 / 2 ^ 257) := by
    intro x r
    have WF : ParamWF E (worldOf E g cs (Function.update a .x x) []).pp :=
      viewOf_wf (E := E) (cs := cs) L hsub hd hd' (toVar (Function.update a .x x))
    have hpk : (worldOf E g cs (Function.update a .x x) []).pk.ciphersuite =
      (worldOf E g cs (Function.update a .x x) []).pp.ciphersuite := rfl
    have hdep : (worldOf E g cs (Function.update a .x x) []).pp.depth = d := rfl
    generalize worldOf E g cs (Function.update a .x x) [] = W at *
    exact play_ideal_le pf x WF.toParamShape (A W) k (by rw [hdep]; exact hk W) 1 h0 [r] [] [] []
      (fun _ h => h) [] [] [] kept_nil W rfl hpk
  have h1 : ∀ x : Fr, (avg fun D' : Digest => ((A (worldOf E g cs (Function.update a .x x) [])).play
      E pf g t0 x ⟨1, [D'.field], []⟩ [] (worldOf E g cs (Function.update a .x x) [])).ideal []) ≤
      (avg fun r : Fr => (codeLift E.sha512 pf t0 A (worldOf E g cs (Function.update a .x x) [])).chance
        E pf g x (.new r) [] (worldOf E g cs (Function.update a .x x) [])) + (k + 1) * (1 / 2 ^ 257) := by
    intro x
    refine (avg_mono fun D' : Digest => hstep x D'.field).trans ?_
    rw [avg_add_const]
    have := avg_digest_le (f := fun r => (codeLift E.sha512 pf t0 A
      (worldOf E g cs (Function.update a .x x) [])).chance E pf g x (.new r) []
        (worldOf E g cs (Function.update a .x x) []))
      (fun r => ApiPlayer.chance_nonneg pf x _ _ _ _) (fun r => ApiPlayer.chance_le_one pf x _ _ _ _)
    generalize (1 : ℚ) / 2 ^ 257 = δ at *
    linarith
  have h2 := avg_digest_of_le h1 (fun x => avg_nonneg fun r => ApiPlayer.chance_nonneg pf x _ _ _ _)
    (fun x => avg_le_one fun r => ApiPlayer.chance_le_one pf x _ _ _ _)
  simp only [Function.update_self]
  generalize (1 : ℚ) / 2 ^ 257 = δ at *
  linarith

theorem api_le_ro [DecidableEq GT] (L : GroupLaws E) {d : Nat} {cs : UInt8}
    (hsub : E.inSub1 g = true) (hd : 0 < d) (hd' : d ≤ 63) (pf : Profile) (sha : Bytes → Bytes)
    (A : World G1 G2 → CodePlayer G1 G2) {t0 : Nat} (h0 : ValidTime d t0) :
    apiForgeChance E pf g d cs (codeLift sha pf t0 A) ≤
      roForgeChance E pf g d cs (apiBet pf d t0 (codeLift sha pf t0 A)) := by
  unfold apiForgeChance roForgeChance
  refine avg_mono fun a => ?_
  have WF : ParamWF E (worldOf E g cs a []).pp := viewOf_wf (E := E) (cs := cs) L hsub hd hd' (toVar a)
  have hpk : (worldOf E g cs a []).pk.ciphersuite = (worldOf E g cs a []).pp.ciphersuite := rfl
  have hnil : (worldOf E g cs a []).answers = [] := rfl
  have hdep : (worldOf E g cs a []).pp.depth = d := rfl
  generalize worldOf E g cs a [] = W at *
  have := only_le_bet (g := g) L pf (a .x) WF hnil hpk (t0 := t0) (by rw [hdep]; exact h0)
    (codeLift sha pf t0 A W)
  rw [hdep] at this
  refine Eq.trans_le (avg_congr fun r => ?_) this
  rw [codeLift, lift_only]

/-- the reduction for the signer of the code -/
theorem codeForgeChance_le [DecidableEq GT] (H : HashLaws E) (L : GroupLaws E) {d : Nat} {cs : UInt8}
    (hsub : E.inSub1 g = true) (hd : 0 < d) (hd' : d ≤ 63) (pf : Profile)
    (A : World G1 G2 → CodePlayer G1 G2) (hA : ∀ W, (A W).Legal) {m : Nat}
    (hm : ∀ W, (A W).Points m) {Q : Nat} (hQ : ∀ W, (A W).Hashes Q) {u : Nat}
    (hu : ∀ W, (A W).Updates u) {k : Nat} (hk : ∀ W, (A W).Scalars d k) :
    codeForgeChance E pf g d cs A ≤
      ∑ t ∈ Finset.Icc 1 (2 ^ d - 1), (∑ i ∈ Finset.range Q,
        (solveChance E g d (roReduction E cs d (path d t) i
            (apiBet pf d t (codeLift E.sha512 pf t A))) + ((m + 1) / rOrder + Q / 2 ^ 254)) +
        ∑ j ∈ Finset.range (u * (d + 2) + 3),
          prfGain E.sha512 (prfAttack E.sha512 (codeGame E pf g d cs A t) j) +
        (k + 2) * (1 / 2 ^ 257)) := by
  refine (code_le_games H L hsub hd hd' pf A).trans (Finset.sum_le_sum fun t ht => ?_)
  have hv : ValidTime d t := Finset.mem_Icc.1 ht
  have h1 := real_sub_ideal H.sha_len (codeGame E pf g d cs A t) (game_careful pf d cs A t)
    (game_keys pf d cs A t hu)
  have h2 := ideal_le_api (cs := cs) L hsub hd hd' pf A hk hv.1
  have h3 := api_le_ro (cs := cs) L hsub hd hd' pf E.sha512 A hv
  have h4 := roForgeChance_le (cs := cs) L hsub hd hd' pf (apiBet pf d t (codeLift E.sha512 pf t A))
    (fun W => bet_legal pf _ (lift_legal (A W) (hA W) _ _) .start ⟨le_refl 1, hv.1.trans hv.2⟩)
    (fun W => bet_points pf _ m (lift_points (A W) (hm W) _ _) .start)
    (fun W => bet_hashes pf _ Q (lift_hashes (A W) (hQ W) _ _) .start) {t} (path d)
    (fun t' ht' => by
      rw [Finset.mem_singleton.1 ht']
      exact nodeAt_iff.2 ⟨hv, rfl⟩)
    (fun W => bet_aims pf _ .start)
  rw [Finset.sum_product, Finset.sum_singleton] at h4
  generalize (1 : ℚ) / 2 ^ 257 = δ at *
  generalize (Q : ℚ) / 2 ^ 254 = z at *
  linarith

end Pixel
