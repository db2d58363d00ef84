import Verif.Spec.Code
import Verif.Proof.Prf
import Verif.Proof.Simulate
import Verif.Props.Signer

/-!
# The game against the signer of the code: proofs
-/

namespace Pixel

open Spec Props

set_option linter.unusedSectionVars false

variable {G1 G2 GT : Type} [AddCommGroup G1] [AddCommGroup G2] [CommGroup GT]
  {E : Ext G1 G2 GT} {g : G1} {pp : PubParam G1 G2}

/-! ## Uniform strings and uniform scalars -/

theorem share_arith {r N b : Nat} {P : ℚ} (hP : (N : ℚ) = P) (hr : 0 < r) (hN : 0 < N)
    (hb : b ≤ 1) : ((N / r + b : Nat) : ℚ) / P ≤ 1 / r + 1 / P := by
  subst hP
  have hr' : (0 : ℚ) < r := by exact_mod_cast hr
  have hN' : (0 : ℚ) < N := by exact_mod_cast hN
  have h1 : ((N / r : Nat) : ℚ) * r ≤ N := by exact_mod_cast Nat.div_mul_le_self N r
  have h2 : (b : ℚ) ≤ 1 := by exact_mod_cast hb
  rw [Nat.cast_add, add_div]
  refine add_le_add ?_ (div_le_div_of_nonneg_right h2 hN'.le)
  rw [div_le_div_iff₀ hN' hr', one_mul]
  exact h1

theorem digest_share' (c : Fr) : avg (fun D : Digest => if D.field = c then (1 : ℚ) else 0) ≤
    1 / rOrder + 1 / 2 ^ 512 := by
  unfold avg
  have hcard : (Fintype.card Digest : ℚ) = 2 ^ 512 := by
    rw [Fintype.card_fin, Nat.cast_pow, Nat.cast_ofNat, show (256 : ℚ) = 2 ^ 8 by norm_num,
      ← pow_mul]
  have hsum : (∑ D : Digest, if D.field = c then (1 : ℚ) else 0) =
      ((2 ^ 512 / rOrder + if c.val < 2 ^ 512 % rOrder then 1 else 0 : Nat) : ℚ) := by
    have h1 : (∑ D : Digest, if D.field = c then (1 : ℚ) else 0) =
        ∑ n ∈ Finset.range (256 ^ 64), if (n : Fr) = c then (1 : ℚ) else 0 :=
      Fin.sum_univ_eq_sum_range (fun n => if (n : Fr) = c then (1 : ℚ) else 0) (256 ^ 64)
    have h2 : ∀ n : Nat, (n : Fr) = c ↔ n ≡ c.val [MOD rOrder] := by
      intro n
      conv_lhs => rw [← ZMod.natCast_zmod_val c]
      exact ZMod.natCast_eq_natCast_iff _ _ _
    rw [h1]
    simp only [h2]
    rw [Finset.sum_boole, ← Nat.count_eq_card_filter_range,
      Nat.count_modEq_card _ (Nat.pos_of_ne_zero (NeZero.ne rOrder)),
      Nat.mod_eq_of_lt (ZMod.val_lt c), show (256 : ℕ) ^ 64 = 2 ^ 512 from by
        rw [show (256 : ℕ) = 2 ^ 8 from rfl, ← pow_mul]]
  rw [hsum, hcard]
  refine share_arith (by rw [Nat.cast_pow, Nat.cast_ofNat])
    (Nat.pos_of_ne_zero (NeZero.ne rOrder)) (Nat.pow_pos Nat.two_pos) ?_
  split
  · exact le_rfl
  · exact Nat.zero_le 1

/-- a test tells a scalar taken from a uniform string from a uniform scalar by at most `2^-257` -/
theorem avg_digest_le {f : Fr → ℚ} (h0 : ∀ r, 0 ≤ f r) (h1 : ∀ r, f r ≤ 1) :
    (avg fun D : Digest => f D.field) ≤ avg f + 1 / 2 ^ 257 := by
  have hs : (avg fun D : Digest => f D.field) =
      ∑ r : Fr, f r * avg (fun D : Digest => if D.field = r then (1 : ℚ) else 0) := by
    have e1 : ∀ D : Digest, f D.field = ∑ r : Fr, f r * (if D.field = r then (1 : ℚ) else 0) := by
      intro D
      simp only [mul_ite, mul_one, mul_zero]
      rw [Finset.sum_ite_eq Finset.univ D.field f, if_pos (Finset.mem_univ _)]
    rw [avg_congr e1, avg_sum]
    refine Finset.sum_congr rfl fun r _ => ?_
    unfold avg
    rw [← Finset.mul_sum, mul_div_assoc]
  rw [hs]
  refine (Finset.sum_le_sum fun r _ =>
    mul_le_mul_of_nonneg_left (digest_share' r) (h0 r)).trans ?_
  rw [← Finset.sum_mul, mul_add]
  have hcard : (Fintype.card Fr : ℚ) = rOrder := by rw [ZMod.card]
  have h2 : (∑ r : Fr, f r) ≤ rOrder := by
    refine (Finset.sum_le_sum fun r _ => h1 r).trans ?_
    rw [Finset.sum_const, Finset.card_univ, nsmul_eq_mul, mul_one, hcard]
  have h3 : (rOrder : ℚ) ≤ 2 ^ 255 := by
    exact_mod_cast (by decide +kernel : rOrder ≤ 2 ^ 255)
  have e2 : avg f = (∑ r : Fr, f r) * (1 / rOrder) := by
    unfold avg
    rw [hcard, one_div, div_eq_mul_inv]
  rw [e2]
  have h4 : (∑ r : Fr, f r) * (1 / 2 ^ 512) ≤ 2 ^ 255 * (1 / 2 ^ 512) :=
    mul_le_mul_of_nonneg_right (h2.trans h3) (by positivity)
  have h5 : (2 : ℚ) ^ 255 * (1 / 2 ^ 512) = 1 / 2 ^ 257 := by
    rw [show (512 : Nat) = 255 + 257 from rfl, pow_add, one_div, mul_inv, ← mul_assoc,
      mul_inv_cancel₀ (pow_ne_zero _ two_ne_zero), one_mul, one_div]
  rw [h5] at h4
  exact add_le_add_right h4 _

theorem avg_update {ι : Type} [Fintype ι] [DecidableEq ι] (i : ι) (F : (ι → Fr) → ℚ) :
    (avg fun a : ι → Fr => avg fun x : Fr => F (Function.update a i x)) = avg F := by
  rw [← avg_equiv (Equiv.funSplitAt i Fr).symm, ← avg_equiv (Equiv.funSplitAt i Fr).symm F,
    avg_prod fun y b => avg fun x : Fr => F (Function.update ((Equiv.funSplitAt i Fr).symm (y, b)) i x),
    avg_prod fun y b => F ((Equiv.funSplitAt i Fr).symm (y, b)), avg_comm,
    avg_comm fun y b => F ((Equiv.funSplitAt i Fr).symm (y, b))]
  refine avg_congr fun b => ?_
  have h : ∀ y x : Fr, Function.update ((Equiv.funSplitAt i Fr).symm (y, b)) i x =
      (Equiv.funSplitAt i Fr).symm (x, b) := by
    intro y x
    funext j
    by_cases hj : j = i
    · subst hj
      simp [Equiv.funSplitAt, Equiv.piSplitAt]
    · simp [Equiv.funSplitAt, Equiv.piSplitAt, hj]
  simp only [h]
  exact avg_const _

/-! ## The PRNG in the game -/

theorem table_real {sha : Bytes → Bytes} (p : Prng) (tab : Table) (msg : Bytes)
    (f : Digest → Table → PrngPlayer) :
    (PrngPlayer.table tab msg f).real sha p = oracle tab msg fun D tab' => (f D tab').real sha p := by
  unfold PrngPlayer.table oracle
  rcases tab.lookup msg with _ | D <;> rfl

theorem table_ideal (ptab tab : Table) (msg : Bytes) (f : Digest → Table → PrngPlayer) :
    (PrngPlayer.table tab msg f).ideal ptab = oracle tab msg fun D tab' => (f D tab').ideal ptab := by
  unfold PrngPlayer.table oracle
  rcases tab.lookup msg with _ | D <;> rfl

theorem afterDraws_succ {sha : Bytes → Bytes} (p : Prng) (n : Nat) :
    afterDraws sha p (n + 1) = afterDraws sha (afterDraw sha p) n := by
  induction n with
  | zero => rfl
  | succ n ih => rw [afterDraws, ih, afterDraws]

theorem afterDraw_eq {sha : Bytes → Bytes} (h : ∀ m, (sha m).length = 64) (p : Prng) :
    afterDraw sha p = drawNext sha p DOM_SEP_SK_UPDATE := by
  unfold afterDraw
  rw [text_update, sampleThenUpdate_eq h]

theorem draws_real {sha : Bytes → Bytes} (h : ∀ m, (sha m).length = 64) (n : Nat)
    (k : List Fr → PrngPlayer) (p : Prng) :
    (PrngPlayer.draws n k).real sha p = (k ((List.range n).map fun j =>
      drawn sha (text "Pixel secret key update") (afterDraws sha p j))).real sha
        (afterDraws sha p n) := by
  induction n generalizing k p with
  | zero => rfl
  | succ n ih =>
    rw [PrngPlayer.draws, real_draw h, ih, afterDraws_succ, afterDraw_eq h, List.range_succ_eq_map,
      List.map_cons, List.map_map]
    congr 3
    · show _ = drawn sha _ p
      rw [drawn_eq h, text_update]
    · refine List.map_congr_left fun j _ => ?_
      simp only [Function.comp_apply]
      rw [afterDraws_succ, afterDraw_eq h]

theorem draws_ideal {n : Nat} {k : List Fr → PrngPlayer} {f : List Fr → ℚ} {c : ℚ}
    (h0 : ∀ l, 0 ≤ f l) (h1 : ∀ l, f l ≤ 1)
    (h : ∀ l, l.length = n → (k l).ideal [] ≤ f l + c) :
    (PrngPlayer.draws n k).ideal [] ≤ avgs n f + n * (1 / 2 ^ 257) + c := by
  induction n generalizing k f with
  | zero =>
    refine (h [] rfl).trans (le_of_eq ?_)
    simp [avgs]
  | succ n ih =>
    rw [PrngPlayer.draws, PrngPlayer.ideal, oracle_new]
    have h2 : ∀ D : Digest, (PrngPlayer.draws n fun l => k (D.field :: l)).ideal [] ≤
        avgs n (fun l => f (D.field :: l)) + (n * (1 / 2 ^ 257) + c) := by
      intro D
      rw [← add_assoc]
      exact ih (fun l => h0 _) (fun l => h1 _) fun l hl => h _ (by simp [hl])
    refine (avg_mono h2).trans ?_
    rw [avg_add_const]
    have h3 := avg_digest_le (f := fun r => avgs n fun l => f (r :: l))
      (fun r => avgs_nonneg fun l => h0 _)
      (fun r => (avgs_mono fun l _ => h1 _).trans (avgs_const n 1).le)
    simp only [avgs]
    rw [Nat.cast_add, Nat.cast_one]
    generalize (1 : ℚ) / 2 ^ 257 = δ at *
    linarith

/-! ## Chances -/

theorem Spec.CodePlayer.chance_nonneg [DecidableEq GT] (pf : Profile) (P : CodePlayer G1 G2)
    (S : CodeSigner G1 G2) (tab : Table) (W : World G1 G2) : 0 ≤ P.chance E pf g S tab W := by
  induction P generalizing S tab W with
  | toss _ _ n ih => exact avg_nonneg fun c => ih c _ _ _
  | hash msg n ih => exact oracle_nonneg fun D tab' => ih _ _ _ _
  | point n ih => exact avg_nonneg fun r => ih _ _ _ _
  | sign msg n ih =>
    simp only [CodePlayer.chance]
    refine oracle_nonneg fun D tab' => ?_
    split
    · exact ih _ _ _ _
    · exact le_rfl
  | update tar seed n ih =>
    simp only [CodePlayer.chance]
    split
    · exact ih _ _ _
    · exact ih _ _ _
    · exact le_rfl
  | breakIn n ih => exact ih _ _ _ _
  | forge F =>
    simp only [CodePlayer.chance]
    exact oracle_nonneg fun D tab' => by split_ifs <;> norm_num

theorem oracle_le_one {tab : Table} {msg : Bytes} {f : Digest → Table → ℚ}
    (h : ∀ D tab', f D tab' ≤ 1) : oracle tab msg f ≤ 1 :=
  (oracle_mono h).trans (oracle_const tab msg 1).le

theorem Spec.ApiPlayer.chance_le_one [DecidableEq GT] (pf : Profile) (x : Fr) (P : ApiPlayer G1 G2)
    (S : Signer) (tab : Table) (W : World G1 G2) : P.chance E pf g x S tab W ≤ 1 := by
  induction P generalizing S tab W with
  | toss _ hn n ih =>
    have : Nonempty (Fin _) := ⟨⟨0, hn⟩⟩
    exact avg_le_one fun c => ih c _ _ _
  | hash msg n ih => exact oracle_le_one fun D tab' => ih _ _ _ _
  | point n ih => exact avg_le_one fun r => ih _ _ _ _
  | sign msg n ih => exact oracle_le_one fun D tab' => avg_le_one fun r => ih _ _ _ _
  | update tar n ih =>
    simp only [ApiPlayer.chance]
    split_ifs
    · exact (avgs_mono fun rs _ => ih _ _ _).trans (avgs_const _ 1).le
    · exact ih _ _ _
  | breakIn n ih => exact ih _ _ _ _ _
  | forge F =>
    simp only [ApiPlayer.chance]
    exact oracle_le_one fun D tab' => by split_ifs <;> norm_num

theorem none_code [DecidableEq GT] (pf : Profile) {W : World G1 G2}
    (S : ParamShape W.pp) (hpk : W.pk.ciphersuite = W.pp.ciphersuite) (Z : CodeSigner G1 G2)
    (tab : Table) : (CodePlayer.forge .none).chance E pf g Z tab W = 0 := by
  simp only [CodePlayer.chance]
  exact oracle_zero fun D tab' => if_neg fun h => none_accepted D pf S hpk h.1

theorem Spec.CodePlayer.chance_le_only [DecidableEq GT] (pf : Profile)
    (P : CodePlayer G1 G2) (Z : CodeSigner G1 G2) (tab : Table) (W : World G1 G2)
    (S : ParamShape W.pp) (hpk : W.pk.ciphersuite = W.pp.ciphersuite) {T : Finset Nat}
    (hT : ∀ t v, NodeAt W.pp.depth t v → t ∈ T) :
    P.chance E pf g Z tab W ≤ ∑ t ∈ T, (P.only t).chance E pf g Z tab W := by
  induction P generalizing Z tab W with
  | toss m hm n ih =>
    simp only [CodePlayer.chance, CodePlayer.only]
    rw [← avg_sum]
    exact avg_mono fun c => ih c Z tab W S hpk hT
  | hash msg n ih =>
    simp only [CodePlayer.chance, CodePlayer.only]
    rw [← oracle_sum]
    exact oracle_mono fun D tab' => ih _ Z tab' W S hpk hT
  | point n ih =>
    simp only [CodePlayer.chance, CodePlayer.only]
    rw [← avg_sum]
    exact avg_mono fun r => ih _ Z tab { W with answers := _ } S hpk hT
  | sign msg n ih =>
    simp only [CodePlayer.chance, CodePlayer.only]
    rw [← oracle_sum]
    refine oracle_mono fun D tab' => ?_
    rcases signHashed E.sha512 pf W.pp Z.sk msg D.field with s | e | e
    · exact ih _ _ tab' W S hpk hT
    · simp
    · simp
  | update tar seed n ih =>
    simp only [CodePlayer.chance, CodePlayer.only]
    rcases SecretKey.update E.sha512 pf W.pp tar seed Z.sk with ⟨_ | e | e, sk⟩
    · exact ih _ tab W S hpk hT
    · exact ih _ tab W S hpk hT
    · simp
  | breakIn n ih =>
    simp only [CodePlayer.chance, CodePlayer.only]
    exact ih _ _ tab W S hpk hT
  | forge F =>
    by_cases hF : F.time ∈ T
    · refine le_trans ?_ (Finset.single_le_sum
        (fun t _ => CodePlayer.chance_nonneg pf _ Z tab W) hF)
      simp only [CodePlayer.only, if_true]
      exact le_rfl
    · refine le_trans (le_of_eq ?_) (Finset.sum_nonneg
        fun t _ => CodePlayer.chance_nonneg pf _ Z tab W)
      simp only [CodePlayer.chance]
      refine oracle_zero fun D tab' => if_neg fun h => hF ?_
      obtain ⟨v, hv⟩ := accepted_time (digest_laws E D) pf S h.1 hpk
      exact hT _ v hv

/-- after a break-in at time `t0` or before nothing can be won -/
theorem caught_code [DecidableEq GT] (pf : Profile) {t0 b : Nat} (hb : b ≤ t0)
    (P : CodePlayer G1 G2) (Z : CodeSigner G1 G2) (hZ : b ∈ Z.broken) (tab : Table)
    (W : World G1 G2) (S : ParamShape W.pp) (hpk : W.pk.ciphersuite = W.pp.ciphersuite) :
    (P.only t0).chance E pf g Z tab W = 0 := by
  induction P generalizing Z tab W with
  | toss m hm n ih =>
    simp only [CodePlayer.chance, CodePlayer.only]
    exact avg_zero fun c => ih c Z hZ tab W S hpk
  | hash msg n ih =>
    simp only [CodePlayer.chance, CodePlayer.only]
    exact oracle_zero fun D tab' => ih _ Z hZ tab' W S hpk
  | point n ih =>
    simp only [CodePlayer.chance, CodePlayer.only]
    exact avg_zero fun r => ih _ Z hZ tab { W with answers := _ } S hpk
  | sign msg n ih =>
    simp only [CodePlayer.chance, CodePlayer.only]
    refine oracle_zero fun D tab' => ?_
    split
    · refine ih _ _ ?_ tab' W S hpk
      exact hZ
    · rfl
  | update tar seed n ih =>
    simp only [CodePlayer.chance, CodePlayer.only]
    split
    · refine ih _ ?_ tab W S hpk
      exact hZ
    · refine ih _ ?_ tab W S hpk
      exact hZ
    · rfl
  | breakIn n ih =>
    simp only [CodePlayer.chance, CodePlayer.only]
    exact ih _ { Z with broken := _ } (List.mem_append_left _ hZ) tab W S hpk
  | forge F =>
    simp only [CodePlayer.only]
    split_ifs with hF
    · simp only [CodePlayer.chance]
      refine oracle_zero fun D tab' => if_neg fun h => ?_
      have := h.2.1 b hZ
      omega
    · exact none_code pf S hpk Z tab

/-! ## The game played with the PRNG -/

theorem signHashed_eq (H : HashLaws E) (L : GroupLaws E) (pf : Profile) (W : ParamWF E pp) {x : Fr}
    {t : Nat} {rho : List Fr} {sk : SecretKey G1 G2} (h : KeyAs pp x t rho sk) (msg : Bytes) (M : Fr) :
    signHashed E.sha512 pf pp sk msg M = .ok (signatureOf pp x t M
      (rho.headD 0 + drawVal E.sha512 sk.prng (signInfo msg t))) := by
  obtain ⟨l, hl⟩ := h.head
  unfold signHashed
  rw [sample_exec H.sha_len, h.time]
  exact signFr_exponents L pf W h.valid h.time hl M _

theorem forge_code [DecidableEq GT] (pf : Profile) (t0 : Nat) (F : Claim G1 G2)
    (sk sk' : SecretKey G1 G2) (sg : List (Nat × Bytes)) (br : List Nat) (tab : Table)
    (W : World G1 G2) :
    ((CodePlayer.forge F).only t0).chance E pf g ⟨sk, sg, br⟩ tab W =
      ((CodePlayer.forge F).only t0).chance E pf g ⟨sk', sg, br⟩ tab W := by
  simp only [CodePlayer.only]
  split_ifs <;> rfl

theorem play_real_nonneg [DecidableEq GT] (H : HashLaws E) (pf : Profile) (t0 : Nat) (x : Fr)
    (P : CodePlayer G1 G2) (S : Known0) (tab : Table) (W : World G1 G2) (p : Prng) :
    0 ≤ (P.play E pf g t0 x S tab W).real E.sha512 p := by
  induction P generalizing S tab W p with
  | toss m hm n ih => exact avg_nonneg fun c => ih c _ _ _ _
  | hash msg n ih =>
    rw [CodePlayer.play, table_real]
    exact oracle_nonneg fun D tab' => ih _ _ _ _ _
  | point n ih => exact avg_nonneg fun c => ih _ _ _ _ _
  | sign msg n ih =>
    rw [CodePlayer.play, table_real]
    refine oracle_nonneg fun D tab' => ?_
    rw [real_sample H.sha_len]
    exact ih _ _ _ _ _
  | update tar seed n ih =>
    simp only [CodePlayer.play]
    split_ifs
    · rw [real_mix H.sha_len, draws_real H.sha_len]
      exact ih _ _ _ _
    · rw [real_mix H.sha_len, draws_real H.sha_len]
      exact CodePlayer.chance_nonneg pf _ _ _ _
    · exact ih _ _ _ _
  | breakIn n ih => exact le_rfl
  | forge F => exact CodePlayer.chance_nonneg pf _ _ _ _

theorem code_le_play [DecidableEq GT] (H : HashLaws E) (L : GroupLaws E) (pf : Profile) (x : Fr)
    (WF : ParamWF E pp) (t0 : Nat) (P : CodePlayer G1 G2) (t : Nat) (rho : List Fr)
    (sg : List (Nat × Bytes)) (htt : t ≤ t0) (sk : SecretKey G1 G2) (hk : KeyAs pp x t rho sk)
    (tab : Table) (W : World G1 G2) (hW : W.pp = pp)
    (hpk : W.pk.ciphersuite = W.pp.ciphersuite) :
    (P.only t0).chance E pf g ⟨sk, sg, []⟩ tab W ≤
      (P.play E pf g t0 x ⟨t, rho, sg⟩ tab W).real E.sha512 sk.prng := by
  have hSW : ParamShape W.pp := by rw [hW]; exact WF.toParamShape
  induction P generalizing t rho sg sk tab W with
  | toss m hm n ih => exact avg_mono fun c => ih c t rho sg htt sk hk tab W hW hpk hSW
  | hash msg n ih =>
    rw [CodePlayer.play, table_real]
    exact oracle_mono fun D tab' => ih _ t rho sg htt sk hk tab' W hW hpk hSW
  | point n ih =>
    simp only [CodePlayer.play, CodePlayer.only, CodePlayer.chance, PrngPlayer.real]
    rw [← avg_equiv dieEquiv]
    exact avg_mono fun c => ih _ t rho sg htt sk hk tab { W with answers := _ } hW hpk hSW
  | sign msg n ih =>
    rw [CodePlayer.play, table_real]
    simp only [CodePlayer.only, CodePlayer.chance]
    refine oracle_mono fun D tab' => ?_
    rw [hW, signHashed_eq H L pf WF hk, real_sample H.sha_len, hk.time]
    exact ih _ t rho (sg ++ [(t, msg)]) htt sk hk tab' W hW hpk hSW
  | update tar seed n ih =>
    simp only [CodePlayer.play, CodePlayer.only, CodePlayer.chance]
    rw [hW]
    by_cases h1 : t < tar ∧ tar ≤ 2 ^ pp.depth - 1
    · rw [if_pos h1]
      rcases update_exact H.sha_len pf WF.toParamShape hk.keyFor h1.1 h1.2 seed with
        ⟨_, e⟩ | ⟨_, sk', e, _⟩
      · rw [e]
        simp only []
        have := play_real_nonneg (g := g) H pf t0 x (.update tar seed n) ⟨t, rho, sg⟩ tab W sk.prng
        rw [CodePlayer.play, hW, if_pos h1] at this
        exact this
      · obtain ⟨_, _, hk', hp⟩ := C77_update H L pf WF hk tar seed e
        rw [e]
        simp only []
        rw [real_mix H.sha_len, draws_real H.sha_len]
        have hre : mixed E.sha512 sk.prng seed (DOM_SEP_SK_RERANDOMIZE_INFO ++ timeBytes t) =
            reseeded E.sha512 sk.prng seed t := (reseeded_eq H.sha_len _ _ _).symm
        rw [hre, ← hp]
        by_cases h2 : tar ≤ t0
        · rw [if_pos h2]
          exact ih tar _ sg h2 sk' hk' tab W hW hpk hSW
        · rw [if_neg h2]
          simp only [PrngPlayer.real]
          refine le_of_eq ?_
          congr 2
          obtain ⟨c', t', s', p'⟩ := sk'
          have a1 := hk'.suite
          have a2 := hk'.time
          have a3 := hk'.ssk
          simp only [] at a1 a2 a3
          subst a1 a2 a3
          rfl
    · rw [if_neg h1, (C15_update_outcome H.sha_len pf WF.toParamShape hk.keyFor tar seed).1 h1]
      exact ih t rho sg htt sk hk tab W hW hpk hSW
  | breakIn n ih =>
    simp only [CodePlayer.play, CodePlayer.only, CodePlayer.chance, PrngPlayer.real]
    exact (caught_code pf (b := t) htt (n sk) _ (by simp [hk.time]) tab W hSW hpk).le
  | forge F => exact (forge_code pf t0 F _ _ sg [] tab W).le

/-! ## The generator is used with care -/

theorem table_careful {u : Bool} {tab : Table} {msg : Bytes} {f : Digest → Table → PrngPlayer}
    (h : ∀ D tab', (f D tab').Careful u) : (PrngPlayer.table tab msg f).Careful u := by
  unfold PrngPlayer.table
  rcases tab.lookup msg with _ | D
  · exact fun D => h _ _
  · exact h _ _

theorem table_keys {k : Nat} {tab : Table} {msg : Bytes} {f : Digest → Table → PrngPlayer}
    (h : ∀ D tab', (f D tab').Keys k) : (PrngPlayer.table tab msg f).Keys k := by
  unfold PrngPlayer.table
  rcases tab.lookup msg with _ | D
  · exact fun D => h _ _
  · exact h _ _

theorem draws_careful {n : Nat} {k : List Fr → PrngPlayer} (h : ∀ l, (k l).Careful false) :
    (PrngPlayer.draws n k).Careful false := by
  induction n generalizing k with
  | zero => exact h []
  | succ n ih => exact fun r => ih fun l => h _

theorem draws_keys {n m : Nat} {k : List Fr → PrngPlayer} (h : ∀ l, (k l).Keys m) :
    (PrngPlayer.draws n k).Keys (n + m) := by
  induction n generalizing k with
  | zero => rw [Nat.zero_add]; exact h []
  | succ n ih =>
    refine ⟨by omega, fun r => ?_⟩
    rw [show n + 1 + m - 1 = n + m by omega]
    exact ih fun l => h _

theorem keys_mono {P : PrngPlayer} {k k' : Nat} (h : P.Keys k) (hk : k ≤ k') : P.Keys k' := by
  induction P generalizing k k' with
  | toss n hn next ih => exact fun c => ih c (h c) hk
  | sample info next ih => exact fun r => ih r (h r) hk
  | draw info next ih => exact ⟨by have := h.1; omega, fun r => ih r (h.2 r) (by omega)⟩
  | mix seed info next ih => exact ⟨by have := h.1; omega, ih h.2 (by omega)⟩
  | reveal out => trivial
  | stop out => trivial

theorem play_careful [DecidableEq GT] (pf : Profile) (t0 : Nat) (x : Fr) (P : CodePlayer G1 G2)
    (S : Known0) (tab : Table) (W : World G1 G2) (u : Bool) :
    (P.play E pf g t0 x S tab W).Careful u := by
  induction P generalizing S tab W u with
  | toss m hm n ih => exact fun c => ih c _ _ _ _
  | hash msg n ih =>
    rw [CodePlayer.play]
    exact table_careful fun D tab' => ih _ _ _ _ _
  | point n ih => exact fun c => ih _ _ _ _ _
  | sign msg n ih =>
    rw [CodePlayer.play]
    exact table_careful fun D tab' r => ih _ _ _ _ _
  | update tar seed n ih =>
    simp only [CodePlayer.play]
    split_ifs
    · exact draws_careful fun l => ih _ _ _ _
    · exact draws_careful fun l => rfl
    · exact ih _ _ _ _
  | breakIn n ih => trivial
  | forge F => trivial

theorem coverTimes_length_le (d t : Nat) : (coverTimes d t).length ≤ d := by
  induction d generalizing t with
  | zero => simp [coverTimes]
  | succ d ih =>
    simp only [coverTimes]
    split_ifs
    · simp
    · simp only [List.length_append, List.length_map, List.length_singleton]
      have := ih (t - 1)
      omega
    · rw [List.length_map]
      have := ih (t - 2 ^ d)
      omega

theorem drawsNeeded_le (d t tar : Nat) : drawsNeeded d t tar ≤ d := by
  have h1 := List.length_filter_le (fun s => ! (coverTimes d t).contains s) (coverTimes d tar)
  have h2 := coverTimes_length_le d tar
  unfold drawsNeeded newTimes
  omega

theorem play_keys [DecidableEq GT] (pf : Profile) (t0 : Nat) (x : Fr) {d : Nat}
    (P : CodePlayer G1 G2) (S : Known0) (tab : Table) (W : World G1 G2) (hW : W.pp.depth = d)
    {u : Nat} (h : P.Updates u) :
    (P.play E pf g t0 x S tab W).Keys (u * (d + 2)) := by
  induction P generalizing S tab W u with
  | toss m hm n ih => exact fun c => ih c _ _ _ hW (h c)
  | hash msg n ih =>
    rw [CodePlayer.play]
    exact table_keys fun D tab' => ih _ _ _ _ hW (h _)
  | point n ih =>
    intro c
    refine ih _ _ _ _ ?_ (h _)
    exact hW
  | sign msg n ih =>
    rw [CodePlayer.play]
    exact table_keys fun D tab' r => ih _ _ _ _ hW (h _)
  | update tar seed n ih =>
    obtain ⟨hu, h⟩ := h
    obtain ⟨u, rfl⟩ := Nat.exists_eq_add_of_lt hu
    rw [show 0 + u + 1 = u + 1 by omega] at *
    rw [Nat.add_sub_cancel] at h
    have e : (u + 1) * (d + 2) = u * (d + 2) + (d + 2) := by ring
    simp only [CodePlayer.play]
    rw [hW]
    have hd := drawsNeeded_le d S.time tar
    by_cases h1 : S.time < tar ∧ tar ≤ 2 ^ d - 1
    · rw [if_pos h1]
      refine ⟨by omega, keys_mono (draws_keys (m := u * (d + 2)) fun l => ?_) (by omega)⟩
      by_cases h2 : tar ≤ t0
      · rw [if_pos h2]
        exact ih _ _ _ hW h
      · rw [if_neg h2]
        trivial
    · rw [if_neg h1]
      exact keys_mono (ih _ _ _ hW h) (by omega)
  | breakIn n ih => trivial
  | forge F => trivial

end Pixel
