import Verif.Proof.Reduce

/-!
# The reduction: an accepted claim gives the solution, and the chances
-/

namespace Pixel

open Spec

set_option linter.unusedSectionVars false

variable {G1 G2 GT : Type} [AddCommGroup G1] [AddCommGroup G2] [CommGroup GT]
  {E : Ext G1 G2 GT} {g : G1} {d : Nat} {cs : UInt8} {w : List Nat} {M γ b : Fr}

/-- an element of the subgroup of `G2` has an exponent -/
theorem exp_of_sub2 (L : GroupLaws E) (hg2 : rOrder • E.gen2 = 0) {p : G2}
    (hp : E.inSub2 p = true) : ∃ y : Fr, p = expHom E.gen2 hg2 y := by
  obtain ⟨n, rfl⟩ := L.gen2_gen p hp
  exact ⟨(n : Fr), by rw [expHom_apply, ZMod.val_natCast, mod_smul hg2]⟩

/-- the world shown to the player, with the exponents `us` behind the answers -/
structure Matches (E : Ext G1 G2 GT) (g : G1) (cs : UInt8) (d : Nat) (w : List Nat) (M γ : Fr)
    (k : Coin d → Fr) (us : List Fr) (W : World G1 G2) : Prop where
  pp : W.pp = gameParam E g cs (simExp d w M γ k)
  pk : W.pk = { ciphersuite := cs, pk := γ.val • E.gen2 }
  len : us.length = W.answers.length
  point : ∀ (i : Nat) p, W.answers[i]? = some (.point p) → us.getD i 0 ≠ 0 ∧
    p = (us.getD i 0).val • (gameParam E g cs (simExp d w M γ k) : PubParam G1 G2).h

/-- keys of the co-signers and what their proofs of possession give -/
theorem partners [DecidableEq GT] (L : GroupLaws E) (hsub : E.inSub1 g = true)
    (hg : rOrder • g = 0) (hg2 : rOrder • E.gen2 = 0) {k : Coin d → Fr}
    {us : List Fr} {W : World G1 G2} (hW : Matches E g cs d w M γ k us W)
    (l : List (Partner G1 G2)) (h : ∀ c ∈ l, c.Admitted E W) :
    ∃ y : Fr, (l.map (·.key)).sum = expHom E.gen2 hg2 (y + (copies l : Fr) * γ) ∧
      stripOf us l = expHom g hg (y * (k .h + γ ^ d)) := by
  induction l with
  | nil => exact ⟨0, by simp [copies], by simp [stripOf]⟩
  | cons c l ih =>
    obtain ⟨y, h1, h2⟩ := ih fun c hc => h c (by simp [hc])
    have hc := h c (by simp)
    unfold Partner.Admitted at hc
    have hstrip : stripOf us (c :: l) = (match c.point with
        | none => 0
        | some k => ((us.getD k 0)⁻¹).val • c.pop) + stripOf us l := by
      simp only [stripOf, List.map_cons, List.sum_cons]
      rfl
    have hcop : copies (c :: l) = copies l + (if c.point.isNone = true then 1 else 0) := by
      unfold copies
      rw [List.countP_cons]
    rw [List.map_cons, List.sum_cons, h1, hstrip, h2, hcop]
    cases hp : c.point with
    | none =>
      rw [hp] at hc
      simp only [] at hc
      refine ⟨y, ?_, by simp⟩
      rw [hc, hW.pk]
      change expHom E.gen2 hg2 γ + _ = _
      rw [← map_add]
      congr 1
      simp
      ring
    | some i =>
      rw [hp] at hc
      simp only [] at hc
      obtain ⟨hs, p, hans, hval⟩ := hc
      obtain ⟨z, hz⟩ := exp_of_sub2 L hg2 hs
      obtain ⟨hu, hpe⟩ := hW.point i p hans
      have hpe' : p = expHom g hg (us.getD i 0 * (k .h + γ ^ d)) := by
        rw [hpe, expHom_mul]
        rfl
      have hpsub : E.inSub1 p = true := by
        rw [hpe']
        exact L.sub1_nsmul hsub _
      have hpop := ((PublicKey.validate_iff (GroupLaws.withHash L hpsub)
        (pk := { ciphersuite := W.pp.ciphersuite, pk := c.key }) (x := z.val) hz _).1 hval).2.2
      simp only [] at hpop
      refine ⟨z + y, ?_, ?_⟩
      · rw [hz, ← map_add]
        congr 1
        simp
        ring
      · simp only []
        rw [hpop, hpe', ← expHom_mul, ← expHom_mul, ← map_add]
        congr 1
        field_simp

/-- an accepted claim for the target gives the solution -/
theorem extract_eq [DecidableEq GT] (H : HashLaws E) (L : GroupLaws E) (hsub : E.inSub1 g = true)
    (hd : 0 < d) (hd' : d ≤ 63) (pf : Profile) {t : Nat}
    (hw : NodeAt d t w) {k : Coin d → Fr} {us : List Fr} {W : World G1 G2}
    (hW : Matches E g cs d w M γ k us W) {F : Claim G1 G2} (hF : F.Accepted E pf W)
    (ht : F.time = t) (hm : msgField E.sha512 cs F.msg = M)
    (hlen : F.cosigners.length + 1 < rOrder) :
    extract E d w M (instanceOf E g d γ b) k us F = solutionOf E g d γ b := by
  have hg := L.sub1_order _ hsub
  have hg2 := L.sub2_order _ L.gen2_sub
  obtain ⟨hadm, hver⟩ := hF
  obtain ⟨y, hkeys, hstrip⟩ := partners L hsub hg hg2 hW F.cosigners hadm
  rw [hW.pp, hW.pk] at hver
  have WF : ParamWF E (gameParam E g cs (simExp d w M γ k) : PubParam G1 G2) :=
    viewOf_wf (cs := cs) L hsub hd hd' (toVar (simExp d w M γ k))
  rw [Signature.verifyBytesAggregated_eq _ _ _ _ _ _ (by simp) (by
    intro pk hpk
    rcases List.mem_cons.1 hpk with rfl | hpk
    · rfl
    · obtain ⟨c, _, rfl⟩ := List.mem_map.1 hpk
      rfl)] at hver
  have hsum : (List.map (·.pk) ((⟨cs, γ.val • E.gen2⟩ : PublicKey G2) ::
      F.cosigners.map fun c => (⟨(gameParam E g cs (simExp d w M γ k) : PubParam G1 G2).ciphersuite,
        c.key⟩ : PublicKey G2))).sum =
      expHom E.gen2 hg2 (y + ((copies F.cosigners + 1 : Nat) : Fr) * γ) := by
    rw [List.map_cons, List.sum_cons, List.map_map]
    change expHom E.gen2 hg2 γ + (F.cosigners.map (·.key)).sum = _
    rw [hkeys, ← map_add]
    congr 1
    push_cast
    ring
  rw [hsum, Signature.verifyBytes_eq H WF.toParamShape] at hver
  obtain ⟨_, _, hs1, hs2, v, hv, heq⟩ := @of_decide_eq_true _ (_) (Res.ok.inj hver)
  have hvw : v = w := num_inj (nodeAt_isNode hv) (nodeAt_isNode hw)
    ((nodeAt_num_eq hv).trans (ht.trans (nodeAt_num_eq hw).symm))
  obtain ⟨s, hs⟩ := exp_of_sub2 L hg2 hs1
  have hs' : F.sigma1 = s.val • (gameParam E g cs (simExp d w M γ k) : PubParam G1 G2).g2 := hs
  have hsig := (L.sig_check WF hs2 hs' (x := (y + ((copies F.cosigners + 1 : Nat) : Fr) * γ).val)
    rfl).1 heq
  have hms : msgField E.sha512 (gameParam E g cs (simExp d w M γ k) : PubParam G1 G2).ciphersuite
      F.msg = M := hm
  rw [hvw, hms, sim_sigPoint hg hd k (nodeAt_isNode hw).1] at hsig
  have hh : (gameParam E g cs (simExp d w M γ k) : PubParam G1 G2).h =
      expHom g hg (k .h + γ ^ d) := rfl
  have hF : ∑ i : Fin (d + 1), coefs d w M i * simExp d w M γ k (.gen i) =
      ∑ i : Fin (d + 1), coefs d w M i * k (.gen i) := by
    have : ∑ i : Fin (d + 1), coefs d w M i * shift d w M γ i = 0 := by
      rw [Fin.sum_univ_eq_sum_range (fun i => coefs d w M i * shift d w M γ i) (d + 1),
        Finset.range_eq_Ico, Finset.sum_eq_sum_Ico_succ_bot (by omega)]
      have e0 : coefs d w M 0 = 1 := by simp [coefs]
      have e1 : shift d w M γ 0 = ∑ j ∈ Finset.Icc 1 d, coefs d w M j * γ ^ (d + 1 - j) := by
        simp [shift]
      have e2 : Finset.Ico (0 + 1) (d + 1) = Finset.Icc 1 d := by
        ext i; simp
      rw [e0, e1, e2, one_mul, ← Finset.sum_add_distrib]
      refine Finset.sum_eq_zero fun i hi => ?_
      rw [Finset.mem_Icc] at hi
      rw [shift, if_neg (by omega)]
      ring
    rw [← sub_eq_zero, ← Finset.sum_sub_distrib, ← this]
    refine Finset.sum_congr rfl fun i _ => ?_
    simp only [simExp]
    ring
  have hcount : copies F.cosigners ≤ F.cosigners.length := List.countP_le_length
  have hn : ((copies F.cosigners + 1 : Nat) : Fr) ≠ 0 := by
    rw [Ne, ZMod.natCast_eq_zero_iff]
    intro h
    have := Nat.le_of_dvd (by omega) h
    omega
  rw [hh, ← expHom_mul, ← expHom_mul, ← map_add, hF] at hsig
  have hin : ∀ a : Fr, E.inSub1 (expHom g hg a) = true := fun a => L.sub1_nsmul hsub _
  have hsig' : F.sigma2 = _ := hsig
  have hs0 : F.sigma1 = expHom E.gen2 hg2 s := hs
  unfold extract solutionOf
  simp only []
  rw [hsig', hstrip, hs0, at1_eq hg hd, ← map_sub, ← expHom_mul, ← expHom_mul, ← map_sub]
  change pair E (b.val • E.gen2) _ * pair E (s.val • E.gen2) (_ • expHom g hg b) =
    pair E E.gen2 (expHom g hg _)
  rw [← expHom_mul, L.pair_nsmul L.gen2_sub (hin _), L.pair_nsmul L.gen2_sub (hin _),
    ← expHom_mul, ← expHom_mul, ← L.pair_add_right _ _ _ L.gen2_sub (hin _) (hin _), ← map_add]
  congr 2
  generalize ∑ i : Fin (d + 1), coefs d w M i * k (.gen i) = f
  field_simp
  ring

/-! ## Chances -/

theorem frac_nonneg (m : Nat) : (0 : ℚ) ≤ (m : ℚ) / rOrder :=
  div_nonneg (Nat.cast_nonneg _) (Nat.cast_nonneg _)

theorem Player.chance_nonneg [DecidableEq GT] (pf : Profile) (T : Finset (Nat × Fr)) (x : Fr)
    (P : Player G1 G2) (qs : List Query) (W : World G1 G2) :
    0 ≤ P.chance E pf g T x qs W := by
  induction P generalizing qs W with
  | toss _ _ n ih => exact avg_nonneg fun c => ih c _ _
  | ask q n ih => exact avg_nonneg fun r => ih _ _ _
  | forge F =>
    simp only [Player.chance]
    split_ifs <;> norm_num

theorem Player.chance_le_one [DecidableEq GT] (pf : Profile) (T : Finset (Nat × Fr)) (x : Fr)
    (P : Player G1 G2) (qs : List Query) (W : World G1 G2) :
    P.chance E pf g T x qs W ≤ 1 := by
  induction P generalizing qs W with
  | toss m hm n ih =>
    have : Nonempty (Fin m) := ⟨⟨0, hm⟩⟩
    exact avg_le_one fun c => ih c _ _
  | ask q n ih => exact avg_le_one fun r => ih _ _ _
  | forge F =>
    simp only [Player.chance]
    split_ifs <;> norm_num

theorem Guess.chance_nonneg (z : GT) (S : Guess GT) : 0 ≤ S.chance z := by
  induction S with
  | toss _ _ n ih => exact avg_nonneg fun c => ih c
  | draw n ih => exact avg_nonneg fun c => ih c
  | out y =>
    simp only [Guess.chance]
    split_ifs <;> norm_num

/-- a query that spoils the target makes winning impossible -/
theorem Player.chance_bad [DecidableEq GT] (pf : Profile) {t : Nat} (x : Fr) (hw : NodeAt d t w)
    (P : Player G1 G2) (qs : List Query) (W : World G1 G2) (hdp : W.pp.depth = d)
    {q : Query} (hq : q ∈ qs) (hbad : ¬ Query.Good w M q) :
    P.chance E pf g {(t, M)} x qs W = 0 := by
  have hP : ∀ (P : Player G1 G2) (qs : List Query) (W : World G1 G2), W.pp.depth = d → q ∈ qs →
      P.chance E pf g {(t, M)} x qs W = 0 := by
    intro P
    induction P with
    | toss m hm n ih =>
      intro qs W hdp hq
      have : Nonempty (Fin m) := ⟨⟨0, hm⟩⟩
      simp only [Player.chance]
      rw [avg_congr fun c => ih c qs W hdp hq]
      exact avg_const 0
    | ask q' n ih =>
      intro qs W hdp hq
      simp only [Player.chance]
      rw [avg_congr fun r => ih _ (qs ++ [q']) { W with answers := W.answers ++ _ } hdp (by simp [hq])]
      exact avg_const 0
    | forge F =>
      intro qs W hdp hq
      simp only [Player.chance]
      rw [if_neg]
      rintro ⟨_, hfr, hT⟩
      rw [Finset.mem_singleton, Prod.mk.injEq] at hT
      rw [hdp] at hfr
      obtain ⟨f1, f2⟩ := hfr w (by rw [hT.1]; exact hw)
      cases q with
      | subKey t' v => exact hbad fun h => f1 t' v hq h
      | signature t' v M' =>
        refine hbad ?_
        rintro ⟨rfl, rfl⟩
        refine f2 t' ?_
        rw [hT.2]
        exact hq
      | point => exact hbad trivial
  exact hP P qs W hdp hq

/-- translation of `Fr` -/
theorem avg_shift (f : Fr → ℚ) (c : Fr) : avg (fun r => f (r + c)) = avg f :=
  avg_equiv (Equiv.addRight c) f

theorem avg_scale (f : Fr → ℚ) {c : Fr} (hc : c ≠ 0) : avg (fun r => f (r * c)) = avg f :=
  avg_equiv (Equiv.mulRight₀ c hc) f

theorem avg_simRnd (f : Fr → ℚ) (d : Nat) (w : List Nat) (M γ : Fr) {h : Fr} (hh : h ≠ 0)
    (q : Query) : avg (fun r => f (simRnd d w M γ h r q)) = avg f := by
  cases q with
  | subKey t v => exact avg_shift f _
  | signature t v M' => exact avg_shift f _
  | point => exact avg_scale f hh

/-- the chance of the player is at most that of the reduction, plus `1/r` for each point -/
theorem Player.chance_le [DecidableEq GT] (H : HashLaws E) (L : GroupLaws E)
    (hsub : E.inSub1 g = true) (hd : 0 < d) (hd' : d ≤ 63) (pf : Profile)
    {t : Nat} (hw : NodeAt d t w) {k : Coin d → Fr} (hh : k .h + γ ^ d ≠ 0)
    (P : Player G1 G2) (hP : P.Legal d) (m : Nat) (hm : P.Points m) (qs : List Query)
    (hl : ∀ q ∈ qs, q.Legal d)
    (us : List Fr) (W : World G1 G2) (hW : Matches E g cs d w M γ k us W) :
    P.chance E pf g {(t, M)} γ qs W ≤
      (P.reduce E cs d w M (instanceOf E g d γ b) k us).chance (solutionOf E g d γ b) +
        m / rOrder := by
  have hg := L.sub1_order _ hsub
  have hg2 := L.sub2_order _ L.gen2_sub
  have hdp : ∀ {us W}, Matches E g cs d w M γ k us W → W.pp.depth = d := by
    intro us W h
    rw [h.pp]
    rfl
  induction P generalizing m qs us W with
  | toss N hN n ih =>
    have : Nonempty (Fin N) := ⟨⟨0, hN⟩⟩
    simp only [Player.chance, Player.reduce, Guess.chance]
    rw [← avg_add_const]
    exact avg_mono fun c => ih c (hP c) m (hm c) qs hl us W hW
  | forge F =>
    simp only [Player.chance, Player.reduce, Guess.chance]
    have h0 := frac_nonneg m
    split_ifs with h1 h2 h2
    · linarith
    · refine absurd ?_ h2
      obtain ⟨ha, _, hT⟩ := h1
      rw [Finset.mem_singleton, Prod.mk.injEq] at hT
      have hmf : msgField E.sha512 cs F.msg = M := by
        have := hT.2
        rw [hW.pp] at this
        exact this
      exact extract_eq H L hsub hd hd' pf hw hW ha hT.1 hmf hP
    · linarith
    · linarith
  | ask q n ih =>
    have hl' : ∀ q' ∈ qs ++ [q], q'.Legal d := by
      intro q' hq'
      rcases List.mem_append.1 hq' with h | h
      · exact hl _ h
      · rw [List.mem_singleton.1 h]
        exact hP.1
    simp only [Player.chance, Player.reduce, Guess.chance]
    by_cases hgood : Query.Good w M q
    swap
    · have hz := fun r => Player.chance_bad (E := E) (g := g) pf γ hw (n (answer W.pp g γ r q))
        (qs ++ [q]) { W with answers := W.answers ++ [answer W.pp g γ r q] } (show W.pp.depth = d from hdp hW)
        (q := q) (by simp) hgood
      rw [avg_congr hz, avg_const]
      have : (0 : ℚ) ≤ avg fun r => ((n (simAnswer E cs d w M (instanceOf E g d γ b) k r q)).reduce
          E cs d w M (instanceOf E g d γ b) k (us ++ [r])).chance (solutionOf E g d γ b) :=
        avg_nonneg fun r => Guess.chance_nonneg _ _
      have h0 := frac_nonneg m
      linarith
    rw [← avg_simRnd _ d w M γ hh q]
    have hans : ∀ r, answer W.pp g γ (simRnd d w M γ (k .h + γ ^ d) r q) q =
        simAnswer E cs d w M (instanceOf E g d γ b) k r q := by
      intro r
      rw [hW.pp]
      exact (simAnswer_eq hg hg2 hd (nodeAt_isNode hw) k r hP.1 hgood).symm
    simp only [hans]
    -- the next world still matches, unless the exponent of a point is zero
    have hnext : ∀ r, (q = .point → r ≠ 0) → Matches E g cs d w M γ k (us ++ [r])
        { W with answers := W.answers ++ [simAnswer E cs d w M (instanceOf E g d γ b) k r q] } := by
      intro r hr0
      refine ⟨hW.pp, hW.pk, by simp [hW.len], ?_⟩
      intro i p hp
      simp only [] at hp
      by_cases hi : i < W.answers.length
      · rw [List.getElem?_append_left hi] at hp
        rw [List.getD_append _ _ _ _ (by rw [hW.len]; exact hi)]
        exact hW.point i p hp
      · rw [List.getElem?_append_right (by omega)] at hp
        have hi0 : i - W.answers.length = 0 := by
          by_contra hc
          rw [List.getElem?_eq_none (by simp; omega)] at hp
          cases hp
        rw [hi0] at hp
        rw [List.getD_append_right _ _ _ _ (by rw [hW.len]; omega), hW.len, hi0]
        simp only [List.getElem?_cons_zero, Option.some_inj] at hp
        simp only [List.getD_cons_zero]
        cases q with
        | subKey t v => cases hp
        | signature t v M' => cases hp
        | point =>
          refine ⟨hr0 rfl, ?_⟩
          simp only [simAnswer, Answer.point.injEq] at hp
          rw [← hp, simParam_eq hg]
    by_cases hqp : q = .point
    · subst hqp
      obtain ⟨hm0, hm1⟩ := hm
      have hmq : (m : ℚ) / rOrder = 1 / rOrder + ((m - 1 : Nat) : ℚ) / rOrder := by
        rw [Nat.cast_sub hm0]
        push_cast
        ring
      have hsingle : avg (fun r : Fr => if r = 0 then (1 : ℚ) else 0) = 1 / rOrder := by
        rw [avg_single, ZMod.card]
      rw [hmq, ← add_assoc, ← hsingle, ← avg_add, ← avg_add_const]
      refine avg_mono fun r => ?_
      by_cases hr0 : r = 0
      · rw [if_pos hr0]
        have h1 := Player.chance_le_one (E := E) (g := g) pf {(t, M)} γ
          (n (simAnswer E cs d w M (instanceOf E g d γ b) k r .point)) (qs ++ [.point])
          { W with answers := W.answers ++ [simAnswer E cs d w M (instanceOf E g d γ b) k r .point] }
        have h2 := Guess.chance_nonneg (solutionOf E g d γ b)
          ((n (simAnswer E cs d w M (instanceOf E g d γ b) k r .point)).reduce
            E cs d w M (instanceOf E g d γ b) k (us ++ [r]))
        have h3 := frac_nonneg (m - 1)
        linarith
      · rw [if_neg hr0, add_zero]
        exact ih _ (hP.2 _) (m - 1) (hm1 _) _ hl' _ _ (hnext r fun _ => hr0)
    · rw [← avg_add_const]
      refine avg_mono fun r => ?_
      refine ih _ (hP.2 _) m ?_ _ hl' _ _ (hnext r fun h => absurd h hqp)
      cases q with
      | subKey t v => exact hm _
      | signature t v M' => exact hm _
      | point => exact absurd rfl hqp

/-- the reduction for one target -/
theorem forgeChance_le [DecidableEq GT] (H : HashLaws E) (L : GroupLaws E)
    (hsub : E.inSub1 g = true) (hd : 0 < d) (hd' : d ≤ 63) (pf : Profile)
    {t : Nat} (hw : NodeAt d t w) (A : World G1 G2 → Player G1 G2) (hA : ∀ W, (A W).Legal d)
    {m : Nat} (hm : ∀ W, (A W).Points m) :
    forgeChance E pf g d cs {(t, M)} A ≤
      solveChance E g d (reduction E cs d w M A) + (m + 1) / rOrder := by
  have hg := L.sub1_order _ hsub
  have hg2 := L.sub2_order _ L.gen2_sub
  unfold forgeChance solveChance
  rw [← avg_equiv (simEquiv d w M)]
  refine (avg_prod (fun (γ : Fr) (k : Coin d → Fr) =>
    (A (worldOf E g cs (simExp d w M γ k) [])).chance E pf g {(t, M)} γ []
      (worldOf E g cs (simExp d w M γ k) []))).le.trans ?_
  rw [← avg_add_const]
  refine avg_mono fun γ => ?_
  rw [← avg_add_const]
  rw [← avg_const (α := Fr) (avg fun k => (A (worldOf E g cs (simExp d w M γ k) [])).chance
    E pf g {(t, M)} γ [] (worldOf E g cs (simExp d w M γ k) []))]
  refine avg_mono fun b => ?_
  have hsingle : avg (fun k : Coin d → Fr => if k .h = - γ ^ d then (1 : ℚ) else 0) =
      1 / rOrder := by
    rw [avg_apply (α := Fr) Coin.h (fun r => if r = - γ ^ d then (1 : ℚ) else 0), avg_single,
      ZMod.card]
  have hsplit : ((m : ℚ) + 1) / rOrder = 1 / rOrder + m / rOrder := by ring
  rw [hsplit, ← add_assoc, ← hsingle, ← avg_add, ← avg_add_const]
  refine avg_mono fun k => ?_
  rw [reduction, simWorld_eq hg hg2 hd]
  by_cases hh : k .h = - γ ^ d
  · rw [if_pos hh]
    have h1 := Player.chance_le_one (E := E) (g := g) pf {(t, M)} γ
      (A (worldOf E g cs (simExp d w M γ k) [])) [] (worldOf E g cs (simExp d w M γ k) [])
    have h2 := Guess.chance_nonneg (solutionOf E g d γ b)
      ((A (worldOf E g cs (simExp d w M γ k) [])).reduce E cs d w M (instanceOf E g d γ b) k [])
    have h3 := frac_nonneg m
    linarith
  · rw [if_neg hh, add_zero]
    refine Player.chance_le H L hsub hd hd' pf hw (fun h => hh ?_) _ (hA _) m (hm _) []
      (by simp) [] _ ⟨rfl, rfl, rfl, by simp [worldOf]⟩
    linear_combination h

/-- the chance for a set of targets is at most the sum -/
theorem Player.chance_sum [DecidableEq GT] (pf : Profile) (T : Finset (Nat × Fr)) (x : Fr)
    (P : Player G1 G2) (qs : List Query) (W : World G1 G2) :
    P.chance E pf g T x qs W = ∑ p ∈ T, P.chance E pf g {p} x qs W := by
  induction P generalizing qs W with
  | toss _ _ n ih =>
    simp only [Player.chance]
    rw [← avg_sum]
    exact avg_congr fun c => ih c _ _
  | ask q n ih =>
    simp only [Player.chance]
    rw [← avg_sum]
    exact avg_congr fun r => ih _ _ _
  | forge F =>
    simp only [Player.chance]
    by_cases h : F.Accepted E pf W ∧ F.Fresh E.sha512 W.pp.depth W.pp.ciphersuite qs
    · simp only [h, true_and, Finset.mem_singleton]
      rw [Finset.sum_ite_eq]
    · rw [if_neg fun hc => h ⟨hc.1, hc.2.1⟩]
      symm
      refine Finset.sum_eq_zero fun p _ => ?_
      rw [if_neg fun hc => h ⟨hc.1, hc.2.1⟩]

theorem forgeChance_sum [DecidableEq GT] (pf : Profile) (T : Finset (Nat × Fr))
    (A : World G1 G2 → Player G1 G2) :
    forgeChance E pf g d cs T A = ∑ p ∈ T, forgeChance E pf g d cs {p} A := by
  unfold forgeChance
  rw [← avg_sum]
  exact avg_congr fun a => Player.chance_sum _ _ _ _ _ _

end Pixel
