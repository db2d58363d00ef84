import Verif.Proof.Game
import Mathlib.Data.Set.Card

/-!
# The forgery game: from group elements to exponents, and counting
-/

namespace Pixel

open Spec

set_option linter.unusedSectionVars false

variable {G1 G2 GT : Type} [AddCommGroup G1] [AddCommGroup G2] [CommGroup GT]
  {E : Ext G1 G2 GT} {g : G1} {d N : Nat} {cs : UInt8}

theorem gameParam_eq (a : Secret d N → Fr) :
    (gameParam E g cs a : PubParam G1 G2) = paramOf E g cs (toVar a) := rfl

theorem lin_answer1 (hg : rOrder • g = 0) (hd : 0 < d) (a : Secret d N → Fr) (c : Nat → Fr) (r : Fr)
    {q : Query} (hq : q.Legal d) :
    lin c (answer (gameParam E g cs a) g (a .x) r q : Answer G1 G2).inG1 =
      expHom g hg (term1 a c r q) := by
  cases q with
  | subKey t v =>
    simp only [answer, Answer.inG1, lin, term1, map_add, map_sum, smul_eq_mul, expHom_mul]
    rw [gameParam_eq, nodePoint_paramOf hg, List.map_drop, paramOf, List.map_ofFn, lin_drop_ofFn]
    congr 1
    refine Finset.sum_congr rfl fun i _ => ?_
    by_cases hi : v.length + 1 ≤ i.val
    · rw [if_pos hi, if_pos hi]
      rfl
    · rw [if_neg hi, if_neg hi, ZMod.val_zero, zero_smul]
  | signature t v M =>
    simp only [answer, Answer.inG1, lin, term1, map_add, smul_eq_mul, expHom_mul, add_zero]
    rw [gameParam_eq, sigPoint_paramOf hg hd _ (nodeAt_isNode hq).1]
    rfl
  | point =>
    simp only [answer, Answer.inG1, lin, term1, smul_eq_mul, expHom_mul, add_zero]
    rfl

theorem lin_answer2 (hg2 : rOrder • E.gen2 = 0) (a : Secret d N → Fr) (c : Nat → Fr) (r : Fr)
    (q : Query) :
    lin c (answer (gameParam E g cs a) g (a .x) r q : Answer G1 G2).inG2 =
      expHom E.gen2 hg2 (term2 c r q) := by
  cases q <;> simp only [answer, Answer.inG2, lin, term2, smul_eq_mul, expHom_mul, add_zero,
    map_zero] <;> rfl

variable {qs : List Query}

theorem world_inG1 (hg : rOrder • g = 0) (hd : 0 < d) (hq : ∀ q ∈ qs, q.Legal d)
    (a : Secret d N → Fr) (c : Comb) :
    (worldOf E g cs a qs).inG1 c = expHom g hg (comb1 c a qs) := by
  simp only [World.inG1, worldOf, List.map_ofFn, linVectors_ofFn, comb1, map_add]
  congr 1
  · simp only [lin, gameParam, lin_ofFn, smul_eq_mul, map_sum, expHom_mul]
    rw [← add_assoc, ← add_assoc]
    rfl
  · rw [map_sum]
    refine Finset.sum_congr rfl fun k _ => ?_
    exact lin_answer1 hg hd a _ _ (hq _ (List.getElem_mem _))

theorem world_inG2 (hg2 : rOrder • E.gen2 = 0) (a : Secret d N → Fr) (c : Comb) :
    (worldOf E g cs a qs).inG2 c = expHom E.gen2 hg2 (comb2 c a qs) := by
  simp only [World.inG2, worldOf, List.map_ofFn, linVectors_ofFn, comb2, map_add]
  congr 1
  · simp only [lin, gameParam, smul_eq_mul, expHom_mul, add_zero]
    rw [expHom_apply _ _ 1, ZMod.val_one, one_smul]
    rfl
  · rw [map_sum]
    refine Finset.sum_congr rfl fun k _ => ?_
    exact lin_answer2 hg2 a _ _ _

theorem gen2_ne (L : GroupLaws E) (hsub : E.inSub1 g = true) (hne : g ≠ 0) : E.gen2 ≠ 0 := by
  intro h
  refine hne (L.pair_nondeg g hsub ?_)
  rw [h, L.pair_zero_left hsub]

theorem pairs_eq_one (L : GroupLaws E) (hsub : E.inSub1 g = true) (hne : g ≠ 0) (hd : 0 < d)
    (hq : ∀ q ∈ qs, q.Legal d) (a : Secret d N → Fr) (l : List (Comb × Comb)) :
    (l.map fun p => pair E ((worldOf E g cs a qs).inG2 p.1)
      ((worldOf E g cs a qs).inG1 p.2)).prod = 1 ↔ combT l a qs = 0 := by
  have hg := L.sub1_order _ hsub
  have hg2 := L.sub2_order _ L.gen2_sub
  have hin : ∀ b : Fr, E.inSub1 (expHom g hg b) = true := fun b => L.sub1_nsmul hsub _
  have key : (l.map fun p => pair E ((worldOf E g cs a qs).inG2 p.1)
      ((worldOf E g cs a qs).inG1 p.2)).prod = pair E E.gen2 (expHom g hg (combT l a qs)) := by
    induction l with
    | nil => simp only [combT, List.map_nil, List.prod_nil, List.sum_nil, map_zero,
        L.pair_zero_right L.gen2_sub]
    | cons p l ih =>
      simp only [List.map_cons, List.prod_cons, ih, combT, List.sum_cons, map_add]
      rw [L.pair_add_right _ _ _ L.gen2_sub (hin _) (hin _), world_inG2 hg2, world_inG1 hg hd hq,
        expHom_apply E.gen2, L.pair_nsmul L.gen2_sub (hin _), ← expHom_mul]
  rw [key]
  constructor
  · intro h
    exact (expHom_eq_zero hg hne).1 (L.pair_nondeg _ (hin _) h)
  · intro h
    rw [h, map_zero, L.pair_zero_right L.gen2_sub]

theorem GroupLaws.withHash (L : GroupLaws E) {p : G1} (hp : E.inSub1 p = true) :
    GroupLaws { E with hashToG1 := fun _ _ => p } where
  sub1_zero := L.sub1_zero
  sub1_add := L.sub1_add
  sub1_neg := L.sub1_neg
  sub1_order := L.sub1_order
  sub2_zero := L.sub2_zero
  sub2_add := L.sub2_add
  sub2_neg := L.sub2_neg
  sub2_order := L.sub2_order
  gen2_sub := L.gen2_sub
  gen2_gen := L.gen2_gen
  hash_sub := fun _ _ => hp
  pairing_prod := L.pairing_prod
  pair_add_left := L.pair_add_left
  pair_add_right := L.pair_add_right
  pair_nondeg := L.pair_nondeg

/-- when a co-signer is admitted, in the exponents -/
theorem admitted_iff [DecidableEq GT] (L : GroupLaws E) (hsub : E.inSub1 g = true) (hne : g ≠ 0)
    (hd : 0 < d) (hsup : Supported cs) (hq : ∀ q ∈ qs, q.Legal d) (a : Secret d N → Fr)
    (c : CoSigner) :
    c.Admitted E (worldOf E g cs a qs) ↔ match c.point with
      | none => comb2 c.key a qs = a .x
      | some k => qs[k]? = some .point ∧ comb1 c.pop a qs = freshOf a k * comb2 c.key a qs := by
  have hg := L.sub1_order _ hsub
  have hg2 := L.sub2_order _ L.gen2_sub
  have hne2 := gen2_ne L hsub hne
  unfold CoSigner.Admitted
  cases c.point with
  | none =>
    simp only []
    rw [world_inG2 hg2]
    change expHom E.gen2 hg2 _ = expHom E.gen2 hg2 (a .x) ↔ _
    rw [← sub_eq_zero, ← map_sub, expHom_eq_zero hg2 hne2, sub_eq_zero]
  | some k =>
    simp only []
    have hans : ∀ p, (worldOf E g cs a qs).answers[k]? = some (.point p) ↔
        qs[k]? = some .point ∧ p = (freshOf a k).val • g := by
      intro p
      simp only [worldOf, List.getElem?_ofFn]
      by_cases hk : k < qs.length
      · rw [dif_pos hk, List.getElem?_eq_getElem hk]
        simp only [Fin.getElem_fin, Option.some_inj]
        generalize qs[k] = q
        cases q <;> simp [answer, eq_comm]
      · rw [dif_neg hk, List.getElem?_eq_none (by omega)]
        simp
    have hpk : (worldOf E g cs a qs).inG2 c.key = (comb2 c.key a qs).val • E.gen2 :=
      world_inG2 hg2 a c.key
    have hval : ∀ p, E.inSub1 p = true → (PublicKey.validate { E with hashToG1 := fun _ _ => p }
        { ciphersuite := cs, pk := (worldOf E g cs a qs).inG2 c.key }
        { ciphersuite := cs, pop := (worldOf E g cs a qs).inG1 c.pop } = true ↔
        (worldOf E g cs a qs).inG1 c.pop = (comb2 c.key a qs).val • p) := by
      intro p hp
      rw [PublicKey.validate_iff (GroupLaws.withHash L hp)
        (pk := { ciphersuite := cs, pk := (worldOf E g cs a qs).inG2 c.key }) hpk]
      simp only [hsup, true_and]
    have heq : (worldOf E g cs a qs).inG1 c.pop = (comb2 c.key a qs).val • (freshOf a k).val • g ↔
        comb1 c.pop a qs = freshOf a k * comb2 c.key a qs := by
      change _ = _ • expHom g hg (freshOf a k) ↔ _
      rw [world_inG1 hg hd hq, ← expHom_mul, ← sub_eq_zero, ← map_sub, expHom_eq_zero hg hne,
        sub_eq_zero, mul_comm]
    constructor
    · rintro ⟨p, h1, h2⟩
      obtain ⟨h3, rfl⟩ := (hans p).1 h1
      exact ⟨h3, heq.1 ((hval _ (L.sub1_nsmul hsub _)).1 h2)⟩
    · rintro ⟨h1, h2⟩
      exact ⟨_, (hans _).2 ⟨h1, rfl⟩, (hval _ (L.sub1_nsmul hsub _)).2 (heq.2 h2)⟩

/-- when the signature is accepted, in the exponents -/
theorem verified_iff [DecidableEq GT] (H : HashLaws E) (L : GroupLaws E) (hsub : E.inSub1 g = true)
    (hne : g ≠ 0) (hd : 0 < d) (hd' : d ≤ 63) (hsup : Supported cs) (pf : Profile)
    (hq : ∀ q ∈ qs, q.Legal d) (a : Secret d N → Fr) (F : Forgery) :
    Signature.verifyBytesAggregated E pf ⟨(worldOf E g cs a qs).pp.ciphersuite, F.time,
        (worldOf E g cs a qs).inG2 F.sigma1, (worldOf E g cs a qs).inG1 F.sigma2⟩
        ((worldOf E g cs a qs).pk :: F.cosigners.map fun c =>
          ⟨(worldOf E g cs a qs).pp.ciphersuite, (worldOf E g cs a qs).inG2 c.key⟩)
        (worldOf E g cs a qs).pp F.msg = .ok true ↔
      ∃ w, NodeAt d F.time w ∧ gameDefect F w (msgField E.sha512 cs F.msg) a qs = 0 := by
  have hg := L.sub1_order _ hsub
  have hg2 := L.sub2_order _ L.gen2_sub
  have W : ParamWF E (gameParam E g cs a : PubParam G1 G2) := viewOf_wf (cs := cs) L hsub hd hd' (toVar a)
  have hpp : (worldOf E g cs a qs).pp = gameParam E g cs a := rfl
  have h1 := world_inG2 (g := g) (cs := cs) (qs := qs) hg2 a F.sigma1
  have h2 := world_inG1 (E := E) (cs := cs) hg hd hq a F.sigma2
  have hs2 : E.inSub1 ((worldOf E g cs a qs).inG1 F.sigma2) = true := by
    rw [h2]; exact L.sub1_nsmul hsub _
  have hs1 : E.inSub2 ((worldOf E g cs a qs).inG2 F.sigma1) = true := by
    rw [h1]; exact L.sub2_nsmul L.gen2_sub _
  have hsum : ∀ l : List CoSigner, ((l.map fun c =>
        (⟨cs, (worldOf E g cs a qs).inG2 c.key⟩ : PublicKey G2)).map (·.pk)).sum =
      expHom E.gen2 hg2 (keysE l a qs) := by
    intro l
    induction l with
    | nil => simp [keysE]
    | cons c l ih =>
      simp only [List.map_cons, List.sum_cons, keysE, map_add] at ih ⊢
      rw [ih, world_inG2 hg2]
  have hiff : ∀ w, NodeAt d F.time w → ((worldOf E g cs a qs).inG1 F.sigma2 =
      (a .x + keysE F.cosigners a qs).val • (gameParam E g cs a : PubParam G1 G2).h +
        (comb2 F.sigma1 a qs).val • sigPoint (gameParam E g cs a) w (msgField E.sha512 cs F.msg) ↔
      gameDefect F w (msgField E.sha512 cs F.msg) a qs = 0) := by
    intro w hw
    rw [h2, gameParam_eq, sigPoint_paramOf (E := E) hg hd _ (nodeAt_isNode hw).1, ← expHom_mul]
    change _ = _ • expHom g hg (a .h) + _ ↔ _
    rw [← expHom_mul, ← map_add, ← sub_eq_zero, ← map_sub, expHom_eq_zero hg hne]
    rfl
  rw [Signature.verifyBytesAggregated_eq _ _ _ _ _ _ (by simp) (by
    intro pk hpk
    rcases List.mem_cons.1 hpk with rfl | hpk
    · rfl
    · obtain ⟨c, _, rfl⟩ := List.mem_map.1 hpk
      rfl)]
  have hkey : (List.map (·.pk) ((worldOf E g cs a qs).pk :: F.cosigners.map fun c =>
      (⟨(worldOf E g cs a qs).pp.ciphersuite, (worldOf E g cs a qs).inG2 c.key⟩ :
        PublicKey G2))).sum =
      (a .x + keysE F.cosigners a qs).val • E.gen2 := by
    rw [List.map_cons, List.sum_cons]
    change expHom E.gen2 hg2 (a .x) + _ = expHom E.gen2 hg2 _
    rw [map_add]
    congr 1
    exact hsum _
  rw [hkey, hpp, Signature.verifyBytes_eq H W.toParamShape]
  constructor
  · intro h
    obtain ⟨_, _, _, _, w, hw, h⟩ := @of_decide_eq_true _ (_) (Res.ok.inj h)
    exact ⟨w, hw, (hiff w hw).1 ((L.sig_check W hs2 h1 rfl).1 h)⟩
  · rintro ⟨w, hw, h⟩
    exact congrArg Res.ok (@decide_eq_true _ (_) ⟨hsup, rfl, hs1, hs2, w, hw,
      (L.sig_check W hs2 h1 rfl).2 ((hiff w hw).2 h)⟩)

theorem accepted_iff [DecidableEq GT] (H : HashLaws E) (L : GroupLaws E) (hsub : E.inSub1 g = true)
    (hne : g ≠ 0) (hd : 0 < d) (hd' : d ≤ 63) (hsup : Supported cs) (pf : Profile)
    (hq : ∀ q ∈ qs, q.Legal d) (a : Secret d N → Fr) (F : Forgery) :
    F.Accepted E pf (worldOf E g cs a qs) ↔
      (∀ c ∈ F.cosigners, c.Admitted E (worldOf E g cs a qs)) ∧
      ∃ w, NodeAt d F.time w ∧ gameDefect F w (msgField E.sha512 cs F.msg) a qs = 0 :=
  and_congr Iff.rfl (verified_iff H L hsub hne hd hd' hsup pf hq a F)

/-! ## Counting -/

section Count

/-- number of exponents with a property -/
noncomputable def cnt {d N : Nat} (P : (Secret d N → Fr) → Prop) : Nat := Set.ncard {a | P a}

theorem cnt_mono {P Q : (Secret d N → Fr) → Prop} (h : ∀ a, P a → Q a) : cnt P ≤ cnt Q :=
  Set.ncard_le_ncard (fun a ha => h a ha) (Set.toFinite _)

theorem cnt_or (P Q : (Secret d N → Fr) → Prop) : cnt (fun a => P a ∨ Q a) ≤ cnt P + cnt Q :=
  Set.ncard_union_le _ _

/-- the number of all exponents -/
noncomputable def total (d N : Nat) : Nat := rOrder ^ Fintype.card (Secret d N)

theorem cnt_zeros {p : Poly d N} (hp : p ≠ 0) {k : Nat} (hk : Deg k p) :
    cnt (fun a => MvPolynomial.eval a p = 0) * rOrder ≤ k * total d N := by
  have h1 := zeros_card hp
  have h2 : cnt (fun a => MvPolynomial.eval a p = 0) =
      (Finset.univ.filter fun a : Secret d N → Fr => MvPolynomial.eval a p = 0).card := by
    unfold cnt
    rw [← Set.ncard_coe_finset]
    refine congrArg Set.ncard (Set.ext fun a => ?_)
    rw [Finset.mem_coe, Finset.mem_filter, Set.mem_ofPred_eq]
    simp only [Finset.mem_univ, true_and]
  rw [h2]
  exact h1.trans (Nat.mul_le_mul_right _ hk)

theorem cnt_false {P : (Secret d N → Fr) → Prop} (h : ∀ a, ¬ P a) : cnt P = 0 := by
  unfold cnt
  have : {a | P a} = ∅ := Set.eq_empty_iff_forall_notMem.2 h
  rw [this, Set.ncard_empty]

/-- one test: unless the polynomial is zero, the answer "yes" is rare -/
theorem cnt_test {p : Poly d N} (hp : Deg 3 p) {T Y Z : (Secret d N → Fr) → Prop} {ny nz : Nat}
    (hT : ∀ a, T a ↔ MvPolynomial.eval a p = 0) (hY : cnt Y * rOrder ≤ (3 * ny + 2) * total d N)
    (hZ : cnt Z * rOrder ≤ (3 * nz + 2) * total d N) :
    cnt (fun a => (T a ∧ Y a) ∨ (¬ T a ∧ Z a)) * rOrder ≤
      (3 * (max ny nz + 1) + 2) * total d N := by
  by_cases h0 : p = 0
  · refine (Nat.mul_le_mul_right _ (cnt_mono (Q := Y) fun a ha => ?_)).trans
      (hY.trans (Nat.mul_le_mul_right _ (by omega)))
    rcases ha with ha | ha
    · exact ha.2
    · exact absurd ((hT a).2 (by rw [h0, map_zero])) ha.1
  · have h1 := cnt_zeros h0 hp
    have h2 : cnt (fun a => (T a ∧ Y a) ∨ (¬ T a ∧ Z a)) ≤
        cnt (fun a => MvPolynomial.eval a p = 0) + cnt Z := by
      refine Nat.le_trans (cnt_mono fun a ha => ?_) (cnt_or _ _)
      rcases ha with ha | ha
      · exact Or.inl ((hT a).1 ha.1)
      · exact Or.inr ha.2
    calc _ ≤ (cnt (fun a => MvPolynomial.eval a p = 0) + cnt Z) * rOrder :=
          Nat.mul_le_mul_right _ h2
      _ = cnt (fun a => MvPolynomial.eval a p = 0) * rOrder + cnt Z * rOrder := Nat.add_mul _ _ _
      _ ≤ 3 * total d N + (3 * nz + 2) * total d N := Nat.add_le_add h1 hZ
      _ = (3 + (3 * nz + 2)) * total d N := (Nat.add_mul _ _ _).symm
      _ ≤ _ := Nat.mul_le_mul_right _ (by omega)

end Count

/-- a forgery is accepted for few exponents -/
theorem cnt_forge [DecidableEq GT] (H : HashLaws E) (L : GroupLaws E) (hsub : E.inSub1 g = true)
    (hne : g ≠ 0) (hd : 0 < d) (hd' : d ≤ 63) (hsup : Supported cs) (pf : Profile)
    (hN : qs.length ≤ N) (hq : ∀ q ∈ qs, q.Legal d) (F : Forgery)
    (hF : F.cosigners.length + 1 < rOrder) :
    cnt (fun a : Secret d N → Fr => F.Accepted E pf (worldOf E g cs a qs) ∧
      F.Fresh E.sha512 d cs qs) * rOrder ≤ 2 * total d N := by
  -- a non-zero polynomial that vanishes whenever the adversary wins
  have small : ∀ (p : Poly d N), p ≠ 0 → Deg 2 p →
      (∀ a : Secret d N → Fr, F.Accepted E pf (worldOf E g cs a qs) →
        MvPolynomial.eval a p = 0) →
      cnt (fun a : Secret d N → Fr => F.Accepted E pf (worldOf E g cs a qs) ∧
        F.Fresh E.sha512 d cs qs) * rOrder ≤ 2 * total d N := by
    intro p hp hdeg h
    exact (Nat.mul_le_mul_right _ (cnt_mono fun a ha => h a ha.1)).trans (cnt_zeros hp hdeg)
  have none : (∀ a : Secret d N → Fr, ¬ (F.Accepted E pf (worldOf E g cs a qs) ∧
      F.Fresh E.sha512 d cs qs)) → cnt (fun a : Secret d N → Fr =>
      F.Accepted E pf (worldOf E g cs a qs) ∧ F.Fresh E.sha512 d cs qs) * rOrder ≤
        2 * total d N := by
    intro h
    rw [cnt_false h, Nat.zero_mul]
    exact Nat.zero_le _
  have hadm : ∀ a : Secret d N → Fr, F.Accepted E pf (worldOf E g cs a qs) →
      ∀ c ∈ F.cosigners, c.Admitted E (worldOf E g cs a qs) := fun a h => h.1
  by_cases hfresh : F.Fresh E.sha512 d cs qs
  swap
  · exact none fun a h => hfresh h.2
  by_cases hnode : ∃ w, NodeAt d F.time w
  swap
  · refine none fun a h => hnode ?_
    obtain ⟨_, w, hw, _⟩ := (accepted_iff H L hsub hne hd hd' hsup pf hq a F).1 h.1
    exact ⟨w, hw⟩
  obtain ⟨w, hw⟩ := hnode
  -- the keys of the co-signers
  by_cases hco : ∀ c ∈ F.cosigners, match c.point with
      | .none => comb2 c.key (PX : Secret d N → Poly d N) qs - PX .x = 0
      | some k => qs[k]? = some .point ∧ comb1 c.pop (PX : Secret d N → Poly d N) qs -
          freshOf PX k * comb2 c.key PX qs = 0
  swap
  · rw [not_forall] at hco
    obtain ⟨c, hc⟩ := hco
    rw [Classical.not_imp] at hc
    obtain ⟨hcm, hc⟩ := hc
    have hadm' := fun a h => (admitted_iff L hsub hne hd hsup hq a c).1 (hadm a h c hcm)
    cases hcp : c.point with
    | none =>
      simp only [hcp] at hc hadm'
      refine small _ hc (((Deg.comb2 _ _).sub (Deg.X _)).mono (by omega)) fun a h => ?_
      rw [map_sub, eval_comb2, MvPolynomial.eval_X, hadm' a h, sub_self]
    | some k =>
      simp only [hcp] at hc hadm'
      by_cases hk : qs[k]? = some .point
      · refine small _ (fun h0 => hc ⟨hk, h0⟩)
          ((Deg.comb1 _ _).sub ((Deg.fresh _).mul (Deg.comb2 _ _))) fun a h => ?_
        rw [map_sub, map_mul, eval_comb1, eval_comb2, eval_fresh, (hadm' a h).2, sub_self]
      · exact none fun a h => hk (hadm' a h.1).1
  -- their sum is `n0 x + c0`
  have hsum : ∀ l : List CoSigner, (∀ c ∈ l, c ∈ F.cosigners) → ∃ (n0 : Nat) (c0 : Fr),
      n0 ≤ l.length ∧ ∀ a : Secret d N → Fr, keysE l a qs = (n0 : Fr) * a .x + c0 := by
    intro l
    induction l with
    | nil => exact fun _ => ⟨0, 0, le_rfl, fun a => by simp [keysE]⟩
    | cons c l ih =>
      intro hl
      obtain ⟨n0, c0, h1, h2⟩ := ih fun c hc => hl c (by simp [hc])
      have hcc := hco c (hl c (by simp))
      have hcons : ∀ a : Secret d N → Fr, keysE (c :: l) a qs =
          comb2 c.key a qs + keysE l a qs := by
        intro a
        simp only [keysE, List.map_cons, List.sum_cons]
      cases hcp : c.point with
      | none =>
        simp only [hcp] at hcc
        refine ⟨n0 + 1, c0, by simp; omega, fun a => ?_⟩
        have := congrArg (MvPolynomial.eval a) hcc
        rw [map_sub, eval_comb2, MvPolynomial.eval_X, map_zero, sub_eq_zero] at this
        rw [hcons, h2, this]
        push_cast
        ring
      | some k =>
        simp only [hcp] at hcc
        refine ⟨n0, c.key.start 0 + c0, by simp; omega, fun a => ?_⟩
        rw [hcons, h2, pop_always hN (pop := c.pop) hcc.1 (fun a => ?_) a]
        · ring
        · have := congrArg (MvPolynomial.eval a) hcc.2
          rw [map_sub, map_mul, eval_comb1, eval_comb2, eval_fresh, map_zero, sub_eq_zero] at this
          exact this
  obtain ⟨n0, c0, hn0, hkeys⟩ := hsum F.cosigners fun c hc => hc
  have hnx : ((n0 + 1 : Nat) : Fr) ≠ 0 := by
    rw [Ne, ZMod.natCast_eq_zero_iff]
    intro h
    have := Nat.le_of_dvd (by omega) h
    omega
  refine small _ ?_ (Deg.gameDefect F w (msgField E.sha512 cs F.msg) qs) fun a h => ?_
  · intro h0
    have hall : ∀ a : Secret d N → Fr, comb1 F.sigma2 a qs =
        (((n0 + 1 : Nat) : Fr) * a .x + c0) * a .h +
          comb2 F.sigma1 a qs * sigE (toVar a) w (msgField E.sha512 cs F.msg) := by
      intro a
      have := congrArg (MvPolynomial.eval a) h0
      rw [eval_gameDefect, map_zero, gameDefect, hkeys] at this
      push_cast
      linear_combination this
    obtain ⟨f1, f2⟩ := hfresh w hw
    rcases forgery_always hN hnx (nodeAt_isNode hw) hq hall with ⟨t, v, h1, u, h2⟩ | ⟨t, h1⟩
    · exact f1 t v h1 ⟨u, h2.symm⟩
    · exact f2 t h1
  · obtain ⟨_, v, hv, h1⟩ := (accepted_iff H L hsub hne hd hd' hsup pf hq a F).1 h
    have : v = w := num_inj (nodeAt_isNode hv) (nodeAt_isNode hw) (by
      rw [nodeAt_num_eq hv]; exact (nodeAt_num_eq hw).symm)
    rw [eval_gameDefect, ← this, h1]

theorem cnt_wins [DecidableEq GT] (H : HashLaws E) (L : GroupLaws E) (hsub : E.inSub1 g = true)
    (hne : g ≠ 0) (hd : 0 < d) (hd' : d ≤ 63) (hsup : Supported cs) (pf : Profile)
    (A : Adversary) (qs : List Query) (hA : A.Legal d) (hN : qs.length + A.queries ≤ N)
    (hq : ∀ q ∈ qs, q.Legal d) :
    cnt (fun a : Secret d N → Fr => A.Wins E pf g cs a qs) * rOrder ≤
      (3 * A.tests + 2) * total d N := by
  have hg := L.sub1_order _ hsub
  have hg2 := L.sub2_order _ L.gen2_sub
  have hne2 := gen2_ne L hsub hne
  induction A generalizing qs with
  | ask q n ih =>
    simp only [Adversary.Legal, Adversary.queries, Adversary.Wins, Adversary.tests] at hA hN ⊢
    refine ih _ hA.2 (by simp; omega) fun q' hq' => ?_
    rcases List.mem_append.1 hq' with h | h
    · exact hq _ h
    · rw [List.mem_singleton] at h
      rw [h]; exact hA.1
  | isZero1 c y n ihy ihn =>
    simp only [Adversary.Legal, Adversary.queries, Adversary.Wins, Adversary.tests] at hA hN ⊢
    refine cnt_test ((Deg.comb1 c qs).mono (by omega)) (fun a => ?_)
      (ihy qs hA.1 (by omega) hq) (ihn qs hA.2 (by omega) hq)
    rw [world_inG1 hg hd hq, expHom_eq_zero hg hne, eval_comb1]
  | isZero2 c y n ihy ihn =>
    simp only [Adversary.Legal, Adversary.queries, Adversary.Wins, Adversary.tests] at hA hN ⊢
    refine cnt_test ((Deg.comb2 c qs).mono (by omega)) (fun a => ?_)
      (ihy qs hA.1 (by omega) hq) (ihn qs hA.2 (by omega) hq)
    rw [world_inG2 hg2, expHom_eq_zero hg2 hne2, eval_comb2]
  | isOneT l y n ihy ihn =>
    simp only [Adversary.Legal, Adversary.queries, Adversary.Wins, Adversary.tests] at hA hN ⊢
    refine cnt_test (Deg.combT l qs) (fun a => ?_)
      (ihy qs hA.1 (by omega) hq) (ihn qs hA.2 (by omega) hq)
    rw [pairs_eq_one L hsub hne hd hq, eval_combT]
  | forge F =>
    simp only [Adversary.Legal, Adversary.queries, Adversary.Wins, Adversary.tests] at hA hN ⊢
    exact cnt_forge H L hsub hne hd hd' hsup pf (by omega) hq F hA

end Pixel
