import Verif.Spec.Forge
import Verif.Proof.Prime
import Verif.Proof.Verify
import Mathlib.Algebra.MvPolynomial.SchwartzZippel
import Mathlib.Algebra.MvPolynomial.CommRing
import Mathlib.Data.List.GetD
import Mathlib.Tactic.LinearCombination

/-!
# Linear forgers: the verification equation in the exponents
-/

namespace Pixel

open Spec

set_option linter.unusedSectionVars false

instance : Fact rOrder.Prime := ⟨rOrder_prime⟩

/-! ## Schwartz–Zippel for an arbitrary finite set of variables -/

theorem zeros_card {σ : Type} [Fintype σ] [DecidableEq σ] {p : MvPolynomial σ Fr} (hp : p ≠ 0) :
    (Finset.univ.filter fun a : σ → Fr => MvPolynomial.eval a p = 0).card * rOrder ≤
      p.totalDegree * rOrder ^ Fintype.card σ := by
  classical
  let e := Fintype.equivFin σ
  let n := Fintype.card σ
  have hp' : MvPolynomial.rename e p ≠ 0 := by
    intro h
    exact hp (MvPolynomial.rename_injective e e.injective (by rw [h, map_zero]))
  have key := MvPolynomial.schwartz_zippel_totalDegree hp' (Finset.univ : Finset Fr)
  have hcard : (Finset.univ : Finset Fr).card = rOrder := by
    rw [Finset.card_univ, ZMod.card]
  have hpos : (0 : ℚ≥0) < rOrder := by
    exact_mod_cast rOrder_prime.pos
  have hdeg := MvPolynomial.totalDegree_rename_le e p
  rw [hcard, div_le_div_iff₀ (pow_pos hpos _) hpos] at key
  have hset : ((Fintype.piFinset fun _ : Fin n => (Finset.univ : Finset Fr)).filter
      fun f => MvPolynomial.eval f (MvPolynomial.rename e p) = 0).card =
      (Finset.univ.filter fun a : σ → Fr => MvPolynomial.eval a p = 0).card := by
    refine Finset.card_bij (fun f _ => f ∘ e) ?_ ?_ ?_
    · intro f hf
      rw [Finset.mem_filter] at hf ⊢
      refine ⟨Finset.mem_univ _, ?_⟩
      rw [← hf.2, MvPolynomial.eval_rename]
    · intro f _ f' _ h
      funext i
      have := congrFun h (e.symm i)
      simpa using this
    · intro a ha
      refine ⟨a ∘ e.symm, ?_, ?_⟩
      · rw [Finset.mem_filter] at ha ⊢
        refine ⟨by simp, ?_⟩
        rw [MvPolynomial.eval_rename, Function.comp_assoc]
        simpa using ha.2
      · funext i
        simp
  rw [hset] at key
  have key' : (Finset.univ.filter fun a : σ → Fr => MvPolynomial.eval a p = 0).card * rOrder ≤
      (MvPolynomial.rename e p).totalDegree * rOrder ^ Fintype.card σ := by
    exact_mod_cast key
  exact key'.trans (Nat.mul_le_mul_right _ hdeg)

/-! ## Sums over lists -/

section Sums

variable {A : Type} [AddCommGroup A]

theorem lin_ofFn {n : Nat} (c : Nat → Fr) (f : Fin n → A) :
    lin c (List.ofFn f) = ∑ i : Fin n, (c i).val • f i := by
  induction n generalizing c with
  | zero => simp [lin]
  | succ n ih =>
    rw [List.ofFn_succ, lin, ih, Fin.sum_univ_succ]
    simp

theorem linVectors_ofFn {n : Nat} (c : Nat → Nat → Fr) (f : Fin n → List A) :
    linVectors c (List.ofFn f) = ∑ j : Fin n, lin (c j) (f j) := by
  induction n generalizing c with
  | zero => simp [linVectors]
  | succ n ih =>
    rw [List.ofFn_succ, linVectors, ih, Fin.sum_univ_succ]
    simp

theorem lin_drop_ofFn {n : Nat} (k : Nat) (c : Nat → Fr) (f : Fin n → A) :
    lin c ((List.ofFn f).drop k) = ∑ i : Fin n, if k ≤ i.val then (c (i - k)).val • f i else 0 := by
  induction k generalizing n with
  | zero => simp [lin_ofFn]
  | succ k ih =>
    cases n with
    | zero => simp [lin]
    | succ n =>
      rw [List.ofFn_succ, List.drop_succ_cons, ih, Fin.sum_univ_succ]
      simp

theorem zip_ofFn {n : Nat} (v : List Nat) (f : Fin n → A) :
    (List.zipWith (fun t h => t • h) v (List.ofFn f)).sum = ∑ i : Fin n, (v.getD i 0) • f i := by
  induction n generalizing v with
  | zero => simp
  | succ n ih =>
    cases v with
    | nil => simp
    | cons t v =>
      rw [List.ofFn_succ, List.zipWith_cons_cons, List.sum_cons, ih, Fin.sum_univ_succ]
      simp

end Sums

/-- coefficients of `F(v)` -/
def coefN (v : List Nat) (i : Nat) : Nat := if i = 0 then 1 else v.getD (i - 1) 0

/-- coefficients of `F(v, M)` -/
def coefM (d : Nat) (v : List Nat) (M : Fr) (i : Nat) : Fr := if i = d then M else (coefN v i : Fr)

theorem node_ofFn {A : Type} [AddCommGroup A] {d : Nat} (v : List Nat) (f : Fin (d + 1) → A) :
    (List.ofFn f).headD 0 + (List.zipWith (fun t h => t • h) v (List.ofFn f).tail).sum =
      ∑ i : Fin (d + 1), coefN v i • f i := by
  rw [List.ofFn_succ, List.headD_cons, List.tail_cons, zip_ofFn, Fin.sum_univ_succ]
  simp [coefN]

theorem getLastD_ofFn {A : Type} {d : Nat} (f : Fin (d + 1) → A) (x : A) :
    (List.ofFn f).getLastD x = f (Fin.last d) := by
  rw [List.getLastD_eq_getLast?, List.getLast?_eq_getElem?]
  rw [List.length_ofFn, List.getElem?_ofFn, dif_pos (by omega)]
  rfl

/-! ## The defect of the verification equation, in the exponents -/

section Defect

variable {R : Type} [CommRing R] [Algebra Fr R] {d n m : Nat}

/-- `F(v, M)` in the exponent -/
def sigE (val : Var d n m → R) (v : List Nat) (M : Fr) : R :=
  ∑ i : Fin (d + 1), coefM d v M i • val (.gen i)

/-- `F(v)` in the exponent -/
def nodeE (val : Var d n m → R) (v : List Nat) : R :=
  ∑ i : Fin (d + 1), (coefN v i : Fr) • val (.gen i)

/-- exponent of the forged `sigma1` -/
def forge1 (S : Strategy) (val : Var d n m → R) : R :=
  S.onG2 • 1 + S.onPk • val .x + ∑ j : Fin n, S.onG2r j • val (.rho j) +
    ∑ k : Fin m, S.onSigma1 k • val (.rnd k)

/-- exponent of the forged `sigma2` -/
def forge2 (S : Strategy) (leak : Fin n → List Nat) (sgn : Fin m → List Nat × Fr)
    (val : Var d n m → R) : R :=
  S.onH • val .h + S.onQ • val .q + S.onPop • (val .x * val .q) +
    ∑ i : Fin (d + 1), S.onHlist i • val (.gen i) +
    ∑ j : Fin n, S.onHpoly j • (val .x * val .h + val (.rho j) * nodeE val (leak j)) +
    ∑ j : Fin n, ∑ i : Fin (d + 1), (if (leak j).length + 1 ≤ i.val then
      S.onHvector j (i - ((leak j).length + 1)) else 0) • (val (.rho j) * val (.gen i)) +
    ∑ k : Fin m, S.onSigma2 k • (val .x * val .h + val (.rnd k) * sigE val (sgn k).1 (sgn k).2)

/-- forged `sigma2` minus what the verification equation asks for -/
def defect (S : Strategy) (leak : Fin n → List Nat) (sgn : Fin m → List Nat × Fr) (w : List Nat)
    (M : Fr) (val : Var d n m → R) : R :=
  forge2 S leak sgn val - (val .x * val .h + forge1 S val * sigE val w M)

theorem defect_eval (S : Strategy) (leak : Fin n → List Nat) (sgn : Fin m → List Nat × Fr)
    (w : List Nat) (M : Fr) (a : Var d n m → Fr) :
    MvPolynomial.eval a (defect S leak sgn w M MvPolynomial.X) = defect S leak sgn w M a := by
  simp only [defect, forge1, forge2, sigE, nodeE, map_sub, map_add, map_sum, map_mul,
    MvPolynomial.smul_eval, MvPolynomial.eval_X, map_one, smul_eq_mul]

theorem deg_lin (c : Fr) (v : Var d n m) :
    (c • (MvPolynomial.X v : MvPolynomial (Var d n m) Fr)).totalDegree ≤ 1 :=
  (MvPolynomial.totalDegree_smul_le _ _).trans (MvPolynomial.totalDegree_X _).le

theorem deg_sum {ι : Type} (s : Finset ι) (f : ι → MvPolynomial (Var d n m) Fr) (k : Nat)
    (h : ∀ i ∈ s, (f i).totalDegree ≤ k) : (∑ i ∈ s, f i).totalDegree ≤ k :=
  MvPolynomial.totalDegree_finsetSum_le h

theorem deg_add {p q : MvPolynomial (Var d n m) Fr} {k : Nat} (hp : p.totalDegree ≤ k)
    (hq : q.totalDegree ≤ k) : (p + q).totalDegree ≤ k :=
  (MvPolynomial.totalDegree_add _ _).trans (max_le hp hq)

theorem deg_mul {p q : MvPolynomial (Var d n m) Fr} (hp : p.totalDegree ≤ 1)
    (hq : q.totalDegree ≤ 1) : (p * q).totalDegree ≤ 2 :=
  (MvPolynomial.totalDegree_mul _ _).trans (by omega)

theorem deg_X (v : Var d n m) : (MvPolynomial.X v : MvPolynomial (Var d n m) Fr).totalDegree ≤ 1 :=
  (MvPolynomial.totalDegree_X _).le

theorem deg_smul {p : MvPolynomial (Var d n m) Fr} {k : Nat} (c : Fr) (hp : p.totalDegree ≤ k) :
    (c • p).totalDegree ≤ k :=
  (MvPolynomial.totalDegree_smul_le _ _).trans hp

theorem deg_sigE (v : List Nat) (M : Fr) :
    (sigE (MvPolynomial.X : Var d n m → MvPolynomial (Var d n m) Fr) v M).totalDegree ≤ 1 :=
  deg_sum _ _ _ fun _ _ => deg_lin _ _

theorem deg_nodeE (v : List Nat) :
    (nodeE (MvPolynomial.X : Var d n m → MvPolynomial (Var d n m) Fr) v).totalDegree ≤ 1 :=
  deg_sum _ _ _ fun _ _ => deg_lin _ _

theorem defect_degree (S : Strategy) (leak : Fin n → List Nat) (sgn : Fin m → List Nat × Fr)
    (w : List Nat) (M : Fr) :
    (defect S leak sgn w M (MvPolynomial.X : Var d n m → MvPolynomial (Var d n m) Fr)).totalDegree
      ≤ 2 := by
  have h1 : ∀ {p : MvPolynomial (Var d n m) Fr}, p.totalDegree ≤ 1 → p.totalDegree ≤ 2 :=
    fun h => by omega
  refine (MvPolynomial.totalDegree_sub _ _).trans (max_le ?_ ?_)
  · refine deg_add (deg_add (deg_add (deg_add (deg_add (deg_add (h1 (deg_lin _ _))
      (h1 (deg_lin _ _))) (deg_smul _ (deg_mul (deg_X _) (deg_X _)))) ?_) ?_) ?_) ?_
    · exact deg_sum _ _ _ fun _ _ => h1 (deg_lin _ _)
    · exact deg_sum _ _ _ fun _ _ => deg_smul _ (deg_add (deg_mul (deg_X _) (deg_X _))
        (deg_mul (deg_X _) (deg_nodeE _)))
    · exact deg_sum _ _ _ fun _ _ => deg_sum _ _ _ fun _ _ => deg_smul _
        (deg_mul (deg_X _) (deg_X _))
    · exact deg_sum _ _ _ fun _ _ => deg_smul _ (deg_add (deg_mul (deg_X _) (deg_X _))
        (deg_mul (deg_X _) (deg_sigE _ _)))
  · refine deg_add (deg_mul (deg_X _) (deg_X _)) (deg_mul ?_ (deg_sigE _ _))
    refine deg_add (deg_add (deg_add (deg_smul _ ?_) (deg_lin _ _)) ?_) ?_
    · simp
    · exact deg_sum _ _ _ fun _ _ => deg_lin _ _
    · exact deg_sum _ _ _ fun _ _ => deg_lin _ _

end Defect

/-! ## A forger that always succeeds -/

theorem prefix_of_coefN {v w : List Nat} (hv : ∀ x ∈ v, x = 1 ∨ x = 2)
    (h : ∀ i, i < v.length → v.getD i 0 = w.getD i 0) : v <+: w := by
  induction v generalizing w with
  | nil => exact List.nil_prefix
  | cons x v ih =>
    cases w with
    | nil =>
      have := h 0 (by simp)
      have hx := hv x (by simp)
      simp at this
      omega
    | cons y w =>
      have h0 := h 0 (by simp)
      simp only [List.getD_cons_zero] at h0
      subst h0
      refine List.cons_prefix_cons.2 ⟨rfl, ih (fun z hz => hv z (by simp [hz])) fun i hi => ?_⟩
      have := h (i + 1) (by simpa using hi)
      simpa using this

theorem digit_lt {v : List Nat} (hv : ∀ x ∈ v, x = 1 ∨ x = 2) (i : Nat) : v.getD i 0 < rOrder := by
  have h3 : 3 ≤ rOrder := by decide +kernel
  by_cases hi : i < v.length
  · rw [List.getD_eq_getElem _ _ hi]
    have := hv _ (List.getElem_mem hi)
    omega
  · rw [List.getD_eq_default _ _ (by omega)]
    omega

theorem digit_inj {a b : Nat} (ha : a < rOrder) (hb : b < rOrder) (h : (a : Fr) = (b : Fr)) :
    a = b := by
  have := congrArg ZMod.val h
  rwa [ZMod.val_natCast, ZMod.val_natCast, Nat.mod_eq_of_lt ha, Nat.mod_eq_of_lt hb] at this

section Always

variable {d n m : Nat}

/-- evaluation point with the given non-zero coordinates -/
def pt (x h : Fr) (i : Option (Fin (d + 1))) (j : Option (Fin n)) (k : Option (Fin m)) :
    Var d n m → Fr
  | .x => x
  | .h => h
  | .q => 0
  | .gen i' => if some i' = i then 1 else 0
  | .rho j' => if some j' = j then 1 else 0
  | .rnd k' => if some k' = k then 1 else 0

theorem defect_always {S : Strategy} {leak : Fin n → List Nat} {sgn : Fin m → List Nat × Fr}
    {w : List Nat} {M : Fr} (hw : IsNode d w) (hl : ∀ j, IsNode d (leak j))
    (hs : ∀ k, IsNode d (sgn k).1) (h : ∀ a : Var d n m → Fr, defect S leak sgn w M a = 0) :
    (∃ j, leak j <+: w) ∨ ∃ k, sgn k = (w, M) := by
  have hd : 0 < d := by have := hw.1; omega
  -- coefficients of `h` and `x h`
  have e1 : S.onH = 0 := by
    have := h (pt 0 1 none none none)
    simpa [defect, forge1, forge2, pt, sigE, nodeE] using this
  have e2 : ∑ j : Fin n, S.onHpoly j + ∑ k : Fin m, S.onSigma2 k = 1 := by
    have := h (pt 1 1 none none none)
    simp [defect, forge1, forge2, pt, sigE, nodeE, e1] at this
    exact sub_eq_zero.1 this
  have e3 : ∀ i : Fin (d + 1), S.onHlist i = S.onG2 * coefM d w M i := by
    intro i
    have := h (pt 0 0 (some i) none none)
    simp [defect, forge1, forge2, pt, sigE, nodeE] at this
    exact sub_eq_zero.1 this
  have e4 : ∀ (i : Fin (d + 1)) (j : Fin n), i.val ≤ (leak j).length →
      S.onHpoly j * coefN (leak j) i = S.onG2r j * coefM d w M i := by
    intro i j hi
    have := h (pt 0 0 (some i) (some j) none)
    simp [defect, forge1, forge2, pt, sigE, nodeE, e3] at this
    rw [if_neg (by omega)] at this
    linear_combination this
  have e5 : ∀ (i : Fin (d + 1)) (k : Fin m),
      S.onSigma2 k * coefM d (sgn k).1 (sgn k).2 i = S.onSigma1 k * coefM d w M i := by
    intro i k
    have := h (pt 0 0 (some i) none (some k))
    simp [defect, forge1, forge2, pt, sigE, nodeE, e3] at this
    linear_combination this
  have c0 : ∀ v N, coefM d v N 0 = 1 := by
    intro v N
    rw [coefM, if_neg (by omega), coefN, if_pos rfl, Nat.cast_one]
  have cs : ∀ v N i, i + 1 < d → coefM d v N (i + 1) = ((v.getD i 0 : Nat) : Fr) := by
    intro v N i hi
    rw [coefM, if_neg (by omega), coefN, if_neg (by omega), Nat.add_sub_cancel]
  by_cases hp : ∃ j : Fin n, S.onHpoly j ≠ 0
  · left
    obtain ⟨j, hj⟩ := hp
    refine ⟨j, prefix_of_coefN (hl j).2 fun i hi => ?_⟩
    have hld := (hl j).1
    have h0 := e4 ⟨0, by omega⟩ j (by simp)
    rw [c0] at h0
    have h0' : S.onHpoly j = S.onG2r j := by simpa [coefN] using h0
    have hi' := e4 ⟨i + 1, by omega⟩ j (by simp; omega)
    simp only [] at hi'
    rw [cs _ _ _ (by omega), ← h0', coefN, if_neg (by omega), Nat.add_sub_cancel] at hi'
    exact digit_inj (digit_lt (hl j).2 _) (digit_lt hw.2 _) (mul_left_cancel₀ hj hi')
  · right
    have hp' : ∀ j : Fin n, S.onHpoly j = 0 := by
      intro j
      by_contra hc
      exact hp ⟨j, hc⟩
    have hq : ∃ k : Fin m, S.onSigma2 k ≠ 0 := by
      by_contra hc
      have hz : ∀ k : Fin m, S.onSigma2 k = 0 := by
        intro k
        by_contra hk
        exact hc ⟨k, hk⟩
      rw [Finset.sum_eq_zero fun j _ => hp' j, Finset.sum_eq_zero fun k _ => hz k, add_zero] at e2
      exact zero_ne_one e2
    obtain ⟨k, hk⟩ := hq
    have h0 := e5 ⟨0, by omega⟩ k
    rw [c0, c0, mul_one, mul_one] at h0
    have hcoef : ∀ i : Fin (d + 1), coefM d (sgn k).1 (sgn k).2 i = coefM d w M i := by
      intro i
      have := e5 i k
      rw [← h0] at this
      exact mul_left_cancel₀ hk this
    have hdig : ∀ i, (sgn k).1.getD i 0 = w.getD i 0 := by
      intro i
      by_cases hi : i + 1 < d
      · have := hcoef ⟨i + 1, by omega⟩
        simp only [] at this
        rw [cs _ _ _ hi, cs _ _ _ hi] at this
        exact digit_inj (digit_lt (hs k).2 _) (digit_lt hw.2 _) this
      · have l1 := (hs k).1
        have l2 := hw.1
        rw [List.getD_eq_default _ _ (by omega), List.getD_eq_default _ _ (by omega)]
    have p1 := prefix_of_coefN (hs k).2 fun i _ => hdig i
    have p2 := prefix_of_coefN hw.2 fun i _ => (hdig i).symm
    have hM := hcoef ⟨d, by omega⟩
    rw [coefM, coefM, if_pos rfl, if_pos rfl] at hM
    exact ⟨k, Prod.ext (p1.eq_of_length_le p2.length_le) hM⟩

end Always

/-! ## From group elements to exponents -/

section Exp

/-- multiplication of a fixed element of order `r` -/
def expHom {A : Type} [AddCommGroup A] (g : A) (hg : rOrder • g = 0) : Fr →+ A where
  toFun a := a.val • g
  map_zero' := by rw [ZMod.val_zero, zero_smul]
  map_add' a b := mulFr_add hg a b

theorem expHom_apply {A : Type} [AddCommGroup A] (g : A) (hg : rOrder • g = 0) (a : Fr) :
    expHom g hg a = a.val • g := rfl

theorem expHom_mul {A : Type} [AddCommGroup A] (g : A) (hg : rOrder • g = 0) (a b : Fr) :
    expHom g hg (a * b) = a.val • expHom g hg b := mulFr_mul hg a b

theorem expHom_nat {A : Type} [AddCommGroup A] (g : A) (hg : rOrder • g = 0) (a : Nat) (b : Fr) :
    expHom g hg ((a : Fr) * b) = a • expHom g hg b := by
  rw [mul_comm, expHom_mul, expHom_apply, expHom_apply, ZMod.val_natCast, mod_smul hg, smul_comm]

theorem expHom_eq_zero {A : Type} [AddCommGroup A] {g : A} (hg : rOrder • g = 0) (hne : g ≠ 0)
    {a : Fr} : expHom g hg a = 0 ↔ a = 0 := by
  constructor
  · intro h
    by_contra hc
    apply hne
    have h1 : expHom g hg (a⁻¹ * a) = 0 := by rw [expHom_mul, h, smul_zero]
    rw [inv_mul_cancel₀ hc, expHom_apply, ZMod.val_one, one_smul] at h1
    exact h1
  · rintro rfl
    exact map_zero _

variable {G1 G2 GT : Type} [AddCommGroup G1] [AddCommGroup G2] [CommGroup GT]
  {E : Ext G1 G2 GT} {g : G1} {d n m : Nat} {cs : UInt8}

theorem nodePoint_paramOf (hg : rOrder • g = 0) (a : Var d n m → Fr) (v : List Nat) :
    nodePoint (paramOf E g cs a) v = expHom g hg (nodeE a v) := by
  unfold nodePoint nodeE paramOf
  rw [node_ofFn, map_sum]
  refine Finset.sum_congr rfl fun i _ => ?_
  rw [smul_eq_mul, expHom_nat]
  rfl

theorem sigE_eq (hd : 0 < d) (a : Var d n m → Fr) {v : List Nat} (hv : v.length < d) (M : Fr) :
    sigE a v M = nodeE a v + M * a (.gen (Fin.last d)) := by
  unfold sigE nodeE
  rw [Fin.sum_univ_castSucc, Fin.sum_univ_castSucc]
  have h1 : ((coefN v (Fin.last d).val : Nat) : Fr) = 0 := by
    rw [Fin.val_last, coefN, if_neg (by omega), List.getD_eq_default _ _ (by omega), Nat.cast_zero]
  have h2 : coefM d v M (Fin.last d).val = M := by
    rw [Fin.val_last, coefM, if_pos rfl]
  rw [h1, h2, zero_smul, add_zero, smul_eq_mul]
  congr 1
  refine Finset.sum_congr rfl fun i _ => ?_
  have : i.val < d := i.isLt
  rw [coefM, if_neg (by simp; omega)]

theorem sigPoint_paramOf (hg : rOrder • g = 0) (hd : 0 < d) (a : Var d n m → Fr) {v : List Nat}
    (hv : v.length < d) (M : Fr) :
    sigPoint (paramOf E g cs a) v M = expHom g hg (sigE a v M) := by
  rw [sigPoint, nodePoint_paramOf hg, sigE_eq hd a hv, map_add, expHom_mul]
  congr 2
  exact getLastD_ofFn _ _

variable {leak : List (Nat × List Nat)} {signed : List (Nat × List Nat × Fr)}

theorem forge_sigma1 (hg2 : rOrder • E.gen2 = 0) (S : Strategy)
    (a : Var d leak.length signed.length → Fr) (t : Nat) :
    (S.forge (viewOf E g d cs leak signed a) t).sigma1 = expHom E.gen2 hg2 (forge1 S a) := by
  simp only [Strategy.forge, viewOf, forge1, paramOf, List.map_ofFn, lin_ofFn, map_add, map_sum,
    smul_eq_mul, expHom_mul, Function.comp_def]
  rw [expHom_apply _ _ 1, ZMod.val_one, one_smul]
  rfl

theorem forge_sigma2 (hg : rOrder • g = 0) (hd : 0 < d) (S : Strategy)
    (hs : ∀ k : Fin signed.length, signed[k].2.1.length < d)
    (a : Var d leak.length signed.length → Fr) (t : Nat) :
    (S.forge (viewOf E g d cs leak signed a) t).sigma2 =
      expHom g hg (forge2 S (fun j => leak[j].2) (fun k => signed[k].2) a) := by
  have hv : ∀ j : Fin leak.length, lin (S.onHvector j)
      (((paramOf E g cs a : PubParam G1 G2).hlist.drop (leak[j].2.length + 1)).map
        (fun y => (a (.rho j)).val • y)) =
      ∑ i : Fin (d + 1), expHom g hg ((if leak[j].2.length + 1 ≤ i.val then
      S.onHvector j (i - (leak[j].2.length + 1)) else 0) * (a (.rho j) * a (.gen i))) := by
    intro j
    rw [List.map_drop, paramOf, List.map_ofFn, lin_drop_ofFn]
    refine Finset.sum_congr rfl fun i _ => ?_
    by_cases hi : leak[j].2.length + 1 ≤ i.val
    · rw [if_pos hi, if_pos hi, expHom_mul, expHom_mul]
      rfl
    · rw [if_neg hi, if_neg hi, zero_mul, map_zero]
  have hlist : lin S.onHlist (paramOf E g cs a : PubParam G1 G2).hlist =
      ∑ i : Fin (d + 1), (S.onHlist i).val • expHom g hg (a (.gen i)) := by
    rw [paramOf, lin_ofFn]
    rfl
  simp only [Strategy.forge, viewOf, forge2, List.map_ofFn, lin_ofFn, linVectors_ofFn, map_add,
    map_sum, smul_eq_mul, expHom_mul, Function.comp_def]
  rw [hlist]
  congr 1
  · congr 1
    · congr 1
      refine Finset.sum_congr rfl fun j _ => ?_
      rw [nodePoint_paramOf hg]
      rfl
    · refine Finset.sum_congr rfl fun j _ => ?_
      rw [hv j]
      refine Finset.sum_congr rfl fun i _ => ?_
      rw [expHom_mul, expHom_mul]
  · refine Finset.sum_congr rfl fun k _ => ?_
    rw [sigPoint_paramOf hg hd a (hs k)]
    rfl

theorem viewOf_wf (L : GroupLaws E) (hsub : E.inSub1 g = true) (hd : 0 < d) (hd' : d ≤ 63)
    (a : Var d n m → Fr) : ParamWF E (paramOf E g cs a : PubParam G1 G2) where
  depth_pos := hd
  depth_le := hd'
  hlist_len := by simp [paramOf]
  hlist_sub b hb := by
    rw [paramOf, List.mem_ofFn] at hb
    obtain ⟨i, rfl⟩ := hb
    exact L.sub1_nsmul hsub _
  h_sub := L.sub1_nsmul hsub _
  g2_gen := rfl

theorem viewOf_honest (L : GroupLaws E) (hsub : E.inSub1 g = true) (hd : 0 < d) (hd' : d ≤ 63)
    (hl : ∀ p ∈ leak, NodeAt d p.1 p.2) (hs : ∀ p ∈ signed, NodeAt d p.1 p.2.1)
    (a : Var d leak.length signed.length → Fr) :
    HonestView E d cs (leak.map (·.2)) (signed.map (·.2)) (a .x).val
      (viewOf E g d cs leak signed a) where
  wf := viewOf_wf L hsub hd hd' a
  depth := rfl
  suite := rfl
  pk := rfl
  q := L.sub1_nsmul hsub _
  pop := rfl
  ssk := by
    rw [List.forall₂_iff_get]
    refine ⟨by simp [viewOf], fun i h1 h2 => ?_⟩
    have hi : i < leak.length := by simpa using h1
    refine ⟨(a (.rho ⟨i, hi⟩)).val, ?_⟩
    simp only [viewOf, List.get_eq_getElem, List.getElem_map, List.getElem_ofFn]
    exact ⟨hl _ (List.getElem_mem _), rfl, rfl, rfl⟩
  sigs := by
    rw [List.forall₂_iff_get]
    refine ⟨by simp [viewOf], fun i h1 h2 => ?_⟩
    have hi : i < signed.length := by simpa using h1
    refine ⟨(a (.rnd ⟨i, hi⟩)).val, ?_⟩
    simp only [viewOf, List.get_eq_getElem, List.getElem_map, List.getElem_ofFn]
    exact ⟨rfl, hs _ (List.getElem_mem _), rfl, rfl⟩

theorem forge_accepted_iff [DecidableEq GT] (H : HashLaws E) (L : GroupLaws E)
    (hsub : E.inSub1 g = true) (hne : g ≠ 0) (hd : 0 < d) (hd' : d ≤ 63) (hsup : Supported cs)
    (pf : Profile) (S : Strategy) (hs : ∀ p ∈ signed, NodeAt d p.1 p.2.1) {t : Nat} {w : List Nat}
    (hw : NodeAt d t w) (msg : Bytes) (a : Var d leak.length signed.length → Fr) :
    Signature.verifyBytes E pf (S.forge (viewOf E g d cs leak signed a) t)
      (viewOf E g d cs leak signed a).pk (viewOf E g d cs leak signed a).pp msg = .ok true ↔
    defect S (fun j => leak[j].2) (fun k => signed[k].2) w (msgField E.sha512 cs msg) a = 0 := by
  have hg := L.sub1_order _ hsub
  have hg2 := L.sub2_order _ L.gen2_sub
  have W := viewOf_wf (cs := cs) L hsub hd hd' a
  have hwn := nodeAt_isNode hw
  have hlen : ∀ k : Fin signed.length, signed[k].2.1.length < d :=
    fun k => (nodeAt_isNode (hs _ (List.getElem_mem _))).1
  have h1 := forge_sigma1 (g := g) (cs := cs) hg2 S a t
  have h2 := forge_sigma2 (E := E) (cs := cs) hg hd S hlen a t
  set sig := S.forge (viewOf E g d cs leak signed a) t with hsig
  have hs1 : sig.sigma1 = (forge1 S a).val • (viewOf E g d cs leak signed a).pp.g2 := h1
  have hs2 : E.inSub1 sig.sigma2 = true := by rw [h2]; exact L.sub1_nsmul hsub _
  have hcheck := L.sig_check W (v := w) (M := msgField E.sha512 cs msg) hs2 hs1
    (pk := (viewOf E g d cs leak signed a).pk.pk) (x := (a .x).val) rfl
  have hiff : sig.sigma2 = (a .x).val • (paramOf E g cs a : PubParam G1 G2).h +
      (forge1 S a).val • sigPoint (paramOf E g cs a) w (msgField E.sha512 cs msg) ↔
      defect S (fun j => leak[j].2) (fun k => signed[k].2) w (msgField E.sha512 cs msg) a = 0 := by
    rw [h2, sigPoint_paramOf (E := E) hg hd a hwn.1, ← expHom_mul]
    change _ = (a .x).val • expHom g hg (a .h) + _ ↔ _
    rw [← expHom_mul, ← map_add, ← sub_eq_zero, ← map_sub, expHom_eq_zero hg hne]
    rfl
  rw [← hiff, ← hcheck]
  have hpp : (viewOf E g d cs leak signed a).pp = paramOf E g cs a := rfl
  rw [hpp, Signature.verifyBytes_eq H W.toParamShape]
  constructor
  · intro h
    obtain ⟨_, _, _, _, v, hv, h⟩ := @of_decide_eq_true _ (_) (Res.ok.inj h)
    have : v = w := num_inj (nodeAt_isNode hv) hwn (by
      rw [nodeAt_num_eq hv]; exact (nodeAt_num_eq hw).symm)
    rw [this] at h
    exact h
  · intro h
    exact congrArg Res.ok (@decide_eq_true _ (_) ⟨hsup, rfl,
      by rw [h1]; exact L.sub2_nsmul L.gen2_sub _, hs2, w, hw, h⟩)

end Exp

end Pixel
