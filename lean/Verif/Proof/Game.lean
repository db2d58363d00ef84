import Verif.Spec.Game
import Verif.Proof.Forge
import Verif.Proof.Agg

/-!
# The forgery game, in the exponents
-/

namespace Pixel

open Spec

set_option linter.unusedSectionVars false

/-! ## From proportional coefficients to nodes -/

theorem coefM_zero {d : Nat} (hd : 0 < d) (v : List Nat) (N : Fr) : coefM d v N 0 = 1 := by
  rw [coefM, if_neg (by omega), coefN, if_pos rfl, Nat.cast_one]

theorem coefM_succ {d : Nat} (v : List Nat) (N : Fr) {i : Nat} (hi : i + 1 < d) :
    coefM d v N (i + 1) = ((v.getD i 0 : Nat) : Fr) := by
  rw [coefM, if_neg (by omega), coefN, if_neg (by omega), Nat.add_sub_cancel]

theorem prefix_of_prop {d : Nat} {v w : List Nat} {M c c' : Fr} (hv : IsNode d v) (hw : IsNode d w)
    (hc : c ≠ 0) (h : ∀ i, i ≤ v.length → c * coefN v i = c' * coefM d w M i) : v <+: w := by
  have hd : 0 < d := by have := hw.1; omega
  refine prefix_of_coefN hv.2 fun i hi => ?_
  have hld := hv.1
  have h0 := h 0 (by omega)
  rw [coefM_zero hd] at h0
  have h0' : c = c' := by simpa [coefN] using h0
  have hi' := h (i + 1) (by omega)
  rw [coefM_succ _ _ (by omega), ← h0', coefN, if_neg (by omega), Nat.add_sub_cancel] at hi'
  exact digit_inj (digit_lt hv.2 _) (digit_lt hw.2 _) (mul_left_cancel₀ hc hi')

theorem eq_of_prop {d : Nat} {v w : List Nat} {M M' c c' : Fr} (hv : IsNode d v) (hw : IsNode d w)
    (hc : c ≠ 0) (h : ∀ i, i ≤ d → c * coefM d v M' i = c' * coefM d w M i) : v = w ∧ M' = M := by
  have hd : 0 < d := by have := hw.1; omega
  have h0 := h 0 (by omega)
  rw [coefM_zero hd, coefM_zero hd, mul_one, mul_one] at h0
  have hcoef : ∀ i, i ≤ d → coefM d v M' i = coefM d w M i := by
    intro i hi
    have := h i hi
    rw [← h0] at this
    exact mul_left_cancel₀ hc this
  have hdig : ∀ i, v.getD i 0 = w.getD i 0 := by
    intro i
    by_cases hi : i + 1 < d
    · have := hcoef (i + 1) (by omega)
      rw [coefM_succ _ _ hi, coefM_succ _ _ hi] at this
      exact digit_inj (digit_lt hv.2 _) (digit_lt hw.2 _) this
    · have l1 := hv.1
      have l2 := hw.1
      rw [List.getD_eq_default _ _ (by omega), List.getD_eq_default _ _ (by omega)]
  have p1 := prefix_of_coefN hv.2 fun i _ => hdig i
  have p2 := prefix_of_coefN hw.2 fun i _ => (hdig i).symm
  have hM := hcoef d le_rfl
  rw [coefM, coefM, if_pos rfl, if_pos rfl] at hM
  exact ⟨p1.eq_of_length_le p2.length_le, hM⟩

/-! ## Combinations in the exponents -/

section Exps

variable {R : Type} [CommRing R] [Algebra Fr R] {d N : Nat}

/-- the exponents of the parameters alone -/
def toVar (val : Secret d N → R) : Var d 0 0 → R
  | .x => val .x
  | .h => val .h
  | .q => val .q
  | .gen i => val (.gen i)
  | .rho j => j.elim0
  | .rnd k => k.elim0

/-- contribution of one answer in `G1` -/
def term1 (val : Secret d N → R) (c : Nat → Fr) (r : R) : Query → R
  | .subKey _ v => c 0 • (val .x * val .h + r * nodeE (toVar val) v) +
      ∑ i : Fin (d + 1), (if v.length + 1 ≤ i.val then c (i - (v.length + 1) + 1) else 0) •
        (r * val (.gen i))
  | .signature _ v M => c 0 • (val .x * val .h + r * sigE (toVar val) v M)
  | .point => c 0 • r

/-- contribution of one answer in `G2` -/
def term2 (c : Nat → Fr) (r : R) : Query → R
  | .subKey _ _ => c 0 • r
  | .signature _ _ _ => c 0 • r
  | .point => 0

/-- a combination of the elements of `G1` -/
def comb1 (c : Comb) (val : Secret d N → R) (qs : List Query) : R :=
  c.start 0 • val .h + c.start 1 • val .q + c.start 2 • (val .x * val .q) +
    ∑ i : Fin (d + 1), c.start (i + 3) • val (.gen i) +
    ∑ k : Fin qs.length, term1 val (c.on k) (freshOf val k) qs[k]

/-- a combination of the elements of `G2` -/
def comb2 (c : Comb) (val : Secret d N → R) (qs : List Query) : R :=
  c.start 0 • 1 + c.start 1 • val .x +
    ∑ k : Fin qs.length, term2 (c.on k) (freshOf val k) qs[k]

/-- sum of pairings -/
def combT (l : List (Comb × Comb)) (val : Secret d N → R) (qs : List Query) : R :=
  (l.map fun p => comb2 p.1 val qs * comb1 p.2 val qs).sum

/-- sum of the keys of the co-signers -/
def keysE (l : List CoSigner) (val : Secret d N → R) (qs : List Query) : R :=
  (l.map fun c => comb2 c.key val qs).sum

/-- left side minus right side of the verification equation -/
def gameDefect (F : Forgery) (w : List Nat) (M : Fr) (val : Secret d N → R) (qs : List Query) : R :=
  comb1 F.sigma2 val qs - ((val .x + keysE F.cosigners val qs) * val .h +
    comb2 F.sigma1 val qs * sigE (toVar val) w M)

end Exps

/-! ## Evaluation -/

section Eval

variable {d N : Nat}

abbrev Poly (d N : Nat) : Type := MvPolynomial (Secret d N) Fr

noncomputable abbrev PX : Secret d N → Poly d N := MvPolynomial.X

theorem eval_fresh (a : Secret d N → Fr) (k : Nat) :
    MvPolynomial.eval a (freshOf (PX : Secret d N → Poly d N) k) = freshOf a k := by
  unfold freshOf
  by_cases h : k < N
  · rw [dif_pos h, dif_pos h, MvPolynomial.eval_X]
  · rw [dif_neg h, dif_neg h, map_zero]

theorem eval_sigE (a : Secret d N → Fr) (v : List Nat) (M : Fr) :
    MvPolynomial.eval a (sigE (toVar (PX : Secret d N → Poly d N)) v M) = sigE (toVar a) v M := by
  simp only [sigE, toVar, map_sum, MvPolynomial.smul_eval, MvPolynomial.eval_X, smul_eq_mul]

theorem eval_nodeE (a : Secret d N → Fr) (v : List Nat) :
    MvPolynomial.eval a (nodeE (toVar (PX : Secret d N → Poly d N)) v) = nodeE (toVar a) v := by
  simp only [nodeE, toVar, map_sum, MvPolynomial.smul_eval, MvPolynomial.eval_X, smul_eq_mul]

theorem eval_term1 (a : Secret d N → Fr) (c : Nat → Fr) (r : Poly d N) (q : Query) :
    MvPolynomial.eval a (term1 (PX : Secret d N → Poly d N) c r q) =
      term1 a c (MvPolynomial.eval a r) q := by
  cases q <;>
  simp only [term1, map_sum, map_add, map_mul, MvPolynomial.smul_eval, MvPolynomial.eval_X,
    smul_eq_mul, eval_nodeE, eval_sigE]

theorem eval_term2 (a : Secret d N → Fr) (c : Nat → Fr) (r : Poly d N) (q : Query) :
    MvPolynomial.eval a (term2 c r q) = term2 c (MvPolynomial.eval a r) q := by
  cases q <;> simp only [term2, MvPolynomial.smul_eval, smul_eq_mul, map_zero]

theorem eval_comb1 (a : Secret d N → Fr) (c : Comb) (qs : List Query) :
    MvPolynomial.eval a (comb1 c (PX : Secret d N → Poly d N) qs) = comb1 c a qs := by
  simp only [comb1, map_sum, map_add, map_mul, MvPolynomial.smul_eval, MvPolynomial.eval_X,
    smul_eq_mul, eval_term1, eval_fresh]

theorem eval_comb2 (a : Secret d N → Fr) (c : Comb) (qs : List Query) :
    MvPolynomial.eval a (comb2 c (PX : Secret d N → Poly d N) qs) = comb2 c a qs := by
  simp only [comb2, map_sum, map_add, map_one, MvPolynomial.smul_eval, MvPolynomial.eval_X,
    smul_eq_mul, eval_term2, eval_fresh]

theorem eval_combT (a : Secret d N → Fr) (l : List (Comb × Comb)) (qs : List Query) :
    MvPolynomial.eval a (combT l (PX : Secret d N → Poly d N) qs) = combT l a qs := by
  induction l with
  | nil => simp [combT]
  | cons p l ih =>
    simp only [combT, List.map_cons, List.sum_cons, map_add, map_mul, eval_comb1, eval_comb2] at ih ⊢
    rw [ih]

theorem eval_keysE (a : Secret d N → Fr) (l : List CoSigner) (qs : List Query) :
    MvPolynomial.eval a (keysE l (PX : Secret d N → Poly d N) qs) = keysE l a qs := by
  induction l with
  | nil => simp [keysE]
  | cons p l ih =>
    simp only [keysE, List.map_cons, List.sum_cons, map_add, eval_comb2] at ih ⊢
    rw [ih]

theorem eval_gameDefect (a : Secret d N → Fr) (F : Forgery) (w : List Nat) (M : Fr)
    (qs : List Query) :
    MvPolynomial.eval a (gameDefect F w M (PX : Secret d N → Poly d N) qs) =
      gameDefect F w M a qs := by
  simp only [gameDefect, map_sub, map_add, map_mul, MvPolynomial.eval_X, eval_comb1, eval_comb2,
    eval_keysE, eval_sigE]

/-! ## Degrees -/

/-- degree at most `k` -/
def Deg (k : Nat) (p : Poly d N) : Prop := p.totalDegree ≤ k

theorem Deg.mono {k l : Nat} {p : Poly d N} (h : Deg k p) (hkl : k ≤ l) : Deg l p :=
  Nat.le_trans h hkl

theorem Deg.X (v : Secret d N) : Deg 1 (PX v) := (MvPolynomial.totalDegree_X _).le

theorem Deg.zero {k : Nat} : Deg k (0 : Poly d N) := by
  unfold Deg; rw [MvPolynomial.totalDegree_zero]; omega

theorem Deg.one {k : Nat} : Deg k (1 : Poly d N) := by
  unfold Deg; rw [MvPolynomial.totalDegree_one]; omega

theorem Deg.smul {k : Nat} {p : Poly d N} (c : Fr) (h : Deg k p) : Deg k (c • p) :=
  (MvPolynomial.totalDegree_smul_le _ _).trans h

theorem Deg.add {k : Nat} {p q : Poly d N} (hp : Deg k p) (hq : Deg k q) : Deg k (p + q) :=
  (MvPolynomial.totalDegree_add _ _).trans (max_le hp hq)

theorem Deg.sub {k : Nat} {p q : Poly d N} (hp : Deg k p) (hq : Deg k q) : Deg k (p - q) :=
  (MvPolynomial.totalDegree_sub _ _).trans (max_le hp hq)

theorem Deg.mul {k l : Nat} {p q : Poly d N} (hp : Deg k p) (hq : Deg l q) : Deg (k + l) (p * q) :=
  (MvPolynomial.totalDegree_mul _ _).trans (Nat.add_le_add hp hq)

theorem Deg.sum {k : Nat} {ι : Type} (s : Finset ι) {f : ι → Poly d N} (h : ∀ i, Deg k (f i)) :
    Deg k (∑ i ∈ s, f i) :=
  MvPolynomial.totalDegree_finsetSum_le fun i _ => h i

theorem Deg.list {k : Nat} {α : Type} (l : List α) {f : α → Poly d N} (h : ∀ i, Deg k (f i)) :
    Deg k (l.map f).sum := by
  induction l with
  | nil => exact Deg.zero
  | cons a l ih => rw [List.map_cons, List.sum_cons]; exact (h a).add ih

theorem Deg.fresh (k : Nat) : Deg 1 (freshOf (PX : Secret d N → Poly d N) k) := by
  unfold freshOf
  by_cases h : k < N
  · rw [dif_pos h]; exact Deg.X _
  · rw [dif_neg h]; exact Deg.zero

theorem Deg.sigE (v : List Nat) (M : Fr) :
    Deg 1 (sigE (toVar (PX : Secret d N → Poly d N)) v M) :=
  Deg.sum _ fun _ => (Deg.X _).smul _

theorem Deg.nodeE (v : List Nat) : Deg 1 (nodeE (toVar (PX : Secret d N → Poly d N)) v) :=
  Deg.sum _ fun _ => (Deg.X _).smul _

theorem Deg.term1 (c : Nat → Fr) {r : Poly d N} (hr : Deg 1 r) (q : Query) :
    Deg 2 (term1 (PX : Secret d N → Poly d N) c r q) := by
  cases q with
  | subKey t v =>
    refine Deg.add (Deg.smul _ (((Deg.X _).mul (Deg.X _)).add (hr.mul (Deg.nodeE _)))) ?_
    exact Deg.sum _ fun _ => (hr.mul (Deg.X _)).smul _
  | signature t v M => exact Deg.smul _ (((Deg.X _).mul (Deg.X _)).add (hr.mul (Deg.sigE _ _)))
  | point => exact (hr.mono (by omega)).smul _

theorem Deg.term2 (c : Nat → Fr) {r : Poly d N} (hr : Deg 1 r) (q : Query) :
    Deg 1 (term2 c r q) := by
  cases q with
  | subKey t v => exact hr.smul _
  | signature t v M => exact hr.smul _
  | point => exact Deg.zero

theorem Deg.comb1 (c : Comb) (qs : List Query) :
    Deg 2 (comb1 c (PX : Secret d N → Poly d N) qs) := by
  have h1 : ∀ v : Secret d N, Deg 2 (PX v) := fun v => (Deg.X v).mono (by omega)
  refine Deg.add (Deg.add (Deg.add (Deg.add ((h1 _).smul _) ((h1 _).smul _)) ?_) ?_) ?_
  · exact ((Deg.X _).mul (Deg.X _)).smul _
  · exact Deg.sum _ fun _ => (h1 _).smul _
  · exact Deg.sum _ fun _ => Deg.term1 _ (Deg.fresh _) _

theorem Deg.comb2 (c : Comb) (qs : List Query) :
    Deg 1 (comb2 c (PX : Secret d N → Poly d N) qs) := by
  refine Deg.add (Deg.add (Deg.one.smul _) ((Deg.X _).smul _)) ?_
  exact Deg.sum _ fun _ => Deg.term2 _ (Deg.fresh _) _

theorem Deg.combT (l : List (Comb × Comb)) (qs : List Query) :
    Deg 3 (combT l (PX : Secret d N → Poly d N) qs) :=
  Deg.list _ fun p => (Deg.comb2 p.1 qs).mul (Deg.comb1 p.2 qs)

theorem Deg.gameDefect (F : Forgery) (w : List Nat) (M : Fr) (qs : List Query) :
    Deg 2 (gameDefect F w M (PX : Secret d N → Poly d N) qs) := by
  have h1 : Deg 1 (keysE F.cosigners (PX : Secret d N → Poly d N) qs) := by
    unfold keysE
    exact Deg.list _ fun c => Deg.comb2 c.key qs
  have h2 := ((Deg.X (Secret.x : Secret d N)).add h1).mul (Deg.X (Secret.h : Secret d N))
  have h3 := (Deg.comb2 (d := d) (N := N) F.sigma1 qs).mul (Deg.sigE (d := d) (N := N) w M)
  exact (Deg.comb1 _ _).sub (h2.add h3)

end Eval

/-! ## What holds for all exponents -/

section Always

variable {d N : Nat}

/-- the evaluation points -/
def gpt (x h : Fr) (G : Fin (d + 1) → Fr) (K : Nat → Fr) : Secret d N → Fr
  | .x => x
  | .h => h
  | .q => 0
  | .gen i => G i
  | .fresh k => K k

theorem fresh_gpt (x h : Fr) (G : Fin (d + 1) → Fr) (K : Nat → Fr) {k : Nat} (hk : k < N) :
    freshOf (gpt x h G K : Secret d N → Fr) k = K k := by
  rw [freshOf, dif_pos hk]; rfl

theorem nodeE_gpt (x h : Fr) (i : Fin (d + 1)) (K : Nat → Fr) (v : List Nat) :
    nodeE (toVar (gpt x h (Pi.single i 1) K : Secret d N → Fr)) v = (coefN v i : Fr) := by
  simp only [nodeE, toVar, gpt, smul_eq_mul]
  rw [Finset.sum_eq_single i]
  · rw [Pi.single_eq_same, mul_one]
  · intro j _ hj
    rw [Pi.single_eq_of_ne hj, mul_zero]
  · intro h; exact absurd (Finset.mem_univ _) h

theorem sigE_gpt (x h : Fr) (i : Fin (d + 1)) (K : Nat → Fr) (v : List Nat) (M : Fr) :
    sigE (toVar (gpt x h (Pi.single i 1) K : Secret d N → Fr)) v M = coefM d v M i := by
  simp only [sigE, toVar, gpt, smul_eq_mul]
  rw [Finset.sum_eq_single i]
  · rw [Pi.single_eq_same, mul_one]
  · intro j _ hj
    rw [Pi.single_eq_of_ne hj, mul_zero]
  · intro h; exact absurd (Finset.mem_univ _) h

theorem sigE_zero (x h : Fr) (K : Nat → Fr) (v : List Nat) (M : Fr) :
    sigE (toVar (gpt x h 0 K : Secret d N → Fr)) v M = 0 := by
  simp [sigE, toVar, gpt]

/-- coefficient of the master secret in an answer -/
def mainCoef (c : Nat → Fr) : Query → Fr
  | .subKey _ _ => c 0
  | .signature _ _ _ => c 0
  | .point => 0

theorem term1_zero (a : Secret d N → Fr) (c : Nat → Fr) (q : Query) :
    term1 a c 0 q = mainCoef c q * (a .x * a .h) := by
  cases q <;> simp [term1, mainCoef]

theorem term2_eq (c : Nat → Fr) (r : Fr) (q : Query) : term2 c r q = mainCoef c q * r := by
  cases q <;> simp [term2, mainCoef]

/-- the sum over the answers when no fresh exponent but that of answer `k` is non-zero -/
theorem sum_single {n : Nat} (f : Fin n → Fr) (k : Fin n) (h : ∀ j, j ≠ k → f j = 0) :
    ∑ j, f j = f k :=
  Finset.sum_eq_single k (fun j _ hj => h j hj) fun h => absurd (Finset.mem_univ _) h

variable {qs : List Query} (hN : qs.length ≤ N)

include hN

theorem comb1_xh (c : Comb) (x h : Fr) :
    comb1 c (gpt x h 0 0 : Secret d N → Fr) qs =
      c.start 0 * h + (∑ k : Fin qs.length, mainCoef (c.on k) qs[k]) * (x * h) := by
  have : ∀ k : Fin qs.length, term1 (gpt x h 0 0 : Secret d N → Fr) (c.on k)
      (freshOf (gpt x h 0 0 : Secret d N → Fr) k) qs[k] = mainCoef (c.on k) qs[k] * (x * h) := by
    intro k
    rw [fresh_gpt _ _ _ _ (by have := k.isLt; omega), Pi.zero_apply, term1_zero]
    rfl
  simp only [comb1, this, ← Finset.sum_mul]
  simp [gpt]

theorem comb1_gen (c : Comb) (i : Fin (d + 1)) :
    comb1 c (gpt 0 0 (Pi.single i 1) 0 : Secret d N → Fr) qs = c.start (i + 3) := by
  have : ∀ k : Fin qs.length, term1 (gpt 0 0 (Pi.single i 1) 0 : Secret d N → Fr) (c.on k)
      (freshOf (gpt 0 0 (Pi.single i 1) 0 : Secret d N → Fr) k) qs[k] = 0 := by
    intro k
    rw [fresh_gpt _ _ _ _ (by have := k.isLt; omega), Pi.zero_apply, term1_zero]
    simp [gpt]
  simp only [comb1, this, Finset.sum_const_zero, add_zero]
  simp only [gpt, smul_eq_mul, mul_zero, add_zero, zero_add]
  rw [sum_single _ i fun j hj => by rw [Pi.single_eq_of_ne hj, mul_zero], Pi.single_eq_same, mul_one]

theorem comb1_genk (c : Comb) (i : Fin (d + 1)) (k : Fin qs.length) :
    comb1 c (gpt 0 0 (Pi.single i 1) (Pi.single k.val 1) : Secret d N → Fr) qs =
      c.start (i + 3) +
      term1 (gpt 0 0 (Pi.single i 1) (Pi.single k.val 1) : Secret d N → Fr) (c.on k) 1 qs[k] := by
  have hk : freshOf (gpt 0 0 (Pi.single i 1) (Pi.single k.val 1) : Secret d N → Fr) k = 1 := by
    rw [fresh_gpt _ _ _ _ (by have := k.isLt; omega), Pi.single_eq_same]
  simp only [comb1]
  rw [sum_single (fun j : Fin qs.length => term1 _ (c.on j) _ qs[j]) k, hk]
  · congr 1
    simp only [gpt, smul_eq_mul, mul_zero, add_zero, zero_add]
    rw [sum_single _ i fun j hj => by rw [Pi.single_eq_of_ne hj, mul_zero], Pi.single_eq_same,
      mul_one]
  · intro j hj
    rw [fresh_gpt _ _ _ _ (by have := j.isLt; omega), Pi.single_eq_of_ne (fun h => hj (Fin.ext h)),
      term1_zero]
    simp [gpt]

theorem comb2_zero (c : Comb) (x h : Fr) (G : Fin (d + 1) → Fr) :
    comb2 c (gpt x h G 0 : Secret d N → Fr) qs = c.start 0 + c.start 1 * x := by
  have : ∀ k : Fin qs.length, term2 (c.on k)
      (freshOf (gpt x h G 0 : Secret d N → Fr) k) qs[k] = 0 := by
    intro k
    rw [fresh_gpt _ _ _ _ (by have := k.isLt; omega), Pi.zero_apply, term2_eq, mul_zero]
  simp only [comb2, this, Finset.sum_const_zero, add_zero]
  simp [gpt]

theorem comb2_K (c : Comb) (x h : Fr) (G : Fin (d + 1) → Fr) (K : Nat → Fr) :
    comb2 c (gpt x h G K : Secret d N → Fr) qs = c.start 0 + c.start 1 * x +
      ∑ k : Fin qs.length, mainCoef (c.on k) qs[k] * K k := by
  have : ∀ k : Fin qs.length, term2 (c.on k)
      (freshOf (gpt x h G K : Secret d N → Fr) k) qs[k] = mainCoef (c.on k) qs[k] * K k := by
    intro k
    rw [fresh_gpt _ _ _ _ (by have := k.isLt; omega), term2_eq]
  simp only [comb2, this]
  simp [gpt]

/-- a forged signature valid for all exponents is one the answers give away -/
theorem forgery_always {s1 s2 : Comb} {nx c0 : Fr} (hnx : nx ≠ 0) {w : List Nat} {M : Fr}
    (hw : IsNode d w) (hq : ∀ q ∈ qs, q.Legal d)
    (h : ∀ a : Secret d N → Fr, comb1 s2 a qs = (nx * a .x + c0) * a .h +
      comb2 s1 a qs * sigE (toVar a) w M) :
    (∃ t v, .subKey t v ∈ qs ∧ v <+: w) ∨ ∃ t, .signature t w M ∈ qs := by
  have e1 : s2.start 0 = c0 := by
    have := h (gpt 0 1 0 0)
    rw [comb1_xh hN, sigE_zero] at this
    simpa [gpt] using this
  have e2 : ∑ k : Fin qs.length, mainCoef (s2.on k) qs[k] = nx := by
    have := h (gpt 1 1 0 0)
    rw [comb1_xh hN, sigE_zero, e1] at this
    simp only [gpt, mul_one, mul_zero, add_zero] at this
    linear_combination this
  have e3 : ∀ i : Fin (d + 1), s2.start (i + 3) = s1.start 0 * coefM d w M i := by
    intro i
    have := h (gpt 0 0 (Pi.single i 1) 0)
    rw [comb1_gen hN, sigE_gpt, comb2_zero hN] at this
    simpa [gpt] using this
  have e4 : ∀ (i : Fin (d + 1)) (k : Fin qs.length),
      term1 (gpt 0 0 (Pi.single i 1) (Pi.single k.val 1) : Secret d N → Fr) (s2.on k) 1 qs[k] =
        mainCoef (s1.on k) qs[k] * coefM d w M i := by
    intro i k
    have := h (gpt 0 0 (Pi.single i 1) (Pi.single k.val 1))
    rw [comb1_genk hN, sigE_gpt, comb2_K hN, e3,
      sum_single (fun j : Fin qs.length => mainCoef (s1.on j) qs[j] * _) k (fun j hj => by
        rw [Pi.single_eq_of_ne (fun h => hj (Fin.ext h)), mul_zero])] at this
    simp only [gpt, mul_zero, add_zero, zero_add] at this
    rw [Pi.single_eq_same] at this
    linear_combination this
  have hex : ∃ k : Fin qs.length, mainCoef (s2.on k) qs[k] ≠ 0 := by
    by_contra hc
    apply hnx
    rw [← e2]
    refine Finset.sum_eq_zero fun k _ => ?_
    by_contra hk
    exact hc ⟨k, hk⟩
  obtain ⟨k, hk⟩ := hex
  have hmem : qs[k] ∈ qs := List.getElem_mem _
  have hleg := hq _ hmem
  have e4' := fun i => e4 i k
  generalize qs[k] = q at hk hmem hleg e4'
  cases q with
  | subKey t v =>
    left
    refine ⟨t, v, hmem, prefix_of_prop (M := M) (c := s2.on k 0) (c' := s1.on k 0) (nodeAt_isNode hleg) hw hk
      fun i hi => ?_⟩
    have hlen := (nodeAt_isNode hleg).1
    have := e4' ⟨i, by omega⟩
    simp only [term1, mainCoef, nodeE_gpt, smul_eq_mul] at this
    rw [Finset.sum_eq_zero, add_zero] at this
    · simpa [gpt] using this
    · intro j _
      by_cases hj : j = ⟨i, by omega⟩
      · rw [hj, if_neg (by simp; omega), zero_mul]
      · simp only [gpt]
        rw [Pi.single_eq_of_ne hj, mul_zero, mul_zero]
  | signature t v M' =>
    right
    obtain ⟨rfl, rfl⟩ := eq_of_prop (M := M) (M' := M') (c := s2.on k 0) (c' := s1.on k 0) (nodeAt_isNode hleg) hw hk
      fun i hi => by
        have := e4' ⟨i, by omega⟩
        simp only [term1, mainCoef, sigE_gpt, smul_eq_mul] at this
        simpa [gpt] using this
    exact ⟨t, hmem⟩
  | point => exact absurd rfl hk

/-- a key whose proof of possession is valid for all exponents is a known multiple of the
generator -/
theorem pop_always {key pop : Comb} {k : Nat} (hk : qs[k]? = some .point)
    (h : ∀ a : Secret d N → Fr, comb1 pop a qs = freshOf a k * comb2 key a qs)
    (a : Secret d N → Fr) : comb2 key a qs = key.start 0 := by
  obtain ⟨hkl, hk'⟩ := List.getElem?_eq_some_iff.1 hk
  -- the left side at points with `h`, `q` and all generators zero
  have hL : ∀ (x : Fr) (K : Nat → Fr), K k = 1 → (∀ j : Fin qs.length, j.val ≠ k →
      K j = 0 ∨ qs[j] ≠ .point) → comb1 pop (gpt x 0 0 K : Secret d N → Fr) qs = pop.on k 0 := by
    intro x K hKk hK
    simp only [comb1]
    rw [sum_single (fun j : Fin qs.length => term1 _ (pop.on j) _ qs[j]) ⟨k, hkl⟩]
    · simp only [Fin.getElem_fin, hk', term1]
      rw [fresh_gpt _ _ _ _ (by omega), hKk]
      simp [gpt]
    · intro j hj
      have hjk : j.val ≠ k := fun h => hj (Fin.ext h)
      rw [fresh_gpt _ _ _ _ (by have := j.isLt; omega)]
      rcases hK j hjk with h0 | h0
      · rw [h0, term1_zero]
        simp [gpt]
      · generalize qs[j] = q at h0
        cases q with
        | subKey t v => simp [term1, gpt, nodeE, toVar]
        | signature t v M => simp [term1, gpt, sigE, toVar]
        | point => exact absurd rfl h0
  have main : ∀ (x : Fr) (K : Nat → Fr), K k = 1 → (∀ j : Fin qs.length, j.val ≠ k →
      K j = 0 ∨ qs[j] ≠ .point) → pop.on k 0 = key.start 0 + key.start 1 * x +
      ∑ j : Fin qs.length, mainCoef (key.on j) qs[j] * K j := by
    intro x K hKk hK
    have := h (gpt x 0 0 K)
    rw [hL x K hKk hK, comb2_K hN, fresh_gpt _ _ _ _ (by omega), hKk, one_mul] at this
    exact this
  have hmk : ∀ c, mainCoef c (qs[k]'hkl) = 0 := by intro c; rw [hk']; rfl
  have hz : ∀ x, pop.on k 0 = key.start 0 + key.start 1 * x := by
    intro x
    have := main x (Pi.single k 1) (Pi.single_eq_same _ _) fun j hj =>
      Or.inl (Pi.single_eq_of_ne hj _)
    rwa [Finset.sum_eq_zero, add_zero] at this
    intro j _
    by_cases hj : j.val = k
    · have : mainCoef (key.on j) qs[j] = 0 := by
        have : qs[j] = qs[k]'hkl := by simp [hj]
        rw [this, hmk]
      rw [this, zero_mul]
    · rw [Pi.single_eq_of_ne hj, mul_zero]
  have h0 : key.start 1 = 0 := by
    have := (hz 0).symm.trans (hz 1)
    linear_combination -this
  have hj0 : ∀ j : Fin qs.length, mainCoef (key.on j) qs[j] = 0 := by
    intro j
    by_cases hp : qs[j] = .point
    · rw [hp]; rfl
    · have hjk : j.val ≠ k := by
        rintro rfl
        exact hp hk'
      have := main 0 (Pi.single k 1 + Pi.single j.val 1)
        (by rw [Pi.add_apply, Pi.single_eq_same, Pi.single_eq_of_ne (Ne.symm hjk), add_zero])
        (by
          intro i hi
          by_cases hij : i.val = j.val
          · right
            have : qs[i] = qs[j] := by simp [hij]
            rw [this]; exact hp
          · left
            rw [Pi.add_apply, Pi.single_eq_of_ne hi, Pi.single_eq_of_ne hij, add_zero])
      rw [sum_single _ j, hz 0] at this
      · rw [Pi.add_apply, Pi.single_eq_same, Pi.single_eq_of_ne hjk, zero_add, mul_one] at this
        linear_combination -this
      · intro i hi
        have hij : i.val ≠ j.val := fun h => hi (Fin.ext h)
        by_cases hik : i.val = k
        · have : mainCoef (key.on i) qs[i] = 0 := by
            have : qs[i] = qs[k]'hkl := by simp [hik]
            rw [this, hmk]
          rw [this, zero_mul]
        · rw [Pi.add_apply, Pi.single_eq_of_ne hik, Pi.single_eq_of_ne hij, add_zero, mul_zero]
  simp only [comb2, h0, term2_eq, hj0]
  simp

end Always

end Pixel
