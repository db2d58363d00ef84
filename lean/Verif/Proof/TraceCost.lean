import Verif.Proof.Trace
import Verif.Proof.SecretKey
import Verif.Proof.Schedule
import Verif.Spec.Cost

/-! # Helper lemmas: counting the scalar multiplications of a run -/

set_option linter.unusedSectionVars false

namespace Pixel.Trace

open Pixel Spec

variable {G1 G2 GT : Type} [AddCommGroup G1] [AddCommGroup G2] [CommGroup GT]

@[simp] theorem muls_nil : muls [] = 0 := rfl
@[simp] theorem muls_append (l m : List Ev) : muls (l ++ m) = muls l + muls m :=
  List.countP_append

/-! ## local variables -/

section exec

variable {σ α β : Type}

@[simp] theorem exec_pure (a : α) (s : σ) : (pure a : TS σ α).exec s = pure (a, s) := rfl

@[simp] theorem exec_bind (x : TS σ α) (f : α → TS σ β) (s : σ) :
    (x >>= f).exec s = x.exec s >>= fun p => (f p.1).exec p.2 := by
  change (TS.bind x f).exec s = TR.bind (x.exec s) _
  rcases h : x s with ⟨⟨r, s'⟩, t⟩
  cases r <;> simp [TS.exec, TS.bind, TR.bind, h]

@[simp] theorem exec_get (s : σ) : (TS.get : TS σ σ).exec s = pure (s, s) := rfl
@[simp] theorem exec_set (s s' : σ) : (TS.set s' : TS σ Unit).exec s = pure ((), s') := rfl
@[simp] theorem exec_lift (x : TR α) (s : σ) :
    (TS.lift x : TS σ α).exec s = x >>= fun a => pure (a, s) := by
  change _ = TR.bind x _
  rcases x with ⟨o, t⟩
  cases o <;> simp [TS.exec, TS.lift, TR.bind, pure]
@[simp] theorem exec_err (e : Err) (s : σ) : (TS.err e : TS σ α).exec s = TR.res (.err e) := rfl
@[simp] theorem exec_ite (c : Prop) [Decidable c] (x y : TS σ α) (s : σ) :
    (if c then x else y).exec s = if c then x.exec s else y.exec s := by split <;> rfl

end exec

/-! ## runs whose number of multiplications is known -/

/-- steps without multiplications, after any outcome -/
def Free {α : Type} (x : TR α) : Prop := muls x.trace = 0

namespace Free

variable {α β σ : Type}

theorem bind {x : TR α} {f : α → TR β} (h : Free x) (h' : ∀ a, Free (f a)) : Free (x >>= f) := by
  change muls (TR.bind x f).trace = 0
  unfold TR.bind
  cases x.out with
  | ok a =>
    have := h' a
    simp only [Free, muls_append] at *
    omega
  | err e => exact h
  | panic p => exact h

theorem pure (a : α) : Free (Pure.pure a : TR α) := rfl
theorem res (x : Res α) : Free (TR.res x) := rfl
theorem fail (e : Err) (t : String) (l : List Nat) : Free (TR.fail e t l : TR α) := rfl
theorem tick {e : Ev} (h : e ≠ .call "mul" []) : Free (TR.tick e) := by
  simp [Free, TR.tick, muls, h]

theorem ite {c : Prop} [Decidable c] {x y : TR α} (hx : Free x) (hy : Free y) :
    Free (if c then x else y) := by split <;> assumption

theorem foldlM {f : β → α → TR β} (h : ∀ b a, Free (f b a)) (l : List α) (b : β) :
    Free (l.foldlM f b) := by
  induction l generalizing b with
  | nil => exact pure _
  | cons a l ih => rw [List.foldlM_cons]; exact bind (h _ _) fun _ => ih _

theorem forM {f : α → TS σ PUnit} (h : ∀ a s, Free ((f a).exec s)) (l : List α) (s : σ) :
    Free ((l.forM f).exec s) := by
  induction l generalizing s with
  | nil => exact pure _
  | cons a l ih =>
    change Free ((f a >>= fun _ => l.forM f).exec s)
    rw [exec_bind]
    exact bind (h _ _) fun _ => ih _

end Free

/-- at most `n` multiplications, and exactly `n` if the run succeeds -/
def Spent {α : Type} (n : Nat) (x : TR α) : Prop :=
  muls x.trace ≤ n ∧ ∀ a, x.out = .ok a → muls x.trace = n

/-- what holds of result and number of multiplications of a successful run -/
def Post {α : Type} (x : TR α) (P : α → Nat → Prop) : Prop :=
  ∀ a, x.out = .ok a → P a (muls x.trace)

namespace Spent

variable {α β : Type}

theorem bind {n m : Nat} {x : TR α} {f : α → TR β} (h : Spent n x)
    (h' : ∀ a, x.out = .ok a → Spent m (f a)) : Spent (n + m) (x >>= f) := by
  change Spent _ (TR.bind x f)
  unfold TR.bind
  cases hx : x.out with
  | ok a =>
    obtain ⟨a1, a2⟩ := h' a hx
    have := h.2 a hx
    refine ⟨by simp only [muls_append]; omega, fun b hb => ?_⟩
    have := a2 b hb
    simp only [muls_append]
    omega
  | err e => exact ⟨by have := h.1; simp only; omega, fun _ hb => by cases hb⟩
  | panic p => exact ⟨by have := h.1; simp only; omega, fun _ hb => by cases hb⟩

/-- a first step without multiplications -/
theorem free {m : Nat} {x : TR α} {f : α → TR β} (h : Free x)
    (h' : ∀ a, x.out = .ok a → Spent m (f a)) : Spent m (x >>= f) := by
  have := bind (n := 0) (x := x) (f := f) ⟨Nat.le_of_eq h, fun _ _ => h⟩ h'
  rwa [Nat.zero_add] at this

theorem zero {x : TR α} (h : muls x.trace = 0) : Spent 0 x := ⟨by omega, fun _ _ => h⟩

theorem pure (a : α) : Spent 0 (Pure.pure a : TR α) := zero rfl

theorem fail {n : Nat} (e : Err) (t : String) (l : List Nat) : Spent n (TR.fail e t l : TR α) :=
  ⟨by simp [TR.fail, muls], fun _ h => by cases h⟩

theorem err {n : Nat} (e : Err) : Spent n (TR.res (.err e) : TR α) :=
  ⟨by simp [TR.res], fun _ h => by cases h⟩

theorem ite {n : Nat} {c : Prop} [Decidable c] {x y : TR α} (hx : c → Spent n x)
    (hy : ¬ c → Spent n y) : Spent n (if c then x else y) := by
  split
  · exact hx ‹_›
  · exact hy ‹_›

theorem mapM {n : Nat} {f : α → TR β} (h : ∀ a, Spent n (f a)) (l : List α) :
    Spent (l.length * n) (l.mapM f) := by
  induction l with
  | nil => simpa using pure _
  | cons a l ih =>
    rw [List.mapM_cons, List.length_cons, Nat.succ_mul, Nat.add_comm]
    refine bind (h a) fun b _ => ?_
    rw [← Nat.add_zero (l.length * n)]
    exact bind ih fun _ _ => pure _

theorem forM {σ : Type} {n : Nat} {f : α → TS σ PUnit} (h : ∀ a s, Spent n ((f a).exec s))
    (l : List α) (s : σ) : Spent (l.length * n) ((l.forM f).exec s) := by
  induction l generalizing s with
  | nil => simpa using pure _
  | cons a l ih =>
    change Spent _ ((f a >>= fun _ => l.forM f).exec s)
    rw [exec_bind, List.length_cons, Nat.succ_mul, Nat.add_comm]
    exact bind (h _ _) fun _ _ => ih _

theorem forM_range {σ : Type} {f : Nat → TS σ PUnit} (h : ∀ a s, Spent 1 ((f a).exec s)) {n : Nat}
    {s : σ} : Spent n (((List.range n).forM f).exec s) := by
  have := forM h (List.range n) s
  rwa [List.length_range, Nat.mul_one] at this

end Spent

theorem branch_free (b : Bool) : Free (branch b) := rfl
theorem check_free (b : Bool) : Free (check b) := by cases b <;> rfl
theorem idx_free {α : Type} (l : List α) (i : Nat) : Free (idx l i) :=
  .bind (.tick (by simp)) fun _ => .res _
theorem vecInsert_free {α : Type} (l : List α) (i : Nat) (x : α) : Free (vecInsert l i x) :=
  .bind (.tick (by simp)) fun _ => .res _
theorem removeFirst_free {α : Type} (l : List α) : Free (removeFirst l) :=
  .bind (.tick (by simp)) fun _ => .res _
theorem add_free {G : Type} [Add G] (p q : G) : Free (add p q) :=
  .bind (.tick (by simp)) fun _ => .pure _
theorem sayErr_free {α : Type} (t : String) (x : Res α) : Free (sayErr t x) := by cases x <;> rfl
theorem timeVec_free (pf : Profile) (t d : Nat) : Free (timeVec pf t d) :=
  .bind (.tick (by simp)) fun _ => sayErr_free _ _
theorem gammaList_free (pf : Profile) (v : TimeVec) (d : Nat) : Free (gammaList pf v d) :=
  .bind (.tick (by simp)) fun _ => sayErr_free _ _
theorem extract_free (sha : Bytes → Bytes) (a b : Bytes) : Free (extract sha a b) :=
  .bind (.tick (by simp)) fun _ => .pure _
theorem expand_free (sha : Bytes → Bytes) (a b : Bytes) (n : Nat) : Free (expand sha a b n) :=
  .bind (.tick (by simp)) fun _ => .res _
theorem slice_free (b : Bytes) (i j : Nat) : Free (slice b i j) :=
  .bind (.tick (by simp)) fun _ => .res _
theorem prngEq_free (a b : Prng) : Free (prngEq a b) := .bind (.tick (by simp)) fun _ => .pure _
theorem doubleIf_free {G : Type} [Add G] (b : Bool) (x : G) : Free (doubleIf b x) :=
  .ite (add_free _ _) (.pure _)

theorem mul_spent {G : Type} [AddMonoid G] (r : Fr) (p : G) : Spent 1 (mul r p) :=
  ⟨le_refl _, fun _ _ => rfl⟩

theorem matchRepr_free (x : Option Fr) : Free (matchRepr x) := by cases x <;> rfl

theorem fromBytes64_free (b : Bytes) : Free (fromBytes64 b) := by
  unfold fromBytes64
  exact .bind (slice_free _ _ _) fun _ => .bind (check_free _) fun _ => .bind (slice_free _ _ _)
    fun _ => .bind (slice_free _ _ _) fun _ => .bind (slice_free _ _ _) fun _ =>
    .bind (slice_free _ _ _) fun _ => matchRepr_free _

theorem os2ipModP_free (b : Bytes) : Free (os2ipModP b) := by
  unfold os2ipModP
  refine .bind (check_free _) fun _ => .bind (.tick (by simp)) fun _ => fromBytes64_free _

theorem prngInit_free (sha : Bytes → Bytes) (a b : Bytes) : Free (prngInit sha a b) :=
  .bind (extract_free _ _ _) fun _ => .bind (slice_free _ _ _) fun _ => .bind (.res _) fun _ =>
    .pure _

theorem sampleThenUpdate_free (sha : Bytes → Bytes) (info : Bytes) (p : Prng) :
    Free ((sampleThenUpdate sha info).exec p) := by
  unfold sampleThenUpdate
  simp only [exec_bind, exec_get, exec_lift, exec_set, exec_pure]
  refine .bind (.pure _) fun _ => .bind (.bind (expand_free _ _ _ _) fun _ => .pure _) fun _ =>
    .bind (.bind (slice_free _ _ _) fun _ => .pure _) fun _ =>
    .bind (.bind (os2ipModP_free _) fun _ => .pure _) fun _ =>
    .bind (.bind (slice_free _ _ _) fun _ => .pure _) fun _ =>
    .bind (.bind (.res _) fun _ => .pure _) fun _ => .bind (.pure _) fun _ => .pure _

theorem sample_free (sha : Bytes → Bytes) (info : Bytes) (p : Prng) :
    Free ((sample sha info).exec p) := by
  unfold sample
  simp only [exec_bind, exec_get, exec_lift]
  exact .bind (.pure _) fun _ => .bind (.bind (expand_free _ _ _ _) fun _ => .pure _) fun _ =>
    .bind (os2ipModP_free _) fun _ => .pure _

theorem rerandomize_free (sha : Bytes → Bytes) (seed info : Bytes) (p : Prng) :
    Free ((rerandomize sha seed info).exec p) := by
  unfold rerandomize
  simp only [exec_bind, exec_get, exec_lift, exec_set]
  exact .bind (.pure _) fun _ => .bind (.bind (expand_free _ _ _ _) fun _ => .pure _) fun _ =>
    .bind (.bind (slice_free _ _ _) fun _ => .pure _) fun _ =>
    .bind (.bind (slice_free _ _ _) fun _ => .pure _) fun _ =>
    .bind (.bind (extract_free _ _ _) fun _ => .pure _) fun _ =>
    .bind (.bind (slice_free _ _ _) fun _ => .pure _) fun _ =>
    .bind (.bind (.res _) fun _ => .pure _) fun _ => .pure _

theorem nodeSum_free (hlist : List G1) (tv : List Nat) (h0 : G1) : Free (nodeSum hlist tv h0) :=
  .foldlM (fun _ _ => .bind (idx_free _ _) fun _ => .bind (idx_free _ _) fun _ =>
    .bind (branch_free _) fun _ => .bind (doubleIf_free _ _) fun _ => add_free _ _) _ _

theorem delegate_free (pf : Profile) (t d : Nat) (s : SubSecretKey G1 G2) :
    Free ((delegate pf t d).exec s) := by
  unfold delegate
  simp only [exec_bind, exec_get, exec_lift, exec_ite]
  refine .bind (.pure _) fun _ => .bind (.bind (timeVec_free _ _ _) fun _ => .pure _) fun _ =>
    .bind (.bind (timeVec_free _ _ _) fun _ => .pure _) fun _ =>
    .bind (.bind (branch_free _) fun _ => .pure _) fun _ =>
    .ite (.bind (.fail _ _ _) fun _ => .pure _) (.bind (.forM (fun i s => ?_) _ _) fun _ =>
      .bind (.forM (fun i s => ?_) _ _) fun _ => .bind (.pure _) fun _ => ?_)
  · simp only [exec_bind, exec_get, exec_lift, exec_set]
    exact .bind (.pure _) fun _ => .bind (.bind (idx_free _ _) fun _ => .pure _) fun _ =>
      .bind (.bind (idx_free _ _) fun _ => .pure _) fun _ =>
      .bind (.bind (branch_free _) fun _ => .pure _) fun _ =>
      .bind (.bind (doubleIf_free _ _) fun _ => .pure _) fun _ =>
      .bind (.bind (add_free _ _) fun _ => .pure _) fun _ => .pure _
  · simp only [exec_bind, exec_get, exec_lift, exec_set]
    exact .bind (.pure _) fun _ => .bind (.bind (removeFirst_free _) fun _ => .pure _) fun _ =>
      .pure _
  · rw [exec_set]; exact .pure _

theorem scanDup_free (pf : Profile) (d : Nat) (v : TimeVec) (ssk : List (SubSecretKey G1 G2))
    (js : List Nat) : Free (scanDup pf d v ssk js) := by
  induction js with
  | nil => exact .pure _
  | cons j js ih =>
    exact .bind (idx_free _ _) fun _ => .bind (timeVec_free _ _ _) fun _ =>
      .bind (branch_free _) fun _ => .ite (.pure _) ih

theorem dropUntil_free (t : Nat) (l : List (SubSecretKey G1 G2)) : Free (dropUntil t l) := by
  induction l with
  | nil => exact .bind (.tick (by simp)) fun _ => .res _
  | cons s l ih =>
    exact .bind (.tick (by simp)) fun _ => .bind (branch_free _) fun _ =>
      .ite (.bind (.tick (by simp)) fun _ => ih) (.pure _)

theorem findAncestor_free (sk : SecretKey G1 G2) (t : Nat) : Free (findAncestor sk t) := by
  unfold findAncestor
  exact .bind (branch_free _) fun _ => .ite (.fail _ _ _) (.bind (idx_free _ _) fun _ =>
    .bind (branch_free _) fun _ => .ite (.fail _ _ _) (.bind (.foldlM (fun _ _ =>
      .bind (idx_free _ _) fun _ => .bind (branch_free _) fun _ => .ite (.pure _) (.pure _)) _ _)
      fun _ => .pure _))

theorem firstSsk_free (sk : SecretKey G1 G2) : Free (firstSsk sk) :=
  .bind (branch_free _) fun _ => .ite (.fail _ _ _) (idx_free _ _)

theorem lastHvectorCoeff_free (s : SubSecretKey G1 G2) : Free (lastHvectorCoeff s) :=
  .bind (branch_free _) fun _ => .ite (.res _) (idx_free _ _)

/-! ## key generation and signing -/

theorem sskInit_spent (pp : PubParam G1 G2) (alpha : G1) (r : Fr) :
    Spent (2 + ((pp.hlist.take (pp.depth + 1)).drop 1).length) (sskInit pp alpha r) := by
  unfold sskInit
  rw [Nat.add_assoc 1 1]
  refine .bind (mul_spent _ _) fun _ _ => .free (idx_free _ _) fun _ _ =>
    .bind (mul_spent _ _) fun _ _ => .free (add_free _ _) fun _ _ => ?_
  have := Spent.bind (f := fun hv => (pure { time := 1, g2r := ‹G2›, hpoly := ‹G1›, hvector := hv } :
    TR (SubSecretKey G1 G2)))
    (Spent.mapM (fun e => mul_spent r e) ((pp.hlist.take (pp.depth + 1)).drop 1))
    fun _ _ => Spent.pure _
  rw [Nat.mul_one, Nat.add_zero] at this
  exact this

theorem masterKeyGen_spent (E : Ext G1 G2 GT) (seed : Bytes) (pp : PubParam G1 G2) :
    Spent 3 (masterKeyGen E seed pp) := by
  unfold masterKeyGen
  refine .free (branch_free _) fun _ _ => .ite (fun _ => .fail _ _ _) fun _ =>
    .free (branch_free _) fun _ _ => .ite (fun _ => .fail _ _ _) fun _ =>
    .free (prngInit_free _ _ _) fun _ _ => .free (sampleThenUpdate_free _ _ _) fun _ _ =>
    Spent.bind (n := 1) (m := 2) (mul_spent _ _) fun _ _ => .free (.tick (by simp)) fun _ _ =>
    Spent.bind (n := 1) (m := 1) (mul_spent _ _) fun _ _ =>
    Spent.bind (n := 1) (m := 0) (mul_spent _ _) fun _ _ => .pure _

theorem skInit_spent (sha : Bytes → Bytes) (pp : PubParam G1 G2) (alpha : G1) (p : Prng) :
    Spent (2 + ((pp.hlist.take (pp.depth + 1)).drop 1).length) (skInit sha pp alpha p) := by
  unfold skInit
  refine .free (branch_free _) fun _ _ => .ite (fun _ => .fail _ _ _) fun _ =>
    .free (sampleThenUpdate_free _ _ _) fun q _ => ?_
  rw [← Nat.add_zero (2 + _)]
  exact .bind (sskInit_spent pp alpha q.1) fun _ _ => .pure _

theorem keygen_spent (E : Ext G1 G2 GT) (seed : Bytes) (pp : PubParam G1 G2) :
    Spent (5 + ((pp.hlist.take (pp.depth + 1)).drop 1).length) (keygen E seed pp) := by
  unfold keygen
  refine .free (branch_free _) fun _ _ => .ite (fun _ => .fail _ _ _) fun _ => ?_
  rw [show ∀ k, 5 + k = 3 + (2 + k) by intro; omega]
  refine .bind (masterKeyGen_spent _ _ _) fun _ _ => .free (branch_free _) fun _ _ =>
    .ite (fun _ => .fail _ _ _) fun _ => ?_
  rw [← Nat.add_zero (2 + _)]
  exact .bind (skInit_spent _ _ _ _) fun _ _ => .pure _

theorem signFr_spent (pf : Profile) (sk : SecretKey G1 G2) (t : Nat) (pp : PubParam G1 G2)
    (m r : Fr) : Spent 4 (signFr pf sk t pp m r) := by
  unfold signFr
  refine .free (check_free _) fun _ _ => .free (firstSsk_free _) fun _ _ =>
    .free (timeVec_free _ _ _) fun _ _ => Spent.bind (n := 1) (m := 3) (mul_spent _ _) fun _ _ =>
    .free (add_free _ _) fun _ _ => .free (idx_free _ _) fun _ _ => .free (nodeSum_free _ _ _)
    fun _ _ => .free (idx_free _ _) fun _ _ => Spent.bind (n := 1) (m := 2) (mul_spent _ _)
    fun _ _ => .free (add_free _ _) fun _ _ => Spent.bind (n := 1) (m := 1) (mul_spent _ _)
    fun _ _ => .free (lastHvectorCoeff_free _) fun _ _ =>
    Spent.bind (n := 1) (m := 0) (mul_spent _ _) fun _ _ => .free (add_free _ _) fun _ _ =>
    .free (add_free _ _) fun _ _ => .pure _

theorem signBytes_spent (sha : Bytes → Bytes) (pf : Profile) (sk : SecretKey G1 G2) (t : Nat)
    (pp : PubParam G1 G2) (msg : Bytes) : Spent 4 (signBytes sha pf sk t pp msg) := by
  unfold signBytes
  exact .free (branch_free _) fun _ _ => .ite (fun _ => .fail _ _ _) fun _ =>
    .free (branch_free _) fun _ _ => .ite (fun _ => .fail _ _ _) fun _ =>
    .free (check_free _) fun _ _ => .free (sample_free _ _ _) fun _ _ =>
    .free (.tick (by simp)) fun _ _ => .free (os2ipModP_free _) fun _ _ => signFr_spent _ _ _ _ _ _

theorem signPresent_spent (sha : Bytes → Bytes) (pf : Profile) (t : Nat) (pp : PubParam G1 G2)
    (msg : Bytes) (sk : SecretKey G1 G2) : Spent 4 ((signPresent sha pf t pp msg).exec sk) := by
  unfold signPresent
  simp only [exec_bind, exec_get, exec_lift, exec_ite]
  refine .free (.pure _) fun _ _ => .free (.bind (branch_free _) fun _ => .pure _) fun _ _ =>
    .ite (fun _ => ?_) fun _ => Spent.bind (n := 4) (m := 0) (signBytes_spent _ _ _ _ _ _)
      fun _ _ => .pure _
  exact Spent.bind (n := 4) (m := 0) (.fail _ _ _) fun _ _ => .pure _

/-! ## re-randomisation -/

theorem randomization_spent (pf : Profile) (pp : PubParam G1 G2) (r : Fr)
    (s : SubSecretKey G1 G2) :
    Spent (2 + s.hvector.length) ((randomization pf pp r).exec s) := by
  unfold randomization
  simp only [exec_bind, exec_get, exec_lift, exec_set, pure_bind, bind_assoc]
  rw [Nat.add_assoc 1 1]
  refine .bind (mul_spent _ _) fun _ _ => .free (add_free _ _) fun _ _ =>
    .free (timeVec_free _ _ _) fun _ _ => .free (idx_free _ _) fun _ _ =>
    .free (nodeSum_free _ _ _) fun _ _ => .bind (mul_spent _ _) fun _ _ =>
    .free (add_free _ _) fun _ _ => ?_
  refine Spent.forM_range fun i q => ?_
  simp only [exec_bind, exec_get, exec_lift, exec_set, pure_bind, bind_assoc]
  exact .free (idx_free _ _) fun _ _ => Spent.bind (n := 1) (m := 0) (mul_spent _ _) fun _ _ =>
    .free (idx_free _ _) fun _ _ => .free (add_free _ _) fun _ _ => .pure _

namespace Post

variable {α β : Type}

theorem bind {x : TR α} {f : α → TR β} {P : α → Nat → Prop} {Q : β → Nat → Prop} (h : Post x P)
    (h' : ∀ a n, P a n → Post (f a) (fun b m => Q b (n + m))) : Post (x >>= f) Q := by
  intro b hb
  change (TR.bind x f).out = _ at hb
  change Q b (muls (TR.bind x f).trace)
  unfold TR.bind at hb ⊢
  cases hx : x.out with
  | ok a =>
    rw [hx] at hb
    simp only [muls_append] at hb ⊢
    exact h' a _ (h a hx) b hb
  | err e => rw [hx] at hb; cases hb
  | panic p => rw [hx] at hb; cases hb

/-- a first step without multiplications -/
theorem free {x : TR α} {f : α → TR β} {Q : β → Nat → Prop} (h : Free x)
    (h' : ∀ a, x.out = .ok a → Post (f a) Q) : Post (x >>= f) Q := by
  refine bind (P := fun a n => n = 0 ∧ x.out = .ok a) (fun a ha => ⟨h, ha⟩) fun a n hn => ?_
  rw [hn.1]
  simp only [Nat.zero_add]
  exact h' a hn.2

theorem pure {a : α} {Q : α → Nat → Prop} (h : Q a 0) : Post (Pure.pure a : TR α) Q := by
  intro b hb
  cases hb
  exact h

theorem fail {e : Err} {t : String} {l : List Nat} {Q : α → Nat → Prop} :
    Post (TR.fail e t l : TR α) Q := fun _ h => by cases h

theorem err {e : Err} {Q : α → Nat → Prop} : Post (TR.res (.err e) : TR α) Q := fun _ h => by cases h

theorem ite {c : Prop} [Decidable c] {x y : TR α} {Q : α → Nat → Prop} (hx : c → Post x Q)
    (hy : ¬ c → Post y Q) : Post (if c then x else y) Q := by
  split
  · exact hx ‹_›
  · exact hy ‹_›

theorem mono {x : TR α} {P Q : α → Nat → Prop} (h : Post x P) (h' : ∀ a n, P a n → Q a n) :
    Post x Q := fun a ha => h' _ _ (h a ha)

theorem spent {x : TR α} {n : Nat} (h : Spent n x) : Post x (fun _ m => m = n) := h.2

theorem and {x : TR α} {P Q : α → Nat → Prop} (h : Post x P) (h' : Post x Q) :
    Post x (fun a n => P a n ∧ Q a n) := fun a ha => ⟨h a ha, h' a ha⟩

theorem skip {x : TR α} {f : α → TR β} {Q : β → Nat → Prop}
    (h' : ∀ a n, Post (f a) (fun b m => Q b (n + m))) : Post (x >>= f) Q :=
  bind (P := fun _ _ => True) (fun _ _ => trivial) fun a n _ => h' a n

theorem forM {σ : Type} {f : α → TS σ PUnit} {P : σ → Prop}
    (h : ∀ a s, P s → Post ((f a).exec s) (fun q _ => P q.2)) (l : List α) (s : σ) (hs : P s) :
    Post ((l.forM f).exec s) (fun q _ => P q.2) := by
  induction l generalizing s with
  | nil => exact pure hs
  | cons a l ih =>
    change Post ((f a >>= fun _ => l.forM f).exec s) _
    rw [exec_bind]
    exact bind (h a s hs) fun q _ hq => ih _ hq

end Post

theorem randomization_length (pf : Profile) (pp : PubParam G1 G2) (r : Fr)
    (s : SubSecretKey G1 G2) :
    Post ((randomization pf pp r).exec s) (fun q _ => q.2.hvector.length = s.hvector.length) := by
  unfold randomization
  simp only [exec_bind, exec_get, exec_lift, exec_set, pure_bind, bind_assoc]
  refine .skip fun _ _ => .skip fun _ _ => .skip fun _ _ => .skip fun _ _ => .skip fun _ _ =>
    .skip fun _ _ => .skip fun _ _ => ?_
  refine Post.forM (P := fun q : SubSecretKey G1 G2 => q.hvector.length = s.hvector.length) (fun i q hq => ?_) _ _ rfl
  simp only [exec_bind, exec_get, exec_lift, exec_set, pure_bind, bind_assoc]
  exact .skip fun _ _ => .skip fun _ _ => .skip fun _ _ => .skip fun _ _ => .pure (by simpa using hq)

/-! ## updates -/

/-- multiplications to re-randomise one sub key -/
def weight (s : SubSecretKey G1 G2) : Nat := s.hvector.length + 2

/-- multiplications to re-randomise some sub keys -/
def total (l : List (SubSecretKey G1 G2)) : Nat := (l.map weight).sum

@[simp] theorem total_nil : total ([] : List (SubSecretKey G1 G2)) = 0 := rfl
@[simp] theorem total_cons (s : SubSecretKey G1 G2) (l) : total (s :: l) = weight s + total l := rfl
@[simp] theorem total_append (l m : List (SubSecretKey G1 G2)) :
    total (l ++ m) = total l + total m := by simp [total]

theorem rerandStep_post (sha : Bytes → Bytes) (pf : Profile) (pp : PubParam G1 G2) (p : Prng)
    (sk : SecretKey G1 G2) (s : SubSecretKey G1 G2) :
    Post (rerandStep sha pf pp p sk s) (fun q n => q.1.ssk = sk.ssk ∧ n = weight s ∧
      weight q.2 = weight s) := by
  unfold rerandStep
  refine .free (sampleThenUpdate_free _ _ _) fun q _ => .free (prngEq_free _ _) fun _ _ =>
    .free (.res _) fun _ _ => ?_
  refine .bind (.and (.spent (randomization_spent pf pp q.1 s)) (randomization_length pf pp q.1 s))
    fun a n hn => .pure ⟨rfl, ?_, ?_⟩
  · rw [hn.1, weight]; omega
  · simp only [weight]; rw [hn.2]

theorem vecInsert_ok {α : Type} {l l' : List α} {i : Nat} {x : α}
    (h : Pixel.vecInsert l i x = .ok l') : i ≤ l.length ∧ l' = l.take i ++ x :: l.drop i := by
  unfold Pixel.vecInsert at h
  split at h
  · exact ⟨‹_›, by cases h; rfl⟩
  · cases h

/-- from the second round on: every new sub key has been re-randomised, and the sub keys before it
stay where they are -/
theorem updateLoop_later (sha : Bytes → Bytes) (pf : Profile) (pp : PubParam G1 G2) (p : Prng)
    (l : List TimeVec) (i : Nat) (hi : i ≠ 0) (sk : SecretKey G1 G2) (hl : i + 1 ≤ sk.ssk.length) :
    Post (updateLoop sha pf pp p i l sk) (fun sk' n => n + total sk.ssk = total sk'.ssk ∧
      sk'.ssk.take (i + 1) = sk.ssk.take (i + 1)) := by
  induction l generalizing i sk with
  | nil => exact .pure ⟨by simp, rfl⟩
  | cons v l ih =>
    unfold updateLoop
    refine .free (scanDup_free _ _ _ _ _) fun found _ => .ite (fun _ => .pure ⟨by simp, rfl⟩)
      fun _ => .free (idx_free _ _) fun s _ => .free (delegate_free _ _ _ _) fun q _ =>
      .free (branch_free _) fun c hc => ?_
    have hc' : c = true := by
      rw [out_branch] at hc
      cases hc
      simpa using hi
    rw [if_pos hc']
    refine .bind (rerandStep_post _ _ _ _ _ _) fun a n hn => ?_
    obtain ⟨a1, a2, a3⟩ := hn
    refine .free (vecInsert_free _ _ _) fun ssk hs => ?_
    rw [out_vecInsert, a1] at hs
    obtain ⟨b1, b2⟩ := vecInsert_ok hs
    have htot : total ssk = total sk.ssk + weight a.2 := by
      rw [b2, total_append, total_cons]
      have := total_append (sk.ssk.take (i + 1)) (sk.ssk.drop (i + 1))
      rw [List.take_append_drop] at this
      omega
    have hlen : i + 1 + 1 ≤ ssk.length := by
      rw [b2]; simp; omega
    refine (ih (i + 1) (by omega) { a.1 with ssk := ssk } hlen).mono fun sk' m hm => ⟨?_, ?_⟩
    · have := hm.1
      simp only at this
      omega
    · have := congrArg (List.take (i + 1)) hm.2
      simp only [List.take_take] at this
      rw [Nat.min_eq_left (by omega)] at this
      rw [this, b2, List.take_append_of_le_length (by simp; omega), List.take_take, Nat.min_self]

/-- the whole loop -/
theorem updateLoop_post (sha : Bytes → Bytes) (pf : Profile) (pp : PubParam G1 G2) (p : Prng)
    (l : List TimeVec) (sk : SecretKey G1 G2) (s0 : SubSecretKey G1 G2)
    (SB : List (SubSecretKey G1 G2)) (hs : sk.ssk = s0 :: SB) :
    Post (updateLoop sha pf pp p 0 l sk) (fun sk' n => sk'.ssk = s0 :: SB ∨
      ∃ s rest, sk'.ssk = s0 :: s :: rest ∧ n + total SB = total rest) := by
  cases l with
  | nil => exact .pure (.inl hs)
  | cons v l =>
    unfold updateLoop
    refine .free (scanDup_free _ _ _ _ _) fun found _ => .ite (fun _ => .pure (.inl hs))
      fun _ => .free (idx_free _ _) fun s _ => .free (delegate_free _ _ _ _) fun q _ =>
      .free (branch_free _) fun c hc => ?_
    have hc' : ¬ c = true := by
      rw [out_branch] at hc
      cases hc
      simp
    rw [if_neg hc']
    refine .free (.pure _) fun a ha => ?_
    cases ha
    refine .free (vecInsert_free _ _ _) fun ssk hv => ?_
    rw [out_vecInsert, hs] at hv
    obtain ⟨b1, b2⟩ := vecInsert_ok hv
    simp only [Nat.zero_add, List.take_succ_cons, List.take_zero, List.drop_succ_cons,
      List.drop_zero, List.cons_append, List.nil_append] at b2
    refine (updateLoop_later sha pf pp p l 1 (by omega) { sk with ssk := ssk }
      (by rw [b2]; simp)).mono fun sk' m hm => .inr ?_
    obtain ⟨h1, h2⟩ := hm
    simp only [b2, List.take_succ_cons, List.take_zero] at h1 h2
    obtain ⟨rest, hr⟩ : ∃ rest, sk'.ssk = s0 :: q.2 :: rest :=
      ⟨sk'.ssk.drop 2, by
        conv_lhs => rw [← List.take_append_drop 2 sk'.ssk]
        rw [h2]; rfl⟩
    refine ⟨q.2, rest, hr, ?_⟩
    rw [hr] at h1
    simp only [total_cons] at h1
    omega

theorem muls_update_exec (sha : Bytes → Bytes) (pf : Profile) (pp : PubParam G1 G2) (tar : Nat)
    (seed : Bytes) (sk : SecretKey G1 G2) :
    Post ((update sha pf pp tar seed).exec sk) (fun q n => ∃ t0 l,
      SecretKey.findAncestor sk tar = .ok t0 ∧ SecretKey.dropUntil t0 sk.ssk = .ok l ∧
      ((t0 = tar ∧ n = 0) ∨ (t0 ≠ tar ∧ ∀ s0 SB, l = s0 :: SB → (q.2.ssk = SB ∨
        ∃ s rest, q.2.ssk = s :: rest ∧ n + total SB = total rest)))) := by
  unfold update
  simp only [exec_bind, exec_get, exec_lift, exec_set, exec_ite, exec_err, exec_pure, pure_bind,
    bind_assoc]
  refine .free (branch_free _) fun _ _ => .ite (fun _ => .err) fun _ => .free (.res _) fun _ _ =>
    .free (.res _) fun _ _ => .free (branch_free _) fun _ _ =>
    .ite (fun _ => .free (.fail _ _ _) fun _ h => by cases h) fun _ =>
    .free (findAncestor_free _ _) fun t0 h0 => .free (rerandomize_free _ _ _ _) fun p _ =>
    .free (dropUntil_free _ _) fun l hl => .free (branch_free _) fun _ _ =>
    .ite (fun _ => .free (.fail _ _ _) fun _ h => by cases h) fun _ =>
    .free (branch_free _) fun c hc => ?_
  rw [out_findAncestor] at h0
  rw [out_dropUntil] at hl
  rw [out_branch] at hc
  cases hc
  refine .ite (fun hc => .pure ⟨t0, l, h0, hl, .inl ⟨by simpa using hc, rfl⟩⟩) fun hc => ?_
  have hne : t0 ≠ tar := by simpa using hc
  refine .free (timeVec_free _ _ _) fun _ _ => .free (gammaList_free _ _ _) fun gl _ => ?_
  cases l with
  | nil =>
    refine .skip fun _ _ => .skip fun _ _ => .skip fun _ _ => .pure
      ⟨t0, [], h0, hl, .inr ⟨hne, fun _ _ h => by cases h⟩⟩
  | cons s0 SB =>
    refine .bind (updateLoop_post sha pf pp sk.prng gl _ s0 SB rfl) fun sk' n hn => ?_
    refine .free (removeFirst_free _) fun ssk hr => .free (idx_free _ _) fun _ _ => .pure
      ⟨t0, s0 :: SB, h0, hl, .inr ⟨hne, fun a b hab => ?_⟩⟩
    cases hab
    rw [out_removeFirst] at hr
    rcases hn with hn | ⟨s, rest, hn, e⟩
    · rw [hn] at hr
      cases hr
      exact .inl rfl
    · rw [hn] at hr
      cases hr
      exact .inr ⟨s, rest, rfl, by omega⟩

/-! ## the tree -/

/-- multiplications for new sub keys at some nodes -/
def nodeCost (d : Nat) (l : List (List Nat)) : Nat := (l.map (fun w => d - w.length + 2)).sum

@[simp] theorem nodeCost_nil (d : Nat) : nodeCost d [] = 0 := rfl
@[simp] theorem nodeCost_cons (d : Nat) (w : List Nat) (l) :
    nodeCost d (w :: l) = d - w.length + 2 + nodeCost d l := rfl
@[simp] theorem nodeCost_append (d : Nat) (l m : List (List Nat)) :
    nodeCost d (l ++ m) = nodeCost d l + nodeCost d m := by simp [nodeCost]

theorem height_num {d : Nat} {v : List Nat} (h : IsNode d v) : height d (num d v) = d - v.length := by
  induction v generalizing d with
  | nil =>
    obtain ⟨d', rfl⟩ : ∃ d', d = d' + 1 := ⟨d - 1, by have := isNode_pos h; omega⟩
    simp [height]
  | cons x w ih =>
    obtain ⟨d', rfl, hx, hw⟩ := isNode_cons_pos h
    have hb := num_bounds hw
    have hp1 : 1 ≤ 2 ^ d' := Nat.one_le_two_pow
    rcases hx with rfl | rfl
    · rw [num_one, height, if_neg (by omega), if_pos (by omega),
        show 1 + num d' w - 1 = num d' w by omega, ih hw]
      simp
    · rw [num_two, height, if_neg (by omega), if_neg (by omega),
        show 2 ^ d' + num d' w - 2 ^ d' = num d' w by omega, ih hw]
      simp

theorem updateCost_eq {d : Nat} {v g w : List Nat} (hv : IsNode d v) (hu : IsNode d (g ++ w))
    {A : List (List Nat)} (h : gam v = A ++ g :: sibs g) :
    updateCost d (num d v) (num d (g ++ w)) = nodeCost d ((sibs w).map (g ++ ·)) := by
  by_cases hw : w = []
  · subst hw
    rw [List.append_nil, updateCost, newTimes_self hv h]
    simp
  · rw [updateCost, newTimes_below hv hu hw h, List.tail_cons, List.map_map, nodeCost]
    congr 1
    apply List.map_congr_left
    intro a ha
    simp only [Function.comp]
    rw [height_num]
    apply sibs_isNode hu
    rw [sibs_append]
    exact List.mem_append_left _ ha

/-- the same, with the costs of all sub keys -/
theorem updateCost_add {d : Nat} {v g u : List Nat} (hv : IsNode d v) (hu : IsNode d u)
    {A : List (List Nat)} (h : gam v = A ++ g :: sibs g) (hg : g <+: u) :
    updateCost d (num d v) (num d u) + nodeCost d (sibs g) = nodeCost d (sibs u) := by
  obtain ⟨w, rfl⟩ := hg
  rw [updateCost_eq hv hu h, sibs_append, nodeCost_append]

theorem total_eq {pp : PubParam G1 G2} (S : ParamShape pp) {alpha : G1} {l : List (List Nat)}
    {m : List (SubSecretKey G1 G2)} (h : List.Forall₂ (SubAt pp alpha) l m) :
    total m = nodeCost pp.depth l := by
  induction h with
  | nil => rfl
  | cons h1 _ ih =>
    obtain ⟨r, hr⟩ := h1
    rw [total_cons, nodeCost_cons, ih, weight, hr.hvector_length S]

/-- the multiplications of a successful update of an honest key -/
theorem update_muls {sha : Bytes → Bytes} (hsha : ∀ m, (sha m).length = 64)
    (pf : Profile) {pp : PubParam G1 G2} (S : ParamShape pp) {alpha : G1} {t tar : Nat}
    {sk sk' : SecretKey G1 G2} (h : KeyFor pp alpha t sk) (seed : Bytes)
    (hu : (update sha pf pp tar seed sk).1 = (.ok (), sk')) :
    KeyFor pp alpha tar sk' ∧ t < tar ∧ tar ≤ 2 ^ pp.depth - 1 ∧
      muls (update sha pf pp tar seed sk).2 = updateCost pp.depth t tar := by
  have hf : SecretKey.update sha pf pp tar seed sk = (.ok (), sk') := by
    rw [← hu, ← forget_update]
    rfl
  have hout := Props.C15_update_outcome hsha pf S h tar seed
  have hlt : t < tar ∧ tar ≤ 2 ^ pp.depth - 1 := by
    by_contra hc
    have := hout.1 hc
    rw [hf] at this
    cases this
  have hk' : KeyFor pp alpha tar sk' := by
    rcases hout.2 hlt with ⟨sk1, e, k⟩ | ⟨e, _⟩
    · rw [hf] at e
      cases e
      exact k
    · rw [hf] at e
      cases e
  refine ⟨hk', hlt.1, hlt.2, ?_⟩
  obtain ⟨v, hv, k⟩ := keyFor_iff.1 h
  obtain ⟨u, hu', k'⟩ := keyFor_iff.1 hk'
  have ht : num pp.depth v = t := by rw [← nodeAt_num_eq hv]
  have htar : num pp.depth u = tar := by rw [← nodeAt_num_eq hu']
  obtain ⟨A, g, hAg, hgu, hA, hgle, hB⟩ := SecretKey.gam_find k.node k'.node (by omega)
  have hss := k.ssk
  rw [hAg] at hss
  obtain ⟨SA, SR, hsk, hSA, hSR⟩ := forall₂_append_left hss
  cases hSR with
  | @cons _ sg _ SB hsg hSB =>
  have tA : ∀ s ∈ SA, s.time < num pp.depth g := by
    intro s hs
    obtain ⟨a, ha, hr⟩ := forall₂_mem_right hSA hs
    rw [hr.time_eq]; exact hA a ha
  have tB : ∀ s ∈ SB, num pp.depth u < s.time := by
    intro s hs
    obtain ⟨a, ha, hr⟩ := forall₂_mem_right hSB hs
    rw [hr.time_eq]; exact hB a ha
  have hhead : ∀ s, sk.ssk.head? = some s → s.time < num pp.depth u := by
    intro s hs
    have h1 := k.ssk
    cases hc : sk.ssk with
    | nil => rw [hc] at hs; cases hs
    | cons a l =>
      rw [hc] at hs h1
      cases hs
      cases h1 with
      | cons h2 _ => rw [h2.time_eq]; omega
  have hfa : SecretKey.findAncestor sk tar = .ok (num pp.depth g) := by
    rw [← hsg.time_eq, ← htar]
    exact SecretKey.findAncestor_eq hsk (by rw [hsg.time_eq]; exact hgle) tB hhead
  have hdrop : SecretKey.dropUntil (num pp.depth g) sk.ssk = .ok (sg :: SB) := by
    rw [hsk]
    exact SecretKey.dropUntil_eq (fun s hs => by have := tA s hs; omega) hsg.time_eq
  have hadd := updateCost_add k.node k'.node hAg hgu
  rw [ht, htar] at hadd
  have hex : ((update sha pf pp tar seed).exec sk).out = .ok ((), sk') := by
    simp only [TS.exec, hu]
  obtain ⟨t0, l, h1, h2, h3⟩ := muls_update_exec sha pf pp tar seed sk _ hex
  change _ ∨ _ at h3
  have htr : ((update sha pf pp tar seed).exec sk).trace = (update sha pf pp tar seed sk).2 := rfl
  rw [htr] at h3
  rw [hfa] at h1
  cases h1
  rw [hdrop] at h2
  cases h2
  rcases h3 with ⟨e1, e2⟩ | ⟨e1, e2⟩
  · have : g = u := num_inj hsg.isNode k'.node (by omega)
    subst this
    omega
  · have hs' := k'.ssk
    rw [gam] at hs'
    rcases e2 sg SB rfl with e3 | ⟨s, rest, e3, e4⟩
    · exfalso
      simp only at e3
      rw [e3] at hs'
      cases hs' with
      | cons x1 x2 =>
        have := tB _ List.mem_cons_self
        rw [x1.time_eq] at this
        omega
    · simp only at e3
      rw [e3] at hs'
      cases hs' with
      | cons x1 x2 =>
        rw [total_eq S hSB, total_eq S x2] at e4
        omega

/-! ## closed forms -/

theorem updateCost_next {d t : Nat} (h1 : 1 ≤ t) (h2 : t + 1 ≤ 2 ^ d - 1) :
    updateCost d t (t + 1) = if height d t = 1 then 0 else height d t + 1 := by
  have hv : ValidTime d t := ⟨h1, by omega⟩
  have hu : ValidTime d (t + 1) := ⟨by omega, h2⟩
  have hvn := path_isNode hv
  have hun := path_isNode hu
  have ev := num_path hv
  have eu := num_path hu
  generalize path d t = v at *
  generalize path d (t + 1) = u at *
  have hh : height d t = d - v.length := by rw [← ev, height_num hvn]
  obtain ⟨A, g, hAg, hgu, hA, hgle, hB⟩ := SecretKey.gam_find hvn hun (by omega)
  have hl := hvn.1
  rw [hh]
  by_cases hleaf : d - v.length = 1
  · rw [if_pos hleaf]
    have : g = u := by
      by_contra hne
      obtain ⟨w, rfl⟩ := hgu
      have hw : w ≠ [] := by rintro rfl; simp at hne
      have hlt := num_lt_of_append hun hw
      have hg : g ∈ gam v := by rw [hAg]; simp
      rw [gam, List.mem_cons] at hg
      rcases hg with rfl | hg
      · have := hun.1
        rw [List.length_append] at this
        have := List.length_pos_of_ne_nil hw
        omega
      · have := gam_num_lt hvn hg
        omega
    subst this
    have := updateCost_add hvn hun hAg (List.prefix_refl _)
    rw [ev, eu] at this
    omega
  · rw [if_neg hleaf]
    have hc : IsNode d (v ++ [1]) := by
      refine ⟨by simp; omega, fun x hx => ?_⟩
      rw [List.mem_append, List.mem_singleton] at hx
      rcases hx with hx | rfl
      · exact hvn.2 x hx
      · exact .inl rfl
    have e1 : num d (v ++ [1]) = t + 1 := by
      have := num_append hc
      rw [ev] at this
      obtain ⟨k, hk⟩ : ∃ k, d - v.length = k + 1 := ⟨d - v.length - 1, by omega⟩
      rw [hk, num_one, num_nil] at this
      omega
    have := updateCost_eq (A := []) hvn hc (v := v) (g := v) (w := [1]) rfl
    rw [ev, e1] at this
    rw [this]
    simp
    omega

theorem nodeCost_map_cons (d x : Nat) (l : List (List Nat)) :
    nodeCost (d + 1) (l.map (x :: ·)) = nodeCost d l := by
  induction l with
  | nil => rfl
  | cons a l ih => simp only [List.map_cons, nodeCost_cons, ih, List.length_cons]; omega

theorem nodeCost_sibs_le {d : Nat} {u : List Nat} (h : IsNode d u) :
    2 * nodeCost d (sibs u) + 4 ≤ d * (d + 3) := by
  induction u generalizing d with
  | nil =>
    obtain ⟨d', rfl⟩ : ∃ d', d = d' + 1 := ⟨d - 1, by have := isNode_pos h; omega⟩
    simp
    nlinarith
  | cons x w ih =>
    obtain ⟨d', rfl, hx, hw⟩ := isNode_cons_pos h
    have := ih hw
    rcases hx with rfl | rfl
    · rw [sibs_one, nodeCost_append, nodeCost_map_cons]
      simp
      nlinarith
    · rw [sibs, if_neg (by decide), nodeCost_map_cons]
      nlinarith

theorem updateCost_le {d t tar : Nat} (h1 : 1 ≤ t) (h2 : t ≤ tar) (h3 : tar ≤ 2 ^ d - 1) :
    2 * updateCost d t tar + 4 ≤ d * (d + 3) := by
  have hv : ValidTime d t := ⟨h1, by omega⟩
  have hu : ValidTime d tar := ⟨by omega, h3⟩
  have hvn := path_isNode hv
  have hun := path_isNode hu
  have ev := num_path hv
  have eu := num_path hu
  obtain ⟨A, g, hAg, hgu, -⟩ := SecretKey.gam_find hvn hun (by omega)
  have := updateCost_add hvn hun hAg hgu
  rw [ev, eu] at this
  have := nodeCost_sibs_le hun
  omega

/-- the costliest update: from time 1 to the leftmost leaf -/
theorem updateCost_leftmost {d : Nat} (h : 1 ≤ d) : 2 * updateCost d 1 d + 4 = d * (d + 3) := by
  have key : ∀ k, IsNode (k + 1) (List.replicate k 1) ∧ num (k + 1) (List.replicate k 1) = k + 1 ∧
      2 * nodeCost (k + 1) (sibs (List.replicate k 1)) + 4 = (k + 1) * (k + 1 + 3) := by
    intro k
    induction k with
    | zero => exact ⟨⟨by simp, by simp⟩, by simp, by simp⟩
    | succ k ih =>
      obtain ⟨i1, i2, i3⟩ := ih
      refine ⟨⟨by simp, fun x hx => .inl (List.eq_of_mem_replicate hx)⟩, ?_, ?_⟩
      · rw [List.replicate_succ, num_one, i2]; omega
      · rw [List.replicate_succ, sibs_one, nodeCost_append, nodeCost_map_cons]
        simp
        nlinarith
  obtain ⟨k, rfl⟩ : ∃ k, d = k + 1 := ⟨d - 1, by omega⟩
  obtain ⟨i1, i2, i3⟩ := key k
  have hr : IsNode (k + 1) [] := ⟨by simp, by simp⟩
  have := updateCost_add (A := []) hr i1 (g := []) rfl (List.nil_prefix)
  rw [num_nil, i2] at this
  simp at this
  omega

theorem updateCost_skip {d t s u : Nat} (h1 : 1 ≤ t) (h2 : t < s) (h3 : s < u) (h4 : u ≤ 2 ^ d - 1) :
    updateCost d t u ≤ updateCost d t s + updateCost d s u := by
  have hv : ValidTime d t := ⟨h1, by omega⟩
  have hs : ValidTime d s := ⟨by omega, by omega⟩
  have hu : ValidTime d u := ⟨by omega, h4⟩
  have hvn := path_isNode hv
  have hsn := path_isNode hs
  have hun := path_isNode hu
  have ev := num_path hv
  have es := num_path hs
  have eu := num_path hu
  generalize path d t = v at *
  generalize path d s = x at *
  generalize path d u = y at *
  obtain ⟨A, g, hAg, hgu, -⟩ := SecretKey.gam_find hvn hun (by omega)
  obtain ⟨A1, g1, hAg1, hgs, -⟩ := SecretKey.gam_find hvn hsn (by omega)
  obtain ⟨A2, g2, hAg2, hgu2, -⟩ := SecretKey.gam_find hsn hun (by omega)
  have c0 := updateCost_add hvn hun hAg hgu
  have c1 := updateCost_add hvn hsn hAg1 hgs
  have c2 := updateCost_add hsn hun hAg2 hgu2
  rw [ev, eu] at c0
  rw [ev, es] at c1
  rw [es, eu] at c2
  have mg : g ∈ gam v := by rw [hAg]; simp
  have mg1 : g1 ∈ gam v := by rw [hAg1]; simp
  have mg2 : g2 ∈ gam x := by rw [hAg2]; simp
  have hgn := gam_isNode hvn mg
  by_cases hc : g <+: x
  · have : g = g1 := gam_unique hvn hsn mg mg1 hc hgs
    subst this
    have : nodeCost d (sibs g2) ≤ nodeCost d (sibs x) := by
      cases A2 with
      | nil => rw [gam] at hAg2; cases hAg2; exact le_refl _
      | cons a A2 =>
        rw [gam, List.cons_append, List.cons.injEq] at hAg2
        rw [hAg2.2, nodeCost_append, nodeCost_cons]
        omega
    omega
  · have hlt : num d x < num d g := by
      have i1 := (ancestor_interval hgn hun).1 hgu
      by_contra hge
      exact hc ((ancestor_interval hgn hsn).2 ⟨by omega, by omega⟩)
    have mgx : g ∈ gam x := by
      rw [gam, List.mem_cons] at mg
      rcases mg with rfl | mg
      · omega
      · obtain ⟨a, b, e1, e2⟩ := mem_sibs.1 mg
        have hl1 : IsNode d (a ++ [1]) := by
          refine ⟨?_, fun z hz => hvn.2 z ?_⟩
          · have := hvn.1; rw [e1] at this; simp at this ⊢; omega
          · rw [e1]; simp at hz ⊢; tauto
        have hl2 : IsNode d (a ++ [2]) := e2 ▸ hgn
        have hle : (a ++ [1]) <+: v := ⟨b, by rw [e1]; simp⟩
        have i1 := (ancestor_interval hl1 hvn).1 hle
        have n1 := num_append hl1
        have n2 := num_append hl2
        obtain ⟨k, hk⟩ : ∃ k, d - a.length = k + 1 :=
          ⟨d - a.length - 1, by have := hl1.1; simp at this; omega⟩
        rw [hk, num_one, num_nil] at n1
        rw [hk, num_two, num_nil] at n2
        have hk' : d - (a ++ [1]).length = k := by simp; omega
        rw [hk'] at i1
        have : (a ++ [1]) <+: x := (ancestor_interval hl1 hsn).2 ⟨by omega, by
          rw [hk']; rw [e2] at hlt; omega⟩
        obtain ⟨b', rfl⟩ := this
        rw [gam, List.mem_cons]
        exact .inr (mem_sibs.2 ⟨a, b', by simp, e2⟩)
    have : g = g2 := gam_unique hsn hun mgx mg2 hgu hgu2
    subst this
    omega

/-- the costs of all nodes -/
def allCost (d : Nat) : Nat :=
  ((List.range (2 ^ d - 1)).map (fun k => if height d (k + 1) = 1 then 0 else height d (k + 1) + 1)).sum

theorem allCost_succ (d : Nat) (hd : 1 ≤ d) : allCost (d + 1) = d + 2 + 2 * allCost d := by
  have hp : 2 ^ (d + 1) - 1 = 1 + (2 ^ d - 1) + (2 ^ d - 1) := by
    have := Nat.one_le_two_pow (n := d)
    rw [Nat.pow_succ]; omega
  unfold allCost
  rw [hp, List.range_add, List.range_add, List.map_append, List.map_append, List.sum_append,
    List.sum_append, List.map_map, List.map_map]
  have e1 : ((List.range 1).map (fun k => if height (d + 1) (k + 1) = 1 then 0 else
      height (d + 1) (k + 1) + 1)).sum = d + 2 := by
    simp [height]; omega
  have e2 : ∀ k ∈ List.range (2 ^ d - 1), height (d + 1) (1 + k + 1) = height d (k + 1) := by
    intro k hk
    rw [List.mem_range] at hk
    rw [height, if_neg (by omega), if_pos (by omega)]
    congr 1; omega
  have e3 : ∀ k ∈ List.range (2 ^ d - 1),
      height (d + 1) (1 + (2 ^ d - 1) + k + 1) = height d (k + 1) := by
    intro k hk
    have := Nat.one_le_two_pow (n := d)
    have := Nat.pow_le_pow_right (show 0 < 2 by decide) hd
    rw [List.mem_range] at hk
    rw [height, if_neg (by omega), if_neg (by omega)]
    congr 1; omega
  rw [e1]
  rw [List.map_congr_left (l := List.range (2 ^ d - 1)) (g := fun k =>
    if height d (k + 1) = 1 then 0 else height d (k + 1) + 1)
    (fun k hk => by simp only [Function.comp]; rw [e2 k hk])]
  rw [List.map_congr_left (l := List.range (2 ^ d - 1))
    (f := _ ∘ _) (g := fun k =>
    if height d (k + 1) = 1 then 0 else height d (k + 1) + 1)
    (fun k hk => by simp only [Function.comp]; rw [e3 k hk])]
  omega

theorem allCost_eq (d : Nat) (hd : 1 ≤ d) : allCost d + d + 3 = 2 ^ (d + 1) := by
  induction d with
  | zero => omega
  | succ d ih =>
    by_cases h : d = 0
    · subst h; decide
    · have := ih (by omega)
      rw [allCost_succ d (by omega), Nat.pow_succ]
      omega

theorem lifetimeCost_eq {d : Nat} (hd : 1 ≤ d) : lifetimeCost d (2 ^ d - 2) + d + 3 = 2 ^ (d + 1) := by
  have h2 : 2 ^ 1 ≤ 2 ^ d := Nat.pow_le_pow_right (by decide) hd
  rw [← allCost_eq d hd]
  congr 2
  unfold lifetimeCost allCost
  rw [show 2 ^ d - 1 = 2 ^ d - 2 + 1 by omega, List.range_succ, List.map_append, List.sum_append]
  have hlast : height d (2 ^ d - 2 + 1) = 1 := by
    clear h2
    induction d with
    | zero => omega
    | succ d ih =>
      by_cases h : d = 0
      · subst h; decide
      · have := ih (by omega)
        have h2 : 2 ^ 1 ≤ 2 ^ d := Nat.pow_le_pow_right (by decide) (by omega)
        rw [height, if_neg (by rw [Nat.pow_succ]; omega), if_neg (by rw [Nat.pow_succ]; omega)]
        rwa [show 2 ^ (d + 1) - 2 + 1 - 2 ^ d = 2 ^ d - 2 + 1 by rw [Nat.pow_succ]; omega]
  rw [List.map_singleton, List.sum_singleton, hlast, if_pos rfl, Nat.add_zero]
  congr 1
  apply List.map_congr_left
  intro k hk
  rw [List.mem_range] at hk
  exact updateCost_next (by omega) (by omega)

end Pixel.Trace
