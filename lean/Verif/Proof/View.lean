import Verif.Spec.View
import Verif.Proof.Panic
import Verif.Proof.Lift
import Verif.Proof.Agg

/-! # What a user of the API sees: proofs -/

namespace Pixel

open Spec Props

set_option linter.unusedSectionVars false

variable {G1 G2 GT : Type} [AddCommGroup G1] [AddCommGroup G2] [CommGroup GT]
  {E : Ext G1 G2 GT} {pp : PubParam G1 G2} {sha : Bytes → Bytes}

/-! ## Bounds -/

theorem Spec.Watcher.sees_le_one (pf : Profile) (U : Watcher G1 G2) (hb : U.Bounded)
    (sk : SecretKey G1 G2) : U.sees sha pf pp sk ≤ 1 := by
  induction U generalizing sk with
  | toss n hn next ih =>
    have : Nonempty (Fin n) := ⟨⟨0, hn⟩⟩
    exact avg_le_one fun c => ih c (hb c) sk
  | call c next ih => exact ih _ (hb _) _
  | stop v => exact hb.2

theorem exponent_le_one {memo : List (Bytes × Fr)} {msg : Bytes} {f : Fr → List (Bytes × Fr) → ℚ}
    (h : ∀ r m, f r m ≤ 1) : exponent memo msg f ≤ 1 := by
  unfold exponent
  rcases memo.lookup msg with _ | r
  · exact avg_le_one fun r => h _ _
  · exact h _ _

theorem exponent_nonneg {memo : List (Bytes × Fr)} {msg : Bytes} {f : Fr → List (Bytes × Fr) → ℚ}
    (h : ∀ r m, 0 ≤ f r m) : 0 ≤ exponent memo msg f := by
  unfold exponent
  rcases memo.lookup msg with _ | r
  · exact avg_nonneg fun r => h _ _
  · exact h _ _

theorem imagine_bounds {x : Fr} {t : Nat} {memo : List (Bytes × Fr)}
    {k : Res (Option (Signature G1 G2)) → Nat → List (Bytes × Fr) → ℚ}
    (h : ∀ o t' m, 0 ≤ k o t' m ∧ k o t' m ≤ 1) (c : Call) :
    0 ≤ c.imagine sha pp x t memo k ∧ c.imagine sha pp x t memo k ≤ 1 := by
  rcases c with ⟨tar, seed⟩ | ⟨tar, msg, seed⟩ | ⟨tar, msg⟩ | ⟨tar, msg, seed⟩
  · simp only [Call.imagine]
    split_ifs <;> exact h _ _ _
  · simp only [Call.imagine]
    split_ifs
    · exact ⟨exponent_nonneg fun r m => (h _ _ _).1, exponent_le_one fun r m => (h _ _ _).2⟩
    · exact ⟨exponent_nonneg fun r m => (h _ _ _).1, exponent_le_one fun r m => (h _ _ _).2⟩
    · exact h _ _ _
  · simp only [Call.imagine]
    split_ifs
    · exact ⟨exponent_nonneg fun r m => (h _ _ _).1, exponent_le_one fun r m => (h _ _ _).2⟩
    · exact h _ _ _
  · simp only [Call.imagine]
    split_ifs
    · exact ⟨exponent_nonneg fun r m => (h _ _ _).1, exponent_le_one fun r m => (h _ _ _).2⟩
    · exact ⟨exponent_nonneg fun r m => (h _ _ _).1, exponent_le_one fun r m => (h _ _ _).2⟩
    · exact h _ _ _

theorem Spec.Watcher.imagines_bounds {x : Fr} (U : Watcher G1 G2) (hb : U.Bounded) (t : Nat)
    (memo : List (Bytes × Fr)) :
    0 ≤ U.imagines sha pp x t memo ∧ U.imagines sha pp x t memo ≤ 1 := by
  induction U generalizing t memo with
  | toss n hn next ih =>
    have : Nonempty (Fin n) := ⟨⟨0, hn⟩⟩
    exact ⟨avg_nonneg fun c => (ih c (hb c) t memo).1, avg_le_one fun c => (ih c (hb c) t memo).2⟩
  | call c next ih => exact imagine_bounds (fun o t' m => ih o (hb o) t' m) c
  | stop v => exact hb

/-! ## The opposite verdict -/

theorem avg_flip {α : Type} [Fintype α] [Nonempty α] (f : α → ℚ) :
    (avg fun a => 1 - f a) = 1 - avg f := by
  have h := avg_add (fun a => 1 - f a) f
  simp only [sub_add_cancel] at h
  rw [avg_const] at h
  linarith

theorem flip_bounded (U : Watcher G1 G2) (hb : U.Bounded) : U.flip.Bounded := by
  induction U with
  | toss n hn next ih => exact fun c => ih c (hb c)
  | call c next ih => exact fun o => ih o (hb o)
  | stop v => exact ⟨by have := hb.2; linarith, by have := hb.1; linarith⟩

theorem flip_calls (U : Watcher G1 G2) {u : Nat} (hu : U.Calls u) : U.flip.Calls u := by
  induction U generalizing u with
  | toss n hn next ih => exact fun c => ih c (hu c)
  | call c next ih => exact ⟨hu.1, fun o => ih o (hu.2 o)⟩
  | stop v => trivial

theorem flip_sees (pf : Profile) (U : Watcher G1 G2) (sk : SecretKey G1 G2) :
    U.flip.sees sha pf pp sk = 1 - U.sees sha pf pp sk := by
  induction U generalizing sk with
  | toss n hn next ih =>
    have : Nonempty (Fin n) := ⟨⟨0, hn⟩⟩
    simp only [Watcher.flip, Watcher.sees, ih]
    exact avg_flip _
  | call c next ih => exact ih _ _
  | stop v => rfl

theorem exponent_flip {memo : List (Bytes × Fr)} {msg : Bytes} (f : Fr → List (Bytes × Fr) → ℚ) :
    (exponent memo msg fun r m => 1 - f r m) = 1 - exponent memo msg f := by
  unfold exponent
  rcases memo.lookup msg with _ | r
  · exact avg_flip _
  · rfl

theorem exponent_congr {memo : List (Bytes × Fr)} {msg : Bytes} {f f' : Fr → List (Bytes × Fr) → ℚ}
    (h : ∀ r m, f r m = f' r m) : exponent memo msg f = exponent memo msg f' := by
  rw [show f = f' from funext fun r => funext fun m => h r m]

theorem imagine_flip {x : Fr} {t : Nat} {memo : List (Bytes × Fr)}
    (k : Res (Option (Signature G1 G2)) → Nat → List (Bytes × Fr) → ℚ) (c : Call) :
    (c.imagine sha pp x t memo fun o t' m => 1 - k o t' m) = 1 - c.imagine sha pp x t memo k := by
  rcases c with ⟨tar, seed⟩ | ⟨tar, msg, seed⟩ | ⟨tar, msg⟩ | ⟨tar, msg, seed⟩
  · simp only [Call.imagine]
    split_ifs <;> rfl
  · simp only [Call.imagine]
    split_ifs
    · exact exponent_flip _
    · exact exponent_flip _
    · rfl
  · simp only [Call.imagine]
    split_ifs
    · exact exponent_flip _
    · rfl
  · simp only [Call.imagine]
    split_ifs
    · exact exponent_flip _
    · exact exponent_flip _
    · rfl

theorem flip_imagines {x : Fr} (U : Watcher G1 G2) (t : Nat) (memo : List (Bytes × Fr)) :
    U.flip.imagines sha pp x t memo = 1 - U.imagines sha pp x t memo := by
  induction U generalizing t memo with
  | toss n hn next ih =>
    have : Nonempty (Fin n) := ⟨⟨0, hn⟩⟩
    simp only [Watcher.flip, Watcher.imagines, ih]
    exact avg_flip _
  | call c next ih =>
    simp only [Watcher.flip, Watcher.imagines, ih]
    exact imagine_flip _ c
  | stop v => rfl

/-! ## With the functions of the model -/

theorem sees_le_watch (H : HashLaws E) (L : GroupLaws E) (pf : Profile) (W : ParamWF E pp)
    (hc : Supported pp.ciphersuite) {x : Fr} (U : Watcher G1 G2) (hb : U.Bounded) {t : Nat}
    {rho : List Fr} {sk : SecretKey G1 G2} (hk : KeyAs pp x t rho sk) :
    U.sees E.sha512 pf pp sk ≤ (U.watch E.sha512 pp x t rho).real E.sha512 sk.prng := by
  induction U generalizing t rho sk with
  | toss n hn next ih => exact avg_mono fun c => ih c (hb c) hk
  | call c next ih =>
    have hle := Watcher.sees_le_one (sha := E.sha512) (pp := pp) pf (.call c next) hb sk
    rw [Watcher.watch]
    rcases call_real H L pf W hc hk c fun o t' rho' => (next o).watch E.sha512 pp x t' rho' with
      ⟨_, h⟩ | ⟨o, t', rho', sk', h1, h2, h3, h | h⟩
    · rw [h]; exact hle
    · rw [h]; exact hle
    · rw [h]
      refine le_trans (le_of_eq ?_) (ih o (hb o) h2)
      rw [Watcher.sees, h1]
  | stop v => exact le_rfl

/-! ## With uniform strings -/

/-- nothing has been given out but for the empty string -/
def Clean (tab : Table) : Prop := ∀ b, b ≠ [] → tab.lookup b = none

theorem watched_clean (z : Fr) (n : Nat) {k : List Fr → PrngPlayer} {c : ℚ} (hc : 0 ≤ c)
    (h : ∀ l tab, Clean tab → (k l).ideal tab ≤ c) {tab : Table} (ht : Clean tab) :
    (PrngPlayer.watched z n k).ideal tab ≤ n * (1 / rOrder + 1 / 2 ^ 512) + c := by
  induction n generalizing k tab with
  | zero =>
    rw [PrngPlayer.watched, Nat.cast_zero, zero_mul, zero_add]
    exact h [] tab ht
  | succ n ih =>
    rw [PrngPlayer.watched, PrngPlayer.ideal]
    refine oracle_below fun D _ => ?_
    rw [PrngPlayer.ideal, oracle_new]
    have h1 : ∀ D' : Digest, (if D'.field = z then PrngPlayer.stop 1 else
        PrngPlayer.watched z n fun l => k (D.field :: l)).ideal [([], D')] ≤
          (if D'.field = z then 1 else 0) + (n * (1 / rOrder + 1 / 2 ^ 512) + c) := by
      intro D'
      split_ifs
      · rw [PrngPlayer.ideal]
        have : (0 : ℚ) ≤ n * (1 / rOrder + 1 / 2 ^ 512) + c := by positivity
        linarith
      · rw [zero_add]
        refine ih (fun l tab hl => h _ _ hl) fun b hb => ?_
        rw [List.lookup_cons, beq_eq_false_iff_ne.2 hb]
        rfl
    refine (avg_mono h1).trans ?_
    rw [avg_add_const]
    have h2 := digest_share' z
    rw [Nat.cast_add, Nat.cast_one]
    generalize (1 : ℚ) / rOrder + 1 / 2 ^ 512 = δ at *
    linarith

theorem move_clean {d t tar : Nat} (seed : Bytes) (rho : List Fr) {no : PrngPlayer}
    {yes : List Fr → PrngPlayer} {v v' c : ℚ} (hc : 0 ≤ c) (hv' : 0 ≤ v') {tab : Table}
    (h0 : no.ideal tab ≤ v + c) (h : ∀ l tab, Clean tab → (yes l).ideal tab ≤ v' + c) :
    (PrngPlayer.move d t tar seed rho no yes).ideal tab ≤
      (if t < tar ∧ tar ≤ 2 ^ d - 1 then v' else v) + (d * (1 / rOrder + 1 / 2 ^ 512) + c) := by
  unfold PrngPlayer.move
  have hδ : (0 : ℚ) ≤ 1 / rOrder + 1 / 2 ^ 512 := by positivity
  have hδ' : (0 : ℚ) ≤ d * (1 / rOrder + 1 / 2 ^ 512) := mul_nonneg (Nat.cast_nonneg d) hδ
  by_cases hif : t < tar ∧ tar ≤ 2 ^ d - 1
  · rw [if_pos hif, if_pos hif, PrngPlayer.ideal]
    refine oracle_below fun D tab' => ?_
    rw [PrngPlayer.ideal]
    refine (watched_clean _ _ (c := v' + c) (by linarith) (fun l tab hl => h _ _ hl)
      (fun _ _ => rfl)).trans ?_
    have : ((drawsNeeded d t tar : Nat) : ℚ) * (1 / rOrder + 1 / 2 ^ 512) ≤
        d * (1 / rOrder + 1 / 2 ^ 512) := by
      refine mul_le_mul_of_nonneg_right ?_ hδ
      exact_mod_cast drawsNeeded_le d t tar
    linarith
  · rw [if_neg hif, if_neg hif]
    linarith

/-- the strings given out belong to the signatures given at time `t` by a key with first exponent
`r0` -/
def Fitting (t : Nat) (r0 : Fr) (memo : List (Bytes × Fr)) (tab : Table) : Prop :=
  ∀ msg, memo.lookup msg = (tab.lookup (signInfo msg t)).map fun D => r0 + D.field

theorem signInfo_ne (msg : Bytes) (t : Nat) : signInfo msg t ≠ [] := by
  unfold signInfo DOM_SEP_SIG
  intro h
  rw [List.append_eq_nil_iff, List.append_eq_nil_iff] at h
  exact absurd h.1.1 (by decide +kernel)

theorem Clean.fitting {tab : Table} (h : Clean tab) (t : Nat) (r0 : Fr) : Fitting t r0 [] tab := by
  intro msg
  rw [h _ (signInfo_ne msg t)]
  rfl

theorem Fitting.more {t : Nat} {r0 : Fr} {memo : List (Bytes × Fr)} {tab : Table}
    (h : Fitting t r0 memo tab) (msg : Bytes) (D : Digest) :
    Fitting t r0 (memo ++ [(msg, r0 + D.field)]) (tab ++ [(signInfo msg t, D)]) := by
  intro m
  rw [List.lookup_append, List.lookup_append, h m]
  rcases tab.lookup (signInfo m t) with _ | D0
  · simp only [Option.map_none, Option.none_or, List.lookup_cons, List.lookup_nil]
    by_cases hm : m = msg
    · subst hm
      simp
    · have h1 : (m == msg) = false := beq_eq_false_iff_ne.2 hm
      have h2 : (signInfo m t == signInfo msg t) = false :=
        beq_eq_false_iff_ne.2 fun hc => hm (signInfo_inj hc)
      rw [h1, h2]
      rfl
  · rfl

theorem autograph_imagine {x : Fr} {t : Nat} {rho : List Fr} {msg : Bytes}
    {k : Signature G1 G2 → PrngPlayer} {f : Fr → List (Bytes × Fr) → ℚ} {c : ℚ}
    {memo : List (Bytes × Fr)} {tab : Table} (hm : Fitting t (rho.headD 0) memo tab)
    (hf : ∀ r m, 0 ≤ f r m ∧ f r m ≤ 1)
    (h : ∀ r memo' tab', Fitting t (rho.headD 0) memo' tab' →
      (k (signatureOf pp x t (msgField sha pp.ciphersuite msg) r)).ideal tab' ≤ f r memo' + c) :
    (PrngPlayer.autograph sha pp x t rho msg k).ideal tab ≤
      exponent memo msg f + (1 / 2 ^ 257 + c) := by
  rw [PrngPlayer.autograph, PrngPlayer.ideal]
  unfold oracle exponent
  have hm1 := hm msg
  rcases hl : tab.lookup (signInfo msg t) with _ | D
  · rw [hl, Option.map_none] at hm1
    rw [hm1]
    simp only []
    have h1 := avg_digest_of_le (c := c) (F := fun r => f (rho.headD 0 + r)
      (memo ++ [(msg, rho.headD 0 + r)]) + c) (f := fun r => f (rho.headD 0 + r)
      (memo ++ [(msg, rho.headD 0 + r)])) (fun _ => le_rfl) (fun _ => (hf _ _).1) fun _ => (hf _ _).2
    have h2 := avg_equiv (Equiv.addLeft (rho.headD 0)) fun r : Fr => f r (memo ++ [(msg, r)])
    simp only [Equiv.coe_addLeft] at h2
    rw [h2] at h1
    refine (avg_mono fun D : Digest => h _ _ _ (hm.more msg D)).trans ?_
    linarith
  · rw [hl, Option.map_some] at hm1
    rw [hm1]
    simp only []
    have := h (rho.headD 0 + D.field) memo tab hm
    have h3 : (0 : ℚ) ≤ 1 / 2 ^ 257 := by positivity
    linarith

theorem call_imagine {x : Fr} {t : Nat} {rho : List Fr}
    {k : Res (Option (Signature G1 G2)) → Nat → List Fr → PrngPlayer}
    {f : Res (Option (Signature G1 G2)) → Nat → List (Bytes × Fr) → ℚ} {c : ℚ} (hc : 0 ≤ c)
    (hf : ∀ o t' m, 0 ≤ f o t' m ∧ f o t' m ≤ 1)
    (h : ∀ o t' rho' memo' tab', Fitting t' (rho'.headD 0) memo' tab' →
      (k o t' rho').ideal tab' ≤ f o t' memo' + c) (cl : Call)
    {memo : List (Bytes × Fr)} {tab : Table} (hm : Fitting t (rho.headD 0) memo tab) :
    (cl.watch sha pp x t rho k).ideal tab ≤ cl.imagine sha pp x t memo f +
      (1 / 2 ^ 257 + pp.depth * (1 / rOrder + 1 / 2 ^ 512) + c) := by
  have h257 : (0 : ℚ) ≤ 1 / 2 ^ 257 := by positivity
  have hδ : (0 : ℚ) ≤ pp.depth * (1 / rOrder + 1 / 2 ^ 512) := by positivity
  generalize hb : (1 : ℚ) / 2 ^ 257 = b at *
  generalize hD : (pp.depth : ℚ) * (1 / rOrder + 1 / 2 ^ 512) = D at *
  have hmove : ∀ {tar : Nat} {seed : Bytes} {no : PrngPlayer} {yes : List Fr → PrngPlayer}
      {v v' e w : ℚ} {tab : Table}, D + e ≤ w → 0 ≤ e → 0 ≤ v' → no.ideal tab ≤ v + e →
      (∀ l tab, Clean tab → (yes l).ideal tab ≤ v' + e) →
      (PrngPlayer.move pp.depth t tar seed rho no yes).ideal tab ≤
        (if t < tar ∧ tar ≤ 2 ^ pp.depth - 1 then v' else v) + w := by
    intro tar seed no yes v v' e w tab hw he hv' h0 h1
    rw [← hD] at hw
    exact (move_clean seed rho he hv' h0 h1).trans (add_le_add le_rfl hw)
  have hauto : ∀ {t' : Nat} {rho' : List Fr} {msg : Bytes} {k : Signature G1 G2 → PrngPlayer}
      {g : Fr → List (Bytes × Fr) → ℚ} {e w : ℚ} {memo' : List (Bytes × Fr)} {tab : Table},
      b + e ≤ w → Fitting t' (rho'.headD 0) memo' tab → (∀ r m, 0 ≤ g r m ∧ g r m ≤ 1) →
      (∀ r memo' tab', Fitting t' (rho'.headD 0) memo' tab' →
        (k (signatureOf pp x t' (msgField sha pp.ciphersuite msg) r)).ideal tab' ≤ g r memo' + e) →
      (PrngPlayer.autograph sha pp x t' rho' msg k).ideal tab ≤ exponent memo' msg g + w := by
    intro t' rho' msg k g e w memo' tab hw h1 h2 h3
    rw [← hb] at hw
    exact (autograph_imagine h1 h2 h3).trans (add_le_add le_rfl hw)
  have hrest : ∀ {o : Res (Option (Signature G1 G2))} {t' : Nat} {rho' : List Fr}
      {memo' : List (Bytes × Fr)} {tab' : Table} {w : ℚ}, c ≤ w →
      Fitting t' (rho'.headD 0) memo' tab' → (k o t' rho').ideal tab' ≤ f o t' memo' + w :=
    fun hw hm => (h _ _ _ _ _ hm).trans (add_le_add le_rfl hw)
  rcases cl with ⟨tar, seed⟩ | ⟨tar, msg, seed⟩ | ⟨tar, msg⟩ | ⟨tar, msg, seed⟩
  · simp only [Call.watch, Call.imagine]
    exact hmove (e := c) (by linarith) hc (hf _ _ _).1 (hrest le_rfl hm)
      fun l tab' ht => hrest le_rfl (ht.fitting _ _)
  · simp only [Call.watch, Call.imagine]
    by_cases h1 : t = tar
    · rw [if_pos h1, if_pos h1]
      exact hauto (e := c) (by linarith) hm (fun r m => hf _ _ _) fun r m tab' ht => hrest le_rfl ht
    · rw [if_neg h1, if_neg h1]
      exact hmove (e := b + c) (by linarith) (by linarith) (exponent_nonneg fun r m => (hf _ _ _).1)
        (hrest (by linarith) hm) fun l tab' ht => hauto (e := c) le_rfl (ht.fitting _ _)
          (fun r m => hf _ _ _) fun r m tab' ht => hrest le_rfl ht
  · simp only [Call.watch, Call.imagine]
    by_cases h1 : t = tar
    · rw [if_pos h1, if_pos h1]
      exact hauto (e := c) (by linarith) hm (fun r m => hf _ _ _) fun r m tab' ht => hrest le_rfl ht
    · rw [if_neg h1, if_neg h1]
      exact hrest (by linarith) hm
  · simp only [Call.watch, Call.imagine]
    by_cases h1 : t = tar
    · rw [if_pos h1, if_pos h1]
      refine hauto (e := D + c) (by linarith) hm (fun r m => ?_) fun r m tab' ht =>
        hmove (e := c) le_rfl hc (hf _ _ _).1 (hrest le_rfl ht)
          fun l tab' ht => hrest le_rfl (ht.fitting _ _)
      split_ifs <;> exact hf _ _ _
    · rw [if_neg h1, if_neg h1]
      exact hrest (by linarith) hm

/-- what one call adds -/
noncomputable def viewLoss (d : Nat) : ℚ := 1 / 2 ^ 257 + d * (1 / rOrder + 1 / 2 ^ 512)

theorem viewLoss_nonneg (d : Nat) : 0 ≤ viewLoss d := by unfold viewLoss; positivity

theorem watch_imagines {x : Fr} (U : Watcher G1 G2) (hb : U.Bounded) {u : Nat} (hu : U.Calls u)
    {t : Nat} {rho : List Fr} {memo : List (Bytes × Fr)} {tab : Table}
    (hm : Fitting t (rho.headD 0) memo tab) :
    (U.watch sha pp x t rho).ideal tab ≤ U.imagines sha pp x t memo + u * viewLoss pp.depth := by
  induction U generalizing u t rho memo tab with
  | toss n hn next ih =>
    have : Nonempty (Fin n) := ⟨⟨0, hn⟩⟩
    rw [Watcher.watch, PrngPlayer.ideal, Watcher.imagines]
    exact (avg_mono fun c => ih c (hb c) (hu c) hm).trans (avg_add_const _ _).le
  | call c next ih =>
    obtain ⟨h1, h2⟩ := hu
    rw [Watcher.watch, Watcher.imagines]
    refine (call_imagine (c := ((u - 1 : Nat) : ℚ) * viewLoss pp.depth)
      (mul_nonneg (Nat.cast_nonneg _) (viewLoss_nonneg _))
      (fun o t' m => (next o).imagines_bounds (hb o) t' m)
      (fun o t' rho' memo' tab' hm' => ih o (hb o) (h2 o) hm') c hm).trans ?_
    obtain ⟨v, rfl⟩ := Nat.exists_eq_add_of_le' h1
    rw [Nat.add_sub_cancel]
    refine le_of_eq ?_
    rw [← viewLoss]
    push_cast
    ring
  | stop v =>
    rw [Watcher.watch, PrngPlayer.ideal, Watcher.imagines]
    have := mul_nonneg (Nat.cast_nonneg (α := ℚ) u) (viewLoss_nonneg pp.depth)
    linarith

/-! ## How the generator is used -/

theorem view_careful {x : Fr} (U : Watcher G1 G2) (t : Nat) (rho : List Fr) (b : Bool) :
    (U.watch sha pp x t rho).Careful b := by
  induction U generalizing t rho b with
  | toss n hn next ih => exact fun c => ih c t rho b
  | call c next ih => exact call_careful (fun o t' rho' b => ih o t' rho' b) c b
  | stop v => trivial

theorem view_keys {x : Fr} (U : Watcher G1 G2) {u : Nat} (hu : U.Calls u) (t : Nat) (rho : List Fr) :
    (U.watch sha pp x t rho).Keys (u * (pp.depth + 2)) := by
  induction U generalizing u t rho with
  | toss n hn next ih => exact fun c => ih c (hu c) t rho
  | call c next ih =>
    obtain ⟨h1, h2⟩ := hu
    obtain ⟨v, rfl⟩ := Nat.exists_eq_add_of_le' h1
    have := call_keys (sha := sha) (pp := pp) (x := x) (t := t) (rho := rho)
      (fun o t' rho' => ih o (h2 o) t' rho') c
    rw [Nat.add_sub_cancel] at this
    refine keys_mono this ?_
    rw [Nat.succ_mul]
    omega
  | stop v => trivial

theorem view_uses {x : Fr} (U : Watcher G1 G2) {u : Nat} (hu : U.Calls u) (t : Nat) (rho : List Fr) :
    (U.watch sha pp x t rho).Uses (u * (2 * pp.depth + 3)) := by
  induction U generalizing u t rho with
  | toss n hn next ih => exact fun c => ih c (hu c) t rho
  | call c next ih =>
    obtain ⟨h1, h2⟩ := hu
    obtain ⟨v, rfl⟩ := Nat.exists_eq_add_of_le' h1
    have := call_uses (sha := sha) (pp := pp) (x := x) (t := t) (rho := rho)
      (fun o t' rho' => ih o (h2 o) t' rho') c
    rw [Nat.add_sub_cancel] at this
    refine uses_mono this ?_
    rw [Nat.add_mul, Nat.one_mul]
    omega
  | stop v => trivial

/-! ## From key generation on -/

theorem seesFrom_le (H : HashLaws E) (L : GroupLaws E) (pf : Profile) (W : ParamWF E pp)
    (hc : Supported pp.ciphersuite) (U : PublicKey G2 → ProofOfPossession G1 → Watcher G1 G2)
    (hb : ∀ pk pop, (U pk pop).Bounded) (p : Prng) :
    seesFrom E pf pp U p ≤ (viewGame E pp U).real E.sha512 p := by
  unfold seesFrom viewGame
  rw [sampleThenUpdate_eq H.sha_len, real_draw H.sha_len, real_draw H.sha_len]
  simp only []
  obtain ⟨sk, e1, e2, e3⟩ := init_keyAs H L W hc (drawVal E.sha512 p (ascii "key initialization"))
    (drawNext E.sha512 p (ascii "key initialization"))
  rw [e1, ← e3]
  exact sees_le_watch H L pf W hc _ (hb _ _) e2

theorem seesFrom_flip (H : HashLaws E) (L : GroupLaws E) (pf : Profile) (W : ParamWF E pp)
    (hc : Supported pp.ciphersuite) (U : PublicKey G2 → ProofOfPossession G1 → Watcher G1 G2)
    (p : Prng) :
    seesFrom E pf pp (fun pk pop => (U pk pop).flip) p = 1 - seesFrom E pf pp U p := by
  unfold seesFrom
  rw [sampleThenUpdate_eq H.sha_len]
  simp only []
  obtain ⟨sk, e1, e2, e3⟩ := init_keyAs H L W hc (drawVal E.sha512 p (ascii "key initialization"))
    (drawNext E.sha512 p (ascii "key initialization"))
  rw [e1]
  exact flip_sees pf _ _

theorem seesFromSeed_eq (H : HashLaws E) (pf : Profile) (S : ParamShape pp)
    (hc : Supported pp.ciphersuite) (U : PublicKey G2 → ProofOfPossession G1 → Watcher G1 G2)
    {seed : Bytes} (hs : 32 ≤ seed.length) :
    (match keygen E seed pp with
      | .ok (pk, sk, pop) => (U pk pop).sees E.sha512 pf pp sk
      | _ => 0) =
    seesFrom E pf pp U ⟨hmac E.sha512 (text "Pixel master key" ++ [pp.ciphersuite]) seed⟩ := by
  obtain ⟨sk, h1, h2⟩ := keygen_init H S hs hc
  unfold seesFrom
  rw [h2, sampleThenUpdate_eq H.sha_len,
    show (⟨hmac E.sha512 (text "Pixel master key" ++ [pp.ciphersuite]) seed⟩ : Prng) =
      kgState E.sha512 seed pp.ciphersuite by rw [← text_masterSalt]; rfl]
  simp only []
  erw [h1]
  rfl

theorem viewGame_careful (U : PublicKey G2 → ProofOfPossession G1 → Watcher G1 G2) :
    (viewGame E pp U).Careful false :=
  fun _ _ => view_careful _ _ _ _

theorem viewGame_keys (U : PublicKey G2 → ProofOfPossession G1 → Watcher G1 G2) {u : Nat}
    (hu : ∀ pk pop, (U pk pop).Calls u) : (viewGame E pp U).Keys (u * (pp.depth + 2) + 2) :=
  ⟨by omega, fun _ => ⟨by omega, fun _ => view_keys _ (hu _ _) _ _⟩⟩

theorem viewGame_uses (U : PublicKey G2 → ProofOfPossession G1 → Watcher G1 G2) {u : Nat}
    (hu : ∀ pk pop, (U pk pop).Calls u) : (viewGame E pp U).Uses (u * (2 * pp.depth + 3) + 2) :=
  ⟨by omega, fun _ => ⟨by omega, fun _ => view_uses _ (hu _ _) _ _⟩⟩

theorem viewGame_ideal (U : PublicKey G2 → ProofOfPossession G1 → Watcher G1 G2)
    (hb : ∀ pk pop, (U pk pop).Bounded) {u : Nat} (hu : ∀ pk pop, (U pk pop).Calls u) :
    (viewGame E pp U).ideal [] ≤ imaginesAtAll E pp U + (1 / 2 ^ 257 + u * viewLoss pp.depth) := by
  unfold viewGame imaginesAtAll
  rw [PrngPlayer.ideal, oracle_new]
  have hl := mul_nonneg (Nat.cast_nonneg (α := ℚ) u) (viewLoss_nonneg pp.depth)
  have h2 := avg_digest_of_le (c := u * viewLoss pp.depth)
    (f := fun x => (U (publicOf E pp x).1 (publicOf E pp x).2).imagines E.sha512 pp x 1 [])
    (F := fun x => (PrngPlayer.draw (DOM_SEP_SK_INIT ++ [0, 0, 0, 1]) fun r =>
      (U (publicOf E pp x).1 (publicOf E pp x).2).watch E.sha512 pp x 1 [r]).ideal [])
    (fun x => by
      rw [PrngPlayer.ideal]
      exact oracle_below fun D' _ => watch_imagines _ (hb _ _) (hu _ _) fun _ => rfl)
    (fun x => ((U _ _).imagines_bounds (hb _ _) _ _).1)
    (fun x => ((U _ _).imagines_bounds (hb _ _) _ _).2)
  refine h2.trans ?_
  linarith

/-! ## Exponents -/

theorem exponent_unique {A : Type} [AddCommGroup A] {g : A} (hg : rOrder • g = 0) (h0 : g ≠ 0)
    {r s : Fr} (h : r.val • g = s.val • g) : r = s := by
  have ho : addOrderOf g = rOrder := addOrderOf_eq_prime hg h0 (hp := ⟨rOrder_prime⟩)
  have h1 : ((r.val : Nat) : ZMod rOrder) = s.val := by
    have h2 := nsmul_eq_nsmul_iff_modEq.1 h
    rw [ho] at h2
    exact (ZMod.natCast_eq_natCast_iff _ _ _).2 h2
  rwa [ZMod.natCast_zmod_val, ZMod.natCast_zmod_val] at h1

/-- what a list of signatures of one message adds up to -/
theorem shares_sum {F h : G1} {g : G2} (hg : rOrder • g = 0) (hF : rOrder • F = 0) :
    ∀ l : List (Fr × Signature G1 G2), (∀ p ∈ l, ∃ r : Fr, p.2.sigma1 = mulFr r g ∧
      p.2.sigma2 = p.1.val • h + mulFr r F) →
    ∃ R : Fr, (l.map fun p => p.2.sigma1).sum = mulFr R g ∧
      (l.map fun p => p.2.sigma2).sum = (l.map fun p => p.1.val).sum • h + mulFr R F
  | [], _ => ⟨0, by simp [mulFr], by simp [mulFr]⟩
  | p :: l, hl => by
    obtain ⟨r, h1, h2⟩ := hl p (by simp)
    obtain ⟨R, h3, h4⟩ := shares_sum hg hF l fun q hq => hl q (by simp [hq])
    refine ⟨r + R, ?_, ?_⟩
    · rw [List.map_cons, List.sum_cons, h1, h3, mulFr_add hg]
    · rw [List.map_cons, List.sum_cons, h2, h4, mulFr_add hF, List.map_cons, List.sum_cons, add_nsmul]
      abel

theorem digest_wf (K : Digest) : (⟨K.bytes⟩ : Prng).WF := by
  unfold Prng.WF Digest.bytes
  exact natToBE_length _ _

end Pixel
