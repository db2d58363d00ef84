import Verif.Proof.TraceCost
import Verif.ToyKey

/-!
# C70: the number of scalar multiplications

Counted in the record of the run (`Trace.f`, which computes the same as `f` by
`C68_same_function`).
-/

namespace Pixel.Props

open Pixel Pixel.Spec Pixel.Trace

set_option linter.unusedSectionVars false

variable {G1 G2 GT : Type} [AddCommGroup G1] [AddCommGroup G2] [CommGroup GT]
  {E : Ext G1 G2 GT} {pp : PubParam G1 G2} {alpha : G1}

/-- C70: key generation takes `depth + 5` multiplications; it never takes more. -/
theorem C70_keygen (E : Ext G1 G2 GT) (S : ParamShape pp) (seed : Bytes) :
    muls (Trace.keygen E seed pp).trace ≤ pp.depth + 5 ∧
      ∀ x, (Trace.keygen E seed pp).out = .ok x →
        muls (Trace.keygen E seed pp).trace = pp.depth + 5 := by
  have h := keygen_spent E seed pp
  rw [List.length_drop, List.length_take, S.hlist_len, Nat.min_self,
    show 5 + (pp.depth + 1 - 1) = pp.depth + 5 by omega] at h
  exact h

/-- C70: a signature for the present time takes four multiplications, whatever the depth, the time,
the message and the key; it never takes more. -/
theorem C70_sign_present (sha : Bytes → Bytes) (pf : Profile) (pp : PubParam G1 G2) (t : Nat)
    (msg : Bytes) (sk : SecretKey G1 G2) :
    muls (Trace.signPresent sha pf t pp msg sk).2 ≤ 4 ∧
      ∀ s, (Trace.signPresent sha pf t pp msg sk).1.1 = .ok s →
        muls (Trace.signPresent sha pf t pp msg sk).2 = 4 := by
  obtain ⟨h1, h2⟩ := signPresent_spent sha pf t pp msg sk
  refine ⟨h1, fun s hs => h2 (s, (Trace.signPresent sha pf t pp msg sk).1.2) ?_⟩
  rcases hx : (Trace.signPresent sha pf t pp msg sk).1 with ⟨o, sk'⟩
  rw [hx] at hs
  simp only at hs
  simp only [TS.exec, hx, hs]

/-- C70: a successful update of an honest key from `t` to `tar` takes exactly the multiplications
that the new sub keys need: for each but the first, two and one for every level below. -/
theorem C70_update {sha : Bytes → Bytes} (hsha : ∀ m, (sha m).length = 64) (pf : Profile)
    (S : ParamShape pp) {t tar : Nat} {sk : SecretKey G1 G2} (h : KeyFor pp alpha t sk)
    (seed : Bytes) (hu : (Trace.update sha pf pp tar seed sk).1.1 = .ok ()) :
    muls (Trace.update sha pf pp tar seed sk).2 = updateCost pp.depth t tar :=
  (update_muls hsha pf S h seed (Prod.ext hu rfl)).2.2.2

/-- C70: going to the next time: nothing at a leaf, two more than the number of levels below an inner
node. -/
theorem C70_update_next {sha : Bytes → Bytes} (hsha : ∀ m, (sha m).length = 64) (pf : Profile)
    (S : ParamShape pp) {t : Nat} {sk : SecretKey G1 G2} (h : KeyFor pp alpha t sk)
    (seed : Bytes) (hu : (Trace.update sha pf pp (t + 1) seed sk).1.1 = .ok ()) :
    muls (Trace.update sha pf pp (t + 1) seed sk).2 =
      if height pp.depth t = 1 then 0 else height pp.depth t + 1 := by
  obtain ⟨-, -, h2, h3⟩ := update_muls hsha pf S h seed (Prod.ext hu rfl)
  rw [h3, updateCost_next h.valid.1 h2]

/-- C70: however many time stamps are skipped, an update takes at most `(d + 4)(d - 1) / 2`
multiplications in a tree with `d` levels. -/
theorem C70_update_bound {sha : Bytes → Bytes} (hsha : ∀ m, (sha m).length = 64) (pf : Profile)
    (S : ParamShape pp) {t tar : Nat} {sk : SecretKey G1 G2} (h : KeyFor pp alpha t sk)
    (seed : Bytes) (hu : (Trace.update sha pf pp tar seed sk).1.1 = .ok ()) :
    2 * muls (Trace.update sha pf pp tar seed sk).2 ≤ (pp.depth + 4) * (pp.depth - 1) := by
  obtain ⟨-, h1, h2, h3⟩ := update_muls hsha pf S h seed (Prod.ext hu rfl)
  have := updateCost_le h.valid.1 (Nat.le_of_lt h1) h2
  rw [h3]
  obtain ⟨d, hd⟩ : ∃ d, pp.depth = d + 1 := ⟨pp.depth - 1, by have := S.depth_pos; omega⟩
  rw [hd] at this ⊢
  simp only [Nat.add_sub_cancel]
  nlinarith

/-- C70: the bound is attained, for every depth: by the update from time 1 to the leftmost leaf. -/
theorem C70_update_worst {sha : Bytes → Bytes} (hsha : ∀ m, (sha m).length = 64) (pf : Profile)
    (S : ParamShape pp) {sk : SecretKey G1 G2} (h : KeyFor pp alpha 1 sk)
    (seed : Bytes) (hu : (Trace.update sha pf pp pp.depth seed sk).1.1 = .ok ()) :
    2 * muls (Trace.update sha pf pp pp.depth seed sk).2 = (pp.depth + 4) * (pp.depth - 1) := by
  obtain ⟨-, h1, h2, h3⟩ := update_muls hsha pf S h seed (Prod.ext hu rfl)
  have := updateCost_leftmost S.depth_pos
  rw [h3]
  obtain ⟨d, hd⟩ : ∃ d, pp.depth = d + 1 := ⟨pp.depth - 1, by have := S.depth_pos; omega⟩
  rw [hd] at this ⊢
  simp only [Nat.add_sub_cancel]
  nlinarith

/-- C70: skipping pays: a direct update never takes more multiplications than one with a stop on the
way. -/
theorem C70_skip {sha : Bytes → Bytes} (hsha : ∀ m, (sha m).length = 64) (pf : Profile)
    (S : ParamShape pp) {t s u : Nat} {sk sk' : SecretKey G1 G2} (h : KeyFor pp alpha t sk)
    {seed seed' seed'' : Bytes}
    (h1 : (Trace.update sha pf pp u seed sk).1.1 = .ok ())
    (h2 : (Trace.update sha pf pp s seed' sk).1 = (.ok (), sk'))
    (h3 : (Trace.update sha pf pp u seed'' sk').1.1 = .ok ()) :
    muls (Trace.update sha pf pp u seed sk).2 ≤
      muls (Trace.update sha pf pp s seed' sk).2 + muls (Trace.update sha pf pp u seed'' sk').2 := by
  obtain ⟨-, a1, a2, a3⟩ := update_muls hsha pf S h seed (Prod.ext h1 rfl)
  obtain ⟨k, b1, b2, b3⟩ := update_muls hsha pf S h seed' h2
  obtain ⟨-, c1, c2, c3⟩ := update_muls hsha pf S k seed'' (Prod.ext h3 rfl)
  rw [a3, b3, c3]
  exact updateCost_skip h.valid.1 b1 c1 c2

/-- updates through all times from `t + 1` on, one by one -/
def stepByStep (t : Nat) : List Bytes → List Request
  | [] => []
  | s :: ss => .update (t + 1) s :: stepByStep (t + 1) ss

theorem muls_stepByStep {sha : Bytes → Bytes} (hsha : ∀ m, (sha m).length = 64) (pf : Profile)
    (S : ParamShape pp) (seeds : List Bytes) {t : Nat} {sk : SecretKey G1 G2}
    (h : KeyFor pp alpha t sk)
    (hs : ∀ x ∈ (serve sha pf pp (stepByStep t seeds) sk).1, x = .ok ()) :
    muls (serve sha pf pp (stepByStep t seeds) sk).2.2 =
      ((List.range seeds.length).map (fun k => updateCost pp.depth (t + k) (t + k + 1))).sum := by
  induction seeds generalizing t sk with
  | nil => simp [stepByStep, serve]
  | cons s ss ih =>
    unfold stepByStep at hs ⊢
    rw [serve] at hs ⊢
    rcases hx : (Request.update (t + 1) s).run sha pf pp sk with ⟨⟨x, sk'⟩, l⟩
    rw [hx] at hs
    change Trace.update sha pf pp (t + 1) s sk = _ at hx
    cases x with
    | ok u =>
      simp only [List.mem_cons] at hs
      obtain ⟨k, -, -, e⟩ := update_muls (sk' := sk') hsha pf S h s (by rw [hx])
      rw [hx] at e
      simp only at e
      simp only [muls_append, e, List.length_cons, List.range_succ_eq_map, List.map_cons,
        List.sum_cons, List.map_map]
      rw [ih k fun y hy => hs y (.inr hy)]
      simp only [Nat.add_zero]
      congr 2
      apply List.map_congr_left
      intro j _
      simp only [Function.comp, Nat.succ_eq_add_one]
      rw [show t + (j + 1) = t + 1 + j by omega]
    | err e => simp at hs
    | panic p => simp at hs

/-- C70: a signer that goes through its whole life step by step performs `2^(d+1) - d - 3`
multiplications for its updates: less than two for each time stamp. -/
theorem C70_lifetime {sha : Bytes → Bytes} (hsha : ∀ m, (sha m).length = 64) (pf : Profile)
    (S : ParamShape pp) {sk : SecretKey G1 G2} (h : KeyFor pp alpha 1 sk) {seeds : List Bytes}
    (hl : seeds.length = 2 ^ pp.depth - 2)
    (hs : ∀ x ∈ (serve sha pf pp (stepByStep 1 seeds) sk).1, x = .ok ()) :
    muls (serve sha pf pp (stepByStep 1 seeds) sk).2.2 + pp.depth + 3 = 2 ^ (pp.depth + 1) := by
  rw [← lifetimeCost_eq S.depth_pos, muls_stepByStep hsha pf S seeds h hs, hl]
  unfold lifetimeCost
  congr 4
  funext k
  rw [Nat.add_comm 1 k]

/-! ## the hypotheses are met -/

example : muls (Trace.update Toy.sha0 .debug (Toy.param 3 0) 3 [] (Toy.sk0 3 0)).2 = 7 ∧
    (Trace.update Toy.sha0 .debug (Toy.param 3 0) 3 [] (Toy.sk0 3 0)).1.1 = .ok () := by
  decide +kernel

/-- a whole life with depth 3 -/
example :
    (serve Toy.sha0 .debug (Toy.param 3 0) (stepByStep 1 (List.replicate 6 [])) (Toy.sk0 3 0)).1 =
      List.replicate 6 (.ok ()) := by
  decide +kernel

example : muls (Trace.signPresent Toy.sha0 .release 1 (Toy.param 2 0) [1, 2] (Toy.sk0 2 0)).2 = 4 := by
  decide +kernel

/-- failing early costs less -/
example : muls (Trace.signPresent Toy.sha0 .release 2 (Toy.param 2 0) [1, 2] (Toy.sk0 2 0)).2 = 0 := by
  decide +kernel

example : muls (Trace.keygen (Toy.ext Toy.sha0) (List.replicate 32 7) (Toy.param 2 0)).trace = 7 := by
  decide +kernel

end Pixel.Props
