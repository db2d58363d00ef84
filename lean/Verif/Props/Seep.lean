import Verif.Proof.Seep
import Verif.Props.BlackBox
import Verif.Props.Spill

/-!
# Property C101: no black-box forger, with leaks of the generator

Vocabulary: `Verif/Spec/Seep.lean`.
-/

namespace Pixel.Props

open Pixel Pixel.Spec

set_option linter.unusedSectionVars false

variable {G1 G2 GT : Type} [AddCommGroup G1] [AddCommGroup G2] [CommGroup GT]

/-! ## C101 -/

/-- the bound: `d` the depth, `k` octets of the seed of `keygen`, `n` octets of the unseen seeds -/
noncomputable def leakyBound (d k n : Nat) (b : SeepBudget) : ℚ :=
  let e : ℚ := evaluations d b.evals b.signs b.updates
  (2 ^ d - 1) * (e * (((b.tests + 1) * (2 * d + 1)) / rOrder + ((b.points + 1) / rOrder + e / 2 ^ 254)) +
    leakingLost d k n b.evals b.signs b.updates b.unseen)

/-- C101: an adversary that uses the groups as black boxes, directs a signer made by `keygen` from a
uniform seed, evaluates the random function for SHA-512, looks at the PRNG state and breaks in, forges
with at most this chance.  A look counts as a break-in only if the state is used for a signature, or if
the next update is made with a seed of the adversary's choice.  Nothing is assumed but the laws of the
groups. -/
theorem C101_unforgeable [DecidableEq GT] {E : Ext G1 G2 GT} (L : GroupLaws E)
    (pf : Profile) {g : G1} (hsub : E.inSub1 g = true) (hne : g ≠ 0) {d : Nat} (hd : 1 ≤ d)
    (hd' : d ≤ 63) {cs : UInt8} (hsup : Supported cs) {k n B : Nat} (hk : 32 ≤ k) (hkB : 128 + k ≤ B)
    (hn : n + 300 ≤ B) {P : SeepPlayer} {b : SeepBudget} (hP : P.Keeps B b) :
    randomSpillChance E pf g d cs k n B (P.against E) ≤ leakyBound d k n b := by
  refine (C100_hard_then_secure L pf hsub hd hd' hsup hk hkB hn (P.against E)
    (fun W => seep_legal P hP _ _) (fun W => seep_points P hP _ _) (fun W => seep_within P hP _ _)
    (ε := ((b.tests + 1) * (2 * d + 1)) / rOrder)
    fun t i _ _ => seep_bound L hsub hne pf hd hd' hP n t i).trans (le_of_eq ?_)
  rfl

set_option exponentiation.threshold 600 in
/-- C101: for up to `2^60` evaluations and questions, `2^40` hash points, signatures, updates and unseen
seeds, seeds of at least 32 octets, and depth up to 32, the chance is less than `1/2^95`. -/
theorem C101_numbers {d k n : Nat} {b : SeepBudget} (hd : d ≤ 32) (hk : 32 ≤ k) (hn : 32 ≤ n)
    (he : b.evals ≤ 2 ^ 60) (ht : b.tests + 1 ≤ 2 ^ 60) (hm : b.points + 1 ≤ 2 ^ 40)
    (hs : b.signs ≤ 2 ^ 40) (hu : b.updates ≤ 2 ^ 40) (hc : b.unseen ≤ 2 ^ 40) :
    leakyBound d k n b < 1 / 2 ^ 95 := by
  have h1 := C100_numbers hd hk hn hm he hs hu hc
  have hQ : ((evaluations d b.evals b.signs b.updates : ℕ) : ℚ) ≤ 2 ^ 60 + 2 ^ 48 := by
    have : evaluations d b.evals b.signs b.updates ≤ 2 ^ 60 + 2 ^ 48 := by
      unfold evaluations
      have h2 : b.updates * (4 * d + 6) ≤ 2 ^ 40 * (4 * 32 + 6) := Nat.mul_le_mul hu (by omega)
      omega
    exact_mod_cast this
  unfold leakyBound
  simp only []
  have hp0 : (0 : ℚ) ≤ 2 ^ d - 1 := by
    have : (1 : ℚ) ≤ 2 ^ d := one_le_pow₀ (by norm_num)
    linarith
  have hp : (2 : ℚ) ^ d - 1 ≤ 2 ^ 32 := by
    have : (2 : ℚ) ^ d ≤ 2 ^ 32 := pow_le_pow_right₀ (by norm_num) hd
    linarith
  have ht' : ((b.tests : ℚ) + 1) ≤ 2 ^ 60 := by exact_mod_cast ht
  have hd' : (2 * (d : ℚ) + 1) ≤ 65 := by
    have : (d : ℚ) ≤ 32 := by exact_mod_cast hd
    linarith
  have hr : (2 : ℚ) ^ 254 ≤ rOrder := by
    have : 2 ^ 254 ≤ rOrder := by decide +kernel
    exact_mod_cast this
  have hT : (((b.tests : ℚ) + 1) * (2 * d + 1)) / rOrder ≤ (2 ^ 60 * 65) / 2 ^ 254 :=
    div_le_div₀ (by positivity) (mul_le_mul ht' hd' (by positivity) (by positivity)) (by positivity) hr
  have hT0 : (0 : ℚ) ≤ (((b.tests : ℚ) + 1) * (2 * d + 1)) / rOrder := by positivity
  have hQ0 : (0 : ℚ) ≤ (evaluations d b.evals b.signs b.updates : ℕ) := Nat.cast_nonneg _
  generalize ((evaluations d b.evals b.signs b.updates : ℕ) : ℚ) = e at *
  generalize leakingLost d k n b.evals b.signs b.updates b.unseen = l at *
  generalize (((b.tests : ℚ) + 1) * (2 * d + 1)) / rOrder = T at *
  generalize (((b.points : ℚ) + 1) / rOrder + e / 2 ^ 254) = y at *
  have h2 : ((2 : ℚ) ^ d - 1) * (e * T) ≤ 2 ^ 32 * ((2 ^ 60 + 2 ^ 48) * ((2 ^ 60 * 65) / 2 ^ 254)) :=
    mul_le_mul hp (mul_le_mul hQ hT hT0 (by positivity)) (mul_nonneg hQ0 hT0) (by positivity)
  have h3 : ((2 : ℚ) ^ d - 1) * (e * (T + y) + l) =
      (2 ^ d - 1) * (e * T) + (2 ^ d - 1) * (e * (0 + y) + l) := by ring
  rw [h3]
  have h4 : (2 : ℚ) ^ 32 * ((2 ^ 60 + 2 ^ 48) * ((2 ^ 60 * 65) / 2 ^ 254)) + 1 / 2 ^ 100 < 1 / 2 ^ 95 := by
    norm_num
  linarith

/-! ### Questions -/

/-- compare the public key with the multiples of the generator, from `n - 1` downwards -/
def seepSearch (P : Fr → SeepPlayer) : Nat → SeepPlayer
  | 0 => P 0
  | n + 1 => .test (.isZero2 fun i => if i = 0 then -(n : Fr) else if i = 1 then 1 else 0) (P n)
      (seepSearch P n)

/-- search for the master secret, look, go on to `tar` with an unseen seed, look, break in, and make a
claim for time `t` with the master secret -/
def seepForger (t tar : Nat) (msg : Bytes) (n : Nat) : SeepPlayer :=
  seepSearch (fun x => .look fun _ => .refresh tar (.look fun _ => .breakIn fun _ _ => .forge
    { time := t, msg := msg, sigma1 := fun _ => 0, sigma2 := fun i => if i = 0 then x else 0
      cosigners := [] })) n

theorem seepForger_keeps {B t tar : Nat} {msg : Bytes} (hm : msg.length + 300 ≤ B) (n : Nat) :
    (seepForger t tar msg n).Keeps B
      { evals := 0, tests := n, points := 0, signs := 0, updates := 1, unseen := 1 } := by
  have h0 : ∀ m (x : Fr), (SeepPlayer.look fun _ => .refresh tar (.look fun _ => .breakIn fun _ _ =>
      .forge { time := t, msg := msg, sigma1 := fun _ => 0, sigma2 := fun i => if i = 0 then x else 0
               cosigners := [] })).Keeps B
      { evals := 0, tests := m, points := 0, signs := 0, updates := 1, unseen := 1 } :=
    fun m x _ => ⟨Nat.one_pos, Nat.one_pos, fun _ _ _ =>
      ⟨hm, (by decide +kernel : (0 : Nat) + 1 < rOrder)⟩⟩
  unfold seepForger
  induction n with
  | zero => exact h0 0 0
  | succ n ih => exact ⟨Nat.succ_pos n, h0 n _, ih⟩

theorem seepSearch_play {E : Ext G1 G2 GT} (hg2 : rOrder • E.gen2 = 0) (hne : E.gen2 ≠ 0)
    (P : Fr → SeepPlayer) (x : Fr) (k1 : List G1) {n : Nat} (hx : x.val < n) (hn : n ≤ rOrder) :
    (seepSearch P n).play E k1 [E.gen2, x.val • E.gen2] =
      (P x).play E k1 [E.gen2, x.val • E.gen2] := by
  induction n with
  | zero => omega
  | succ n ih =>
    have e : Question.Holds E k1 [E.gen2, x.val • E.gen2]
        (.isZero2 fun i => if i = 0 then -(n : Fr) else if i = 1 then 1 else 0) ↔ x = (n : Fr) := by
      show lin _ _ = 0 ↔ _
      have : lin (fun i => if i = 0 then -(n : Fr) else if i = 1 then 1 else 0)
          [E.gen2, x.val • E.gen2] = expHom E.gen2 hg2 (x - n) := by
        simp only [lin, if_true, Nat.zero_add, one_ne_zero, if_false, add_zero]
        rw [sub_eq_neg_add, map_add]
        congr 1
        rw [ZMod.val_one'' (by decide), one_smul]
        rfl
      rw [this, expHom_eq_zero hg2 hne, sub_eq_zero]
    by_cases h : x = (n : Fr)
    · simp only [seepSearch, SeepPlayer.play, if_pos (e.2 h)]
      rw [h]
    · simp only [seepSearch, SeepPlayer.play, if_neg fun h' => h (e.1 h')]
      refine ih ?_ (by omega)
      have : x.val ≠ n := fun h' => h (by rw [← h', ZMod.natCast_zmod_val])
      omega

/-- C101: the number of questions matters: with `r` of them, a black-box adversary finds the master secret
and wins always, with no evaluation and no signature, and with looks that do not count. -/
theorem C101_questions_forge [DecidableEq GT] {E : Ext G1 G2 GT} (L : GroupLaws E)
    (pf : Profile) {g : G1} (hsub : E.inSub1 g = true) (hne : g ≠ 0) {d : Nat} (hd : 1 ≤ d)
    (hd' : d ≤ 63) {cs : UInt8} (hsup : Supported cs) {t tar : Nat} (h1 : 1 ≤ t) (h2 : t < tar)
    (h3 : tar ≤ 2 ^ d - 1) (h4 : drawsNeeded d 1 tar = 0) {msg : Bytes} {k B : Nat} (hk : 32 ≤ k)
    (n : Nat) (hm : msg.length + 300 ≤ B) : ∃ P : SeepPlayer,
      P.Keeps B { evals := 0, tests := rOrder, points := 0, signs := 0, updates := 1, unseen := 1 } ∧
      randomSpillChance E pf g d cs k n B (P.against E) = 1 := by
  refine ⟨seepForger t tar msg rOrder, seepForger_keeps hm _, ?_⟩
  have hg2 := L.sub2_order _ L.gen2_sub
  have hne2 : E.gen2 ≠ 0 := by
    intro h
    refine hne (L.pair_nondeg _ hsub ?_)
    rw [h]
    exact L.pair_zero_left hsub
  have hinj : Function.Injective (expHom E.gen2 hg2) := by
    rw [injective_iff_map_eq_zero]
    exact fun a ha => (expHom_eq_zero hg2 hne2).1 ha
  refine randomSpill_logarithms L pf hsub hd hd' hsup h1 h2 h3 h4 msg
    (Function.invFun (expHom E.gen2 hg2)) (fun x => Function.leftInverse_invFun hinj x) hk n B ?_
  intro sha a
  have hpk : (worldOf (withHash E sha) g cs a []).pk.pk = (a .x).val • E.gen2 := rfl
  have hg : (worldOf (withHash E sha) g cs a []).pp.g2 = E.gen2 := rfl
  unfold SeepPlayer.against seepForger spillLogForger
  rw [hg, hpk, seepSearch_play hg2 hne2 _ _ _ (ZMod.val_lt _) le_rfl]
  have hl : Function.invFun (expHom E.gen2 hg2) ((a .x).val • E.gen2) = a .x :=
    Function.leftInverse_invFun hinj (a .x)
  simp only [SeepPlayer.play, BoxClaim.made, List.map_nil, hl]
  have hz : ∀ {A : Type} [AddCommGroup A] (l : List A), lin (fun _ => 0) l = 0 := by
    intro A _ l
    induction l with
    | nil => rfl
    | cons b l ih => simp only [lin, ZMod.val_zero, zero_smul, ih, add_zero]
  congr 1
  funext _
  congr 2
  funext _
  congr 1
  funext sk
  congr 2
  · exact hz _
  · simp only [List.cons_append, lin, if_true, Nat.add_eq_zero_iff, one_ne_zero, and_false, if_false,
      hz, ZMod.val_zero, zero_smul, add_zero]

/-! ## Without leaks -/

/-- an adversary of C95 -/
def boxed : BoxPlayer → SeepPlayer
  | .toss n hn next => .toss n hn fun c => boxed (next c)
  | .eval m next => .eval m fun b => boxed (next b)
  | .test q y n => .test q (boxed y) (boxed n)
  | .point next => .point (boxed next)
  | .sign msg next => .sign msg (boxed next)
  | .update tar seed next => .update tar seed (boxed next)
  | .breakIn next => .breakIn fun s l => boxed (next s l)
  | .forge F => .forge F

theorem boxed_play (E : Ext G1 G2 GT) (P : BoxPlayer) (k1 : List G1) (k2 : List G2) :
    (boxed P).play E k1 k2 = dry (P.play E k1 k2) := by
  induction P generalizing k1 k2 with
  | toss n hn next ih => simp only [boxed, SeepPlayer.play, BoxPlayer.play, dry, ih]
  | eval m next ih => simp only [boxed, SeepPlayer.play, BoxPlayer.play, dry, ih]
  | test q y n ihy ihn =>
    by_cases h : q.Holds E k1 k2
    · simp only [boxed, SeepPlayer.play, BoxPlayer.play, if_pos h, ihy]
    · simp only [boxed, SeepPlayer.play, BoxPlayer.play, if_neg h, ihn]
  | point next ih => simp only [boxed, SeepPlayer.play, BoxPlayer.play, dry, ih]
  | sign msg next ih => simp only [boxed, SeepPlayer.play, BoxPlayer.play, dry, ih]
  | update tar seed next ih => simp only [boxed, SeepPlayer.play, BoxPlayer.play, dry, ih]
  | breakIn next ih => simp only [boxed, SeepPlayer.play, BoxPlayer.play, dry, ih]
  | forge F => rfl

/-- C101: for an adversary that never looks and never asks for an unseen seed the game is that of C95. -/
theorem C101_extends [DecidableEq GT] (E : Ext G1 G2 GT) (pf : Profile) (g : G1) (d : Nat) (cs : UInt8)
    (k n B : Nat) (P : BoxPlayer) :
    randomSpillChance E pf g d cs k n B ((boxed P).against E) =
      randomForgeChance E pf g d cs k B (P.against E) := by
  rw [← C100_extends E pf g d cs k n B (P.against E)]
  congr 1
  funext W
  exact boxed_play E P _ _

/-! ### Concrete cases -/

section Examples
open Pixel.Toy

/-- an adversary that looks, lets the signer go on to time 3 with an unseen seed, has a message signed that
depends on what it saw, asks whether the signature is accepted, lets the signer go on to time 7 with a
seed of its choice, looks, lets it go on to time 9 with an unseen seed, breaks in, asks whether two
elements agree, and makes a claim with a co-signer -/
def toySeepPlayer : SeepPlayer :=
  .look fun p => .refresh 3 (.eval (p.take 20) fun h => .sign (h.take 3) (.test
    (.isOneT [(fun i => if i = 0 then 1 else 0, fun i => if i = 9 then 1 else 0),
      (fun i => if i = 2 then -1 else 0, fun i => if i = 3 then 1 else if i = 4 then 2 else 0)])
    (.point (.update 7 [5] (.look fun p' => .refresh 9 (.breakIn fun s _ => .test
      (.isZero1 fun i => if i = 9 then 1 else if i = 11 then -1 else 0)
      (.forge { time := 3, msg := s.take 5 ++ p'.take 5, sigma1 := fun i => if i = 2 then 1 else 0
                sigma2 := fun i => if i = 9 then 1 else 0, cosigners := [] })
      (.forge { time := 2, msg := [4], sigma1 := fun i => i, sigma2 := fun i => if i = 12 then 2 else 0
                cosigners := [{ key := fun i => if i = 0 then 5 else 0, point := some 0,
                                pop := fun i => if i = 10 then 5 else 0 }] })))))
    (.forge { time := 1, msg := [9], sigma1 := fun _ => 1, sigma2 := fun _ => 1, cosigners := [] })))

theorem toySeep_keeps : toySeepPlayer.Keeps 400
    { evals := 1, tests := 2, points := 1, signs := 1, updates := 3, unseen := 2 } := by
  refine fun p => ⟨by simp, by simp, ?_, by simp, fun h => ⟨?_, by simp, by simp, ⟨by simp, by simp,
    by simp, fun p' => ⟨by simp, by simp, fun s _ => ⟨by simp,
      ⟨?_, (by decide +kernel : (0 : Nat) + 1 < rOrder)⟩,
      ⟨by simp, (by decide +kernel : (1 : Nat) + 1 < rOrder)⟩⟩⟩⟩,
    ⟨by simp, (by decide +kernel : (0 : Nat) + 1 < rOrder)⟩⟩⟩
  · have := List.length_take_le 20 p
    omega
  · have := List.length_take_le 3 h
    omega
  · show (List.take 5 s ++ List.take 5 p').length + 300 ≤ 400
    have h1 := List.length_take_le 5 s
    have h2 := List.length_take_le 5 p'
    rw [List.length_append]
    omega

/-- C101: the hypotheses are met by this adversary in the toy groups -/
example : randomSpillChance (ext sha0) .debug ((1, 0) : G) 5 1 32 32 400
    (toySeepPlayer.against (ext sha0)) < 1 / 2 ^ 95 :=
  (C101_unforgeable (groupLaws sha0) .debug (g := ((1, 0) : G)) (by decide) (by decide +kernel) (d := 5)
    (by omega) (by omega) (cs := 1) (Or.inr rfl) (by omega) (by omega) (by omega)
    toySeep_keeps).trans_lt (C101_numbers (by omega) (by omega) (by omega) (by norm_num) (by norm_num)
      (by norm_num) (by norm_num) (by norm_num) (by norm_num))

/-- C101: with enough questions the game is won in the toy groups as well -/
example : ∃ P : SeepPlayer,
    P.Keeps 400 { evals := 0, tests := rOrder, points := 0, signs := 0, updates := 1, unseen := 1 } ∧
    randomSpillChance (ext sha0) .debug ((1, 0) : G) 5 1 40 32 400 (P.against (ext sha0)) = 1 :=
  C101_questions_forge (groupLaws sha0) .debug (g := ((1, 0) : G)) (by decide) (by decide +kernel)
    (d := 5) (by omega) (by omega) (cs := 1) (Or.inr rfl) (t := 4) (tar := 17) (by omega) (by omega)
    (by omega) (by decide +kernel) (msg := [1]) (by omega) 32 (by simp)

/-- C101: without leaks, as in C95 -/
example : randomSpillChance (ext sha0) .debug ((1, 0) : G) 5 1 32 32 400
    ((boxed toyBoxPlayer).against (ext sha0)) =
      randomForgeChance (ext sha0) .debug ((1, 0) : G) 5 1 32 400 (toyBoxPlayer.against (ext sha0)) :=
  C101_extends _ _ _ _ _ _ _ _ _

end Examples

end Pixel.Props
