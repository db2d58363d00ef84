import Verif.Proof.Prf

/-!
# Property C79: the generator is forward secure if HMAC is a pseudorandom function
-/

namespace Pixel.Props

open Pixel Spec

set_option linter.unusedSectionVars false

variable {sha : Bytes → Bytes}

/-- Whatever an adversary does with the generator (samples, draws, mixing in seeds of its own, and
being shown a state that no sample was taken from), its output with the functions of the code differs
from its output with uniform strings by exactly the gains of `k + 1` adversaries against HMAC, `k`
being the number of keys after the first. -/
theorem C79_generator (h : ∀ m, (sha m).length = 64) (P : PrngPlayer) (hP : P.Careful false)
    {k : Nat} (hk : P.Keys k) :
    realOutput sha P - P.ideal [] = ∑ j ∈ Finset.range (k + 1), prfGain sha (prfAttack sha P j) :=
  real_sub_ideal h P hP hk

/-- These adversaries ask for at most one value more than the generator is used. -/
theorem C79_questions (h : ∀ m, (sha m).length = 64) (P : PrngPlayer) {k : Nat} (hk : P.Uses k)
    (j : Nat) : (prfAttack sha P j).Asks (k + 1) :=
  attack_asks h P hk _

/-- So the two games are as close as HMAC is hard to tell from a random function. -/
theorem C79_close (h : ∀ m, (sha m).length = 64) (P : PrngPlayer) (hP : P.Careful false)
    {k : Nat} (hk : P.Keys k) {ε : ℚ}
    (hε : ∀ j ≤ k, |prfGain sha (prfAttack sha P j)| ≤ ε) :
    |realOutput sha P - P.ideal []| ≤ (k + 1) * ε := by
  rw [C79_generator h P hP hk]
  refine (Finset.abs_sum_le_sum_abs _ _).trans ?_
  refine (Finset.sum_le_card_nsmul _ _ ε fun j hj => hε j ?_).trans ?_
  · have := Finset.mem_range.mp hj; omega
  · rw [Finset.card_range, nsmul_eq_mul, Nat.cast_add, Nat.cast_one]

/-- the state is shown although a sample was taken from it -/
def careless (sha : Bytes → Bytes) (info : Bytes) : PrngPlayer :=
  .sample info fun r => .reveal fun p => if (Prng.sample sha info p).1 = .ok r then 1 else 0

/-- A sample does not change the state: who is shown the state afterwards, as in a break-in after
signing, recognises the sample.  So the condition on the adversary cannot be left out. -/
theorem C79_careless (h : ∀ m, (sha m).length = 64) (info : Bytes) :
    realOutput sha (careless sha info) = 1 ∧ (careless sha info).ideal [] ≤ 1 / 2 ^ 254 ∧
      ¬ (careless sha info).Careful false := by
  refine ⟨?_, ?_, ?_⟩
  · unfold realOutput
    refine Eq.trans (avg_congr fun K => ?_) (avg_const (1 : ℚ))
    rw [careless, real_sample h, PrngPlayer.real, sample_eq h, if_pos rfl]
  · simp only [careless, PrngPlayer.ideal]
    rw [oracle_new, avg_comm]
    refine (avg_mono fun K => ?_).trans (avg_const (α := Digest) ((1 : ℚ) / 2 ^ 254)).le
    refine Eq.trans_le (avg_congr fun D => ?_) (digest_share (drawVal sha ⟨K.bytes⟩ info))
    rw [sample_eq h]
    by_cases hD : D.field = drawVal sha ⟨K.bytes⟩ info
    · rw [if_pos hD, hD, if_pos rfl]
    · rw [if_neg hD, if_neg fun hc => hD (Res.ok.inj hc).symm]
  · intro hc
    exact absurd (hc 0) (by simp [PrngPlayer.Careful])

/-! ## The calls of the signer -/

/-- An epoch of the signer and the update: two signatures, the new seed, one new sub key (two draws),
and a break-in. -/
def epoch (m1 m2 seed : Bytes) (out : Fr → Fr → Prng → ℚ) : PrngPlayer :=
  .sample (DOM_SEP_SIG ++ m1) fun r1 => .sample (DOM_SEP_SIG ++ m2) fun r2 =>
    .mix seed DOM_SEP_SK_RERANDOMIZE_INFO <| .draw DOM_SEP_SK_UPDATE fun _ =>
      .draw DOM_SEP_SK_UPDATE fun _ => .reveal (out r1 r2)

example (m1 m2 seed : Bytes) (out : Fr → Fr → Prng → ℚ) :
    (epoch m1 m2 seed out).Careful false ∧ (epoch m1 m2 seed out).Keys 4 ∧
      (epoch m1 m2 seed out).Uses 5 := by
  simp [epoch, PrngPlayer.Careful, PrngPlayer.Keys, PrngPlayer.Uses]

/-- the scalars of the signatures and the revealed state, if HMAC does its duty: three independent
uniform strings -/
example (m1 m2 seed : Bytes) (hm : m1 ≠ m2) (out : Fr → Fr → Prng → ℚ) :
    (epoch m1 m2 seed out).ideal [] =
      avg fun D1 : Digest => avg fun D2 : Digest => avg fun K : Digest =>
        out D1.field D2.field ⟨K.bytes⟩ := by
  have hne : ((DOM_SEP_SIG ++ m2 == DOM_SEP_SIG ++ m1) = false) :=
    beq_eq_false_iff_ne.mpr fun hc => hm (List.append_cancel_left hc).symm
  simp only [epoch, PrngPlayer.ideal, oracle_new]
  refine avg_congr fun D1 => ?_
  rw [oracle, List.lookup_cons, hne]
  refine avg_congr fun D2 => ?_
  rw [avg_const, avg_const]

end Pixel.Props
