import Verif.Proof.Seed
import Verif.Props.Code

/-!
# Property C81: the game with `keygen`, from a seed

Vocabulary: `Verif/Spec/Seed.lean`.
-/

namespace Pixel.Props

open Pixel Pixel.Spec

set_option linter.unusedSectionVars false

variable {G1 G2 GT : Type} [AddCommGroup G1] [AddCommGroup G2] [CommGroup GT]

/-! ## C81 -/

/-- C81: with `keygen` called on a uniform seed of at least 32 bytes, the chance of any adversary is
that of the game of C80, plus what HKDF-extract of a uniform seed differs from a uniform state for one
explicit function: the chance of the adversary for a given state. -/
theorem C81_keygen [DecidableEq GT] {E : Ext G1 G2 GT} (H : HashLaws E) (L : GroupLaws E)
    (pf : Profile) {g : G1} (hsub : E.inSub1 g = true) {d : Nat} (hd : 1 ≤ d) (hd' : d ≤ 63)
    {cs : UInt8} (hsup : Supported cs) (A : World G1 G2 → CodePlayer G1 G2) {n : Nat} (hn : 32 ≤ n) :
    seedForgeChance E pf g d cs n A = codeForgeChance E pf g d cs A +
      extractGain E.sha512 (text "Pixel master key" ++ [cs]) n (startChance E pf g d cs A) := by
  rw [extractGain, ← startChance_avg, add_sub_cancel]
  unfold seedForgeChance startChance
  rw [avg_comm]
  refine avg_congr fun s => avg_congr fun a => ?_
  refine seed_chance H pf hsup A a ?_ ?_
  · exact (viewOf_wf (E := E) (cs := cs) L hsub hd hd' (toVar a)).toParamShape
  · unfold Seed.bytes
    rw [natToBE_length]
    exact hn

/-- C81: forward security from the seed on.  The bound of C80 holds for the game with `keygen`, up to
what HKDF-extract of a uniform seed is worth to the adversary. -/
theorem C81_hard_then_secure [DecidableEq GT] {E : Ext G1 G2 GT} (H : HashLaws E) (L : GroupLaws E)
    (pf : Profile) {g : G1} (hsub : E.inSub1 g = true) {d : Nat} (hd : 1 ≤ d) (hd' : d ≤ 63)
    {cs : UInt8} (hsup : Supported cs) (A : World G1 G2 → CodePlayer G1 G2) {n : Nat} (hn : 32 ≤ n)
    (hA : ∀ W, (A W).Legal) {m : Nat} (hm : ∀ W, (A W).Points m) {Q : Nat} (hQ : ∀ W, (A W).Hashes Q)
    {u : Nat} (hu : ∀ W, (A W).Updates u) {k : Nat} (hk : ∀ W, (A W).Scalars d k) {ε ε' δ : ℚ}
    (hε : ∀ t i, ValidTime d t → i < Q → solveChance E g d (roReduction E cs d (path d t) i
      (apiBet pf d t (codeLift E.sha512 pf t A))) ≤ ε)
    (hε' : ∀ t j, ValidTime d t → j < u * (d + 2) + 3 →
      prfGain E.sha512 (prfAttack E.sha512 (codeGame E pf g d cs A t) j) ≤ ε')
    (hδ : extractGain E.sha512 (text "Pixel master key" ++ [cs]) n (startChance E pf g d cs A) ≤ δ) :
    seedForgeChance E pf g d cs n A ≤
      (2 ^ d - 1) * (Q * (ε + ((m + 1) / rOrder + Q / 2 ^ 254)) + (u * (d + 2) + 3) * ε' +
        (k + 2) * (1 / 2 ^ 257)) + δ := by
  rw [C81_keygen H L pf hsub hd hd' hsup A hn]
  exact add_le_add (C80_hard_then_secure H L pf hsub hd hd' cs A hA hm hQ hu hk hε hε') hδ

/-- C81: `keygen` refuses seeds of less than 32 bytes, and ciphersuites other than 0 and 1: there is no
such game. -/
theorem C81_no_game [DecidableEq GT] (E : Ext G1 G2 GT) (pf : Profile) (g : G1) (d : Nat) (cs : UInt8)
    (A : World G1 G2 → CodePlayer G1 G2) {n : Nat} (h : n < 32 ∨ ¬ Supported cs) :
    seedForgeChance E pf g d cs n A = 0 := by
  unfold seedForgeChance
  refine (avg_congr fun a => (avg_congr fun s => ?_).trans (avg_const (α := Seed n) (0 : ℚ))).trans
    (avg_const 0)
  rcases h' : keygen { E with hashToG1 := fun _ _ => (a .q).val • g } s.bytes (gameParam E g cs a) with
    ⟨pk, sk, pop⟩ | e | e
  · exfalso
    rcases h with h | h
    · rw [keygen_short (by unfold Seed.bytes; rw [natToBE_length]; exact h)] at h'
      cases h'
    · exact h (keygen_supported h')
  · rfl
  · rfl

/-- C81: the game from the seed can be won, by whoever can take discrete logarithms in `G2`: the bound
is not about a game that cannot be played. -/
theorem C81_logarithms_forge [DecidableEq GT] {E : Ext G1 G2 GT} (H : HashLaws E) (L : GroupLaws E)
    (pf : Profile) {g : G1} (hsub : E.inSub1 g = true) {d : Nat} (hd : 1 ≤ d) (hd' : d ≤ 63)
    {cs : UInt8} (hsup : Supported cs) {t tar : Nat} (h1 : 1 ≤ t) (h2 : t < tar)
    (h3 : tar ≤ 2 ^ d - 1) (h4 : drawsNeeded d 1 tar = 0) (seed msg : Bytes)
    (log : G2 → Fr) (hlog : ∀ x : Fr, log (x.val • E.gen2) = x) {n : Nat} (hn : 32 ≤ n) :
    seedForgeChance E pf g d cs n (codeLogForger log t tar seed msg) = 1 := by
  unfold seedForgeChance
  refine (avg_congr fun a => (avg_congr fun s => ?_).trans (avg_const (α := Seed n) (1 : ℚ))).trans
    (avg_const 1)
  refine (seed_chance H pf hsup (codeLogForger log t tar seed msg) a
    (viewOf_wf (E := E) (cs := cs) L hsub hd hd' (toVar a)).toParamShape
    (by unfold Seed.bytes; rw [natToBE_length]; exact hn)).trans ?_
  exact logForger_start H L pf hsub hd hd' hsup h1 h2 h3 h4 seed msg log hlog a _

/-! ### Concrete cases -/

section Examples
open Pixel.Toy

/-- C81: the hypotheses are met by the adversary of C80, with seeds of 32 bytes -/
example : seedForgeChance (ext sha0) .debug ((1, 0) : G) 5 1 32 toyCodePlayer =
    codeForgeChance (ext sha0) .debug ((1, 0) : G) 5 1 toyCodePlayer +
      extractGain (ext sha0).sha512 (text "Pixel master key" ++ [1]) 32
        (startChance (ext sha0) .debug ((1, 0) : G) 5 1 toyCodePlayer) :=
  C81_keygen hashLaws (groupLaws sha0) .debug (g := ((1, 0) : G)) (by decide) (d := 5)
    (by omega) (by omega) (Or.inr rfl) toyCodePlayer (by omega)

/-- C81: with logarithms, which are easy in the toy groups, the game from the seed is won -/
example : seedForgeChance (ext sha0) .debug ((1, 0) : G) 5 1 40
    (codeLogForger (fun p : G => p.1) 4 17 [9] [1]) = 1 :=
  C81_logarithms_forge hashLaws (groupLaws sha0) .debug (g := ((1, 0) : G)) (by decide) (d := 5)
    (by omega) (by omega) (cs := 1) (Or.inr rfl) (by omega) (by omega) (by omega)
    (by decide +kernel) [9] [1] (fun p : G => p.1) (by
      intro x
      simp [ext]) (by omega)

/-- C81: with 31 bytes, or ciphersuite 2, there is no game -/
example : seedForgeChance (ext sha0) .debug ((1, 0) : G) 5 1 31 toyCodePlayer = 0 ∧
    seedForgeChance (ext sha0) .debug ((1, 0) : G) 5 2 32 toyCodePlayer = 0 :=
  ⟨C81_no_game _ _ _ _ _ _ (Or.inl (by omega)), C81_no_game _ _ _ _ _ _ (Or.inr (by unfold Supported; decide))⟩

/-- C81: the gain of extraction is not 0 for all functions: if SHA-512 gave the same digest always,
HKDF-extract would too -/
example (D : Bytes) (salt : Bytes) (n : Nat) (f : Prng → ℚ) :
    extractGain (fun _ => D) salt n f = f ⟨D⟩ - avg fun K : Digest => f ⟨K.bytes⟩ := by
  unfold extractGain
  congr 1
  exact avg_const (α := Seed n) (f ⟨D⟩)

end Examples

end Pixel.Props
