import Verif.Proof.CallGame

/-!
# Property C89: the game with all functions of the trait

Vocabulary: `Verif/Spec/CallGame.lean`.
-/

namespace Pixel.Props

open Pixel Pixel.Spec Pixel.Curve

set_option linter.unusedSectionVars false

variable {G1 G2 GT : Type} [AddCommGroup G1] [AddCommGroup G2] [CommGroup GT] {N : Nat}

/-! ## C89 -/

/-- C89: a call in the game is a call of the code: with the hash of its message it returns the same and
leaves the same key. -/
theorem C89_calls {sha : Bytes → Bytes} (hsha : ∀ m, (sha m).length = 64) (pf : Profile)
    {pp : PubParam G1 G2} (W : ParamShape pp) (hsup : Supported pp.ciphersuite) {alpha : G1} {t : Nat}
    {sk : SecretKey G1 G2} (h : KeyFor pp alpha t sk) (c : Call) :
    c.run sha pf pp sk = c.runHashed sha pf pp (msgField sha pp.ciphersuite c.msg) sk :=
  runHashed_eq hsha pf W hsup h c

/-- C89: the game with `sk_update`, `sign`, `sign_present` and `sign_then_update` is the game of C87, for
the explicit adversary that knows from the times what a call does. -/
theorem C89_all_functions [DecidableEq GT] {E : Ext G1 G2 GT} (H : HashLaws E) (L : GroupLaws E)
    (pf : Profile) {g : G1} (hsub : E.inSub1 g = true) {seed : Bytes} {d : Nat} (hd : 1 ≤ d)
    (hd' : d ≤ 63) {cs : UInt8} (hsup : Supported cs) {n : Nat} (hn : 32 ≤ n)
    (A : PubParam G1 G2 → (Fin N → PublicKey G2) → (Fin N → ProofOfPossession G1) →
      CallPlayer G1 G2 N) :
    callForgeChance E pf g seed d cs n N A = scriptForgeChance E pf g seed d cs n N (callLower d A) :=
  call_eq H L pf hsub hd hd' hsup hn A

/-- C89: and every adversary of the game of C87 has the same chance in this game. -/
theorem C89_conversely [DecidableEq GT] {E : Ext G1 G2 GT} (H : HashLaws E) (L : GroupLaws E)
    (pf : Profile) {g : G1} (hsub : E.inSub1 g = true) {seed : Bytes} {d : Nat} (hd : 1 ≤ d)
    (hd' : d ≤ 63) {cs : UInt8} (hsup : Supported cs) {n : Nat} (hn : 32 ≤ n)
    (B : PubParam G1 G2 → (Fin N → PublicKey G2) → (Fin N → ProofOfPossession G1) →
      CrowdPlayer G1 G2 N) :
    callForgeChance E pf g seed d cs n N (callRaise d B) = scriptForgeChance E pf g seed d cs n N B :=
  raise_eq H L pf hsub hd hd' hsup hn B

/-- C89: so the trait is forward secure: the bound is that of C84, where `sign` and `sign_then_update`
count as a signature and an update. -/
theorem C89_hard_then_secure [DecidableEq GT] {E : Ext G1 G2 GT} (H : HashLaws E) (L : GroupLaws E)
    (C : CodecLaws E) (pf : Profile) {g : G1} (hsub : E.inSub1 g = true) {seed : Bytes} {d : Nat}
    (hd : 1 ≤ d) (hd' : d ≤ 63) (hnd : (paramStrings E.sha512 seed d).Nodup) {cs : UInt8}
    (hsup : Supported cs) {n : Nat} (hn : 32 ≤ n)
    (A : PubParam G1 G2 → (Fin N → PublicKey G2) → (Fin N → ProofOfPossession G1) →
      CallPlayer G1 G2 N)
    (hA : ∀ pp pk pop, (A pp pk pop).Legal) {m : Nat} (hm : ∀ pp pk pop, (A pp pk pop).Points m)
    {Q : Nat} (hQ : ∀ pp pk pop, (A pp pk pop).Hashes Q) {u : Nat}
    (hu : ∀ i pp pk pop, (A pp pk pop).Updates i u) {k : Nat}
    (hk : ∀ i pp pk pop, (A pp pk pop).Scalars i d k) {ε ε' δ : ℚ}
    (hε : ∀ i t l, ValidTime d t → l < Q → solveChance E g d (roReduction E cs d (path d t) l
      (apiBet pf d t (codeLift E.sha512 pf t (byteLower E (crowdOne E pf n i
        (scriptLower E.sha512 seed (callLower d A))))))) ≤ ε)
    (hε' : ∀ i t j, ValidTime d t → j < u * (d + 2) + 3 → prfGain E.sha512
      (prfAttack E.sha512 (codeGame E pf g d cs (byteLower E (crowdOne E pf n i
        (scriptLower E.sha512 seed (callLower d A)))) t) j) ≤ ε')
    (hδ : ∀ i, extractGain E.sha512 (text "Pixel master key" ++ [cs]) n
      (startChance E pf g d cs (byteLower E (crowdOne E pf n i
        (scriptLower E.sha512 seed (callLower d A))))) ≤ δ) :
    callForgeChance E pf g seed d cs n N A ≤
      N * ((2 ^ d - 1) * (Q * (ε + (((m + N : Nat) + 1) / rOrder + Q / 2 ^ 254)) +
        (u * (d + 2) + 3) * ε' + (k + 2) * (1 / 2 ^ 257)) + δ) :=
  (C89_all_functions H L pf hsub hd hd' hsup hn A).trans_le
    (C87_hard_then_secure H L C pf hsub hd hd' hnd hsup hn _
      (fun _ _ _ => call_lower_legal _ _ (hA _ _ _) _) (fun _ _ _ => call_lower_points _ _ (hm _ _ _) _)
      (fun _ _ _ => call_lower_hashes _ _ (hQ _ _ _) _)
      (fun i _ _ _ => call_lower_updates _ i _ (hu i _ _ _) _)
      (fun i _ _ _ => call_lower_scalars _ i _ (hk i _ _ _) _) hε hε' hδ)

/-- C89: the trait with the default parameters of the script, on BLS12-381 with SHA-512. -/
theorem C89_real [DecidableEq GT] {R : Rest GT} (hs : R.sha512 = Sha512.sha512)
    (P : PairingOk R) (hh : ∀ m c, rOrder • R.hashToG1 m c = 0) (pf : Profile) {n : Nat} (hn : 32 ≤ n)
    (A : PubParam P1 P2 → (Fin N → PublicKey P2) → (Fin N → ProofOfPossession P1) →
      CallPlayer P1 P2 N)
    (hA : ∀ pp pk pop, (A pp pk pop).Legal) {m : Nat} (hm : ∀ pp pk pop, (A pp pk pop).Points m)
    {Q : Nat} (hQ : ∀ pp pk pop, (A pp pk pop).Hashes Q) {u : Nat}
    (hu : ∀ i pp pk pop, (A pp pk pop).Updates i u) {k : Nat}
    (hk : ∀ i pp pk pop, (A pp pk pop).Scalars i 32 k) {ε ε' δ : ℚ}
    (hε : ∀ i t l, ValidTime 32 t → l < Q → solveChance (bls R) gen1 32 (roReduction (bls R) 0 32
      (path 32 t) l (apiBet pf 32 t (codeLift Sha512.sha512 pf t (byteLower (bls R) (crowdOne (bls R) pf n i
        (scriptLower Sha512.sha512 Py.paramSeed (callLower 32 A))))))) ≤ ε)
    (hε' : ∀ i t j, ValidTime 32 t → j < u * 34 + 3 → prfGain Sha512.sha512
      (prfAttack Sha512.sha512 (codeGame (bls R) pf gen1 32 0 (byteLower (bls R) (crowdOne (bls R) pf n i
        (scriptLower Sha512.sha512 Py.paramSeed (callLower 32 A)))) t) j) ≤ ε')
    (hδ : ∀ i, extractGain Sha512.sha512 (text "Pixel master key" ++ [0]) n
      (startChance (bls R) pf gen1 32 0 (byteLower (bls R) (crowdOne (bls R) pf n i
        (scriptLower Sha512.sha512 Py.paramSeed (callLower 32 A))))) ≤ δ) :
    callForgeChance (bls R) pf gen1 Py.paramSeed 32 0 n N A ≤
      N * ((2 ^ 32 - 1) * (Q * (ε + (((m + N : Nat) + 1) / rOrder + Q / 2 ^ 254)) +
        (u * 34 + 3) * ε' + (k + 2) * (1 / 2 ^ 257)) + δ) := by
  have hs' : (bls R).sha512 = Sha512.sha512 := hs
  have hl : ∀ m, ((bls R).sha512 m).length = 64 := fun m => by rw [hs']; exact Kat.sha512_length m
  rw [C89_all_functions (E := bls R) ⟨hl⟩ (bls_group P hh) pf (g := gen1)
    ((inSub1_iff R gen1).2 gen1_order) (by omega) (by omega) (Or.inl rfl) hn A]
  exact C87_real hs P hh pf hn _ (fun _ _ _ => call_lower_legal _ _ (hA _ _ _) _)
    (fun _ _ _ => call_lower_points _ _ (hm _ _ _) _) (fun _ _ _ => call_lower_hashes _ _ (hQ _ _ _) _)
    (fun i _ _ _ => call_lower_updates _ i _ (hu i _ _ _) _)
    (fun i _ _ _ => call_lower_scalars _ i _ (hk i _ _ _) _) hε hε' hδ

/-- C89: the game can be won: whoever can take discrete logarithms in `G2` wins always. -/
theorem C89_logarithms_forge [DecidableEq GT] {E : Ext G1 G2 GT} (H : HashLaws E) (L : GroupLaws E)
    (C : CodecLaws E) (pf : Profile) {g : G1} (hsub : E.inSub1 g = true) {pseed : Bytes} {d : Nat}
    (hd : 1 ≤ d) (hd' : d ≤ 63) (hnd : (paramStrings E.sha512 pseed d).Nodup) {cs : UInt8}
    (hsup : Supported cs) {t tar : Nat} (h1 : 1 ≤ t) (h2 : t < tar)
    (h3 : tar ≤ 2 ^ d - 1) (ht : t < 2 ^ 32) (h4 : drawsNeeded d 1 tar = 0) (seed msg : Bytes)
    (log : G2 → Fr) (hlog : ∀ x : Fr, log (x.val • E.gen2) = x) {n : Nat} (hn : 32 ≤ n) {i j : Fin N}
    (hij : i ≠ j) :
    callForgeChance E pf g pseed d cs n N (callRaise d (crowdLogForger E log i j t tar seed msg)) = 1 :=
  (C89_conversely H L pf hsub hd hd' hsup hn _).trans
    (C87_logarithms_forge H L C pf hsub hd hd' hnd hsup h1 h2 h3 ht h4 seed msg log hlog hn hij)

/-! ### Concrete cases -/

section Examples
open Pixel.Toy

/-- C89: `sign_then_update` on a key at depth 5 -/
example (M : Fr) (hM : M = msgField Sha512.sha512 0 [1]) :
    (Call.signThenUpdate 1 [1] [7]).run Sha512.sha512 .debug (param 5 0) (sk0 5 0) =
      (Call.signThenUpdate 1 [1] [7]).runHashed Sha512.sha512 .debug (param 5 0) M (sk0 5 0) := by
  rw [hM]
  exact C89_calls Kat.sha512_length .debug (param_wf Sha512.sha512 (by decide) (by decide) 0).toParamShape
    (Or.inl rfl) (keyFor_sk0 (by decide) 0) _

/-- C89: the hypotheses of the bound on the real curves are met, for some pairing, by an adversary against
two signers that uses all functions: it has a message signed with an update, signs at a later time,
asks for a signature of the past, updates, breaks in, and hands over what it got -/
noncomputable def callRealPlayer (_ : PubParam P1 P2) (pk : Fin 2 → PublicKey P2)
    (pop : Fin 2 → ProofOfPossession P1) : CallPlayer P1 P2 2 :=
  .call 0 (.signThenUpdate 1 [1] [7]) fun _ => .call 1 (.sign 5 [2] [8]) fun o =>
    .call 1 (.signPresent 4 [3]) fun _ => .call 0 (.update 9 [9]) fun _ => .breakIn 0 fun _ => .forge
      { msg := [2]
        sig := match o with
          | .ok (some s) => sigLayout (bls restGen) true s
          | _ => []
        signers := [(pkLayout (bls restGen) true (pk 0), popLayout (bls restGen) true (pop 0)),
          (pkLayout (bls restGen) true (pk 1), popLayout (bls restGen) true (pop 1))] }

example {ε ε' δ : ℚ}
    (hε : ∀ i t l, ValidTime 32 t → l < 4 → solveChance (bls restGen) gen1 32 (roReduction
      (bls restGen) 0 32 (path 32 t) l (apiBet .release 32 t (codeLift Sha512.sha512 .release t (byteLower
        (bls restGen) (crowdOne (bls restGen) .release 32 i
          (scriptLower Sha512.sha512 Py.paramSeed (callLower 32 callRealPlayer))))))) ≤ ε)
    (hε' : ∀ i t j, ValidTime 32 t → j < 2 * 34 + 3 → prfGain Sha512.sha512
      (prfAttack Sha512.sha512 (codeGame (bls restGen) .release gen1 32 0 (byteLower (bls restGen)
        (crowdOne (bls restGen) .release 32 i
          (scriptLower Sha512.sha512 Py.paramSeed (callLower 32 callRealPlayer)))) t) j) ≤ ε')
    (hδ : ∀ i, extractGain Sha512.sha512 (text "Pixel master key" ++ [0]) 32
      (startChance (bls restGen) .release gen1 32 0 (byteLower (bls restGen) (crowdOne (bls restGen)
        .release 32 i (scriptLower Sha512.sha512 Py.paramSeed (callLower 32 callRealPlayer))))) ≤ δ) :
    callForgeChance (bls restGen) .release gen1 Py.paramSeed 32 0 32 2 callRealPlayer ≤
      (2 : Nat) * ((2 ^ 32 - 1) * ((4 : Nat) * ε + ((2 : Nat) * 34 + 3) * ε') + δ) + 1 / 2 ^ 70 :=
  (C89_real (R := restGen) (N := 2) rfl restGen_pairing (fun m c => tors_nsmul gen1_order _) .release
    (n := 32) (by omega) callRealPlayer
    (fun _ _ _ => by
      simp only [callRealPlayer, CallPlayer.Legal, List.length_cons, List.length_nil]
      exact fun _ _ _ _ _ => by decide +kernel) (m := 2)
    (fun _ _ _ => by
      simp only [callRealPlayer, CallPlayer.Points, List.length_cons, List.length_nil]
      exact fun _ _ _ _ _ => by omega) (Q := 4)
    (fun _ _ _ => by
      simp [callRealPlayer, CallPlayer.Hashes, Call.hashes]) (u := 2)
    (fun i _ _ _ => by
      fin_cases i <;> simp [callRealPlayer, CallPlayer.Updates, Call.updates]) (k := 65)
    (fun i _ _ _ => by
      fin_cases i <;> simp [callRealPlayer, CallPlayer.Scalars, Call.scalars]) hε hε' hδ).trans
    (C87_numbers (by norm_num) (by norm_num) (by norm_num) (by norm_num) 2 ε ε' δ)

/-- C89: with logarithms, which are easy in the toy groups, the game is won against the last of three
signers, with SHA-512 and the parameters of the script -/
example : callForgeChance (ext Sha512.sha512) .debug ((1, 0) : G) Py.paramSeed 32 0 32 3
    (callRaise 32 (crowdLogForger (ext Sha512.sha512) (fun p => p.1) 2 0 4 (2 ^ 31 + 1) [9] [1])) = 1 :=
  C89_logarithms_forge (E := ext Sha512.sha512) ⟨Kat.sha512_length⟩ (groupLaws _) (codecLaws _) .debug
    (g := ((1, 0) : G)) (by decide) (by omega) (by omega) C65_default_strings (Or.inl rfl) (by omega)
    (by omega) (by omega) (by omega) (by decide +kernel) [9] [1] _
    (fun x => by
      show (x.val • ((1, 0) : G)).1 = x
      simp) (by omega) (by decide)

end Examples

end Pixel.Props
