import Verif.Proof.CGame

/-!
# Property C88: the game against users of the C interface

Vocabulary: `Verif/Spec/CGame.lean`.
-/

namespace Pixel.Props

open Pixel Pixel.Spec Pixel.Curve

set_option linter.unusedSectionVars false

variable {G1 G2 GT : Type} [AddCommGroup G1] [AddCommGroup G2] [CommGroup GT] {N : Nat}

/-! ## C88 -/

/-- C88: signing in the game is `c_sign_present`: with the hash of the message it is the same function
on the blobs of honest keys. -/
theorem C88_sign {E : Ext G1 G2 GT} (H : HashLaws E) (L : GroupLaws E) (C : CodecLaws E)
    (D : DefaultLaws E) (pf : Profile) {x t : Nat} {b : Bytes}
    (h : BlobFor E (x • E.defaultParam.h) t b) (msg : Bytes) (tar : Nat) :
    Ffi.cSignPresent E pf b msg tar =
      cSignHashed E pf b msg tar (msgField E.sha512 E.defaultParam.ciphersuite msg) := by
  obtain ⟨sk, hk, rfl⟩ := h
  have hp := Ffi.parse_sk C (D.skValid L hk) []
  rw [List.append_nil] at hp
  unfold Ffi.cSignPresent cSignHashed
  simp only [hp, Res.ok_bind]
  by_cases ht : sk.time = tar
  · rw [if_neg (not_not.2 ht), Signature.signPresent_eq ht]
    subst ht
    have hs : Signature.signBytes E.sha512 pf sk sk.time E.defaultParam msg =
        signHashed E.sha512 pf E.defaultParam sk msg
          (msgField E.sha512 E.defaultParam.ciphersuite msg) := by
      unfold Signature.signBytes signHashed
      simp only [validCiphersuite_contains.2 D.suite, Bool.not_true, Bool.false_eq_true, if_false,
        hk.suite, ne_eq, not_true_eq_false, decide_true, assertRes_true, Res.ok_bind]
      rw [sample_exec H.sha_len]
      simp only [Res.ok_bind]
      rw [hashMsg_eq H.sha_len, Res.ok_bind]
    rw [hs]
  · rw [if_pos ht, Signature.signPresent_ne ht]
    rfl

/-- C88: the game through the C interface, on bytes, is the game of C87, for the explicit adversary that
makes the bytes from the objects and knows from the times which calls abort. -/
theorem C88_c_interface [DecidableEq GT] {E : Ext G1 G2 GT} (H : HashLaws E) (L : GroupLaws E)
    (C : CodecLaws E) (pf : Profile) {g : G1} (hsub : E.inSub1 g = true) {seed : Bytes} {cs : UInt8}
    (hsup : Supported cs) {n : Nat} (hn : 32 ≤ n)
    (A : PubParam G1 G2 → (Fin N → Bytes) → (Fin N → Bytes) → CPlayer G1 N) :
    cForgeChance E pf g seed cs n N A = scriptForgeChance E pf g seed 32 cs n N (cLower E A) :=
  c_eq H L C pf hsub hsup hn A

/-- C88: so the C interface is forward secure: the bound is that of C84, at depth 32. -/
theorem C88_hard_then_secure [DecidableEq GT] {E : Ext G1 G2 GT} (H : HashLaws E) (L : GroupLaws E)
    (C : CodecLaws E) (pf : Profile) {g : G1} (hsub : E.inSub1 g = true) {seed : Bytes}
    (hnd : (paramStrings E.sha512 seed 32).Nodup) {cs : UInt8} (hsup : Supported cs) {n : Nat}
    (hn : 32 ≤ n) (A : PubParam G1 G2 → (Fin N → Bytes) → (Fin N → Bytes) → CPlayer G1 N)
    (hA : ∀ pp pk pop, (A pp pk pop).Legal) {m : Nat} (hm : ∀ pp pk pop, (A pp pk pop).Points m)
    {Q : Nat} (hQ : ∀ pp pk pop, (A pp pk pop).Hashes Q) {u : Nat}
    (hu : ∀ i pp pk pop, (A pp pk pop).Updates i u) {k : Nat}
    (hk : ∀ i pp pk pop, (A pp pk pop).Scalars i 32 k) {ε ε' δ : ℚ}
    (hε : ∀ i t l, ValidTime 32 t → l < Q → solveChance E g 32 (roReduction E cs 32 (path 32 t) l
      (apiBet pf 32 t (codeLift E.sha512 pf t (byteLower E (crowdOne E pf n i
        (scriptLower E.sha512 seed (cLower E A))))))) ≤ ε)
    (hε' : ∀ i t j, ValidTime 32 t → j < u * (32 + 2) + 3 → prfGain E.sha512
      (prfAttack E.sha512 (codeGame E pf g 32 cs (byteLower E (crowdOne E pf n i
        (scriptLower E.sha512 seed (cLower E A)))) t) j) ≤ ε')
    (hδ : ∀ i, extractGain E.sha512 (text "Pixel master key" ++ [cs]) n
      (startChance E pf g 32 cs (byteLower E (crowdOne E pf n i
        (scriptLower E.sha512 seed (cLower E A))))) ≤ δ) :
    cForgeChance E pf g seed cs n N A ≤
      N * ((2 ^ 32 - 1) * (Q * (ε + (((m + N : Nat) + 1) / rOrder + Q / 2 ^ 254)) +
        (u * ((32 : Nat) + 2) + 3) * ε' + (k + 2) * (1 / 2 ^ 257)) + δ) :=
  (C88_c_interface H L C pf hsub hsup hn A).trans_le
    (C87_hard_then_secure H L C pf hsub (by omega) (by omega) hnd hsup hn _
      (fun _ _ _ => c_lower_legal _ _ (hA _ _ _) _) (fun _ _ _ => c_lower_points _ _ (hm _ _ _) _)
      (fun _ _ _ => c_lower_hashes _ _ (hQ _ _ _) _)
      (fun i _ _ _ => c_lower_updates _ i _ (hu i _ _ _) _)
      (fun i _ _ _ => c_lower_scalars _ i _ _ (hk i _ _ _) _) hε hε' hδ)

/-- C88: the C interface with the default parameters of the script, on BLS12-381 with SHA-512. -/
theorem C88_real [DecidableEq GT] {R : Rest GT} (hs : R.sha512 = Sha512.sha512)
    (P : PairingOk R) (hh : ∀ m c, rOrder • R.hashToG1 m c = 0) (pf : Profile) {n : Nat} (hn : 32 ≤ n)
    (A : PubParam P1 P2 → (Fin N → Bytes) → (Fin N → Bytes) → CPlayer P1 N)
    (hA : ∀ pp pk pop, (A pp pk pop).Legal) {m : Nat} (hm : ∀ pp pk pop, (A pp pk pop).Points m)
    {Q : Nat} (hQ : ∀ pp pk pop, (A pp pk pop).Hashes Q) {u : Nat}
    (hu : ∀ i pp pk pop, (A pp pk pop).Updates i u) {k : Nat}
    (hk : ∀ i pp pk pop, (A pp pk pop).Scalars i 32 k) {ε ε' δ : ℚ}
    (hε : ∀ i t l, ValidTime 32 t → l < Q → solveChance (bls R) gen1 32 (roReduction (bls R) 0 32
      (path 32 t) l (apiBet pf 32 t (codeLift Sha512.sha512 pf t (byteLower (bls R) (crowdOne (bls R) pf n i
        (scriptLower Sha512.sha512 Py.paramSeed (cLower (bls R) A))))))) ≤ ε)
    (hε' : ∀ i t j, ValidTime 32 t → j < u * 34 + 3 → prfGain Sha512.sha512
      (prfAttack Sha512.sha512 (codeGame (bls R) pf gen1 32 0 (byteLower (bls R) (crowdOne (bls R) pf n i
        (scriptLower Sha512.sha512 Py.paramSeed (cLower (bls R) A)))) t) j) ≤ ε')
    (hδ : ∀ i, extractGain Sha512.sha512 (text "Pixel master key" ++ [0]) n
      (startChance (bls R) pf gen1 32 0 (byteLower (bls R) (crowdOne (bls R) pf n i
        (scriptLower Sha512.sha512 Py.paramSeed (cLower (bls R) A))))) ≤ δ) :
    cForgeChance (bls R) pf gen1 Py.paramSeed 0 n N A ≤
      N * ((2 ^ 32 - 1) * (Q * (ε + (((m + N : Nat) + 1) / rOrder + Q / 2 ^ 254)) +
        (u * 34 + 3) * ε' + (k + 2) * (1 / 2 ^ 257)) + δ) := by
  have hs' : (bls R).sha512 = Sha512.sha512 := hs
  have hl : ∀ m, ((bls R).sha512 m).length = 64 := fun m => by rw [hs']; exact Kat.sha512_length m
  rw [C88_c_interface (E := bls R) ⟨hl⟩ (bls_group P hh) (bls_codec R) pf (g := gen1)
    ((inSub1_iff R gen1).2 gen1_order) (Or.inl rfl) hn A]
  exact C87_real hs P hh pf hn _ (fun _ _ _ => c_lower_legal _ _ (hA _ _ _) _)
    (fun _ _ _ => c_lower_points _ _ (hm _ _ _) _) (fun _ _ _ => c_lower_hashes _ _ (hQ _ _ _) _)
    (fun i _ _ _ => c_lower_updates _ i _ (hu i _ _ _) _)
    (fun i _ _ _ => c_lower_scalars _ i _ _ (hk i _ _ _) _) hε hε' hδ

/-! ## the game can be won -/

/-- the adversary of C84 with the strings of the C interface: it breaks into signer `j`, lets signer `i`
go on to time `tar`, breaks in there, and makes a signature for time `t` with the logarithm of the
public key -/
def cLogForger (E : Ext G1 G2 GT) (log : Bytes → Fr) (i j : Fin N) (t tar : Nat) (seed msg : Bytes)
    (pp : PubParam G1 G2) (pk pop : Fin N → Bytes) : CPlayer G1 N :=
  .breakIn j fun _ => .update i tar seed fun _ => .breakIn i fun _ => .forge
    { msg := msg
      sig := sigLayout E true ⟨pp.ciphersuite, t, 0, (log ((pk i).drop 1)).val • pp.h⟩
      signers := [(pk i, pop i)] }

/-- C88: whoever can take discrete logarithms in `G2` wins always. -/
theorem C88_logarithms_forge [DecidableEq GT] {E : Ext G1 G2 GT} (H : HashLaws E) (L : GroupLaws E)
    (C : CodecLaws E) (pf : Profile) {g : G1} (hsub : E.inSub1 g = true) {pseed : Bytes}
    (hnd : (paramStrings E.sha512 pseed 32).Nodup) {cs : UInt8} (hsup : Supported cs) {t tar : Nat}
    (h1 : 1 ≤ t) (h2 : t < tar) (h3 : tar ≤ 2 ^ 32 - 1) (h4 : drawsNeeded 32 1 tar = 0)
    (seed msg : Bytes) (log : Bytes → Fr) (hlog : ∀ x : Fr, log (E.encG2 true (x.val • E.gen2)) = x)
    {n : Nat} (hn : 32 ≤ n) {i j : Fin N} (hij : i ≠ j) :
    cForgeChance E pf g pseed cs n N (cLogForger E log i j t tar seed msg) = 1 := by
  rw [C88_c_interface H L C pf hsub hsup hn]
  have e : cLower E (cLogForger (N := N) E log i j t tar seed msg) =
      crowdLogForger E (fun p => log (E.encG2 true p)) i j t tar seed msg := by
    funext pp pk pop
    unfold cLower cLogForger crowdLogForger
    simp only [CPlayer.lower]
    rw [if_pos ⟨by omega, h3⟩, if_pos]
    · rfl
    · refine ⟨?_, ?_⟩
      · simp [sigLayout, C.enc2_len, C.enc1_len, be32_length]
      · intro s hs
        rw [List.mem_singleton.1 hs]
        simp [pkLayout, popLayout, C.enc2_len, C.enc1_len]
  rw [e]
  exact C87_logarithms_forge H L C pf hsub (by omega) (by omega) hnd hsup h1 h2 h3 (by omega) h4 seed msg
    _ hlog hn hij

/-! ### Concrete cases -/

section Examples
open Pixel.Toy

/-- C88: the hypotheses of the bound on the real curves are met, for some pairing, by an adversary against
two signers that has a message signed, asks for a signature at a time of the past, breaks in later, and
hands over what it got -/
def cRealPlayer (_ : PubParam P1 P2) (pk pop : Fin 2 → Bytes) : CPlayer P1 2 :=
  .sign 0 1 [1] fun s => .update 0 9 [7] fun _ => .sign 0 1 [2] fun s' => .breakIn 0 fun _ => .forge
    { msg := [2]
      sig := s'.getD (s.getD [])
      signers := [(pk 0, pop 0), (pk 1, pop 1)] }

example {ε ε' δ : ℚ}
    (hε : ∀ i t l, ValidTime 32 t → l < 3 → solveChance (bls restGen) gen1 32 (roReduction
      (bls restGen) 0 32 (path 32 t) l (apiBet .release 32 t (codeLift Sha512.sha512 .release t (byteLower
        (bls restGen) (crowdOne (bls restGen) .release 32 i
          (scriptLower Sha512.sha512 Py.paramSeed (cLower (bls restGen) cRealPlayer))))))) ≤ ε)
    (hε' : ∀ i t j, ValidTime 32 t → j < 1 * 34 + 3 → prfGain Sha512.sha512
      (prfAttack Sha512.sha512 (codeGame (bls restGen) .release gen1 32 0 (byteLower (bls restGen)
        (crowdOne (bls restGen) .release 32 i
          (scriptLower Sha512.sha512 Py.paramSeed (cLower (bls restGen) cRealPlayer)))) t) j) ≤ ε')
    (hδ : ∀ i, extractGain Sha512.sha512 (text "Pixel master key" ++ [0]) 32
      (startChance (bls restGen) .release gen1 32 0 (byteLower (bls restGen) (crowdOne (bls restGen)
        .release 32 i (scriptLower Sha512.sha512 Py.paramSeed (cLower (bls restGen) cRealPlayer))))) ≤ δ) :
    cForgeChance (bls restGen) .release gen1 Py.paramSeed 0 32 2 cRealPlayer ≤
      (2 : Nat) * ((2 ^ 32 - 1) * ((3 : Nat) * ε + ((1 : Nat) * 34 + 3) * ε') + δ) + 1 / 2 ^ 70 :=
  (C88_real (R := restGen) (N := 2) rfl restGen_pairing (fun m c => tors_nsmul gen1_order _) .release
    (n := 32) (by omega) cRealPlayer
    (fun _ _ _ => by
      simp only [cRealPlayer, CPlayer.Legal, List.length_cons, List.length_nil]
      exact fun _ _ _ _ => by decide +kernel) (m := 2)
    (fun _ _ _ => by
      simp only [cRealPlayer, CPlayer.Points, List.length_cons, List.length_nil]
      exact fun _ _ _ _ => by omega) (Q := 3)
    (fun _ _ _ => by
      simp only [cRealPlayer, CPlayer.Hashes]
      refine ⟨by omega, fun _ _ => ⟨by omega, fun _ _ => by omega, fun _ => by omega⟩,
        fun _ => ⟨by omega, fun _ _ => by omega, fun _ => by omega⟩⟩) (u := 1)
    (fun i _ _ _ => by
      simp only [cRealPlayer, CPlayer.Updates]
      intro _
      refine ⟨?_, fun _ _ => trivial⟩
      split
      · exact ⟨by omega, fun _ _ => trivial⟩
      · exact fun _ _ => trivial) (k := 34)
    (fun i _ _ _ => by
      simp only [cRealPlayer, CPlayer.Scalars]
      by_cases hi : 0 = i
      · simp [hi]
      · simp [hi]) hε hε' hδ).trans
    (C87_numbers (by norm_num) (by norm_num) (by norm_num) (by norm_num) 1 ε ε' δ)

/-- the logarithm of an encoded point of the toy groups -/
def toyLog (b : Bytes) : Fr :=
  match (ext Sha512.sha512).decG2 true b with
  | (.ok p, _) => p.1
  | _ => 0

/-- C88: with logarithms, which are easy in the toy groups, the game is won against the last of three
signers, with SHA-512 and the parameters of the script -/
example : cForgeChance (ext Sha512.sha512) .debug ((1, 0) : G) Py.paramSeed 0 32 3
    (cLogForger (ext Sha512.sha512) toyLog 2 0 4 (2 ^ 31 + 1) [9] [1]) = 1 :=
  C88_logarithms_forge (E := ext Sha512.sha512) ⟨Kat.sha512_length⟩ (groupLaws _) (codecLaws _) .debug
    (g := ((1, 0) : G))
    (by decide) C65_default_strings (Or.inl rfl) (by omega) (by omega) (by omega) (by decide +kernel)
    [9] [1] toyLog
    (fun x => by
      have h := (codecLaws Sha512.sha512).dec2_enc true (x.val • (ext Sha512.sha512).gen2) []
        ((groupLaws Sha512.sha512).sub2_nsmul (groupLaws Sha512.sha512).gen2_sub _)
      rw [List.append_nil] at h
      unfold toyLog
      rw [h]
      show (x.val • ((1, 0) : G)).1 = x
      simp) (by omega) (by decide)

end Examples

end Pixel.Props
