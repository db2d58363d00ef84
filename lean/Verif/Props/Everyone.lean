import Verif.Proof.Everyone
import Verif.Props.Single
import Verif.Props.Crowd
import Verif.Props.Curve

/-!
# Property C98: many honest signers, when one random function serves for SHA-512 everywhere

Vocabulary: `Verif/Spec/Everyone.lean`.
-/

namespace Pixel.Props

open Pixel Pixel.Spec Pixel.Curve

set_option linter.unusedSectionVars false

variable {G1 G2 GT : Type} [AddCommGroup G1] [AddCommGroup G2] [CommGroup GT] {N : Nat}

/-! ## C98 -/

theorem withHash_codec {E : Ext G1 G2 GT} (C : CodecLaws E) (sha : Bytes → Bytes) :
    CodecLaws (withHash E sha) :=
  ⟨C.enc1_len, C.enc2_len, C.dec1_enc, C.dec2_enc, C.dec1_canon, C.dec2_canon, C.dec1_flag,
    C.dec2_flag, C.dec1_total, C.dec2_total⟩

theorem one_withHash (E : Ext G1 G2 GT) (sha : Bytes → Bytes) (pf : Profile) (pp : PubParam G1 G2)
    (pk : PublicKey G2) (i : Fin N) (P : HashCrowd G1 G2 N) (sk : Fin N → SecretKey G1 G2)
    (pts : Curve G1) : P.one (withHash E sha) pf pp pk i sk pts = P.one E pf pp pk i sk pts := by
  induction P generalizing sk pts with
  | toss n hn next ih => simp only [HashCrowd.one, ih]
  | eval m next ih => simp only [HashCrowd.one, ih]
  | curve x next ih => simp only [HashCrowd.one, ih]
  | sign j msg next ih => simp only [HashCrowd.one, ih]
  | update j tar seed next ih => simp only [HashCrowd.one, ih]
  | breakIn j next ih => simp only [HashCrowd.one, ih]
  | forge F => rfl

theorem hashOne_withHash (E : Ext G1 G2 GT) (sha : Bytes → Bytes) (pf : Profile) (d n : Nat) (i : Fin N)
    (A : PubParam G1 G2 → (Fin N → PublicKey G2) → (Fin N → ProofOfPossession G1) →
      HashCrowd G1 G2 N) : hashOne (withHash E sha) pf d n i A = hashOne E pf d n i A := by
  funext W
  simp only [hashOne, one_withHash]
  rfl

/-- evaluations by the adversary against one signer that an adversary against `N` signers is turned
into: those of the adversary, and those for the other signers -/
def playedFor (d N q s u : Nat) : Nat := q + 3 * s + u * (4 * d + 6) + 10 * N

/-- C98: the chance to forge against one of `N` signers is at most the sum, over the signers, of the
chances of an explicit adversary against one signer. -/
theorem C98_one_by_one [DecidableEq GT] {E : Ext G1 G2 GT} (L : GroupLaws E) (C : CodecLaws E)
    (pf : Profile) {g : G1} (hsub : E.inSub1 g = true) {d : Nat} (hd : 1 ≤ d) (hd' : d ≤ 63)
    {cs : UInt8} (hsup : Supported cs) {n : Nat} (hn : 32 ≤ n) (B : Nat)
    (A : PubParam G1 G2 → (Fin N → PublicKey G2) → (Fin N → ProofOfPossession G1) →
      HashCrowd G1 G2 N) :
    everyoneForgeChance E pf g d cs n B N A ≤
      ∑ i, randomForgeChance E pf g d cs n B (hashOne E pf d n i A) := by
  unfold everyoneForgeChance randomForgeChance
  have h := fun ω : HashFun B => everyone_le (E := withHash E ω.sha) ⟨HashFun.sha_length ω⟩ (withHash_laws L _)
    (withHash_codec C _) pf hsub hd hd' hsup hn A
  simp only [hashOne_withHash] at h
  exact (avg_mono h).trans (avg_sum _ _).le

/-- C98: so if none of the algorithms that these adversaries are turned into solves the problem with a
chance of more than `ε`, the chance to forge against one of `N` signers is at most `N` times the bound
of C94.  The evaluations, signatures and updates are counted over all signers together. -/
theorem C98_hard_then_secure [DecidableEq GT] {E : Ext G1 G2 GT} (L : GroupLaws E) (C : CodecLaws E)
    (pf : Profile) {g : G1} (hsub : E.inSub1 g = true) {d : Nat} (hd : 1 ≤ d) (hd' : d ≤ 63)
    {cs : UInt8} (hsup : Supported cs) {n B : Nat} (hn : 32 ≤ n) (hB : 300 ≤ B) (hnB : 128 + n ≤ B)
    (A : PubParam G1 G2 → (Fin N → PublicKey G2) → (Fin N → ProofOfPossession G1) →
      HashCrowd G1 G2 N) (hA : ∀ pp pk pop, (A pp pk pop).Legal) {m : Nat}
    (hm : ∀ pp pk pop, (A pp pk pop).Points m) {q s u : Nat}
    (hw : ∀ pp pk pop, (A pp pk pop).Within B q s u) {ε : ℚ}
    (hε : ∀ i t l, ValidTime d t → l < evaluations d (playedFor d N q s u) s u → solveChance E g d
      (roReduction E cs d (path d t) l (apiBet pf d t (hashLift pf d t (hashOne E pf d n i A)))) ≤ ε) :
    everyoneForgeChance E pf g d cs n B N A ≤
      N * ((2 ^ d - 1) * (evaluations d (playedFor d N q s u) s u *
          (ε + (((m + N : Nat) + 1) / rOrder + evaluations d (playedFor d N q s u) s u / 2 ^ 254)) +
        drawingLost d n (playedFor d N q s u) s u)) := by
  refine (C98_one_by_one L C pf hsub hd hd' hsup hn B A).trans ?_
  refine (Finset.sum_le_sum fun i _ => C94_hard_then_secure L pf hsub hd hd' hsup hn hB hnB
    (hashOne E pf d n i A) (hashOne_legal i hA) (hashOne_points i hm) (hashOne_within hB hnB i hw)
    (hε i)).trans ?_
  rw [Finset.sum_const, Finset.card_univ, Fintype.card_fin, nsmul_eq_mul]
  rfl

/-- C98: what does not depend on the problem is less than `N/2^100`, for up to `2^32 - 1` times, `2^59`
evaluations by the adversary, `2^40` signatures and updates, and `2^40` hash points and signers. -/
theorem C98_numbers {d n m q s u : Nat} (hd : d ≤ 32) (hn : 32 ≤ n) (hN : 0 < N)
    (hm : m + N + 1 ≤ 2 ^ 40) (hq : q ≤ 2 ^ 59) (hs : s ≤ 2 ^ 40) (hu : u ≤ 2 ^ 40) :
    N * ((2 ^ d - 1) * (evaluations d (playedFor d N q s u) s u *
        (0 + (((m + N : Nat) + 1) / rOrder + evaluations d (playedFor d N q s u) s u / 2 ^ 254)) +
      drawingLost d n (playedFor d N q s u) s u)) < (N / 2 ^ 100 : ℚ) := by
  have hp : playedFor d N q s u ≤ 2 ^ 60 := by
    have : u * (4 * d + 6) ≤ 2 ^ 40 * (4 * 32 + 6) := Nat.mul_le_mul hu (by omega)
    unfold playedFor
    omega
  have h := C94_numbers hd hn hm hp hs hu
  have hN' : (0 : ℚ) < N := by exact_mod_cast hN
  exact (mul_lt_mul_of_pos_left h hN').trans_eq (by ring)

/-- C98: on BLS12-381 as computed, at the depth of the default parameters: what is left of the
assumptions is that the pairing is additive and not trivial, and the problem itself. -/
theorem C98_real [DecidableEq GT] {R : Rest GT} (P : PairingOk R)
    (hh : ∀ m c, rOrder • R.hashToG1 m c = 0) (pf : Profile) {n B : Nat} (hn : 32 ≤ n) (hB : 300 ≤ B)
    (hnB : 128 + n ≤ B) (hN : 0 < N)
    (A : PubParam P1 P2 → (Fin N → PublicKey P2) → (Fin N → ProofOfPossession P1) → HashCrowd P1 P2 N)
    (hA : ∀ pp pk pop, (A pp pk pop).Legal) {m : Nat} (hm : ∀ pp pk pop, (A pp pk pop).Points m)
    {q s u : Nat} (hw : ∀ pp pk pop, (A pp pk pop).Within B q s u) (hm' : m + N + 1 ≤ 2 ^ 40)
    (hq : q ≤ 2 ^ 59) (hs : s ≤ 2 ^ 40) (hu : u ≤ 2 ^ 40) {ε : ℚ}
    (hε : ∀ i t l, ValidTime 32 t → l < evaluations 32 (playedFor 32 N q s u) s u →
      solveChance (bls R) gen1 32 (roReduction (bls R) 0 32 (path 32 t) l
        (apiBet pf 32 t (hashLift pf 32 t (hashOne (bls R) pf 32 n i A)))) ≤ ε) :
    everyoneForgeChance (bls R) pf gen1 32 0 n B N A <
      N * ((2 ^ 32 - 1) * (evaluations 32 (playedFor 32 N q s u) s u * ε)) + N / 2 ^ 100 := by
  have h := C98_hard_then_secure (E := bls R) (bls_group P hh) (bls_codec R) pf (g := gen1)
    ((inSub1_iff R gen1).2 gen1_order) (d := 32) (by omega) (by omega) (cs := 0) (Or.inl rfl) hn hB hnB A
    hA hm hw hε
  have h' := C98_numbers (N := N) (d := 32) (n := n) (m := m) (q := q) (s := s) (u := u) le_rfl hn hN
    hm' hq hs hu
  refine lt_of_le_of_lt h ?_
  generalize ((evaluations 32 (playedFor 32 N q s u) s u : ℕ) : ℚ) = e at *
  generalize drawingLost 32 n (playedFor 32 N q s u) s u = l at *
  generalize (((m + N : ℕ) : ℚ) + 1) / rOrder = v at *
  linarith [h', show (N : ℚ) * ((2 ^ 32 - 1) * (e * (ε + (v + e / 2 ^ 254)) + l)) =
    N * ((2 ^ 32 - 1) * (e * ε)) + N * ((2 ^ 32 - 1) * (e * (0 + (v + e / 2 ^ 254)) + l)) by ring]

/-- the adversary of C84 that takes logarithms, in this game -/
def everyoneLogForger (E : Ext G1 G2 GT) (log : G2 → Fr) (i j : Fin N) (t tar : Nat) (seed msg : Bytes)
    (pp : PubParam G1 G2) (pk : Fin N → PublicKey G2) (pop : Fin N → ProofOfPossession G1) :
    HashCrowd G1 G2 N :=
  .breakIn j fun _ => .update i tar seed (.breakIn i fun _ => .forge
    { msg := msg
      sig := sigLayout E true ⟨pp.ciphersuite, t, 0, (log (pk i).pk).val • pp.h⟩
      signers := [(pkLayout E true (pk i), popLayout E true (pop i))] })

theorem hashCrowd_logarithms [DecidableEq GT] {E : Ext G1 G2 GT} (H : HashLaws E) (L : GroupLaws E)
    (C : CodecLaws E) (pf : Profile) {g : G1} (hsub : E.inSub1 g = true) {d : Nat} (hd : 1 ≤ d)
    (hd' : d ≤ 63) {cs : UInt8} (hsup : Supported cs) {t tar : Nat} (h1 : 1 ≤ t) (h2 : t < tar)
    (h3 : tar ≤ 2 ^ d - 1) (ht : t < 2 ^ 32) (h4 : drawsNeeded d 1 tar = 0) (seed msg : Bytes)
    (log : G2 → Fr) (hlog : ∀ x : Fr, log (x.val • E.gen2) = x) {n : Nat} (hn : 32 ≤ n) {i j : Fin N}
    (hij : i ≠ j) :
    hashCrowdChance E pf g d cs n N (fun _ => True) (everyoneLogForger E log i j t tar seed msg) = 1 := by
  have hne : Nonempty (Seed n) := ⟨⟨0, Nat.pow_pos (by omega)⟩⟩
  unfold hashCrowdChance
  refine (avg_congr fun a => (avg_congr fun s => ?_).trans
    (avg_const (α := Fin N → Seed n) (1 : ℚ))).trans (avg_const 1)
  have WF : ParamWF E (gameParam E g cs a) := viewOf_wf (E := E) (cs := cs) L hsub hd hd' (toVar a)
  have hl : ∀ k, 32 ≤ (s k).bytes.length := by
    intro k; unfold Seed.bytes; rw [natToBE_length]; exact hn
  have hkg : ∀ k, ∃ (x : Fr) (sk : SecretKey G1 G2), ∀ f : Bytes → Bytes → G1, _ := fun k =>
    keygen_any H WF.toParamShape WF.g2_gen (hl k) hsup
  choose x sk hk using hkg
  have hk0 : ∀ k, keygen E (s k).bytes (gameParam E g cs a) = _ := fun k => hk k E.hashToG1
  rw [if_pos fun k => ⟨_, hk0 k⟩]
  have hb : ∀ (f : Bytes → Bytes → G1) k,
      born { E with hashToG1 := f } (gameParam E g cs a) (s k).bytes = _ := fun f k => born_eq (hk k f)
  simp only [hb]
  refine curveOracles_one L hsub _ [] (fun i p h => by cases h) (by simp) fun q hq hin => ?_
  obtain ⟨qi, hqi⟩ := hin (popInput E ⟨cs, (x i).val • E.gen2⟩) (by
    rw [List.nil_append, List.mem_ofFn]
    exact ⟨i, rfl⟩)
  have hqi' : q.hash (popInput E (⟨cs, (x i).val • E.gen2⟩ : PublicKey G2)).1
      (popInput E (⟨cs, (x i).val • E.gen2⟩ : PublicKey G2)).2 = qi := by
    unfold Curve.hash
    rw [hqi]
    rfl
  obtain ⟨x', p, sk', e1, e2⟩ := keygen_game H WF.toParamShape WF.g2_gen (hl i) hsup qi
  have e2 := e2.symm.trans (hk i fun _ _ => qi)
  obtain ⟨e3, e4⟩ := Prod.mk.inj (Res.ok.inj e2)
  have hx : x' = x i := by
    have := congrArg (fun k : PublicKey G2 => log k.pk) e3
    simpa only [hlog] using this
  have hsk : sk' = sk i := (Prod.mk.inj e4).1
  subst hx hsk
  obtain ⟨sk', e5, e6, _⟩ := init_keyAs H L WF hsup (x i) p
  have e7 := Res.ok.inj (e1.symm.trans e5)
  subst e7
  have hdep : (gameParam E g cs a).depth = d := rfl
  have hup := update_exact H.sha_len pf WF.toParamShape e6.keyFor
    (show 1 < tar by omega) (by rw [hdep]; exact h3) seed
  rcases hup with ⟨⟨l, hl, _⟩, _⟩ | ⟨_, sk2, e8, e9, _⟩
  · rw [hdep, h4] at *
    omega
  have hacc := logClaim_accepted H L pf (g := g) hsub hd hd' hsup
    (nodeAt_iff.2 ⟨⟨h1, by omega⟩, rfl⟩ : NodeAt d t (path d t)) msg log hlog (Function.update a .x (x i))
  rw [worldOf_update] at hacc
  have hsig : SigValid E (⟨cs, t, 0, (x i).val • (gameParam E g cs a).h⟩ : Signature G1 G2) :=
    ⟨hsup, h1, ht, L.sub2_zero, L.sub1_nsmul WF.h_sub _⟩
  have hlog' := hlog (x i)
  have hacc' := hacc.2
  simp only [hlog'] at hacc'
  have hS : ∀ (S : Fin N → CodeSigner G1 G2) v, Function.update S j v i = S i :=
    fun S v => Function.update_of_ne hij _ _
  have hplay : ∀ (pk : Fin N → PublicKey G2) (pop : Fin N → ProofOfPossession G1),
      pk i = ⟨cs, (x i).val • E.gen2⟩ → pop i = ⟨cs, (x i).val • qi⟩ →
      everyoneLogForger E log i j t tar seed msg (gameParam E g cs a) pk pop =
        .breakIn j fun _ => .update i tar seed (.breakIn i fun _ => .forge
          (honestClaim E cs (x i) qi ⟨cs, t, 0, (x i).val • (gameParam E g cs a).h⟩ msg)) := by
    intro pk pop hpk hpop
    unfold everyoneLogForger honestClaim
    rw [hpk, hpop]
    simp only [hlog']
    rfl
  rw [hplay _ _ rfl (by show _ = _; rw [← hqi']; rfl)]
  simp only [HashCrowd.chance, hS, e8, honest_inputs L C hsup (x i), curveOracles, curveOracle, hqi]
  rw [if_pos]
  refine ⟨i, trivial, ?_⟩
  refine honest_wins (sha := E.sha512) L C hsup (x i) (hq _ _ hqi) hsig hacc' ?_ ?_ hqi hq
  · intro b hb
    simp only [Function.update_self, hS, List.nil_append, List.mem_singleton] at hb
    rw [hb, e9.time]
    exact h2
  · simp [Function.update_of_ne hij]

/-- C98: the game can be won, by whoever can take discrete logarithms in `G2`, with any hash function. -/
theorem C98_logarithms_forge [DecidableEq GT] {E : Ext G1 G2 GT} (L : GroupLaws E) (C : CodecLaws E)
    (pf : Profile) {g : G1} (hsub : E.inSub1 g = true) {d : Nat} (hd : 1 ≤ d) (hd' : d ≤ 63)
    {cs : UInt8} (hsup : Supported cs) {t tar : Nat} (h1 : 1 ≤ t) (h2 : t < tar)
    (h3 : tar ≤ 2 ^ d - 1) (ht : t < 2 ^ 32) (h4 : drawsNeeded d 1 tar = 0) (seed msg : Bytes)
    (log : G2 → Fr) (hlog : ∀ x : Fr, log (x.val • E.gen2) = x) {n : Nat} (hn : 32 ≤ n) (B : Nat)
    {i j : Fin N} (hij : i ≠ j) :
    everyoneForgeChance E pf g d cs n B N (everyoneLogForger E log i j t tar seed msg) = 1 := by
  unfold everyoneForgeChance
  refine (avg_congr fun ω => ?_).trans (avg_const (α := HashFun B) (1 : ℚ))
  exact hashCrowd_logarithms (E := withHash E ω.sha) ⟨HashFun.sha_length ω⟩ (withHash_laws L _)
    (withHash_codec C _) pf hsub hd hd' hsup h1 h2 h3 ht h4 seed msg log hlog hn hij

/-! ### Concrete cases -/

section Examples
open Pixel.Toy

/-- an adversary against three signers: it hashes a string, breaks into the first signer, has what the
string is hashed to signed by the second and the third, computes with HMAC from the state that it saw,
lets the second go on to time 9 and breaks in, and hands over what it got with the keys of all three -/
def toyHashCrowd (pp : PubParam G G) (pk : Fin 3 → PublicKey G) (pop : Fin 3 → ProofOfPossession G) :
    HashCrowd G G 3 :=
  .eval [1, 2] fun b => .breakIn 0 fun sk0 => .sign 1 (b.take 9) fun s1 => .sign 2 (b.take 9) fun s2 =>
    .eval (keyPad 0x36 (sk0.prng.seed.take 128) ++ [1]) fun e => .update 1 9 (e.take 9)
    (.breakIn 1 fun sk1 => .forge
      { msg := e.take 60
        sig := sigLayout (ext sha0) true
          ⟨1, sk0.ssk.length + sk1.ssk.length, s1.sigma1 + s2.sigma1, s1.sigma2 + s2.sigma2 + pp.h⟩
        signers := [(pkLayout (ext sha0) true (pk 0), popLayout (ext sha0) true (pop 0)),
          (pkLayout (ext sha0) true (pk 1), popLayout (ext sha0) true (pop 1)),
          (pkLayout (ext sha0) true (pk 2), popLayout (ext sha0) true (pop 2))] })

theorem toyHashCrowd_within (pp : PubParam G G) (pk : Fin 3 → PublicKey G)
    (pop : Fin 3 → ProofOfPossession G) : (toyHashCrowd pp pk pop).Within 400 2 2 1 := by
  refine ⟨by simp, by omega, fun b sk0 => ⟨?_, by omega, fun s1 => ⟨?_, by omega, fun s2 =>
    ⟨?_, by omega, fun e => ⟨?_, by omega, fun sk1 => ?_⟩⟩⟩⟩⟩
  · have := List.length_take_le 9 b
    omega
  · have := List.length_take_le 9 b
    omega
  · rw [List.length_append, keyPad_length (List.length_take_le _ _)]
    simp
  · have := List.length_take_le 9 e
    omega
  · show (List.take 60 e).length + 300 ≤ 400
    have := List.length_take_le 60 e
    omega

/-- C98: the hypotheses are met by this adversary: three keys in the claim, two evaluations, two
signatures, one update -/
example {ε : ℚ}
    (hε : ∀ i t l, ValidTime 5 t → l < evaluations 5 (playedFor 5 3 2 2 1) 2 1 →
      solveChance (ext sha0) ((1, 0) : G) 5 (roReduction (ext sha0) 1 5 (path 5 t) l
        (apiBet .debug 5 t (hashLift .debug 5 t (hashOne (ext sha0) .debug 5 32 i toyHashCrowd)))) ≤ ε) :
    everyoneForgeChance (ext sha0) .debug ((1, 0) : G) 5 1 32 400 3 toyHashCrowd ≤
      (3 : Nat) * ((2 ^ 5 - 1) * (evaluations 5 (playedFor 5 3 2 2 1) 2 1 *
          (ε + (((3 + 3 : Nat) + 1) / rOrder + evaluations 5 (playedFor 5 3 2 2 1) 2 1 / 2 ^ 254)) +
        drawingLost 5 32 (playedFor 5 3 2 2 1) 2 1)) :=
  C98_hard_then_secure (groupLaws sha0) (codecLaws sha0) .debug (g := ((1, 0) : G)) (by decide)
    (d := 5) (by omega) (by omega) (cs := 1) (Or.inr rfl) (by omega) (by omega) (by omega) toyHashCrowd
    (fun _ _ _ => fun _ _ _ _ _ _ => (by decide +kernel : (3 : Nat) < rOrder)) (m := 3)
    (fun _ _ _ => fun _ _ _ _ _ _ => (by omega : 3 ≤ 3)) toyHashCrowd_within hε

/-- C98: 97 evaluations in all -/
example : playedFor 5 3 2 2 1 = 64 ∧ evaluations 5 (playedFor 5 3 2 2 1) 2 1 = 97 := ⟨rfl, rfl⟩

/-- C98: with logarithms, which are easy in the toy groups, the game is won against the last of three
signers -/
example : everyoneForgeChance (ext sha0) .debug ((1, 0) : G) 5 1 32 400 3
    (everyoneLogForger (ext sha0) (fun p : G => p.1) 2 0 4 17 [9] [1]) = 1 :=
  C98_logarithms_forge (groupLaws sha0) (codecLaws sha0) .debug (g := ((1, 0) : G))
    (by decide) (d := 5) (by omega) (by omega) (cs := 1) (Or.inr rfl) (by omega) (by omega) (by omega)
    (by omega) (by decide +kernel) [9] [1] (fun p : G => p.1) (by
      intro x
      simp [ext]) (by omega) 400 (by decide)

end Examples

end Pixel.Props
