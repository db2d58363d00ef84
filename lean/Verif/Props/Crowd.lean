import Verif.Proof.Crowd
import Verif.Props.Bytes

/-!
# Property C84: many honest signers

Vocabulary: `Verif/Spec/Crowd.lean`.
-/

namespace Pixel.Props

open Pixel Pixel.Spec

set_option linter.unusedSectionVars false

variable {G1 G2 GT : Type} [AddCommGroup G1] [AddCommGroup G2] [CommGroup GT] {N : Nat}

/-! ## C84 -/

/-- C84: an adversary against `N` honest signers, that directs and breaks into each of them as it
likes, wins no more often than the explicit adversaries win the game of C82 that play all signers but
one themselves; one for each signer. -/
theorem C84_one_by_one [DecidableEq GT] {E : Ext G1 G2 GT} (H : HashLaws E) (L : GroupLaws E)
    (pf : Profile) {g : G1} (hsub : E.inSub1 g = true) {d : Nat} (hd : 1 ≤ d) (hd' : d ≤ 63)
    {cs : UInt8} (hsup : Supported cs) {n : Nat} (hn : 32 ≤ n)
    (A : PubParam G1 G2 → (Fin N → PublicKey G2) → (Fin N → ProofOfPossession G1) →
      CrowdPlayer G1 G2 N) :
    crowdForgeChance E pf g d cs n N A ≤ ∑ i, byteForgeChance E pf g d cs n (crowdOne E pf n i A) :=
  crowd_le H L pf hsub hd hd' hsup hn A

/-- C84: with one signer, the game is the game of C82. -/
theorem C84_one_signer [DecidableEq GT] {E : Ext G1 G2 GT} (H : HashLaws E) (L : GroupLaws E)
    (pf : Profile) {g : G1} (hsub : E.inSub1 g = true) {d : Nat} (hd : 1 ≤ d) (hd' : d ≤ 63)
    {cs : UInt8} (hsup : Supported cs) {n : Nat} (hn : 32 ≤ n)
    (A : PubParam G1 G2 → PublicKey G2 → ProofOfPossession G1 → BytePlayer G1 G2) :
    crowdForgeChance E pf g d cs n 1 (fun pp pk pop => (A pp (pk 0) (pop 0)).alone) =
      byteForgeChance E pf g d cs n A :=
  crowd_alone H L pf hsub hd hd' hsup hn A

/-- C84: the library is forward secure for every signer at once.  `N` signers call `keygen`, each on a
uniform seed, with the same parameters; the adversary directs each of them, breaks into each of them
when it likes, asks the hash functions, and hands over a serialised signature with the serialised keys
and proofs of all signers named.  If the problems are hard for the explicit algorithms that use the
adversary, the chance that the verifier accepts, and one of the keys is that of an honest signer who
did not sign the message at that time and was not broken into up to that time, is at most `N` times
the bound of C82 (with `N` more inputs of hash-to-curve). -/
theorem C84_hard_then_secure [DecidableEq GT] {E : Ext G1 G2 GT} (H : HashLaws E) (L : GroupLaws E)
    (C : CodecLaws E) (pf : Profile) {g : G1} (hsub : E.inSub1 g = true) {d : Nat} (hd : 1 ≤ d)
    (hd' : d ≤ 63) {cs : UInt8} (hsup : Supported cs) {n : Nat} (hn : 32 ≤ n)
    (A : PubParam G1 G2 → (Fin N → PublicKey G2) → (Fin N → ProofOfPossession G1) →
      CrowdPlayer G1 G2 N)
    (hA : ∀ pp pk pop, (A pp pk pop).Legal) {m : Nat} (hm : ∀ pp pk pop, (A pp pk pop).Points m)
    {Q : Nat} (hQ : ∀ pp pk pop, (A pp pk pop).Hashes Q) {u : Nat}
    (hu : ∀ i pp pk pop, (A pp pk pop).Updates i u) {k : Nat}
    (hk : ∀ i pp pk pop, (A pp pk pop).Scalars i d k) {ε ε' δ : ℚ}
    (hε : ∀ i t l, ValidTime d t → l < Q → solveChance E g d (roReduction E cs d (path d t) l
      (apiBet pf d t (codeLift E.sha512 pf t (byteLower E (crowdOne E pf n i A))))) ≤ ε)
    (hε' : ∀ i t j, ValidTime d t → j < u * (d + 2) + 3 → prfGain E.sha512
      (prfAttack E.sha512 (codeGame E pf g d cs (byteLower E (crowdOne E pf n i A)) t) j) ≤ ε')
    (hδ : ∀ i, extractGain E.sha512 (text "Pixel master key" ++ [cs]) n
      (startChance E pf g d cs (byteLower E (crowdOne E pf n i A))) ≤ δ) :
    crowdForgeChance E pf g d cs n N A ≤
      N * ((2 ^ d - 1) * (Q * (ε + (((m + N : Nat) + 1) / rOrder + Q / 2 ^ 254)) +
        (u * (d + 2) + 3) * ε' + (k + 2) * (1 / 2 ^ 257)) + δ) := by
  refine (C84_one_by_one H L pf hsub hd hd' hsup hn A).trans ?_
  refine (Finset.sum_le_sum fun i _ => C82_hard_then_secure H L C pf hsub hd hd' hsup hn
    (crowdOne E pf n i A) (m := m + N) (Q := Q) (u := u) (k := k) ?_ ?_ ?_ ?_ ?_ (hε i) (hε' i)
    (hδ i)).trans ?_
  · exact fun pp pk pop c => ask_legal _ _ fun q => one_legal _ _ _ _ _ _ (hA _ _ _)
  · exact fun pp pk pop c => ask_points _ _ (fun q => one_points _ _ _ _ _ _ (hm _ _ _))
      (by rw [List.length_ofFn])
  · exact fun pp pk pop c => ask_hashes _ _ fun q => one_hashes _ _ _ _ _ _ (hQ _ _ _)
  · exact fun pp pk pop c => ask_updates _ _ fun q => one_updates _ _ _ _ _ _ (hu i _ _ _)
  · exact fun pp pk pop c => ask_scalars _ _ fun q => one_scalars _ _ _ _ _ _ (hk i _ _ _)
  · rw [Finset.sum_const, Finset.card_univ, Fintype.card_fin, nsmul_eq_mul]

/-- the adversary that breaks into signer `j`, lets signer `i` go on to time `tar`, breaks in there as
well, and hands over a signature of signer `i` for time `t` made with the discrete logarithm of the
public key -/
def crowdLogForger (E : Ext G1 G2 GT) (log : G2 → Fr) (i j : Fin N) (t tar : Nat) (seed msg : Bytes)
    (pp : PubParam G1 G2) (pk : Fin N → PublicKey G2) (pop : Fin N → ProofOfPossession G1) :
    CrowdPlayer G1 G2 N :=
  .breakIn j fun _ => .update i tar seed (.breakIn i fun _ => .forge
    { msg := msg
      sig := sigLayout E true ⟨pp.ciphersuite, t, 0, (log (pk i).pk).val • pp.h⟩
      signers := [(pkLayout E true (pk i), popLayout E true (pop i))] })

theorem curveOracles_one {E : Ext G1 G2 GT} (L : GroupLaws E) {g : G1} (hsub : E.inSub1 g = true)
    (is done : List (Bytes × Bytes)) {pts : Curve G1} {f : Curve G1 → ℚ}
    (hp : ∀ i p, pts.lookup i = some p → E.inSub1 p = true) (hd : ∀ i ∈ done, ∃ p, pts.lookup i = some p)
    (h : ∀ q : Curve G1, (∀ i p, q.lookup i = some p → E.inSub1 p = true) →
      (∀ i ∈ done ++ is, ∃ p, q.lookup i = some p) → f q = 1) : curveOracles g is pts f = 1 := by
  induction is generalizing done pts with
  | nil => exact h pts hp (by simpa using hd)
  | cons i is ih =>
    simp only [curveOracles]
    unfold curveOracle
    rcases hl : pts.lookup i with _ | p
    · refine (avg_congr fun r => ?_).trans (avg_const (α := Fr) (1 : ℚ))
      refine ih (done ++ [i]) ?_ ?_ (by simpa using h)
      · intro j p hj
        rw [List.lookup_append] at hj
        rcases hj' : pts.lookup j with _ | p'
        · rw [hj', Option.none_or, List.lookup_cons] at hj
          split at hj
          · cases hj; exact L.sub1_nsmul hsub _
          · cases hj
        · rw [hj', Option.some_or] at hj
          cases hj
          exact hp _ _ hj'
      · intro j hj
        rcases List.mem_append.1 hj with hj | hj
        · obtain ⟨p, hj⟩ := hd j hj
          exact ⟨p, lookup_append_some hj _⟩
        · rw [List.mem_singleton.1 hj]
          exact ⟨_, lookup_append_new hl _⟩
    · refine ih (done ++ [i]) hp ?_ (by simpa using h)
      intro j hj
      rcases List.mem_append.1 hj with hj | hj
      · exact hd j hj
      · rw [List.mem_singleton.1 hj]
        exact ⟨_, hl⟩

/-- C84: the game can be won: whoever can take discrete logarithms in `G2` wins always. -/
theorem C84_logarithms_forge [DecidableEq GT] {E : Ext G1 G2 GT} (H : HashLaws E) (L : GroupLaws E)
    (C : CodecLaws E) (pf : Profile) {g : G1} (hsub : E.inSub1 g = true) {d : Nat} (hd : 1 ≤ d)
    (hd' : d ≤ 63) {cs : UInt8} (hsup : Supported cs) {t tar : Nat} (h1 : 1 ≤ t) (h2 : t < tar)
    (h3 : tar ≤ 2 ^ d - 1) (ht : t < 2 ^ 32) (h4 : drawsNeeded d 1 tar = 0) (seed msg : Bytes)
    (log : G2 → Fr) (hlog : ∀ x : Fr, log (x.val • E.gen2) = x) {n : Nat} (hn : 32 ≤ n) {i j : Fin N}
    (hij : i ≠ j) :
    crowdForgeChance E pf g d cs n N (crowdLogForger E log i j t tar seed msg) = 1 := by
  have hne : Nonempty (Seed n) := ⟨⟨0, Nat.pow_pos (by omega)⟩⟩
  unfold crowdForgeChance
  refine (avg_congr fun a => (avg_congr fun s => ?_).trans
    (avg_const (α := Fin N → Seed n) (1 : ℚ))).trans (avg_const 1)
  have WF : ParamWF E (gameParam E g cs a) := viewOf_wf (E := E) (cs := cs) L hsub hd hd' (toVar a)
  have hl : ∀ k, 32 ≤ (s k).bytes.length := by
    intro k; unfold Seed.bytes; rw [natToBE_length]; exact hn
  have hkg : ∀ k, ∃ (x : Fr) (sk : SecretKey G1 G2), ∀ f : Bytes → Bytes → G1, _ := fun k =>
    keygen_any H WF.toParamShape WF.g2_gen (hl k) hsup
  choose x sk hk using hkg
  have hk0 : ∀ k, keygen E (s k).bytes (gameParam E g cs a) = _ := fun k => hk k E.hashToG1
  rw [if_pos fun k => ⟨_, hk0 k⟩]
  have hb : ∀ (f : Bytes → Bytes → G1) k,
      born { E with hashToG1 := f } (gameParam E g cs a) (s k).bytes = _ := fun f k => born_eq (hk k f)
  simp only [hb]
  refine curveOracles_one L hsub _ [] (fun i p h => by cases h) (by simp) fun q hq hin => ?_
  obtain ⟨qi, hqi⟩ := hin (popInput E ⟨cs, (x i).val • E.gen2⟩) (by
    rw [List.nil_append, List.mem_ofFn]
    exact ⟨i, rfl⟩)
  have hqi' : q.hash (popInput E (⟨cs, (x i).val • E.gen2⟩ : PublicKey G2)).1
      (popInput E (⟨cs, (x i).val • E.gen2⟩ : PublicKey G2)).2 = qi := by
    unfold Curve.hash
    rw [hqi]
    rfl
  obtain ⟨x', p, sk', e1, e2⟩ := keygen_game H WF.toParamShape WF.g2_gen (hl i) hsup qi
  have e2 := e2.symm.trans (hk i fun _ _ => qi)
  obtain ⟨e3, e4⟩ := Prod.mk.inj (Res.ok.inj e2)
  have hx : x' = x i := by
    have := congrArg (fun k : PublicKey G2 => log k.pk) e3
    simpa only [hlog] using this
  have hsk : sk' = sk i := (Prod.mk.inj e4).1
  subst hx hsk
  obtain ⟨sk', e5, e6, _⟩ := init_keyAs H L WF hsup (x i) p
  have e7 := Res.ok.inj (e1.symm.trans e5)
  subst e7
  have hdep : (gameParam E g cs a).depth = d := rfl
  have hup := update_exact H.sha_len pf WF.toParamShape e6.keyFor
    (show 1 < tar by omega) (by rw [hdep]; exact h3) seed
  rcases hup with ⟨⟨l, hl, _⟩, _⟩ | ⟨_, sk2, e8, e9, _⟩
  · rw [hdep, h4] at *
    omega
  have hacc := fun D : Digest => logClaim_accepted (digest_laws E D)
    (GroupLaws.withSha L fun _ => D.bytes) pf (g := g) hsub hd hd' hsup
    (nodeAt_iff.2 ⟨⟨h1, by omega⟩, rfl⟩ : NodeAt d t (path d t)) msg log hlog (Function.update a .x (x i))
  simp only [worldOf_sha] at hacc
  rw [worldOf_update] at hacc
  have hsig : SigValid E (⟨cs, t, 0, (x i).val • (gameParam E g cs a).h⟩ : Signature G1 G2) :=
    ⟨hsup, h1, ht, L.sub2_zero, L.sub1_nsmul WF.h_sub _⟩
  have hlog' := hlog (x i)
  have hacc' := fun D => (hacc D).2
  simp only [hlog'] at hacc'
  have hS : ∀ (S : Fin N → CodeSigner G1 G2) v, Function.update S j v i = S i :=
    fun S v => Function.update_of_ne hij _ _
  have hplay : ∀ (pk : Fin N → PublicKey G2) (pop : Fin N → ProofOfPossession G1),
      pk i = ⟨cs, (x i).val • E.gen2⟩ → pop i = ⟨cs, (x i).val • qi⟩ →
      crowdLogForger E log i j t tar seed msg (gameParam E g cs a) pk pop =
        .breakIn j fun _ => .update i tar seed (.breakIn i fun _ => .forge
          (honestClaim E cs (x i) qi ⟨cs, t, 0, (x i).val • (gameParam E g cs a).h⟩ msg)) := by
    intro pk pop hpk hpop
    unfold crowdLogForger honestClaim
    rw [hpk, hpop]
    simp only [hlog']
    rfl
  rw [hplay _ _ rfl (by show _ = _; rw [← hqi']; rfl)]
  simp only [CrowdPlayer.chance, hS, e8, honest_inputs L C hsup (x i), curveOracles, curveOracle, hqi,
    oracle, List.lookup_nil, Function.update_self]
  refine (avg_congr fun D => ?_).trans (avg_const (α := Digest) (1 : ℚ))
  rw [if_pos]
  refine ⟨i, ?_⟩
  refine honest_wins L C hsup (x i) (hq _ _ hqi) hsig (hacc' D) ?_ ?_ hqi hq
  · intro b hb
    simp only [Function.update_self, hS, List.nil_append, List.mem_singleton] at hb
    rw [hb, e9.time]
    exact h2
  · simp [Function.update_of_ne hij]

/-! ### Concrete cases -/

section Examples
open Pixel.Toy

/-- an adversary against three signers: it breaks into the first at once, has a message signed by the
second and the third, lets the second go on to time 9 and breaks in, and hands over what it got with
the keys of all three -/
def toyCrowdPlayer (pp : PubParam G G) (pk : Fin 3 → PublicKey G) (pop : Fin 3 → ProofOfPossession G) :
    CrowdPlayer G G 3 :=
  .breakIn 0 fun sk0 => .hash [1] fun b => .sign 1 b fun s1 => .sign 2 b fun s2 =>
    .update 1 9 [7] (.breakIn 1 fun sk1 => .forge
      { msg := [3]
        sig := sigLayout (ext sha0) true
          ⟨1, sk0.ssk.length + sk1.ssk.length, s1.sigma1 + s2.sigma1, s1.sigma2 + s2.sigma2 + pp.h⟩
        signers := [(pkLayout (ext sha0) true (pk 0), popLayout (ext sha0) true (pop 0)),
          (pkLayout (ext sha0) true (pk 1), popLayout (ext sha0) true (pop 1)),
          (pkLayout (ext sha0) true (pk 2), popLayout (ext sha0) true (pop 2))] })

/-- C84: the hypotheses are met by this adversary: three keys in the claim, four hashed messages, one
update and six scalars of a signer -/
example {ε ε' δ : ℚ}
    (hε : ∀ i t l, ValidTime 5 t → l < 4 → solveChance (ext sha0) ((1, 0) : G) 5
      (roReduction (ext sha0) 1 5 (path 5 t) l (apiBet .debug 5 t (codeLift (ext sha0).sha512 .debug t
        (byteLower (ext sha0) (crowdOne (ext sha0) .debug 32 i toyCrowdPlayer))))) ≤ ε)
    (hε' : ∀ i t j, ValidTime 5 t → j < 1 * (5 + 2) + 3 → prfGain (ext sha0).sha512
      (prfAttack (ext sha0).sha512 (codeGame (ext sha0) .debug ((1, 0) : G) 5 1
        (byteLower (ext sha0) (crowdOne (ext sha0) .debug 32 i toyCrowdPlayer)) t) j) ≤ ε')
    (hδ : ∀ i, extractGain (ext sha0).sha512 (text "Pixel master key" ++ [1]) 32
      (startChance (ext sha0) .debug ((1, 0) : G) 5 1
        (byteLower (ext sha0) (crowdOne (ext sha0) .debug 32 i toyCrowdPlayer))) ≤ δ) :
    crowdForgeChance (ext sha0) .debug ((1, 0) : G) 5 1 32 3 toyCrowdPlayer ≤
      (3 : Nat) * ((2 ^ 5 - 1) * ((4 : Nat) * (ε + (((3 + 3 : Nat) + 1) / rOrder + (4 : Nat) / 2 ^ 254)) +
        ((1 : Nat) * ((5 : Nat) + 2) + 3) * ε' + ((6 : Nat) + 2) * (1 / 2 ^ 257)) + δ) :=
  C84_hard_then_secure hashLaws (groupLaws sha0) (codecLaws sha0) .debug (g := ((1, 0) : G))
    (by decide) (d := 5) (by omega) (by omega) (Or.inr rfl) (by omega) toyCrowdPlayer
    (fun _ _ _ => fun _ _ _ _ _ => (by decide +kernel : (3 : Nat) < rOrder)) (m := 3)
    (fun _ _ _ => fun _ _ _ _ _ => (by omega : 3 ≤ 3)) (Q := 4)
    (fun _ _ _ => fun _ => ⟨by omega, fun _ => ⟨by omega, fun _ => ⟨by omega, fun _ _ =>
      (by omega : 0 < 4 - 1 - 1 - 1)⟩⟩⟩) (u := 1)
    (fun i _ _ _ => fun _ _ _ _ => by
      unfold CrowdPlayer.Updates
      split
      · exact ⟨by omega, fun _ => trivial⟩
      · exact fun _ => trivial) (k := 6)
    (fun i _ _ _ => fun _ _ => by
      fin_cases i
      · exact fun _ _ _ => trivial
      · exact ⟨by omega, fun _ _ => ⟨by omega, fun _ => trivial⟩⟩
      · exact fun _ => ⟨by omega, fun _ _ => trivial⟩) hε hε' hδ

/-- C84: with logarithms, which are easy in the toy groups, the game is won against the last of three
signers -/
example : crowdForgeChance (ext sha0) .debug ((1, 0) : G) 5 1 32 3
    (crowdLogForger (ext sha0) (fun p : G => p.1) 2 0 4 17 [9] [1]) = 1 :=
  C84_logarithms_forge hashLaws (groupLaws sha0) (codecLaws sha0) .debug (g := ((1, 0) : G))
    (by decide) (d := 5) (by omega) (by omega) (cs := 1) (Or.inr rfl) (by omega) (by omega) (by omega)
    (by omega) (by decide +kernel) [9] [1] (fun p : G => p.1) (by
      intro x
      simp [ext]) (by omega) (by decide)

/-- C84: with one signer, the adversary of C82 -/
example : crowdForgeChance (ext sha0) .debug ((1, 0) : G) 5 1 32 1
    (fun pp pk pop => (toyBytePlayer pp (pk 0) (pop 0)).alone) =
    byteForgeChance (ext sha0) .debug ((1, 0) : G) 5 1 32 toyBytePlayer :=
  C84_one_signer hashLaws (groupLaws sha0) .debug (g := ((1, 0) : G)) (by decide) (d := 5) (by omega)
    (by omega) (Or.inr rfl) (by omega) toyBytePlayer

end Examples

end Pixel.Props
