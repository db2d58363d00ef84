import Verif.Proof.Lift
import Verif.Props.Api
import Verif.Props.Prf

/-!
# Property C80: forgers against the signer of the code, with its PRNG

Vocabulary: `Verif/Spec/Code.lean`, `Verif/Spec/Prf.lean`.
-/

namespace Pixel.Props

open Pixel Pixel.Spec

set_option linter.unusedSectionVars false

variable {G1 G2 GT : Type} [AddCommGroup G1] [AddCommGroup G2] [CommGroup GT]

/-! ## C80 -/

/-- C80: forward security of the signer of the code.  The adversary directs it (messages, updates and
their seeds), breaks in as often as it likes - the copy has the sub keys and the PRNG state - and claims
a signature for a time before the first break-in.  Its chance is at most the sum, over the times, of
the chances of algorithms for the problem of C75, as in C78, and of the gains of `u (d + 2) + 3`
adversaries against HMAC, up to `(k + 2)/2^257` for the reduction of 64 bytes mod `r`; `u` bounds the
number of updates and `k` that of the scalars drawn. -/
theorem C80_forger_solves [DecidableEq GT] {E : Ext G1 G2 GT} (H : HashLaws E) (L : GroupLaws E)
    (pf : Profile) {g : G1} (hsub : E.inSub1 g = true) {d : Nat} (hd : 1 ≤ d) (hd' : d ≤ 63)
    (cs : UInt8) (A : World G1 G2 → CodePlayer G1 G2) (hA : ∀ W, (A W).Legal) {m : Nat}
    (hm : ∀ W, (A W).Points m) {Q : Nat} (hQ : ∀ W, (A W).Hashes Q) {u : Nat}
    (hu : ∀ W, (A W).Updates u) {k : Nat} (hk : ∀ W, (A W).Scalars d k) :
    codeForgeChance E pf g d cs A ≤
      ∑ t ∈ Finset.Icc 1 (2 ^ d - 1), (∑ i ∈ Finset.range Q,
        (solveChance E g d (roReduction E cs d (path d t) i
            (apiBet pf d t (codeLift E.sha512 pf t A))) + ((m + 1) / rOrder + Q / 2 ^ 254)) +
        ∑ j ∈ Finset.range (u * (d + 2) + 3),
          prfGain E.sha512 (prfAttack E.sha512 (codeGame E pf g d cs A t) j) +
        (k + 2) * (1 / 2 ^ 257)) :=
  codeForgeChance_le H L hsub hd hd' pf A hA hm hQ hu hk

/-- C80: if none of the algorithms solves the problem with a chance above `ε`, and none of the
adversaries tells HMAC from a random function with a gain above `ε'`, then the forger wins with a
chance of at most `2^d - 1` times `Q (ε + (m + 1)/r + Q/2^254) + (u (d + 2) + 3) ε' + (k + 2)/2^257`. -/
theorem C80_hard_then_secure [DecidableEq GT] {E : Ext G1 G2 GT} (H : HashLaws E) (L : GroupLaws E)
    (pf : Profile) {g : G1} (hsub : E.inSub1 g = true) {d : Nat} (hd : 1 ≤ d) (hd' : d ≤ 63)
    (cs : UInt8) (A : World G1 G2 → CodePlayer G1 G2) (hA : ∀ W, (A W).Legal) {m : Nat}
    (hm : ∀ W, (A W).Points m) {Q : Nat} (hQ : ∀ W, (A W).Hashes Q) {u : Nat}
    (hu : ∀ W, (A W).Updates u) {k : Nat} (hk : ∀ W, (A W).Scalars d k) {ε ε' : ℚ}
    (hε : ∀ t i, ValidTime d t → i < Q → solveChance E g d (roReduction E cs d (path d t) i
      (apiBet pf d t (codeLift E.sha512 pf t A))) ≤ ε)
    (hε' : ∀ t j, ValidTime d t → j < u * (d + 2) + 3 →
      prfGain E.sha512 (prfAttack E.sha512 (codeGame E pf g d cs A t) j) ≤ ε') :
    codeForgeChance E pf g d cs A ≤
      (2 ^ d - 1) * (Q * (ε + ((m + 1) / rOrder + Q / 2 ^ 254)) + (u * (d + 2) + 3) * ε' +
        (k + 2) * (1 / 2 ^ 257)) := by
  refine (C80_forger_solves H L pf hsub hd hd' cs A hA hm hQ hu hk).trans ?_
  generalize ((k : ℚ) + 2) * (1 / 2 ^ 257) = b
  generalize ((m : ℚ) + 1) / rOrder + Q / 2 ^ 254 = c
  refine (Finset.sum_le_card_nsmul _ _ (Q * (ε + c) + (u * (d + 2) + 3) * ε' + b) fun t ht => ?_).trans ?_
  · have hv : ValidTime d t := Finset.mem_Icc.1 ht
    refine add_le_add_left (add_le_add ?_ ?_) b
    · refine (Finset.sum_le_card_nsmul _ _ (ε + c) fun i hi =>
        add_le_add_left (hε t i hv (Finset.mem_range.1 hi)) c).trans ?_
      rw [Finset.card_range, nsmul_eq_mul]
    · refine (Finset.sum_le_card_nsmul _ _ ε' fun j hj => hε' t j hv (Finset.mem_range.1 hj)).trans ?_
      rw [Finset.card_range, nsmul_eq_mul]
      push_cast
      exact le_rfl
  · rw [Nat.card_Icc, nsmul_eq_mul, Nat.add_sub_cancel, Nat.cast_sub Nat.one_le_two_pow]
    push_cast
    exact le_rfl

/-- C80: the signer of the game is the code.  Key generation takes the same steps after the PRNG has
been set up from the seed, and signing differs only in where the hash of the message comes from. -/
theorem C80_code_signer {E : Ext G1 G2 GT} (H : HashLaws E) (L : GroupLaws E) (pf : Profile)
    {pp : PubParam G1 G2} (W : ParamWF E pp) :
    (∀ seed pk sk pop, keygen E seed pp = .ok (pk, sk, pop) →
      ∃ x p, Prng.sampleThenUpdate E.sha512 (ascii "key initialization")
          ⟨hmac E.sha512 (text "Pixel master key" ++ [pp.ciphersuite]) seed⟩ = (.ok x, p) ∧
        pk = { ciphersuite := pp.ciphersuite, pk := x.val • pp.g2 } ∧
        SecretKey.init E.sha512 pp (mulFr x pp.h) p = .ok sk) ∧
    ∀ (x : Fr) (t : Nat) (rho : List Fr) (sk : SecretKey G1 G2), Supported pp.ciphersuite →
      KeyAs pp x t rho sk → ∀ msg, Signature.signPresent E.sha512 pf sk.time pp msg sk =
        (signHashed E.sha512 pf pp sk msg (msgField E.sha512 pp.ciphersuite msg), sk) := by
  refine ⟨fun seed pk sk pop h => ?_, fun x t rho sk hc hk msg => ?_⟩
  · have hc := keygen_supported h
    have hl : 32 ≤ seed.length := by
      by_contra hl
      rw [keygen_short (by omega)] at h; cases h
    obtain ⟨s, h1, _, h3⟩ := keygen_eq H W.toParamShape hl hc
    rw [h] at h3
    obtain ⟨h5, h6⟩ := Prod.mk.inj (Res.ok.inj h3)
    obtain ⟨h6, _⟩ := Prod.mk.inj h6
    refine ⟨_, _, sampleThenUpdate_eq H.sha_len _ _, ?_, ?_⟩
    · rw [h5, ← text_masterSalt]; rfl
    · have hv := validCiphersuite_contains.2 hc
      unfold kgSecret kgNext kgState at h1
      unfold SecretKey.init
      simp only [hv, Bool.not_true, Bool.false_eq_true, if_false]
      rw [sampleThenUpdate_exec H.sha_len, ← text_masterSalt]
      simp only [Res.ok_bind]
      rw [h6]
      unfold kgNext kgState
      erw [h1]
      rfl
  · rw [signHashed_eq H L pf W hk, hk.time, C77_sign H L pf W hc hk, signDraw_eq H.sha_len]

/-- the adversary that lets the signer go on to time `tar`, breaks in, and then makes a claim for time
`t` with the discrete logarithm of the public key -/
def codeLogForger (log : G2 → Fr) (t tar : Nat) (seed msg : Bytes) (W : World G1 G2) :
    CodePlayer G1 G2 :=
  .update tar seed (.breakIn fun _ => .forge
    { time := t, msg := msg, sigma1 := 0, sigma2 := (log W.pk.pk).val • W.pp.h, cosigners := [] })

/-- the game is won for every start of the PRNG -/
theorem logForger_start [DecidableEq GT] {E : Ext G1 G2 GT} (H : HashLaws E) (L : GroupLaws E)
    (pf : Profile) {g : G1} (hsub : E.inSub1 g = true) {d : Nat} (hd : 1 ≤ d) (hd' : d ≤ 63)
    {cs : UInt8} (hsup : Supported cs) {t tar : Nat} (h1 : 1 ≤ t) (h2 : t < tar)
    (h3 : tar ≤ 2 ^ d - 1) (h4 : drawsNeeded d 1 tar = 0) (seed msg : Bytes)
    (log : G2 → Fr) (hlog : ∀ x : Fr, log (x.val • E.gen2) = x) (a : Secret d 0 → Fr) (p : Prng) :
    (match Prng.sampleThenUpdate E.sha512 (ascii "key initialization") p with
    | (.ok x, p) =>
      match SecretKey.init E.sha512 (worldOf E g cs (Function.update a .x x) []).pp
        (mulFr x (worldOf E g cs (Function.update a .x x) []).pp.h) p with
      | .ok sk => (codeLogForger log t tar seed msg (worldOf E g cs (Function.update a .x x) [])).chance
          E pf g ⟨sk, [], []⟩ [] (worldOf E g cs (Function.update a .x x) [])
      | _ => 0
    | _ => 0) = 1 := by
  rw [sampleThenUpdate_eq H.sha_len]
  simp only []
  generalize drawVal E.sha512 p (ascii "key initialization") = x
  have hacc := fun D : Digest => logClaim_accepted (digest_laws E D)
    (GroupLaws.withSha L fun _ => D.bytes) pf (g := g) hsub hd hd' hsup
    (nodeAt_iff.2 ⟨⟨h1, by omega⟩, rfl⟩ : NodeAt d t (path d t)) msg log hlog (Function.update a .x x)
  simp only [worldOf_sha] at hacc
  have WF : ParamWF E (worldOf E g cs (Function.update a .x x) []).pp :=
    viewOf_wf (E := E) (cs := cs) L hsub hd hd' (toVar (Function.update a .x x))
  have hdep : (worldOf E g cs (Function.update a .x x) []).pp.depth = d := rfl
  have hcs : Supported (worldOf E g cs (Function.update a .x x) []).pp.ciphersuite := hsup
  generalize worldOf E g cs (Function.update a .x x) [] = W at *
  obtain ⟨sk, e1, e2, e3⟩ := init_keyAs H L WF hcs x
    (drawNext E.sha512 p (ascii "key initialization"))
  rw [e1]
  simp only [codeLogForger, CodePlayer.chance]
  have hup := update_exact H.sha_len pf WF.toParamShape e2.keyFor
    (show 1 < tar by omega) (by rw [hdep]; exact h3) seed
  rcases hup with ⟨⟨j, hj, _⟩, _⟩ | ⟨_, s, e4, e5, _⟩
  · rw [hdep, h4] at *
    omega
  · rw [e4]
    simp only [oracle, List.lookup_nil]
    refine (avg_congr fun D => ?_).trans (avg_const (α := Digest) (1 : ℚ))
    rw [if_pos]
    refine ⟨hacc D, ?_, by simp⟩
    intro b hb
    simp only [List.nil_append, List.mem_singleton] at hb
    rw [hb, e5.time]
    exact h2

/-- C80: the game can be won: whoever can take discrete logarithms in `G2` wins always, with a claim
for a time before a break-in.  (`tar` is a time to which the update draws no scalars, so that it cannot
panic.) -/
theorem C80_logarithms_forge [DecidableEq GT] {E : Ext G1 G2 GT} (H : HashLaws E) (L : GroupLaws E)
    (pf : Profile) {g : G1} (hsub : E.inSub1 g = true) {d : Nat} (hd : 1 ≤ d) (hd' : d ≤ 63)
    {cs : UInt8} (hsup : Supported cs) {t tar : Nat} (h1 : 1 ≤ t) (h2 : t < tar)
    (h3 : tar ≤ 2 ^ d - 1) (h4 : drawsNeeded d 1 tar = 0) (seed msg : Bytes)
    (log : G2 → Fr) (hlog : ∀ x : Fr, log (x.val • E.gen2) = x) :
    codeForgeChance E pf g d cs (codeLogForger log t tar seed msg) = 1 := by
  unfold codeForgeChance
  refine (avg_congr fun a => (avg_congr fun K => ?_).trans (avg_const (α := Digest) (1 : ℚ))).trans
    (avg_const 1)
  exact logForger_start H L pf hsub hd hd' hsup h1 h2 h3 h4 seed msg log hlog a _

/-! ### Concrete cases -/

section Examples
open Pixel.Toy

/-- an adversary that hashes a message, has messages signed at the times 1 and 4 (one of them twice),
lets the signer go on to time 9 with a seed of its choice and breaks in, has it sign again and go on to
12, breaks in again, and makes a claim for a time up to 8 that depends on all it got, with a co-signer -/
def toyCodePlayer (W : World G G) : CodePlayer G G :=
  .toss 6 (by omega) fun c => .hash [1, 2] fun b => .sign (b.take (1 + c.val)) fun s1 =>
    .update 4 [7] (.sign [3] fun s2 => .sign [3] fun _ => .point fun p => .update 9 b
      (.breakIn fun sk => .sign [4, 5] fun s3 => .update 12 [] (.breakIn fun sk' => .forge
        { time := 1 + (b.length + sk.ssk.length + sk'.prng.seed.length) % 8
          msg := b.drop 60
          sigma1 := s1.sigma1 + s2.sigma1 - s3.sigma1
          sigma2 := s1.sigma2 + (sk'.ssk.map SubSecretKey.hpoly).sum + W.pp.h
          cosigners := [{ key := (1, 0), point := some 0, pop := p }] })))

/-- C80: the hypotheses are met by this adversary: one hash point, six hashed messages, three updates,
nineteen scalars -/
example : codeForgeChance (ext sha0) .debug ((1, 0) : G) 5 1 toyCodePlayer ≤
    ∑ t ∈ Finset.Icc 1 (2 ^ 5 - 1), (∑ i ∈ Finset.range 6,
      (solveChance (ext sha0) ((1, 0) : G) 5 (roReduction (ext sha0) 1 5 (path 5 t) i
          (apiBet .debug 5 t (codeLift (ext sha0).sha512 .debug t toyCodePlayer))) +
        (((1 : Nat) + 1) / rOrder + (6 : Nat) / 2 ^ 254)) +
      ∑ j ∈ Finset.range (3 * (5 + 2) + 3), prfGain (ext sha0).sha512 (prfAttack (ext sha0).sha512
        (codeGame (ext sha0) .debug ((1, 0) : G) 5 1 toyCodePlayer t) j) +
      ((19 : Nat) + 2) * (1 / 2 ^ 257)) :=
  C80_forger_solves hashLaws (groupLaws sha0) .debug (g := ((1, 0) : G)) (by decide) (d := 5)
    (by omega) (by omega) 1 toyCodePlayer
    (fun W => fun _ _ _ _ _ _ _ _ _ => (by decide +kernel : (1 : Nat) + 1 < rOrder)) (m := 1)
    (fun W => fun _ _ _ _ _ => ⟨by omega, fun _ _ _ _ => trivial⟩) (Q := 6)
    (fun W => fun _ => ⟨by omega, fun _ => ⟨by omega, fun _ => ⟨by omega, fun _ => ⟨by omega, fun _ _ _ =>
      ⟨by omega, fun _ _ => (by omega : 0 < 6 - 1 - 1 - 1 - 1 - 1)⟩⟩⟩⟩⟩) (u := 3)
    (fun W => fun _ _ _ => ⟨by omega, fun _ _ _ => ⟨by omega, fun _ _ => ⟨by omega, fun _ => trivial⟩⟩⟩)
    (k := 19)
    (fun W => fun _ _ => ⟨by omega, fun _ => ⟨by omega, ⟨by omega, fun _ => ⟨by omega, fun _ _ =>
      ⟨by omega, fun _ => ⟨by omega, fun _ => ⟨by omega, fun _ => trivial⟩⟩⟩⟩⟩⟩⟩)

/-- C80: from time 1 to the right child of the root no scalars are drawn; so with logarithms, which are
easy in the toy groups, the game is won -/
example : codeForgeChance (ext sha0) .debug ((1, 0) : G) 5 1
    (codeLogForger (fun p : G => p.1) 4 17 [9] [1]) = 1 :=
  C80_logarithms_forge hashLaws (groupLaws sha0) .debug (g := ((1, 0) : G)) (by decide) (d := 5)
    (by omega) (by omega) (cs := 1) (Or.inr rfl) (by omega) (by omega) (by omega)
    (by decide +kernel) [9] [1] (fun p : G => p.1) (by
      intro x
      simp [ext])

/-- C80: after signing `[1]` at time 3, and a break-in at time 7, a claim for time 6 counts, for `[1]` at
time 3 or for time 7 not -/
example (sk : SecretKey G G) : let S : CodeSigner G G := ⟨sk, [(3, [1])], [7]⟩
    (∀ F : Claim G G, F.time = 6 → F.Counts S) ∧
    (∀ F : Claim G G, F.time = 3 → F.msg = [1] → ¬ F.Counts S) ∧
    (∀ F : Claim G G, F.time = 7 → ¬ F.Counts S) := by
  intro S
  refine ⟨fun F hF => ⟨?_, ?_⟩, fun F h1 h2 hu => hu.2 ?_, fun F hF hu => ?_⟩
  · simp [S, hF]
  · simp [S, hF]
  · simp [S, h1, h2]
  · have := hu.1 7 (by simp [S])
    omega

/-- C80: the hypotheses of the comparison with the code are met by a key given by hand -/
example : ∃ rho, KeyAs (param 5 1) 3 1 rho (sk0 5 1) := keyAs_sk0

end Examples

end Pixel.Props
