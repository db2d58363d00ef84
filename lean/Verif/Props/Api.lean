import Verif.Proof.Simulate
import Verif.Props.Signer
import Verif.Props.Oracle

/-!
# Property C78: forgers that direct a signer, and break in

Vocabulary: `Verif/Spec/Api.lean`.
-/

namespace Pixel.Props

open Pixel Pixel.Spec

set_option linter.unusedSectionVars false

variable {G1 G2 GT : Type} [AddCommGroup G1] [AddCommGroup G2] [CommGroup GT]

/-! ## C78 -/

/-- C78: forward security.  The adversary directs a signer (messages to sign, updates), breaks in as
often as it likes, and claims a signature for a time before the first break-in.  Its chance is at most
the sum, over the times and the hashed messages (at most `Q`), of the chances of the algorithms that
run it once and bet on that time and message, up to `(m + 1)/r + Q/2^254` for each. -/
theorem C78_forger_solves [DecidableEq GT] {E : Ext G1 G2 GT} (L : GroupLaws E) (pf : Profile)
    {g : G1} (hsub : E.inSub1 g = true) {d : Nat} (hd : 1 ≤ d) (hd' : d ≤ 63) (cs : UInt8)
    (A : World G1 G2 → ApiPlayer G1 G2) (hA : ∀ W, (A W).Legal) {m : Nat}
    (hm : ∀ W, (A W).Points m) {Q : Nat} (hQ : ∀ W, (A W).Hashes Q) :
    apiForgeChance E pf g d cs A ≤
      ∑ t ∈ Finset.Icc 1 (2 ^ d - 1), ∑ i ∈ Finset.range Q,
        (solveChance E g d (roReduction E cs d (path d t) i (apiBet pf d t A)) +
          ((m + 1) / rOrder + Q / 2 ^ 254)) := by
  refine (apiForgeChance_le L hsub hd hd' pf A).trans (Finset.sum_le_sum fun t ht => ?_)
  have h1 : ValidTime d 1 := ⟨le_refl 1, (Finset.mem_Icc.1 ht).1.trans (Finset.mem_Icc.1 ht).2⟩
  have h := roForgeChance_le (cs := cs) L hsub hd hd' pf (apiBet pf d t A)
    (fun W => bet_legal pf (A W) (hA W) .start h1) (fun W => bet_points pf (A W) m (hm W) .start)
    (fun W => bet_hashes pf (A W) Q (hQ W) .start) {t} (path d)
    (fun t' ht' => by
      rw [Finset.mem_singleton.1 ht']
      exact nodeAt_iff.2 ⟨Finset.mem_Icc.1 ht, rfl⟩)
    (fun W => bet_aims pf (A W) .start)
  rwa [Finset.sum_product, Finset.sum_singleton] at h

/-- C78: if none of the algorithms solves the problem with a chance above `ε`, the adversary wins with
a chance of at most `(2^d - 1) Q (ε + (m + 1)/r + Q/2^254)`. -/
theorem C78_hard_then_secure [DecidableEq GT] {E : Ext G1 G2 GT} (L : GroupLaws E) (pf : Profile)
    {g : G1} (hsub : E.inSub1 g = true) {d : Nat} (hd : 1 ≤ d) (hd' : d ≤ 63) (cs : UInt8)
    (A : World G1 G2 → ApiPlayer G1 G2) (hA : ∀ W, (A W).Legal) {m : Nat}
    (hm : ∀ W, (A W).Points m) {Q : Nat} (hQ : ∀ W, (A W).Hashes Q) {ε : ℚ}
    (hε : ∀ t i, ValidTime d t → i < Q →
      solveChance E g d (roReduction E cs d (path d t) i (apiBet pf d t A)) ≤ ε) :
    apiForgeChance E pf g d cs A ≤
      (2 ^ d - 1) * Q * (ε + ((m + 1) / rOrder + Q / 2 ^ 254)) := by
  refine (C78_forger_solves L pf hsub hd hd' cs A hA hm hQ).trans ?_
  refine (Finset.sum_le_sum fun t ht => Finset.sum_le_sum fun i hi =>
    add_le_add_left (hε t i (Finset.mem_Icc.1 ht) (Finset.mem_range.1 hi)) _).trans ?_
  rw [Finset.sum_const, Finset.sum_const, Nat.card_Icc, Finset.card_range, nsmul_eq_mul,
    nsmul_eq_mul, Nat.add_sub_cancel, Nat.cast_sub Nat.one_le_two_pow, ← mul_assoc]
  push_cast
  exact le_rfl

/-- the adversary that lets the signer go on to time `tar`, breaks in, and then makes a claim for time
`t` with the discrete logarithm of the public key -/
def apiLogForger (log : G2 → Fr) (t tar : Nat) (msg : Bytes) (W : World G1 G2) : ApiPlayer G1 G2 :=
  .update tar (.breakIn fun _ _ => .forge
    { time := t, msg := msg, sigma1 := 0, sigma2 := (log W.pk.pk).val • W.pp.h, cosigners := [] })

/-- C78: the game can be won: whoever can take discrete logarithms in `G2` wins always, with a claim
for a time before a break-in. -/
theorem C78_logarithms_forge [DecidableEq GT] {E : Ext G1 G2 GT} (L : GroupLaws E)
    (pf : Profile) {g : G1} (hsub : E.inSub1 g = true) {d : Nat} (hd : 1 ≤ d) (hd' : d ≤ 63)
    {cs : UInt8} (hsup : Supported cs) {t tar : Nat} (h1 : 1 ≤ t) (h2 : t < tar)
    (h3 : tar ≤ 2 ^ d - 1) (msg : Bytes)
    (log : G2 → Fr) (hlog : ∀ x : Fr, log (x.val • E.gen2) = x) :
    apiForgeChance E pf g d cs (apiLogForger log t tar msg) = 1 := by
  have hone : ∀ (a : Secret d 0 → Fr) (r : Fr), (apiLogForger log t tar msg
      (worldOf E g cs a [])).chance E pf g (a .x) (.new r) [] (worldOf E g cs a []) = 1 := by
    intro a r
    have hacc := fun D : Digest => logClaim_accepted (digest_laws E D)
      (GroupLaws.withSha L fun _ => D.bytes) pf (g := g) hsub hd hd' hsup
      (nodeAt_iff.2 ⟨⟨h1, by omega⟩, rfl⟩ : NodeAt d t (path d t)) msg log hlog a
    simp only [worldOf_sha] at hacc
    have hdep : (worldOf E g cs a [] : World G1 G2).pp.depth = d := rfl
    generalize (worldOf E g cs a [] : World G1 G2) = W at *
    simp only [apiLogForger, ApiPlayer.chance]
    rw [hdep, if_pos ⟨by show 1 < tar; omega, h3⟩, avgs_congr (f' := fun _ => 1), avgs_const]
    intro rs _
    simp only [oracle, List.lookup_nil]
    refine (avg_congr fun D => ?_).trans (avg_const 1)
    rw [if_pos]
    refine ⟨hacc D, ?_, ?_⟩
    · intro b hb
      simp only [Signer.caught, Signer.updated, Signer.new, List.nil_append,
        List.mem_singleton] at hb
      rw [hb]
      exact h2
    · simp [Signer.caught, Signer.updated, Signer.new]
  unfold apiForgeChance
  rw [avg_congr fun a => (avg_congr fun r => hone a r).trans (avg_const 1), avg_const]

/-- C78: the signer of the game does what the code does, with uniform scalars for those drawn from the
PRNG: a new key, a signature, an update and the sub keys that a break-in shows. -/
theorem C78_code_signer {E : Ext G1 G2 GT} (H : HashLaws E) (L : GroupLaws E) (pf : Profile)
    {pp : PubParam G1 G2} (W : ParamWF E pp) (hc : Supported pp.ciphersuite) (x : Fr) :
    (∀ seed pk sk pop, keygen E seed pp = .ok (pk, sk, pop) →
      ∃ x r, pk.pk = x.val • pp.g2 ∧
        KeyAs pp x (Signer.new r).time (Signer.new r).rho sk) ∧
    ∀ (S : Signer) (sk : SecretKey G1 G2), KeyAs pp x S.time S.rho sk →
      sk.ssk = keysOf pp x S.time S.rho ∧
      (∀ msg, ∃ r, Signature.signPresent E.sha512 pf S.time pp msg sk =
          (.ok (signatureOf pp x S.time (msgField E.sha512 pp.ciphersuite msg)
            (S.rho.headD 0 + r)), sk) ∧
        KeyAs pp x (S.after msg r).time (S.after msg r).rho sk) ∧
      ∀ tar seed sk', SecretKey.update E.sha512 pf pp tar seed sk = (.ok (), sk') →
        S.time < tar ∧ tar ≤ 2 ^ pp.depth - 1 ∧
          ∃ rs : List Fr, rs.length = drawsNeeded pp.depth S.time tar ∧
            KeyAs pp x (S.updated pp.depth tar rs).time (S.updated pp.depth tar rs).rho sk' := by
  refine ⟨fun seed pk sk pop h => ?_, fun S sk h => ⟨h.ssk, fun msg => ?_, fun tar seed sk' hu => ?_⟩⟩
  · obtain ⟨h1, h2⟩ := C77_keygen H L W h
    exact ⟨_, _, h1, h2⟩
  · exact ⟨_, C77_sign H L pf W hc h msg, h⟩
  · obtain ⟨h1, h2, h3, _⟩ := C77_update H L pf W h tar seed hu
    exact ⟨h1, h2, _, by simp [updateDraws], h3⟩

/-! ### Concrete cases -/

section Examples
open Pixel.Toy

/-- an adversary that hashes a message, has messages signed at the times 1 and 4, lets the signer go
on to time 9 and breaks in, has it sign again and go on to 12, breaks in again, and makes a claim for
a time up to 8 that depends on all it got, with a co-signer -/
def toyApiPlayer (W : World G G) : ApiPlayer G G :=
  .toss 6 (by omega) fun c => .hash [1, 2] fun b => .sign (b.take (1 + c.val)) fun s1 =>
    .update 4 (.sign [3] fun s2 => .point fun p => .update 9 (.breakIn fun keys _ =>
      .sign [4, 5] fun s3 => .update 12 (.breakIn fun keys' shown => .forge
        { time := 1 + (b.length + keys.length + shown.length) % 8
          msg := b.drop 60
          sigma1 := s1.sigma1 + s2.sigma1 - s3.sigma1
          sigma2 := s1.sigma2 + (keys'.map SubSecretKey.hpoly).sum + W.pp.h
          cosigners := [{ key := (1, 0), point := some 0, pop := p }] })))

/-- C78: the hypotheses are met by this adversary, with one hash point and five hashed messages -/
example : apiForgeChance (ext sha0) .debug ((1, 0) : G) 5 1 toyApiPlayer ≤
    ∑ t ∈ Finset.Icc 1 31, ∑ i ∈ Finset.range 5,
      (solveChance (ext sha0) ((1, 0) : G) 5
          (roReduction (ext sha0) 1 5 (path 5 t) i (apiBet .debug 5 t toyApiPlayer)) +
        (((1 : Nat) + 1) / rOrder + (5 : Nat) / 2 ^ 254)) :=
  C78_forger_solves (groupLaws sha0) .debug (g := ((1, 0) : G)) (by decide) (d := 5) (by omega)
    (by omega) 1 toyApiPlayer
    (fun W => fun _ _ _ _ _ _ _ _ _ _ => (by decide +kernel : (1 : Nat) + 1 < rOrder)) (m := 1)
    (fun W => fun _ _ _ _ => ⟨by omega, fun _ _ _ _ _ _ => trivial⟩) (Q := 5)
    (fun W => fun _ => ⟨by omega, fun _ => ⟨by omega, fun _ => ⟨by omega, fun _ _ _ _ =>
      ⟨by omega, fun _ _ _ => (by omega : 0 < 5 - 1 - 1 - 1 - 1)⟩⟩⟩⟩)

/-- C78: in the toy groups logarithms are easy, so one of the 31 algorithms that bet on a time solves
the problem -/
example : ∃ t ∈ Finset.Icc 1 31, 0 < solveChance (ext sha0) ((1, 0) : G) 5
    (roReduction (ext sha0) 1 5 (path 5 t) 0
      (apiBet .debug 5 t (apiLogForger (fun p : G => p.1) 4 9 [1]))) := by
  by_contra hc
  push Not at hc
  have h1 : apiForgeChance (ext sha0) .debug ((1, 0) : G) 5 1
      (apiLogForger (fun p : G => p.1) 4 9 [1]) = 1 :=
    C78_logarithms_forge (groupLaws sha0) .debug (g := ((1, 0) : G)) (by decide)
      (d := 5) (by omega) (by omega) (cs := 1) (Or.inr rfl) (by omega) (by omega) (by omega) [1]
      (fun p : G => p.1) (by
        intro x
        simp [ext])
  have h2 := C78_hard_then_secure (groupLaws sha0) .debug (g := ((1, 0) : G)) (by decide) (d := 5)
    (by omega) (by omega) 1 (apiLogForger (fun p : G => p.1) 4 9 [1])
    (fun W => fun _ _ => (by decide +kernel : (0 : Nat) + 1 < rOrder)) (m := 0)
    (fun W => fun _ _ => trivial) (Q := 1)
    (fun W => fun _ _ => Nat.one_pos) (ε := 0) (fun t i ht hi => by
      obtain rfl : i = 0 := by omega
      exact hc t (Finset.mem_Icc.2 ht))
  rw [h1] at h2
  have h3 : (1000 : ℚ) ≤ rOrder := by
    exact_mod_cast (by decide +kernel : 1000 ≤ rOrder)
  have h4 : (1 : ℚ) / rOrder ≤ 1 / 1000 := one_div_le_one_div_of_le (by norm_num) h3
  have h5 : (1 : ℚ) / 2 ^ 254 ≤ 1 / 1000 := one_div_le_one_div_of_le (by norm_num) (by norm_num)
  rw [Nat.cast_zero, Nat.cast_one, zero_add, zero_add] at h2
  norm_num at h2 h4 h5
  linarith

/-- C78: after signing `[1]` at time 3, going on to 7 and a break-in there, a claim for time 6 counts,
for `[1]` at time 3 or for time 7 not -/
example : let S := (((Signer.new 5).updated 4 3 [1, 2, 3]).after [1] 8 |>.updated 4 7 []).caught
    (∀ F : Claim G G, F.time = 6 → F.Unsigned S) ∧
    (∀ F : Claim G G, F.time = 3 → F.msg = [1] → ¬ F.Unsigned S) ∧
    (∀ F : Claim G G, F.time = 7 → ¬ F.Unsigned S) := by
  intro S
  have hb : S.broken = [7] := rfl
  have hs : S.signed = [(3, [1])] := rfl
  refine ⟨fun F hF => ⟨?_, ?_⟩, fun F h1 h2 hu => hu.2 ?_, fun F hF hu => ?_⟩
  · rw [hb, hF]; simp
  · rw [hs, hF]; simp
  · rw [hs, h1, h2]; simp
  · have := hu.1 7 (by rw [hb]; simp)
    omega

/-- C78: the hypotheses of the comparison with the code are met by a key given by hand -/
example : ∃ rho, KeyAs (param 5 1) 3 ({ (Signer.new 5) with rho := rho }).time rho (sk0 5 1) :=
  keyAs_sk0

end Examples

end Pixel.Props
