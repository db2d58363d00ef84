import Verif.Proof.Oracle
import Verif.Props.Reduce

/-!
# Property C76: forgers that choose time and message at the end, with the hash as a random oracle

Vocabulary: `Verif/Spec/Oracle.lean`.
-/

namespace Pixel.Props

open Pixel Pixel.Spec

set_option linter.unusedSectionVars false

variable {G1 G2 GT : Type} [AddCommGroup G1] [AddCommGroup G2] [CommGroup GT]

/-! ## C76 -/

/-- C76: the chance of a forger that may hash messages, ask for sub keys, signatures and at most `m`
hash points, and choose the time and the message of its claim by what it has seen, is at most the
sum, over the times and the hashed messages (at most `Q`), of the chances of the algorithms that run
it once and bet on that time and message, up to `(m + 1)/r + Q/2^254` for each. -/
theorem C76_forger_solves [DecidableEq GT] {E : Ext G1 G2 GT} (L : GroupLaws E) (pf : Profile)
    {g : G1} (hsub : E.inSub1 g = true) {d : Nat} (hd : 1 ≤ d) (hd' : d ≤ 63) (cs : UInt8)
    (A : World G1 G2 → RoPlayer G1 G2) (hA : ∀ W, (A W).Legal d) {m : Nat}
    (hm : ∀ W, (A W).Points m) {Q : Nat} (hQ : ∀ W, (A W).Hashes Q) :
    roForgeChance E pf g d cs A ≤
      ∑ t ∈ Finset.Icc 1 (2 ^ d - 1), ∑ i ∈ Finset.range Q,
        (solveChance E g d (roReduction E cs d (path d t) i A) +
          ((m + 1) / rOrder + Q / 2 ^ 254)) := by
  have h := roForgeChance_le (cs := cs) L hsub hd hd' pf A hA hm hQ (Finset.Icc 1 (2 ^ d - 1))
    (path d) (fun t ht => nodeAt_iff.2 ⟨Finset.mem_Icc.1 ht, rfl⟩)
    (fun W => (A W).aims_all fun t v h => Finset.mem_Icc.2 (nodeAt_iff.1 h).1)
  rwa [Finset.sum_product] at h

/-- C76: if none of the algorithms solves the problem with a chance above `ε`, the forger wins with a
chance of at most `(2^d - 1) Q (ε + (m + 1)/r + Q/2^254)`. -/
theorem C76_hard_then_secure [DecidableEq GT] {E : Ext G1 G2 GT} (L : GroupLaws E) (pf : Profile)
    {g : G1} (hsub : E.inSub1 g = true) {d : Nat} (hd : 1 ≤ d) (hd' : d ≤ 63) (cs : UInt8)
    (A : World G1 G2 → RoPlayer G1 G2) (hA : ∀ W, (A W).Legal d) {m : Nat}
    (hm : ∀ W, (A W).Points m) {Q : Nat} (hQ : ∀ W, (A W).Hashes Q) {ε : ℚ}
    (hε : ∀ t i, ValidTime d t → i < Q →
      solveChance E g d (roReduction E cs d (path d t) i A) ≤ ε) :
    roForgeChance E pf g d cs A ≤
      (2 ^ d - 1) * Q * (ε + ((m + 1) / rOrder + Q / 2 ^ 254)) := by
  refine (C76_forger_solves L pf hsub hd hd' cs A hA hm hQ).trans ?_
  refine (Finset.sum_le_sum fun t ht => Finset.sum_le_sum fun i hi =>
    add_le_add_left (hε t i (Finset.mem_Icc.1 ht) (Finset.mem_range.1 hi)) _).trans ?_
  rw [Finset.sum_const, Finset.sum_const, Nat.card_Icc, Finset.card_range, nsmul_eq_mul,
    nsmul_eq_mul, Nat.add_sub_cancel, Nat.cast_sub Nat.one_le_two_pow, ← mul_assoc]
  push_cast
  exact le_rfl

/-- C76: what forward security adds: a claim counts as fresh if every sub key that was asked for
belongs to a secret key for a later time and no signature was asked for its time and message. -/
theorem C76_past_is_fresh {d : Nat} {qs : List RoQuery} (F : Claim G1 G2)
    (hq : ∀ q ∈ qs, q.Legal d)
    (h1 : ∀ t v, .subKey t v ∈ qs → ∃ t' vs, F.time < t' ∧ ValidTime d t' ∧ CoverList d t' vs ∧ v ∈ vs)
    (h2 : ∀ t v msg, .signature t v msg ∈ qs → t ≠ F.time ∨ msg ≠ F.msg) :
    F.RoFresh d qs := by
  intro w hw
  have hwn := nodeAt_isNode hw
  constructor
  · intro t v hv hanc
    obtain ⟨t', vs, hlt, hval, hc, hm⟩ := h1 t v hv
    have hn : NodeAt d t' (path d t') := nodeAt_iff.2 ⟨hval, rfl⟩
    rw [(coverList_iff hn).1 hc] at hm
    obtain ⟨u, hu⟩ := hanc
    have := (gam_cover (nodeAt_isNode hn) hwn).2 ⟨v, hm, u, hu.symm⟩
    rw [nodeAt_num_eq hn, nodeAt_num_eq hw] at this
    omega
  · intro t hs
    have hl : NodeAt d t w := hq _ hs
    have htt : t = F.time := (nodeAt_num_eq hl).symm.trans (nodeAt_num_eq hw)
    rcases h2 t w _ hs with h | h
    · exact h htt
    · exact h rfl

/-- the check depends on the hash function by the hashed message -/
theorem accepted_sha [DecidableEq GT] {E : Ext G1 G2 GT} (H : HashLaws E) (pf : Profile)
    {sha : Bytes → Bytes} (H' : HashLaws { E with sha512 := sha })
    {W : World G1 G2} (S : ParamShape W.pp) (hpk : W.pk.ciphersuite = W.pp.ciphersuite)
    (F : Claim G1 G2)
    (hfield : msgField E.sha512 W.pp.ciphersuite F.msg = msgField sha W.pp.ciphersuite F.msg) :
    F.Accepted E pf W ↔ F.Accepted { E with sha512 := sha } pf W := by
  have hc : ∀ pk ∈ (W.pk :: F.cosigners.map fun c =>
      ({ ciphersuite := W.pp.ciphersuite, pk := c.key } : PublicKey G2)),
      pk.ciphersuite = W.pp.ciphersuite := by
    intro pk hpk'
    rcases List.mem_cons.1 hpk' with rfl | hpk'
    · exact hpk
    · obtain ⟨c, _, rfl⟩ := List.mem_map.1 hpk'
      rfl
  unfold Claim.Accepted
  refine and_congr Iff.rfl ?_
  rw [Signature.verifyBytesAggregated_eq _ _ _ _ _ _ (by simp) hc,
    Signature.verifyBytesAggregated_eq _ _ _ _ _ _ (by simp) hc,
    Signature.verifyBytes_eq H S, Signature.verifyBytes_eq H' S]
  refine Iff.trans (b := _) ⟨fun h => @of_decide_eq_true _ (_) (Res.ok.inj h),
    fun h => congrArg Res.ok (@decide_eq_true _ (_) h)⟩ (Iff.symm (Iff.trans (b := _)
      ⟨fun h => @of_decide_eq_true _ (_) (Res.ok.inj h),
        fun h => congrArg Res.ok (@decide_eq_true _ (_) h)⟩ ?_))
  simp only [hfield]

/-- C76: replacing the hash function by one value is faithful: the check of a claim calls SHA-512 for
one text only, the domain separator, the ciphersuite and the message. -/
theorem C76_one_hash [DecidableEq GT] {E : Ext G1 G2 GT} (H : HashLaws E) (pf : Profile)
    {W : World G1 G2} (S : ParamShape W.pp) (hpk : W.pk.ciphersuite = W.pp.ciphersuite)
    (F : Claim G1 G2) (D : Digest)
    (hD : E.sha512 (text "Pixel hash to message" ++ [W.pp.ciphersuite] ++ F.msg) = D.bytes) :
    F.Accepted E pf W ↔ F.Accepted { E with sha512 := fun _ => D.bytes } pf W := by
  refine accepted_sha H pf (digest_laws E D) S hpk F ?_
  rw [msgField, msgField, hD]

/-- the forger that takes the discrete logarithm of the public key and signs with it -/
def roLogForger (log : G2 → Fr) (t : Nat) (msg : Bytes) (W : World G1 G2) : RoPlayer G1 G2 :=
  .forge { time := t, msg := msg, sigma1 := 0, sigma2 := (log W.pk.pk).val • W.pp.h,
           cosigners := [] }

/-- C76: the game can be won: whoever can take discrete logarithms in `G2` wins always. -/
theorem C76_logarithms_forge [DecidableEq GT] {E : Ext G1 G2 GT} (L : GroupLaws E)
    (pf : Profile) {g : G1} (hsub : E.inSub1 g = true) {d : Nat} (hd : 1 ≤ d) (hd' : d ≤ 63)
    {cs : UInt8} (hsup : Supported cs) {t : Nat} {w : List Nat} (hw : NodeAt d t w) (msg : Bytes)
    (log : G2 → Fr) (hlog : ∀ x : Fr, log (x.val • E.gen2) = x) :
    roForgeChance E pf g d cs (roLogForger log t msg) = 1 := by
  have hone : ∀ a : Secret d 0 → Fr, (roLogForger log t msg (worldOf E g cs a [])).chance E pf g
      (a .x) [] [] (worldOf E g cs a []) = 1 := by
    intro a
    have hacc := fun D : Digest => logClaim_accepted (digest_laws E D)
      (GroupLaws.withSha L fun _ => D.bytes) pf (g := g) hsub hd hd' hsup hw msg log hlog a
    simp only [worldOf_sha] at hacc
    simp only [roLogForger, RoPlayer.chance, oracle, List.lookup_nil]
    refine (avg_congr fun D => ?_).trans (avg_const 1)
    rw [if_pos]
    exact ⟨hacc D, fun w _ => ⟨by simp, by simp⟩⟩
  unfold roForgeChance
  rw [avg_congr hone, avg_const]

/-! ### Concrete cases -/

section Examples
open Pixel.Toy

/-- a forger that hashes a message, takes a sub key of time 9, asks for a signature at time 3 on a
message that depends on the hash, and claims it for a time that depends on the hash and on what it
got, together with a co-signer whose proof of possession is a hash point -/
def toyRoPlayer (W : World G G) : RoPlayer G G :=
  .toss 6 (by omega) fun c => .hash [1, 2] fun b => .ask (.subKey 9 (path 5 9)) fun a1 =>
    .ask .point fun a2 => .ask (.signature 3 (path 5 3) (b.take (1 + c.val))) fun a3 => .forge
      { time := 1 + (b.length + match a1 with | .subKey s => s.hpoly.1.val | _ => 0) % 8
        msg := b.drop 60
        sigma1 := match a3 with | .signature s => s.sigma1 | _ => 0
        sigma2 := match a3 with | .signature s => s.sigma2 + W.pp.h | _ => 0
        cosigners := [{ key := (1, 0), point := some 1,
                        pop := match a2 with | .point p => p | _ => 0 }] }

theorem toyRoPlayer_legal (W : World G G) : (toyRoPlayer W).Legal 5 := by
  have h9 : NodeAt 5 9 (path 5 9) := nodeAt_iff.2 ⟨⟨by omega, by decide⟩, rfl⟩
  have h3 : NodeAt 5 3 (path 5 3) := nodeAt_iff.2 ⟨⟨by omega, by decide⟩, rfl⟩
  have r1 : (1 : Nat) + 1 < rOrder := by decide +kernel
  exact fun c b => ⟨h9, fun a1 => ⟨trivial, fun a2 => ⟨h3, fun a3 => r1⟩⟩⟩

/-- C76: the hypotheses are met by this forger, with one hash point and three hashed messages -/
example : roForgeChance (ext sha0) .debug ((1, 0) : G) 5 1 toyRoPlayer ≤
    ∑ t ∈ Finset.Icc 1 31, ∑ i ∈ Finset.range 3,
      (solveChance (ext sha0) ((1, 0) : G) 5 (roReduction (ext sha0) 1 5 (path 5 t) i toyRoPlayer) +
        (((1 : Nat) + 1) / rOrder + (3 : Nat) / 2 ^ 254)) :=
  C76_forger_solves (groupLaws sha0) .debug (g := ((1, 0) : G)) (by decide) (d := 5) (by omega)
    (by omega) 1 toyRoPlayer toyRoPlayer_legal (m := 1)
    (fun W => fun _ _ _ => ⟨by omega, fun _ _ => trivial⟩) (Q := 3)
    (fun W => fun _ => ⟨by omega, fun _ _ _ => ⟨by omega, fun _ => (by omega : 0 < 3 - 1 - 1)⟩⟩)

/-- C76: in the toy groups logarithms are easy, so one of the 31 algorithms that bet on a time solves
the problem -/
example : ∃ t ∈ Finset.Icc 1 31, 0 < solveChance (ext sha0) ((1, 0) : G) 5
    (roReduction (ext sha0) 1 5 (path 5 t) 0 (roLogForger (fun p : G => p.1) 4 [1])) := by
  by_contra hc
  push Not at hc
  have h1 : roForgeChance (ext sha0) .debug ((1, 0) : G) 5 1
      (roLogForger (fun p : G => p.1) 4 [1]) = 1 :=
    C76_logarithms_forge (groupLaws sha0) .debug (g := ((1, 0) : G)) (by decide)
      (d := 5) (by omega) (by omega) (cs := 1) (Or.inr rfl) toy_node4 [1] (fun p : G => p.1) (by
        intro x
        simp [ext])
  have h2 := C76_hard_then_secure (groupLaws sha0) .debug (g := ((1, 0) : G)) (by decide) (d := 5)
    (by omega) (by omega) 1 (roLogForger (fun p : G => p.1) 4 [1])
    (fun W => (by decide +kernel : (0 : Nat) + 1 < rOrder)) (m := 0) (fun W => trivial) (Q := 1)
    (fun W => Nat.one_pos) (ε := 0) (fun t i ht hi => by
      obtain rfl : i = 0 := by omega
      exact hc t (Finset.mem_Icc.2 ht))
  rw [h1] at h2
  have h3 : (1000 : ℚ) ≤ rOrder := by
    exact_mod_cast (by decide +kernel : 1000 ≤ rOrder)
  have h4 : (1 : ℚ) / rOrder ≤ 1 / 1000 := one_div_le_one_div_of_le (by norm_num) h3
  have h5 : (1 : ℚ) / 2 ^ 254 ≤ 1 / 1000 := one_div_le_one_div_of_le (by norm_num) (by norm_num)
  rw [Nat.cast_zero, Nat.cast_one, zero_add, zero_add] at h2
  norm_num at h2 h4 h5
  linarith

/-- C76: a claim for time 4 stays fresh when the whole secret key of time 9 is given away and the same
message is signed at time 5 -/
example (F : Claim G G) (hF : F.time = 4) : F.RoFresh 5
    (.signature 5 (path 5 5) F.msg :: (gam (path 5 9)).map fun v => .subKey (num 5 v) v) := by
  have h9 : ValidTime 5 9 := ⟨by omega, by decide⟩
  have hn : NodeAt 5 9 (path 5 9) := nodeAt_iff.2 ⟨h9, rfl⟩
  refine C76_past_is_fresh F ?_ ?_ ?_
  · intro q hq
    rcases List.mem_cons.1 hq with rfl | hq
    · exact nodeAt_iff.2 ⟨⟨by omega, by decide⟩, rfl⟩
    · obtain ⟨v, hv, rfl⟩ := List.mem_map.1 hq
      exact nodeAt_num (gam_isNode (nodeAt_isNode hn) hv)
  · intro t v hv
    rcases List.mem_cons.1 hv with h | hv
    · cases h
    · obtain ⟨v', hv', h⟩ := List.mem_map.1 hv
      cases h
      exact ⟨9, _, by rw [hF]; decide, h9, (coverList_iff hn).2 rfl, hv'⟩
  · intro t v M hs
    rcases List.mem_cons.1 hs with h | hs
    · cases h
      exact Or.inl (by rw [hF]; decide)
    · obtain ⟨v', hv', h⟩ := List.mem_map.1 hs
      cases h

/-- a hash function that is not constant: the length of the message -/
def shaLen (m : Bytes) : Bytes := natToBE 64 m.length

/-- C76: under this function a claim for a message of two octets is checked with the value 24 -/
example (W : World G G) (S : ParamShape W.pp) (hpk : W.pk.ciphersuite = W.pp.ciphersuite)
    (F : Claim G G) (hF : F.msg = [7, 7]) : F.Accepted (ext shaLen) .debug W ↔
      F.Accepted { ext shaLen with sha512 := fun _ => Digest.bytes ⟨24, by decide +kernel⟩ } .debug W := by
  have H : HashLaws (ext shaLen) := ⟨fun _ => natToBE_length 64 _⟩
  refine C76_one_hash H .debug S hpk F _ ?_
  rw [hF]
  exact congrArg (natToBE 64) (by
    have h21 : (text "Pixel hash to message").length = 21 := by decide +kernel
    simp [h21])

end Examples

end Pixel.Props
