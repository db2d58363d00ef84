import Verif.Proof.ReduceWin
import Verif.Props.Game

/-!
# Property C75: a forger, whatever it does with the groups, solves a Diffie-Hellman problem

Vocabulary: `Verif/Spec/Reduce.lean`.
-/

namespace Pixel.Props

open Pixel Pixel.Spec

set_option linter.unusedSectionVars false

variable {G1 G2 GT : Type} [AddCommGroup G1] [AddCommGroup G2] [CommGroup GT]

/-! ## C75 -/

/-- C75: let a forger - any function of what it is shown - ask for sub keys, signatures and at most
`m` hash points, and claim an aggregate signature for the honest signer and co-signers with proofs
of possession.  If it wins with a claim for time `t` and hashed message `M` with chance `ε`, the
algorithm `reduction`, which runs it once, finds `e(g2, g)^(b γ^(d+1))` from the powers of `γ` up to
`d` and `b` with chance at least `ε - (m + 1)/r`. -/
theorem C75_forger_solves [DecidableEq GT] {E : Ext G1 G2 GT} (H : HashLaws E) (L : GroupLaws E)
    (pf : Profile) {g : G1} (hsub : E.inSub1 g = true) {d : Nat} (hd : 1 ≤ d) (hd' : d ≤ 63)
    (cs : UInt8) {t : Nat} {w : List Nat} (hw : NodeAt d t w) (M : Fr)
    (A : World G1 G2 → Player G1 G2) (hA : ∀ W, (A W).Legal d) {m : Nat}
    (hm : ∀ W, (A W).Points m) :
    forgeChance E pf g d cs {(t, M)} A - (m + 1) / rOrder ≤
      solveChance E g d (reduction E cs d w M A) := by
  have := forgeChance_le (M := M) (cs := cs) H L hsub hd hd' pf hw A hA hm
  linarith

/-- C75: the same for a forger that may choose among several times and hashed messages: its chance
is at most the sum of the chances of the algorithms that bet on one of them. -/
theorem C75_any_target [DecidableEq GT] {E : Ext G1 G2 GT} (H : HashLaws E) (L : GroupLaws E)
    (pf : Profile) {g : G1} (hsub : E.inSub1 g = true) {d : Nat} (hd : 1 ≤ d) (hd' : d ≤ 63)
    (cs : UInt8) (T : Finset (Nat × Fr)) (node : Nat → List Nat)
    (hT : ∀ p ∈ T, NodeAt d p.1 (node p.1)) (A : World G1 G2 → Player G1 G2)
    (hA : ∀ W, (A W).Legal d) {m : Nat} (hm : ∀ W, (A W).Points m) :
    forgeChance E pf g d cs T A ≤
      ∑ p ∈ T, solveChance E g d (reduction E cs d (node p.1) p.2 A) +
        T.card * ((m + 1) / rOrder) := by
  rw [forgeChance_sum]
  calc ∑ p ∈ T, forgeChance E pf g d cs {p} A
      ≤ ∑ p ∈ T, (solveChance E g d (reduction E cs d (node p.1) p.2 A) + (m + 1) / rOrder) :=
        Finset.sum_le_sum fun p hp => forgeChance_le H L hsub hd hd' pf (hT p hp) A hA hm
    _ = _ := by rw [Finset.sum_add_distrib, Finset.sum_const, nsmul_eq_mul]

/-- C75: if no target can be solved for with a chance above `ε`, no forger that chooses among the
targets wins with a chance above `|T| (ε + (m + 1)/r)`. -/
theorem C75_hard_then_secure [DecidableEq GT] {E : Ext G1 G2 GT} (H : HashLaws E) (L : GroupLaws E)
    (pf : Profile) {g : G1} (hsub : E.inSub1 g = true) {d : Nat} (hd : 1 ≤ d) (hd' : d ≤ 63)
    (cs : UInt8) (T : Finset (Nat × Fr)) (hT : ∀ p ∈ T, ValidTime d p.1)
    (A : World G1 G2 → Player G1 G2) (hA : ∀ W, (A W).Legal d) {m : Nat}
    (hm : ∀ W, (A W).Points m) {ε : ℚ}
    (hε : ∀ w M, solveChance E g d (reduction E cs d w M A) ≤ ε) :
    forgeChance E pf g d cs T A ≤ T.card * (ε + (m + 1) / rOrder) := by
  have h1 := C75_any_target H L pf hsub hd hd' cs T (path d)
    (fun p hp => nodeAt_iff.2 ⟨hT p hp, rfl⟩) A hA hm
  have h2 : ∑ p ∈ T, solveChance E g d (reduction E cs d (path d p.1) p.2 A) ≤ T.card * ε := by
    rw [← nsmul_eq_mul, ← Finset.sum_const]
    exact Finset.sum_le_sum fun p _ => hε _ _
  rw [mul_add]
  linarith

/-- C75: what forward security adds: a claim counts as fresh if every sub key that was asked for
belongs to a secret key for a later time and no signature was asked for its time and hashed
message. -/
theorem C75_past_is_fresh (sha : Bytes → Bytes) {d : Nat} (cs : UInt8) {qs : List Query}
    (F : Claim G1 G2) (hq : ∀ q ∈ qs, q.Legal d)
    (h1 : ∀ t v, .subKey t v ∈ qs → ∃ t' vs, F.time < t' ∧ ValidTime d t' ∧ CoverList d t' vs ∧ v ∈ vs)
    (h2 : ∀ t v M, .signature t v M ∈ qs → t ≠ F.time ∨ M ≠ msgField sha cs F.msg) :
    F.Fresh sha d cs qs :=
  C55_past_is_fresh sha cs
    { time := F.time, msg := F.msg, sigma1 := ⟨0, fun _ _ => 0⟩, sigma2 := ⟨0, fun _ _ => 0⟩,
      cosigners := [] } hq h1 h2

/-- C75: what the forger is shown by the reduction is what it sees in the game: the parameters, key
and proof of possession are those of exponents in one-to-one correspondence with `γ` and the coins,
and the answer to a query that does not spoil the target is the true one, for randomness that
depends one-to-one on the coin (as long as `h` is not zero). -/
theorem C75_shown_is_real {E : Ext G1 G2 GT} (L : GroupLaws E) {g : G1} (hsub : E.inSub1 g = true)
    {d : Nat} (hd : 1 ≤ d) (cs : UInt8) {t : Nat} {w : List Nat} (hw : NodeAt d t w) (M : Fr) :
    ∃ e : Fr × (Coin d → Fr) ≃ (Secret d 0 → Fr), ∀ γ b k,
      simWorld E cs d w M (instanceOf E g d γ b) k = worldOf E g cs (e (γ, k)) [] ∧
      e (γ, k) .x = γ ∧
      (e (γ, k) .h ≠ 0 → ∀ q : Query, q.Legal d → (∀ t' v, q = .subKey t' v → ¬ AncestorOrSelf v w) →
        (∀ t', q ≠ .signature t' w M) → ∃ f : Fr ≃ Fr, ∀ r,
          simAnswer E cs d w M (instanceOf E g d γ b) k r q =
            answer (worldOf E g cs (e (γ, k)) [] : World G1 G2).pp g γ (f r) q) := by
  have hg := L.sub1_order _ hsub
  have hg2 := L.sub2_order _ L.gen2_sub
  refine ⟨simEquiv d w M, fun γ b k => ⟨simWorld_eq hg hg2 hd k, rfl, ?_⟩⟩
  intro hh q hq h1 h2
  have hgood : Query.Good w M q := by
    cases q with
    | subKey t' v => exact h1 t' v rfl
    | signature t' v M' =>
      rintro ⟨rfl, rfl⟩
      exact h2 t' rfl
    | point => trivial
  have key := fun r => simAnswer_eq (E := E) (cs := cs) (γ := γ) (b := b) hg hg2 hd
    (nodeAt_isNode hw) k r hq hgood
  cases q with
  | subKey t' v => exact ⟨Equiv.addRight _, key⟩
  | signature t' v M' => exact ⟨Equiv.addRight _, key⟩
  | point => exact ⟨Equiv.mulRight₀ _ hh, key⟩

/-- the forger that takes the discrete logarithm of the public key and signs with it -/
def logForger (log : G2 → Fr) (t : Nat) (msg : Bytes) (W : World G1 G2) : Player G1 G2 :=
  .forge { time := t, msg := msg, sigma1 := 0, sigma2 := (log W.pk.pk).val • W.pp.h,
           cosigners := [] }

/-- its claim is accepted -/
theorem logClaim_accepted [DecidableEq GT] {E : Ext G1 G2 GT} (H : HashLaws E) (L : GroupLaws E)
    (pf : Profile) {g : G1} (hsub : E.inSub1 g = true) {d : Nat} (hd : 1 ≤ d) (hd' : d ≤ 63)
    {cs : UInt8} (hsup : Supported cs) {t : Nat} {w : List Nat} (hw : NodeAt d t w) (msg : Bytes)
    (log : G2 → Fr) (hlog : ∀ x : Fr, log (x.val • E.gen2) = x) (a : Secret d 0 → Fr) :
    Claim.Accepted E pf (worldOf E g cs a [] : World G1 G2)
      { time := t, msg := msg, sigma1 := 0,
        sigma2 := (log (worldOf E g cs a [] : World G1 G2).pk.pk).val •
          (worldOf E g cs a [] : World G1 G2).pp.h, cosigners := [] } := by
  refine ⟨by simp, ?_⟩
  have W : ParamWF E (gameParam E g cs a : PubParam G1 G2) :=
    viewOf_wf (cs := cs) L hsub hd hd' (toVar a)
  rw [Signature.verifyBytesAggregated_eq _ _ _ _ _ _ (by simp) (by simp [worldOf, gameParam])]
  have hpp : (worldOf E g cs a [] : World G1 G2).pp = gameParam E g cs a := rfl
  have hs2 : E.inSub1 ((a .x).val • (gameParam E g cs a : PubParam G1 G2).h) = true :=
    L.sub1_nsmul W.h_sub _
  have hlogx : log (worldOf E g cs a [] : World G1 G2).pk.pk = a .x := hlog _
  rw [hlogx, hpp, Signature.verifyBytes_eq H W.toParamShape]
  refine congrArg Res.ok (@decide_eq_true _ (_) ⟨hsup, rfl, L.sub2_zero, hs2, w, hw, ?_⟩)
  refine (L.sig_check W hs2 (a := 0) (x := (a .x).val) ?_ ?_).2 ?_
  · simp
  · simp [worldOf, gameParam]
  · simp

/-- C75: the game can be won: whoever can take discrete logarithms in `G2` wins always - so that, by
`C75_forger_solves`, the reduction turns discrete logarithms into solutions. -/
theorem C75_logarithms_forge [DecidableEq GT] {E : Ext G1 G2 GT} (H : HashLaws E) (L : GroupLaws E)
    (pf : Profile) {g : G1} (hsub : E.inSub1 g = true) {d : Nat} (hd : 1 ≤ d) (hd' : d ≤ 63)
    {cs : UInt8} (hsup : Supported cs) {t : Nat} {w : List Nat} (hw : NodeAt d t w) (msg : Bytes)
    (log : G2 → Fr) (hlog : ∀ x : Fr, log (x.val • E.gen2) = x) :
    forgeChance E pf g d cs {(t, msgField E.sha512 cs msg)} (logForger log t msg) = 1 := by
  have hone : ∀ a : Secret d 0 → Fr, (logForger log t msg (worldOf E g cs a [])).chance E pf g
      {(t, msgField E.sha512 cs msg)} (a .x) [] (worldOf E g cs a []) = 1 := by
    intro a
    simp only [logForger, Player.chance]
    rw [if_pos]
    exact ⟨logClaim_accepted H L pf hsub hd hd' hsup hw msg log hlog a,
      fun w _ => ⟨by simp, by simp⟩, by rw [Finset.mem_singleton]; rfl⟩
  unfold forgeChance
  rw [avg_congr hone, avg_const]

/-! ### Concrete cases -/

section Examples
open Pixel.Toy

/-- a forger that throws a die, takes a sub key of time 9 and a hash point, asks for a signature at
time 3 whose message depends on the answers, and replays it with time 4 together with a co-signer -/
def toyPlayer (W : World G G) : Player G G :=
  .toss 6 (by omega) fun c => .ask (.subKey 9 (path 5 9)) fun a1 => .ask .point fun a2 =>
    .ask (.signature 3 (path 5 3) ((c.val : Fr) + match a1 with | .subKey s => s.hpoly.1 | _ => 0))
      fun a3 => .forge
        { time := 4, msg := [1]
          sigma1 := match a3 with | .signature s => s.sigma1 | _ => 0
          sigma2 := match a3 with | .signature s => s.sigma2 + W.pp.h | _ => 0
          cosigners := [{ key := (1, 0), point := some 1,
                          pop := match a2 with | .point p => p | _ => 0 }] }

theorem toyPlayer_legal (W : World G G) : (toyPlayer W).Legal 5 := by
  have h9 : NodeAt 5 9 (path 5 9) := nodeAt_iff.2 ⟨⟨by omega, by decide⟩, rfl⟩
  have h3 : NodeAt 5 3 (path 5 3) := nodeAt_iff.2 ⟨⟨by omega, by decide⟩, rfl⟩
  have r1 : (1 : Nat) + 1 < rOrder := by decide +kernel
  exact fun c => ⟨h9, fun a1 => ⟨trivial, fun a2 => ⟨h3, fun a3 => r1⟩⟩⟩

theorem toyPlayer_points (W : World G G) : (toyPlayer W).Points 1 :=
  fun _ _ => ⟨by omega, fun _ _ => trivial⟩

theorem toy_node4 : NodeAt 5 4 (path 5 4) := nodeAt_iff.2 ⟨⟨by omega, by decide⟩, rfl⟩

/-- C75: the hypotheses are met by this forger, with one point -/
example (M : Fr) :
    forgeChance (ext sha0) .debug ((1, 0) : G) 5 1 {(4, M)} toyPlayer - (1 + 1) / rOrder ≤
      solveChance (ext sha0) ((1, 0) : G) 5 (reduction (ext sha0) 1 5 (path 5 4) M toyPlayer) := by
  have := C75_forger_solves (M := M) (cs := 1) hashLaws (groupLaws sha0) .debug
    (g := ((1, 0) : G)) (by decide) (d := 5) (by omega) (by omega) toy_node4 toyPlayer
    toyPlayer_legal toyPlayer_points
  rw [Nat.cast_one] at this
  exact this

/-- C75: in the toy groups logarithms are easy, so the reduction solves the problem with chance at
least `1 - 1/r` -/
example : 1 - (1 : ℚ) / rOrder ≤ solveChance (ext sha0) ((1, 0) : G) 5
    (reduction (ext sha0) 1 5 (path 5 4) (msgField sha0 1 [1])
      (logForger (fun p : G => p.1) 4 [1])) := by
  have h1 := C75_logarithms_forge hashLaws (groupLaws sha0) .debug (g := ((1, 0) : G)) (by decide)
    (d := 5) (by omega) (by omega) (cs := 1) (Or.inr rfl) toy_node4 [1] (fun p : G => p.1) (by
      intro x
      simp [ext])
  have h2 := C75_forger_solves (M := msgField sha0 1 [1]) (cs := 1) hashLaws (groupLaws sha0)
    .debug (g := ((1, 0) : G)) (by decide) (d := 5) (by omega) (by omega) toy_node4
    (logForger (fun p : G => p.1) 4 [1]) (fun W => (by decide +kernel : (0 : Nat) + 1 < rOrder))
    (m := 0) (fun W => trivial)
  rw [Nat.cast_zero, zero_add] at h2
  have h1' : forgeChance (ext sha0) .debug ((1, 0) : G) 5 1 {(4, msgField sha0 1 [1])}
      (logForger (fun p : G => p.1) 4 [1]) = 1 := h1
  rw [h1'] at h2
  exact h2

/-- C75: a claim for time 4 stays fresh when the whole secret key of time 9 is given away -/
example (F : Claim G G) (hF : F.time = 4) : F.Fresh sha0 5 1
    ((gam (path 5 9)).map fun v => .subKey (num 5 v) v) := by
  have h9 : ValidTime 5 9 := ⟨by omega, by decide⟩
  have hn : NodeAt 5 9 (path 5 9) := nodeAt_iff.2 ⟨h9, rfl⟩
  refine C75_past_is_fresh sha0 1 F ?_ ?_ ?_
  · intro q hq
    obtain ⟨v, hv, rfl⟩ := List.mem_map.1 hq
    exact nodeAt_num (gam_isNode (nodeAt_isNode hn) hv)
  · intro t v hv
    obtain ⟨v', hv', h⟩ := List.mem_map.1 hv
    cases h
    exact ⟨9, _, by rw [hF]; decide, h9, (coverList_iff hn).2 rfl, hv'⟩
  · intro t v M hs
    obtain ⟨v', hv', h⟩ := List.mem_map.1 hs
    cases h

end Examples

end Pixel.Props
