import Verif.Proof.GameCount
import Verif.Props.Forge

/-!
# Property C55: the forgery game

Vocabulary: `Verif/Spec/Game.lean`.
-/

namespace Pixel.Props

open Pixel Pixel.Spec

set_option linter.unusedSectionVars false

variable {G1 G2 GT : Type} [AddCommGroup G1] [AddCommGroup G2] [CommGroup GT]

/-! ## C55 -/

/-- C55: an adversary that treats the groups as black boxes, asks for sub keys, signatures and hash
points, tests combinations for zero and decides on the next step by what it has learnt, and makes
`k` tests at most, wins the forgery game - an aggregate signature that includes the honest signer,
co-signers with proofs of possession - for at most a fraction `(3k + 2)/r` of all exponents. -/
theorem C55_adaptive_forgery_bound [DecidableEq GT] {E : Ext G1 G2 GT} (H : HashLaws E)
    (L : GroupLaws E) (pf : Profile) {g : G1} (hsub : E.inSub1 g = true) (hne : g ≠ 0) {d : Nat}
    (hd : 1 ≤ d) (hd' : d ≤ 63) {cs : UInt8} (hsup : Supported cs) (A : Adversary) (hA : A.Legal d)
    {N : Nat} (hN : A.queries ≤ N) :
    Nat.card { a : Secret d N → Fr // A.Wins E pf g cs a [] } * rOrder ≤
      (3 * A.tests + 2) * Nat.card (Secret d N → Fr) := by
  have key := cnt_wins H L hsub hne hd hd' hsup pf A [] hA (N := N) (by simpa using hN) (by simp)
  rw [Nat.card_eq_fintype_card (α := Secret d N → Fr), Fintype.card_fun, ZMod.card]
  exact key

/-- C55: what forward security adds.  If every sub key that was asked for belongs to a secret key
for a time after that of the forgery, and no signature was asked for the time and hashed message of
the forgery, the forgery counts as fresh. -/
theorem C55_past_is_fresh (sha : Bytes → Bytes) {d : Nat} (cs : UInt8) {qs : List Query}
    (F : Forgery) (hq : ∀ q ∈ qs, q.Legal d)
    (h1 : ∀ t v, .subKey t v ∈ qs → ∃ t' vs, F.time < t' ∧ ValidTime d t' ∧ CoverList d t' vs ∧ v ∈ vs)
    (h2 : ∀ t v M, .signature t v M ∈ qs → t ≠ F.time ∨ M ≠ msgField sha cs F.msg) :
    F.Fresh sha d cs qs := by
  intro w hw
  have hwn := nodeAt_isNode hw
  constructor
  · intro t v hv hanc
    obtain ⟨t', vs, hlt, hval, hc, hm⟩ := h1 t v hv
    have hn : NodeAt d t' (path d t') := nodeAt_iff.2 ⟨hval, rfl⟩
    rw [(coverList_iff hn).1 hc] at hm
    obtain ⟨u, hu⟩ := hanc
    have := (gam_cover (nodeAt_isNode hn) hwn).2 ⟨v, hm, u, hu.symm⟩
    rw [nodeAt_num_eq hn, nodeAt_num_eq hw] at this
    omega
  · intro t hs
    have hl : NodeAt d t w := hq _ hs
    have htt : t = F.time := (nodeAt_num_eq hl).symm.trans (nodeAt_num_eq hw)
    rcases h2 t w _ hs with h | h
    · exact h htt
    · exact h rfl

/-- C55: the answers of the game are the objects of the API: a sub key is one that belongs to a node
under the master secret if and only if it is an answer for some fresh exponent, and likewise a
signature. -/
theorem C55_answers_are_real {E : Ext G1 G2 GT} (L : GroupLaws E) {pp : PubParam G1 G2}
    (W : ParamWF E pp) (g : G1) (x : Fr) (v : List Nat) :
    (∀ s : SubSecretKey G1 G2, (∃ rho, SubKeyFor pp (x.val • pp.h) v rho s) ↔
      NodeAt pp.depth s.time v ∧ ∃ r, answer pp g x r (.subKey s.time v) = .subKey s) ∧
    (∀ (M : Fr) (s : Signature G1 G2), (∃ a, SigFor pp (x.val • pp.h) v M a s) ↔
      NodeAt pp.depth s.time v ∧ ∃ r, answer pp g x r (.signature s.time v M) = .signature s) := by
  have hv : ∀ (n : Nat) (P : G1), E.inSub1 P = true → (n : Fr).val • P = n • P := by
    intro n P hP
    rw [ZMod.val_natCast, mod_smul (L.sub1_order _ hP)]
  have hv2 : ∀ n : Nat, (n : Fr).val • pp.g2 = n • pp.g2 := by
    intro n
    rw [ZMod.val_natCast, mod_smul (by rw [W.g2_gen]; exact L.sub2_order _ L.gen2_sub)]
  constructor
  · intro s
    constructor
    · rintro ⟨rho, hs⟩
      refine ⟨hs.node, (rho : Fr), ?_⟩
      obtain ⟨t, g2r, hp, hvec⟩ := s
      simp only [answer, Answer.subKey.injEq, SubSecretKey.mk.injEq, true_and]
      refine ⟨?_, ?_, ?_⟩
      · rw [hv2]; exact hs.g2r.symm
      · rw [hv _ _ (L.sub1_nodePoint W v)]; exact hs.hpoly.symm
      · rw [← show _ = hvec from hs.hvector.symm]
        refine List.map_congr_left fun y hy => hv _ _ (W.hlist_sub y (List.mem_of_mem_drop hy))
    · rintro ⟨hn, r, hr⟩
      refine ⟨r.val, ?_⟩
      obtain ⟨t, g2r, hp, hvec⟩ := s
      simp only [answer, Answer.subKey.injEq, SubSecretKey.mk.injEq, true_and] at hr
      exact ⟨hn, hr.1.symm, hr.2.1.symm, hr.2.2.symm⟩
  · intro M s
    constructor
    · rintro ⟨a, hs⟩
      refine ⟨hs.node, (a : Fr), ?_⟩
      obtain ⟨c, t, s1, s2⟩ := s
      simp only [answer, Answer.signature.injEq, Signature.mk.injEq, true_and]
      refine ⟨hs.suite.symm, ?_, ?_⟩
      · rw [hv2]; exact hs.sigma1.symm
      · rw [hv _ _ (L.sub1_sigPoint W v M)]; exact hs.sigma2.symm
    · rintro ⟨hn, r, hr⟩
      refine ⟨r.val, ?_⟩
      obtain ⟨c, t, s1, s2⟩ := s
      simp only [answer, Answer.signature.injEq, Signature.mk.injEq, true_and] at hr
      exact ⟨hr.1.symm, hn, hr.2.1.symm, hr.2.2.symm⟩

/-- coefficients for the initial elements only -/
def onlyStart (c : Nat → Fr) : Comb := { start := c, on := fun _ _ => 0 }

/-- a forger that has a key of its own, `α·g2`, as co-signer: it asks for a hash point, proves
possession of its key, asks for a signature of the honest signer and adds its own part -/
def honestCoSigner (α : Fr) (t : Nat) (msg : Bytes) : Forgery where
  time := t
  msg := msg
  sigma1 := { start := 0, on := fun k _ => if k = 1 then 1 else 0 }
  sigma2 := { start := fun i => if i = 0 then α else 0, on := fun k _ => if k = 1 then 1 else 0 }
  cosigners := [{
    key := onlyStart fun i => if i = 0 then α else 0
    point := some 0
    pop := { start := 0, on := fun k _ => if k = 0 then α else 0 } }]

/-- C55: the game is not empty: an aggregate with a co-signer that knows its secret is accepted,
whatever the exponents (it is not fresh, since the honest signer did sign). -/
theorem C55_honest_aggregate_accepted [DecidableEq GT] {E : Ext G1 G2 GT} (H : HashLaws E)
    (L : GroupLaws E) (pf : Profile) {g : G1} (hsub : E.inSub1 g = true) (hne : g ≠ 0) {d : Nat}
    (hd : 1 ≤ d) (hd' : d ≤ 63) {cs : UInt8} (hsup : Supported cs) {t : Nat} {w : List Nat}
    (hw : NodeAt d t w) (msg : Bytes) (α : Fr) {N : Nat} (a : Secret d N → Fr) :
    (honestCoSigner α t msg).Accepted E pf
      (worldOf E g cs a [.point, .signature t w (msgField E.sha512 cs msg)]) := by
  have hq : ∀ q ∈ [Query.point, .signature t w (msgField E.sha512 cs msg)], q.Legal d := by
    intro q hq
    simp only [List.mem_cons, List.not_mem_nil, or_false] at hq
    rcases hq with rfl | rfl
    · trivial
    · exact hw
  rw [accepted_iff H L hsub hne hd hd' hsup pf hq]
  have hkey : ∀ M : Fr, comb2 (onlyStart fun i => if i = 0 then α else 0) a
      [.point, .signature t w M] = α := by
    intro M
    simp [comb2, onlyStart, Fin.sum_univ_succ, term2]
  refine ⟨?_, w, hw, ?_⟩
  · intro c hc
    simp only [honestCoSigner, List.mem_singleton] at hc
    rw [admitted_iff L hsub hne hd hsup hq, hc]
    refine ⟨rfl, ?_⟩
    rw [hkey]
    simp [comb1, Fin.sum_univ_succ, term1, mul_comm]
  · have hkeys : ∀ M : Fr, keysE (honestCoSigner α t msg).cosigners a
        [.point, .signature t w M] = α := by
      intro M
      simp only [keysE, honestCoSigner, List.map_cons, List.map_nil, List.sum_cons, List.sum_nil,
        add_zero]
      exact hkey M
    rw [gameDefect, hkeys]
    simp [comb1, comb2, honestCoSigner, Fin.sum_univ_succ, term1, term2]
    ring

/-- a forger with the key `α·g2 - pk`: it needs nothing but the public key -/
def rogueForger (α : Fr) (t : Nat) (msg : Bytes) : Forgery where
  time := t
  msg := msg
  sigma1 := onlyStart 0
  sigma2 := onlyStart fun i => if i = 0 then α else 0
  cosigners := [{
    key := onlyStart fun i => if i = 0 then α else if i = 1 then -1 else 0
    point := some 0
    pop := onlyStart 0 }]

/-- C55: proofs of possession are needed for the bound: a forger that asks for nothing and names a
rogue key is fresh, and aggregate verification accepts its signature whatever the exponents. -/
theorem C55_rogue_without_pop [DecidableEq GT] {E : Ext G1 G2 GT} (H : HashLaws E)
    (L : GroupLaws E) (pf : Profile) {g : G1} (hsub : E.inSub1 g = true) (hne : g ≠ 0) {d : Nat}
    (hd : 1 ≤ d) (hd' : d ≤ 63) {cs : UInt8} (hsup : Supported cs) {t : Nat} {w : List Nat}
    (hw : NodeAt d t w) (msg : Bytes) (α : Fr) {N : Nat} (a : Secret d N → Fr) :
    let W : World G1 G2 := worldOf E g cs a []
    let F := rogueForger α t msg
    F.Fresh E.sha512 d cs [] ∧
    Signature.verifyBytesAggregated E pf
      { ciphersuite := W.pp.ciphersuite, time := F.time, sigma1 := W.inG2 F.sigma1,
        sigma2 := W.inG1 F.sigma2 }
      (W.pk :: F.cosigners.map fun c => { ciphersuite := W.pp.ciphersuite, pk := W.inG2 c.key })
      W.pp F.msg = .ok true := by
  intro W F
  refine ⟨fun w _ => ⟨by simp, by simp⟩, ?_⟩
  refine (verified_iff H L hsub hne hd hd' hsup pf (by simp) a F).2 ⟨w, hw, ?_⟩
  simp [gameDefect, comb1, comb2, keysE, F, rogueForger, onlyStart]

/-! ### Concrete cases -/

section Examples
open Pixel.Toy

/-- an adversary that takes a sub key of time 9, tests whether `h` is zero, asks for a signature for
time 3 if not, and replays it with time 4 -/
def toyAdversary : Adversary :=
  .ask (.subKey 9 (path 5 9)) (.isZero1 (onlyStart fun i => if i = 0 then 1 else 0)
    (.forge (rogueForger 2 4 [1]))
    (.ask (.signature 3 (path 5 3) 7) (.forge
      { time := 4, msg := [1], sigma1 := { start := 0, on := fun k _ => if k = 1 then 1 else 0 },
        sigma2 := { start := 0, on := fun k _ => if k = 1 then 1 else 0 }, cosigners := [] })))

theorem toyAdversary_legal : toyAdversary.Legal 5 := by
  have h9 : NodeAt 5 9 (path 5 9) := nodeAt_iff.2 ⟨⟨by omega, by decide⟩, rfl⟩
  have h3 : NodeAt 5 3 (path 5 3) := nodeAt_iff.2 ⟨⟨by omega, by decide⟩, rfl⟩
  have r1 : (rogueForger 2 4 [1]).cosigners.length + 1 < rOrder := by decide +kernel
  have r0 : (0 : Nat) + 1 < rOrder := by decide +kernel
  exact ⟨h9, r1, h3, r0⟩

/-- C55: the hypotheses are met, with one test and two queries -/
example : toyAdversary.Legal 5 ∧ toyAdversary.queries = 2 ∧ toyAdversary.tests = 1 ∧
    (ext sha0).inSub1 ((1, 0) : G) = true ∧ ((1, 0) : G) ≠ 0 :=
  ⟨toyAdversary_legal, rfl, rfl, by decide, by decide +kernel⟩

/-- C55: its bound -/
example : Nat.card { a : Secret 5 2 → Fr //
      toyAdversary.Wins (ext sha0) .debug ((1, 0) : G) 1 a [] } * rOrder ≤
    5 * Nat.card (Secret 5 2 → Fr) :=
  C55_adaptive_forgery_bound hashLaws (groupLaws sha0) .debug (by decide) (by decide +kernel)
    (by omega) (by omega) (Or.inr rfl) toyAdversary toyAdversary_legal le_rfl

/-- C55: the fresh lemma applies to the sub keys of a key for time 9 and a forgery for time 4 -/
example : (rogueForger 2 4 [1]).Fresh sha0 5 1
    ((gam (path 5 9)).map (fun v => .subKey (num 5 v) v) ++ [.signature 3 (path 5 3) 7]) := by
  have h9 : ValidTime 5 9 := ⟨by omega, by decide⟩
  have hn : NodeAt 5 9 (path 5 9) := nodeAt_iff.2 ⟨h9, rfl⟩
  refine C55_past_is_fresh sha0 1 _ ?_ ?_ ?_
  · intro q hq
    rcases List.mem_append.1 hq with hq | hq
    · obtain ⟨v, hv, rfl⟩ := List.mem_map.1 hq
      exact nodeAt_num (gam_isNode (nodeAt_isNode hn) hv)
    · rw [List.mem_singleton.1 hq]
      exact nodeAt_iff.2 ⟨⟨by omega, by decide⟩, rfl⟩
  · intro t v hv
    rcases List.mem_append.1 hv with hv | hv
    · obtain ⟨v', hv', h⟩ := List.mem_map.1 hv
      cases h
      exact ⟨9, _, by decide, h9, (coverList_iff hn).2 rfl, hv'⟩
    · exact absurd (List.mem_singleton.1 hv) (by simp)
  · intro t v M hs
    rcases List.mem_append.1 hs with hs | hs
    · obtain ⟨v', hv', h⟩ := List.mem_map.1 hs
      cases h
    · cases List.mem_singleton.1 hs
      exact Or.inl (by decide)

end Examples

end Pixel.Props
