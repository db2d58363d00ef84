import Verif.Proof.Leak
import Verif.Props.Code
import Verif.Props.Memory

/-!
# Property C86: forward security when the state of the generator leaks

Vocabulary: `Verif/Spec/Leak.lean`, `Verif/Spec/Heal.lean`.
-/

namespace Pixel.Props

open Pixel Pixel.Spec

set_option linter.unusedSectionVars false

variable {G1 G2 GT : Type} [AddCommGroup G1] [AddCommGroup G2] [CommGroup GT]

/-! ## C86 -/

/-- C86: forward security with leaks.  The adversary directs the signer, breaks in, and looks at the PRNG
state as often as it likes; some of the updates are made with uniform seeds that it does not see.  A look
counts as a break-in only if the state is used for a signature, or if the next update is made with a
seed of the adversary's choice.  The chance of the adversary is at most the sum, over the times, of the
chances of algorithms for the problem of C75, of the gains of `c + 1` times `u (d + 2) + 3` adversaries
against HMAC and of `c` against HKDF-extract, up to `(k + 2)/2^257`; `u` bounds the number of updates,
`c` that of the unseen seeds, and `k` that of the scalars drawn. -/
theorem C86_forger_solves [DecidableEq GT] {E : Ext G1 G2 GT} (H : HashLaws E) (L : GroupLaws E)
    (pf : Profile) {g : G1} (hsub : E.inSub1 g = true) {d : Nat} (hd : 1 ≤ d) (hd' : d ≤ 63)
    (cs : UInt8) (n : Nat) (A : World G1 G2 → LeakPlayer G1 G2) (hA : ∀ W, (A W).Legal) {m : Nat}
    (hm : ∀ W, (A W).Points m) {Q : Nat} (hQ : ∀ W, (A W).Hashes Q) {u : Nat}
    (hu : ∀ W, (A W).Updates u) {c : Nat} (hc : ∀ W, (A W).Refreshes c) {k : Nat}
    (hk : ∀ W, (A W).Scalars d k) :
    leakForgeChance E pf g d cs n A ≤
      ∑ t ∈ Finset.Icc 1 (2 ^ d - 1), (∑ i ∈ Finset.range Q,
        (solveChance E g d (roReduction E cs d (path d t) i
            (apiBet pf d t (codeLift E.sha512 pf t (leakShield E.sha512 pf n t A)))) +
          ((m + 1) / rOrder + Q / 2 ^ 254)) +
        ∑ j ∈ Finset.range (u * (d + 2) + 3),
          prfGain E.sha512 (prfAttack E.sha512 ((leakGame E pf g d cs n A t).live E.sha512 n) j) +
        ∑ i ∈ Finset.range c, (((leakGame E pf g d cs n A t).entry E.sha512 n i (.fresh [])).gain
            E.sha512 n +
          ∑ j ∈ Finset.range (u * (d + 2) + 3), prfGain E.sha512 (prfAttack E.sha512
            ((leakGame E pf g d cs n A t).period E.sha512 n i (.fresh [])) j)) +
        (k + 2) * (1 / 2 ^ 257)) :=
  leakForgeChance_le H L hsub hd hd' pf n A hA hm hQ hu hc hk

/-- C86: if none of the algorithms solves the problem with a chance above `ε`, none of the adversaries
gains more than `ε'` against HMAC or more than `δ` against HKDF-extract, then the forger wins with a
chance of at most `2^d - 1` times
`Q (ε + (m + 1)/r + Q/2^254) + (c + 1) (u (d + 2) + 3) ε' + c δ + (k + 2)/2^257`. -/
theorem C86_hard_then_secure [DecidableEq GT] {E : Ext G1 G2 GT} (H : HashLaws E) (L : GroupLaws E)
    (pf : Profile) {g : G1} (hsub : E.inSub1 g = true) {d : Nat} (hd : 1 ≤ d) (hd' : d ≤ 63)
    (cs : UInt8) (n : Nat) (A : World G1 G2 → LeakPlayer G1 G2) (hA : ∀ W, (A W).Legal) {m : Nat}
    (hm : ∀ W, (A W).Points m) {Q : Nat} (hQ : ∀ W, (A W).Hashes Q) {u : Nat}
    (hu : ∀ W, (A W).Updates u) {c : Nat} (hc : ∀ W, (A W).Refreshes c) {k : Nat}
    (hk : ∀ W, (A W).Scalars d k) {ε ε' δ : ℚ}
    (hε : ∀ t i, ValidTime d t → i < Q → solveChance E g d (roReduction E cs d (path d t) i
      (apiBet pf d t (codeLift E.sha512 pf t (leakShield E.sha512 pf n t A)))) ≤ ε)
    (hlive : ∀ t j, ValidTime d t → j < u * (d + 2) + 3 → prfGain E.sha512
      (prfAttack E.sha512 ((leakGame E pf g d cs n A t).live E.sha512 n) j) ≤ ε')
    (hperiod : ∀ t i j, ValidTime d t → i < c → j < u * (d + 2) + 3 → prfGain E.sha512
      (prfAttack E.sha512 ((leakGame E pf g d cs n A t).period E.sha512 n i (.fresh [])) j) ≤ ε')
    (hδ : ∀ t i, ValidTime d t → i < c →
      ((leakGame E pf g d cs n A t).entry E.sha512 n i (.fresh [])).gain E.sha512 n ≤ δ) :
    leakForgeChance E pf g d cs n A ≤
      (2 ^ d - 1) * (Q * (ε + ((m + 1) / rOrder + Q / 2 ^ 254)) +
        (c + 1) * ((u * (d + 2) + 3) * ε') + c * δ + (k + 2) * (1 / 2 ^ 257)) := by
  refine (C86_forger_solves H L pf hsub hd hd' cs n A hA hm hQ hu hc hk).trans ?_
  generalize ((k : ℚ) + 2) * (1 / 2 ^ 257) = b
  generalize ((m : ℚ) + 1) / rOrder + Q / 2 ^ 254 = z
  have hsum : ∀ f : Nat → ℚ, (∀ j < u * (d + 2) + 3, f j ≤ ε') →
      ∑ j ∈ Finset.range (u * (d + 2) + 3), f j ≤ (u * (d + 2) + 3) * ε' := by
    intro f hf
    refine (Finset.sum_le_card_nsmul _ _ ε' fun j hj => hf j (Finset.mem_range.1 hj)).trans ?_
    rw [Finset.card_range, nsmul_eq_mul]
    push_cast
    exact le_rfl
  refine (Finset.sum_le_card_nsmul _ _
    (Q * (ε + z) + (c + 1) * ((u * (d + 2) + 3) * ε') + c * δ + b) fun t ht => ?_).trans ?_
  · have hv : ValidTime d t := Finset.mem_Icc.1 ht
    have h1 : ∑ i ∈ Finset.range Q, (solveChance E g d (roReduction E cs d (path d t) i
        (apiBet pf d t (codeLift E.sha512 pf t (leakShield E.sha512 pf n t A)))) + z) ≤ Q * (ε + z) := by
      refine (Finset.sum_le_card_nsmul _ _ (ε + z) fun i hi =>
        add_le_add_left (hε t i hv (Finset.mem_range.1 hi)) z).trans ?_
      rw [Finset.card_range, nsmul_eq_mul]
    have h2 := hsum _ fun j hj => hlive t j hv hj
    have h3 : ∑ i ∈ Finset.range c,
        (((leakGame E pf g d cs n A t).entry E.sha512 n i (.fresh [])).gain E.sha512 n +
          ∑ j ∈ Finset.range (u * (d + 2) + 3), prfGain E.sha512 (prfAttack E.sha512
            ((leakGame E pf g d cs n A t).period E.sha512 n i (.fresh [])) j)) ≤
        c * (δ + (u * (d + 2) + 3) * ε') := by
      refine (Finset.sum_le_card_nsmul _ _ (δ + (u * (d + 2) + 3) * ε') fun i hi => ?_).trans ?_
      · have hi' := Finset.mem_range.1 hi
        exact add_le_add (hδ t i hv hi') (hsum _ fun j hj => hperiod t i j hv hi' hj)
      · rw [Finset.card_range, nsmul_eq_mul]
    generalize ((u : ℚ) * (d + 2) + 3) * ε' = y at *
    linarith
  · rw [Nat.card_Icc, nsmul_eq_mul, Nat.add_sub_cancel, Nat.cast_sub Nat.one_le_two_pow]
    push_cast
    exact le_rfl

/-! ## The game without leaks -/

/-- an adversary of C80, in the game with leaks -/
def plain : CodePlayer G1 G2 → LeakPlayer G1 G2
  | .toss m hm n => .toss m hm fun c => plain (n c)
  | .hash msg n => .hash msg fun b => plain (n b)
  | .point n => .point fun p => plain (n p)
  | .sign msg n => .sign msg fun s => plain (n s)
  | .update tar seed n => .update tar seed (plain n)
  | .breakIn n => .breakIn fun sk => plain (n sk)
  | .forge F => .forge F

theorem plain_chance [DecidableEq GT] {E : Ext G1 G2 GT} (pf : Profile) (g : G1) (n : Nat)
    (P : CodePlayer G1 G2) (sk : SecretKey G1 G2) (sg : List (Nat × Bytes)) (br : List Nat) (us : Bool)
    (tab : Table) (W : World G1 G2) :
    (plain P).chance E pf g n ⟨sk, sg, br, false, us⟩ tab W = P.chance E pf g ⟨sk, sg, br⟩ tab W := by
  induction P generalizing sk sg br us tab W with
  | toss m hm nx ih => exact avg_congr fun c => ih c _ _ _ _ _ _
  | hash msg nx ih => exact oracle_congr fun D tab' => ih _ _ _ _ _ _ _
  | point nx ih => exact avg_congr fun r => ih _ _ _ _ _ _ _
  | sign msg nx ih =>
    simp only [plain, LeakPlayer.chance, CodePlayer.chance]
    refine oracle_congr fun D tab' => ?_
    rcases signHashed E.sha512 pf W.pp sk msg D.field with s | e | e
    · exact ih _ _ _ _ _ _ _
    · rfl
    · rfl
  | update tar seed nx ih =>
    simp only [plain, LeakPlayer.chance, CodePlayer.chance]
    rcases SecretKey.update E.sha512 pf W.pp tar seed sk with ⟨_ | e | e, sk'⟩
    · exact ih _ _ _ _ _ _
    · exact ih _ _ _ _ _ _
    · rfl
  | breakIn nx ih =>
    simp only [plain, LeakPlayer.chance, CodePlayer.chance]
    exact ih _ _ _ _ _ _ _
  | forge F => rfl

/-- C86: for an adversary that never looks and never asks for an unseen seed the game is that of C80. -/
theorem C86_extends [DecidableEq GT] (E : Ext G1 G2 GT) (pf : Profile) (g : G1) (d : Nat) (cs : UInt8)
    (n : Nat) (A : World G1 G2 → CodePlayer G1 G2) :
    leakForgeChance E pf g d cs n (fun W => plain (A W)) = codeForgeChance E pf g d cs A := by
  unfold leakForgeChance codeForgeChance
  refine avg_congr fun a => avg_congr fun K => ?_
  rcases Prng.sampleThenUpdate E.sha512 (ascii "key initialization") ⟨K.bytes⟩ with ⟨x | e | e, p⟩
  · simp only []
    rcases SecretKey.init E.sha512 (worldOf E g cs (Function.update a .x x) []).pp
      (mulFr x (worldOf E g cs (Function.update a .x x) []).pp.h) p with sk | e | e
    · exact plain_chance pf g n _ _ _ _ _ _ _
    · rfl
    · rfl
  · rfl
  · rfl

/-! ## Why looks count when the state is used -/

/-- C86: a state that was looked at and a seed that is known undo an update to a time below the left
child of the present node: the old sub keys are a function of the state, the seed and the new key. -/
theorem C86_look_and_seed_undo {sha : Bytes → Bytes} (hsha : ∀ m, (sha m).length = 64) (pf : Profile)
    {pp : PubParam G1 G2} (S : ParamShape pp) {alpha : G1} {t tar : Nat} {v w : List Nat}
    {seed : Bytes} {sk sk' : SecretKey G1 G2} (h : KeyFor pp alpha t sk)
    (hv : NodeAt pp.depth t v) (hw : NodeAt pp.depth tar (v ++ 1 :: w))
    (hu : SecretKey.update sha pf pp tar seed sk = (.ok (), sk')) :
    ∃ (first sib : SubSecretKey G1 G2) (mid kept : List (SubSecretKey G1 G2)),
      sk'.ssk = first :: (mid ++ sib :: kept) ∧ NodeAt pp.depth sib.time (v ++ [2]) ∧
      sk.ssk = undo pp t v w (drawn sha (text "Pixel secret key update")
        (afterDraws sha (reseeded sha sk.prng seed t) mid.length)) first sib :: kept := by
  obtain ⟨v', hv', hk⟩ := keyFor_iff.1 h
  have ht : sk.time = t := by rw [hk.time, nodeAt_num_eq hv']
  have hvv : v' = v := num_inj hk.node (nodeAt_isNode hv)
    (by rw [nodeAt_num_eq hv', nodeAt_num_eq hv])
  subst hvv
  have hn := nodeAt_isNode hw
  rw [← nodeAt_num_eq hw] at hu
  obtain ⟨s, SB, l, h1, ⟨rho, h2⟩, h3, h4⟩ := update_below_left hsha S hk hn hu
  have hn2 : IsNode pp.depth (v' ++ [2]) := by
    have h5 := isNode_append.1 hn
    refine ⟨?_, ?_⟩
    · have := hn.1
      simp only [List.length_append, List.length_cons] at this ⊢
      simp only [List.length_nil]
      omega
    · intro x hx
      rcases List.mem_append.1 hx with hx | hx
      · exact hk.node.2 x hx
      · exact Or.inr (List.mem_singleton.1 hx)
  have hlen : s.hvector.length = pp.depth - v'.length := by
    rw [h2.hvector, List.length_map, List.length_drop, S.hlist_len]
    omega
  have hvl : v'.length + 1 < pp.depth := by
    have := hn2.1
    simpa using this
  obtain ⟨y, hvec, hy⟩ : ∃ y hvec, s.hvector = y :: hvec := by
    cases hs : s.hvector with
    | nil => rw [hs] at hlen; simp at hlen; omega
    | cons a b => exact ⟨a, b, rfl⟩
  refine ⟨_, _, l, SB, h4, nodeAt_num hn2, ?_⟩
  have hr : drawn sha (text "Pixel secret key update") (afterDraws sha (reseeded sha sk.prng seed t)
      l.length) = drawVal sha (SecretKey.chain sha (mixed sha sk.prng seed
      (SecretKey.reseedInfo sk.time)) (sibs w).length) DOM_SEP_SK_UPDATE := by
    rw [h3, drawn_eq hsha, afterDraws_eq hsha, reseeded_eq hsha, ← text_update, ht]
  rw [hr, h1]
  have hst : s.time = t := by
    rw [← nodeAt_num_eq h2.node, nodeAt_num_eq hv]
  rw [← hst]
  rw [undo_eq pp v' w _ s hy (by
    rw [List.length_drop, S.hlist_len]
    rw [hy] at hlen
    simp only [List.length_cons] at hlen
    omega)]

/-- C86: so with a look at time `t`, a known seed, and a break-in after the update one signs for time
`t`. -/
theorem C86_look_and_seed_sign [DecidableEq GT] {E : Ext G1 G2 GT} (H : HashLaws E) (L : GroupLaws E)
    (pf pf' : Profile) {pp : PubParam G1 G2} (W : ParamWF E pp) (hsup : Supported pp.ciphersuite)
    {x t tar : Nat} {v w : List Nat} {seed : Bytes} {sk sk' : SecretKey G1 G2}
    (h : KeyFor pp (x • pp.h) t sk) (hv : NodeAt pp.depth t v)
    (hw : NodeAt pp.depth tar (v ++ 1 :: w))
    (hu : SecretKey.update E.sha512 pf pp tar seed sk = (.ok (), sk'))
    {pk : PublicKey G2} (hpk : pk.pk = x • pp.g2) :
    ∃ (first sib : SubSecretKey G1 G2) (mid kept : List (SubSecretKey G1 G2)),
      sk'.ssk = first :: (mid ++ sib :: kept) ∧
      ∀ msg, ∃ sig mine', Signature.sign E.sha512 pf t pp msg []
          { sk' with
            time := t
            ssk := undo pp t v w (drawn E.sha512 (text "Pixel secret key update")
              (afterDraws E.sha512 (reseeded E.sha512 sk.prng seed t) mid.length)) first sib :: kept } =
            (.ok sig, mine') ∧
        sig.time = t ∧ Signature.verifyBytes E pf' sig pk pp msg = .ok true := by
  obtain ⟨first, sib, mid, kept, h2, h3, h4⟩ :=
    C86_look_and_seed_undo H.sha_len pf W.toParamShape h hv hw hu
  refine ⟨first, sib, mid, kept, h2, fun msg => ?_⟩
  have hlt : t < tar := by
    rw [← nodeAt_num_eq hv, ← nodeAt_num_eq hw]
    exact num_lt_of_append (nodeAt_isNode hw) (by simp)
  have hk' : KeyFor pp (x • pp.h) tar sk' := by
    rcases (C15_update_outcome H.sha_len pf W.toParamShape h tar seed).2 ⟨hlt, by
      rw [← nodeAt_num_eq hw]; exact (valid_num (nodeAt_isNode hw)).2⟩ with
      ⟨s', h5, h6⟩ | ⟨h5, _⟩
    · rw [hu] at h5
      rw [(Prod.mk.inj h5).2]; exact h6
    · rw [hu] at h5; cases (Prod.mk.inj h5).1
  have hmine : KeyFor pp (x • pp.h) t { sk' with
      time := t
      ssk := undo pp t v w (drawn E.sha512 (text "Pixel secret key update")
        (afterDraws E.sha512 (reseeded E.sha512 sk.prng seed t) mid.length)) first sib :: kept } := by
    rw [← h4]
    exact { suite := hk'.suite, time := rfl, valid := h.valid, prng := hk'.prng, ssk := h.ssk }
  rcases C23_sign_succeeds H L pf pf' W hsup hmine (tar := t) (le_refl _) h.valid.2 hpk msg [] with
    ⟨sig, mine', h7, _, h8, h9⟩ | ⟨_, h7, _⟩
  · exact ⟨sig, mine', h7, h8, h9⟩
  · exact absurd h7 (lt_irrefl _)

/-- C86: a look, and two signatures made with that state, give signatures on all messages for the present
time; the scalars of the signatures are computed from the state. -/
theorem C86_look_and_sign [DecidableEq GT] {E : Ext G1 G2 GT} (H : HashLaws E) (L : GroupLaws E)
    (pf pf' : Profile) {pp : PubParam G1 G2} (W : ParamWF E pp) (hsup : Supported pp.ciphersuite)
    {x t : Nat} {v : List Nat} {sk : SecretKey G1 G2} (h : KeyFor pp (x • pp.h) t sk)
    (hv : NodeAt pp.depth t v) {pk : PublicKey G2} (hpk : pk.pk = x • pp.g2) {msg1 msg2 : Bytes}
    (hne : msgField E.sha512 pp.ciphersuite msg1 ≠ msgField E.sha512 pp.ciphersuite msg2) :
    ∃ sig1 sig2 : Signature G1 G2,
      Signature.signPresent E.sha512 pf t pp msg1 sk = (.ok sig1, sk) ∧
      Signature.signPresent E.sha512 pf t pp msg2 sk = (.ok sig2, sk) ∧
      ∀ msg, Signature.verifyBytes E pf'
        (mixSignatures pp v
          (msgField E.sha512 pp.ciphersuite msg1) (signDraw E.sha512 sk.prng t msg1) sig1
          (msgField E.sha512 pp.ciphersuite msg2) (signDraw E.sha512 sk.prng t msg2) sig2
          (msgField E.sha512 pp.ciphersuite msg))
        pk pp msg = .ok true := by
  obtain ⟨v', hv', hk⟩ := keyFor_iff.1 h
  have hvv : v' = v := num_inj hk.node (nodeAt_isNode hv)
    (by rw [nodeAt_num_eq hv', nodeAt_num_eq hv])
  subst hvv
  obtain ⟨rho, h1⟩ := Signature.signBytes_explicit H.sha_len pf W.toParamShape hsup hk
  rw [h.time] at h1
  have h2 : ∀ msg, Signature.signPresent E.sha512 pf t pp msg sk =
      (Signature.signBytes E.sha512 pf sk t pp msg, sk) := by
    intro msg
    unfold Signature.signPresent
    rw [SM.get_bind, if_neg (by simp [h.time])]
    rfl
  refine ⟨_, _, (h2 msg1).trans (by rw [h1]), (h2 msg2).trans (by rw [h1]), fun msg => ?_⟩
  rw [signDraw_eq H.sha_len, signDraw_eq H.sha_len]
  refine SigFor.verifies H L W pf' hsup (mixSignatures_sigFor (rho := rho) ?_ hne rfl hv' rfl rfl rfl
    _) hpk
  have hl : E.inSub1 (pp.hlist.getLastD 0) = true := by
    cases hh : pp.hlist with
    | nil => exact L.sub1_zero
    | cons a l =>
      rw [← hh]
      refine W.hlist_sub _ ?_
      rw [List.getLastD_eq_getLast?, List.getLast?_eq_some_getLast (by rw [hh]; simp)]
      exact List.getLast_mem _
  exact L.sub1_order _ (L.sub1_nsmul hl rho)

/-! ## The game can be won -/

/-- the adversary that looks, lets the signer go on to time `tar` with an unseen seed, looks again and
breaks in, and then makes a claim for time `t` with the discrete logarithm of the public key -/
def leakLogForger (log : G2 → Fr) (t tar : Nat) (msg : Bytes) (W : World G1 G2) : LeakPlayer G1 G2 :=
  .look fun _ => .refresh tar (.look fun _ => .breakIn fun _ => .forge
    { time := t, msg := msg, sigma1 := 0, sigma2 := (log W.pk.pk).val • W.pp.h, cosigners := [] })

/-- C86: the game can be won: whoever can take discrete logarithms in `G2` wins always, with a claim for a
time before a break-in and, here, not before the first look.  (`tar` is a time to which the update draws
no scalars, so that it cannot panic.) -/
theorem C86_logarithms_forge [DecidableEq GT] {E : Ext G1 G2 GT} (H : HashLaws E) (L : GroupLaws E)
    (pf : Profile) {g : G1} (hsub : E.inSub1 g = true) {d : Nat} (hd : 1 ≤ d) (hd' : d ≤ 63)
    {cs : UInt8} (hsup : Supported cs) {t tar : Nat} (h1 : 1 ≤ t) (h2 : t < tar)
    (h3 : tar ≤ 2 ^ d - 1) (h4 : drawsNeeded d 1 tar = 0) (n : Nat) (msg : Bytes)
    (log : G2 → Fr) (hlog : ∀ x : Fr, log (x.val • E.gen2) = x) :
    leakForgeChance E pf g d cs n (leakLogForger log t tar msg) = 1 := by
  unfold leakForgeChance
  refine (avg_congr fun a => (avg_congr fun K => ?_).trans (avg_const (α := Digest) (1 : ℚ))).trans
    (avg_const 1)
  rw [sampleThenUpdate_eq H.sha_len]
  simp only []
  generalize drawVal E.sha512 ⟨K.bytes⟩ (ascii "key initialization") = x
  have hacc := fun D : Digest => logClaim_accepted (digest_laws E D)
    (GroupLaws.withSha L fun _ => D.bytes) pf (g := g) hsub hd hd' hsup
    (nodeAt_iff.2 ⟨⟨h1, by omega⟩, rfl⟩ : NodeAt d t (path d t)) msg log hlog (Function.update a .x x)
  simp only [worldOf_sha] at hacc
  have WF : ParamWF E (worldOf E g cs (Function.update a .x x) []).pp :=
    viewOf_wf (E := E) (cs := cs) L hsub hd hd' (toVar (Function.update a .x x))
  have hdep : (worldOf E g cs (Function.update a .x x) []).pp.depth = d := rfl
  have hcs : Supported (worldOf E g cs (Function.update a .x x) []).pp.ciphersuite := hsup
  generalize worldOf E g cs (Function.update a .x x) [] = W at *
  obtain ⟨sk, e1, e2, e3⟩ := init_keyAs H L WF hcs x
    (drawNext E.sha512 ⟨K.bytes⟩ (ascii "key initialization"))
  rw [e1]
  simp only [leakLogForger, LeakPlayer.chance]
  refine (avg_congr fun s => ?_).trans (avg_const (α := Seed n) (1 : ℚ))
  have hup := update_exact H.sha_len pf WF.toParamShape e2.keyFor
    (show 1 < tar by omega) (by rw [hdep]; exact h3) s.bytes
  rcases hup with ⟨⟨j, hj, _⟩, _⟩ | ⟨_, s, e4, e5, _⟩
  · rw [hdep, h4] at *
    omega
  · rw [e4]
    simp only [oracle, List.lookup_nil]
    refine (avg_congr fun D => ?_).trans (avg_const (α := Digest) (1 : ℚ))
    rw [if_pos]
    refine ⟨hacc D, ?_, by simp⟩
    intro b hb
    simp [LeakSigner.spoiled] at hb
    rw [hb, e5.time]
    exact h2

/-! ### Concrete cases -/

section Examples
open Pixel.Toy

-- the group structure of `Verif/Toy.lean`: without this the one of the field `Z/3` is found
attribute [-instance] ZMod.instField

/-- an adversary that looks at the state twice, lets the signer go on to time 4 with an unseen seed, has
messages signed there, lets it go on to time 6 with a seed of its choice, looks, lets it go on to time 9
with an unseen seed and breaks in, and makes a claim for a time up to 8 that depends on all it got -/
def toyLeakPlayer (W : World G G) : LeakPlayer G G :=
  .toss 6 (by omega) fun c => .look fun p => .look fun _ => .refresh 4 (.hash [1, 2] fun b =>
    .sign (b.take (1 + c.val)) fun s1 => .sign [3] fun s2 => .point fun q => .update 6 p.seed
      (.look fun p' => .refresh 9 (.breakIn fun sk => .forge
        { time := 1 + (b.length + sk.ssk.length + p'.seed.length) % 8
          msg := b.drop 60
          sigma1 := s1.sigma1 + s2.sigma1
          sigma2 := s1.sigma2 + (sk.ssk.map SubSecretKey.hpoly).sum + W.pp.h
          cosigners := [{ key := (1, 0), point := some 0, pop := q }] })))

/-- C86: the hypotheses are met by this adversary: one hash point, four hashed messages, three updates,
two of them with unseen seeds, seventeen scalars -/
example : leakForgeChance (ext sha0) .debug ((1, 0) : G) 5 1 32 toyLeakPlayer ≤
    ∑ t ∈ Finset.Icc 1 (2 ^ 5 - 1), (∑ i ∈ Finset.range 4,
      (solveChance (ext sha0) ((1, 0) : G) 5 (roReduction (ext sha0) 1 5 (path 5 t) i
          (apiBet .debug 5 t (codeLift (ext sha0).sha512 .debug t
            (leakShield (ext sha0).sha512 .debug 32 t toyLeakPlayer)))) +
        (((1 : Nat) + 1) / rOrder + (4 : Nat) / 2 ^ 254)) +
      ∑ j ∈ Finset.range (3 * (5 + 2) + 3), prfGain (ext sha0).sha512 (prfAttack (ext sha0).sha512
        ((leakGame (ext sha0) .debug ((1, 0) : G) 5 1 32 toyLeakPlayer t).live (ext sha0).sha512 32) j) +
      ∑ i ∈ Finset.range 2, (((leakGame (ext sha0) .debug ((1, 0) : G) 5 1 32 toyLeakPlayer t).entry
          (ext sha0).sha512 32 i (.fresh [])).gain (ext sha0).sha512 32 +
        ∑ j ∈ Finset.range (3 * (5 + 2) + 3), prfGain (ext sha0).sha512 (prfAttack (ext sha0).sha512
          ((leakGame (ext sha0) .debug ((1, 0) : G) 5 1 32 toyLeakPlayer t).period
            (ext sha0).sha512 32 i (.fresh [])) j)) +
      ((17 : Nat) + 2) * (1 / 2 ^ 257)) :=
  C86_forger_solves hashLaws (groupLaws sha0) .debug (g := ((1, 0) : G)) (by decide) (d := 5)
    (by omega) (by omega) 1 32 toyLeakPlayer
    (fun W => fun _ _ _ _ _ _ _ _ _ => (by decide +kernel : (1 : Nat) + 1 < rOrder)) (m := 1)
    (fun W => fun _ _ _ _ _ _ => ⟨by omega, fun _ _ _ => trivial⟩) (Q := 4)
    (fun W => fun _ _ _ => ⟨by omega, fun _ => ⟨by omega, fun _ => ⟨by omega, fun _ _ _ _ =>
      (by omega : 0 < 4 - 1 - 1 - 1)⟩⟩⟩) (u := 3)
    (fun W => fun _ _ _ => ⟨by omega, fun _ _ _ _ => ⟨by omega, fun _ => ⟨by omega, fun _ => trivial⟩⟩⟩)
    (c := 2)
    (fun W => fun _ _ _ => ⟨by omega, fun _ _ _ _ _ => ⟨by omega, fun _ => trivial⟩⟩)
    (k := 17)
    (fun W => fun _ _ _ => ⟨by omega, fun _ => ⟨by omega, fun _ => ⟨by omega, fun _ _ => ⟨by omega, fun _ =>
      ⟨by omega, fun _ => trivial⟩⟩⟩⟩⟩)

/-- C86: with logarithms, which are easy in the toy groups, the game is won -/
example : leakForgeChance (ext sha0) .debug ((1, 0) : G) 5 1 32
    (leakLogForger (fun p : G => p.1) 4 17 [1]) = 1 :=
  C86_logarithms_forge hashLaws (groupLaws sha0) .debug (g := ((1, 0) : G)) (by decide) (d := 5)
    (by omega) (by omega) (cs := 1) (Or.inr rfl) (by omega) (by omega) (by omega)
    (by decide +kernel) 32 [1] (fun p : G => p.1) (by
      intro x
      simp [ext])

/-- C86: a look at time 4 alone is not recorded; it is when a message was signed with that state, or if
one is signed afterwards -/
example (sk : SecretKey G G) (h : sk.time = 4) :
    (⟨sk, [], [], false, false⟩ : LeakSigner G G).spoiled false = [] ∧
    (⟨sk, [], [], true, false⟩ : LeakSigner G G).spoiled true = [4] := by
  simp [LeakSigner.spoiled, h]

/-- C86: the update of the concrete key from time 1 to time 2, undone with the state and the seed -/
example : ∃ sk', SecretKey.update sha0 .debug (param 5 1) 2 [] (sk0 5 1) = (.ok (), sk') ∧
    ∃ (first sib : SubSecretKey G G) (mid kept : List (SubSecretKey G G)),
      sk'.ssk = first :: (mid ++ sib :: kept) ∧
      (sk0 5 1).ssk = undo (param 5 1) 1 [] [] (drawn sha0 (text "Pixel secret key update")
        (afterDraws sha0 (reseeded sha0 (sk0 5 1).prng [] 1) mid.length)) first sib :: kept := by
  have hs : ∀ m, (sha0 m).length = 64 := hashLaws.sha_len
  have S := (param_wf sha0 (d := 5) (by omega) (by omega) 1).toParamShape
  obtain ⟨sk', h1, h2⟩ := toy_update (tar := 2) (by omega) (by omega)
  obtain ⟨first, sib, mid, kept, h4, _, h5⟩ :=
    C86_look_and_seed_undo hs .debug S (keyFor_sk0 (by omega) 1) (v := []) (w := []) (tar := 2)
      ⟨by omega, by decide +kernel⟩ ⟨by omega, by decide +kernel⟩ h1
  exact ⟨sk', h1, first, sib, mid, kept, h4, h5⟩

/-- C86: messages with different hash values, for the two signatures -/
example : msgField sha0 1 [1] ≠ msgField sha0 1 [2] ∧
    KeyFor (param 5 1) (3 • (param 5 1).h) 1 (sk0 5 1) ∧ NodeAt (param 5 1).depth 1 [] :=
  ⟨by decide +kernel, keyFor_sk0 (by omega) 1, by omega, by decide +kernel⟩

end Examples

end Pixel.Props
