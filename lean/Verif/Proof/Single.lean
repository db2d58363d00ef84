import Verif.Spec.Single
import Verif.Proof.RandomView
import Verif.Proof.Seed

/-! # Forging with one random function: the game as a use of the generator -/

namespace Pixel

open Spec Props

set_option linter.unusedSectionVars false

variable {G1 G2 GT : Type} [AddCommGroup G1] [AddCommGroup G2] [CommGroup GT]
  {E : Ext G1 G2 GT} {g : G1} {pp : PubParam G1 G2}

/-! ## Claims -/

theorem accepted_hash [DecidableEq GT] {sha : Bytes → Bytes} (h : ∀ m, (sha m).length = 64)
    (pf : Profile) {W : World G1 G2} {F : Claim G1 G2}
    (ha : F.Accepted (withHash E sha) pf W) :
    F.Accepted { E with sha512 := fun _ => sha (msgTag W.pp.ciphersuite ++ F.msg) } pf W := by
  refine ⟨ha.1, Eq.trans ?_ ha.2⟩
  have e : hashMsgIntoFr sha F.msg W.pp.ciphersuite = hashMsgIntoFr
      (fun _ => sha (msgTag W.pp.ciphersuite ++ F.msg)) F.msg W.pp.ciphersuite := by
    rw [hashMsg_eq h, hashMsg_eq fun _ => h _]
    rfl
  unfold Signature.verifyBytesAggregated
  simp only []
  split_ifs
  · rfl
  · rfl
  · unfold Signature.verifyBytes
    simp only [withHash]
    rw [e]
    rfl

open Classical in
/-- whether a claim counts, when its message has the hash `b` -/
noncomputable def verdict [DecidableEq GT] (E : Ext G1 G2 GT) (pf : Profile) (W : World G1 G2)
    (sg : List (Nat × Bytes)) (F : Claim G1 G2) (b : Bytes) : ℚ :=
  if F.Accepted { E with sha512 := fun _ => b } pf W ∧ (F.time, F.msg) ∉ sg then 1 else 0

theorem verdict_bounds [DecidableEq GT] (pf : Profile) (W : World G1 G2) (sg : List (Nat × Bytes))
    (F : Claim G1 G2) (b : Bytes) : 0 ≤ verdict E pf W sg F b ∧ verdict E pf W sg F b ≤ 1 := by
  unfold verdict
  split_ifs <;> norm_num

/-- the check of a claim for time `t0` -/
noncomputable def claimProbe [DecidableEq GT] (E : Ext G1 G2 GT) (pf : Profile) (t0 : Nat)
    (W : World G1 G2) (sg : List (Nat × Bytes)) (F : Claim G1 G2) : Probe :=
  if F.time = t0 then
    .hash (msgTag W.pp.ciphersuite ++ F.msg) fun b => .stop (verdict E pf W sg F b)
  else .stop 0

/-- the rest of the game after `t0` -/
noncomputable def Spec.HashTail.check [DecidableEq GT] (E : Ext G1 G2 GT) (pf : Profile) (g : G1)
    (t0 : Nat) (sg : List (Nat × Bytes)) : HashTail G1 G2 → World G1 G2 → Probe
  | .toss m hm n, W => .toss m hm fun c => (n c).check E pf g t0 sg W
  | .eval m n, W => .hash m fun b => (n b).check E pf g t0 sg W
  | .point n, W => .toss rOrder (Nat.pos_of_ne_zero (NeZero.ne rOrder)) fun c =>
      (n ((c.val : Fr).val • g)).check E pf g t0 sg
        { W with answers := W.answers ++ [.point ((c.val : Fr).val • g)] }
  | .forge F, W => claimProbe E pf t0 W sg F

/-- `n` draws for an update -/
def drawsQ : Nat → (List Fr → PrngProber) → PrngProber
  | 0, k => k []
  | n + 1, k => .draw DOM_SEP_SK_UPDATE fun r => drawsQ n fun l => k (r :: l)

/-- The game for a bet on `t0`, played with the generator. -/
noncomputable def Spec.HashPlayer.playQ [DecidableEq GT] (E : Ext G1 G2 GT) (pf : Profile) (g : G1)
    (t0 : Nat) (x : Fr) : HashPlayer G1 G2 → Known0 → World G1 G2 → PrngProber
  | .toss m hm n, S, W => .toss m hm fun c => (n c).playQ E pf g t0 x S W
  | .eval m n, S, W => .hash m fun b => (n b).playQ E pf g t0 x S W
  | .point n, S, W => .toss rOrder (Nat.pos_of_ne_zero (NeZero.ne rOrder)) fun c =>
      (n ((c.val : Fr).val • g)).playQ E pf g t0 x S
        { W with answers := W.answers ++ [.point ((c.val : Fr).val • g)] }
  | .sign msg n, S, W => .hash (msgTag W.pp.ciphersuite ++ msg) fun b =>
      .sample (signInfo msg S.time) fun r =>
        (n (signatureOf W.pp x S.time (natOfBytes b) (S.rho.headD 0 + r))).playQ E pf g t0 x
          { S with signed := S.signed ++ [(S.time, msg)] } W
  | .update tar seed n, S, W =>
      if S.time < tar ∧ tar ≤ 2 ^ W.pp.depth - 1 then
        .mix seed (DOM_SEP_SK_RERANDOMIZE_INFO ++ timeBytes S.time)
          (drawsQ (drawsNeeded W.pp.depth S.time tar) fun rs =>
            if tar ≤ t0 then n.playQ E pf g t0 x
              { S with time := tar, rho := stepExponents W.pp.depth S.time tar S.rho rs } W
            else .look fun K => (n.tail pf W.pp tar
              (keysOf W.pp x tar (stepExponents W.pp.depth S.time tar S.rho rs)) K).check E pf g t0
                S.signed W)
      else n.playQ E pf g t0 x S W
  | .breakIn _, _, _ => .stop 0
  | .forge F, S, W =>
      if F.time = t0 then
        .hash (msgTag W.pp.ciphersuite ++ F.msg) fun b => .stop (verdict E pf W S.signed F b)
      else .stop 0

/-- The whole game for a bet on `t0`. -/
noncomputable def hashGame [DecidableEq GT] (E : Ext G1 G2 GT) (pf : Profile) (g : G1) (d : Nat)
    (cs : UInt8) (A : World G1 G2 → HashPlayer G1 G2) (t0 : Nat) : PrngProber :=
  .toss (Fintype.card (Secret d 0 → Fr)) Fintype.card_pos fun c =>
    .draw (ascii "key initialization") fun x => .draw (DOM_SEP_SK_INIT ++ [0, 0, 0, 1]) fun r =>
      (A (worldOf E g cs (Function.update ((Fintype.equivFin _).symm c) .x x) [])).playQ E pf g t0 x
        { time := 1, rho := [r], signed := [] }
        (worldOf E g cs (Function.update ((Fintype.equivFin _).symm c) .x x) [])

/-- the adversary gives up if its claim would not be for time `t0` -/
def Spec.HashPlayer.only (t0 : Nat) : HashPlayer G1 G2 → HashPlayer G1 G2
  | .toss m hm n => .toss m hm fun c => (n c).only t0
  | .eval m n => .eval m fun b => (n b).only t0
  | .point n => .point fun p => (n p).only t0
  | .sign msg n => .sign msg fun s => (n s).only t0
  | .update tar seed n => .update tar seed (n.only t0)
  | .breakIn n => .breakIn fun sk => (n sk).only t0
  | .forge F => if F.time = t0 then .forge F else .forge .none

/-! ## Chances -/

theorem Spec.HashPlayer.chance_nonneg [DecidableEq GT] (pf : Profile) (P : HashPlayer G1 G2)
    (S : CodeSigner G1 G2) (W : World G1 G2) : 0 ≤ P.chance E pf g S W := by
  induction P generalizing S W with
  | toss _ _ n ih => exact avg_nonneg fun c => ih c _ _
  | eval m n ih => exact ih _ _ _
  | point n ih => exact avg_nonneg fun r => ih _ _ _
  | sign msg n ih =>
    simp only [HashPlayer.chance]
    rcases Signature.signPresent E.sha512 pf S.sk.time W.pp msg S.sk with ⟨s | e | e, sk⟩
    · exact ih _ _ _
    · exact le_rfl
    · exact le_rfl
  | update tar seed n ih =>
    simp only [HashPlayer.chance]
    rcases SecretKey.update E.sha512 pf W.pp tar seed S.sk with ⟨_ | e | e, sk⟩
    · exact ih _ _
    · exact ih _ _
    · exact le_rfl
  | breakIn n ih => exact ih _ _ _
  | forge F =>
    simp only [HashPlayer.chance]
    split_ifs <;> norm_num

theorem none_hash [DecidableEq GT] (H : HashLaws E) (pf : Profile) {W : World G1 G2}
    (S : ParamShape W.pp) (hpk : W.pk.ciphersuite = W.pp.ciphersuite) (Z : CodeSigner G1 G2) :
    (HashPlayer.forge .none).chance E pf g Z W = 0 := by
  simp only [HashPlayer.chance]
  refine if_neg fun h => ?_
  obtain ⟨v, hv⟩ := accepted_time H pf S h.1 hpk
  have := (nodeAt_iff.1 hv).1.1
  exact absurd this (by simp [Claim.none])

theorem Spec.HashPlayer.chance_le_only [DecidableEq GT] (H : HashLaws E) (pf : Profile)
    (P : HashPlayer G1 G2) (Z : CodeSigner G1 G2) (W : World G1 G2)
    (S : ParamShape W.pp) (hpk : W.pk.ciphersuite = W.pp.ciphersuite) {T : Finset Nat}
    (hT : ∀ t v, NodeAt W.pp.depth t v → t ∈ T) :
    P.chance E pf g Z W ≤ ∑ t ∈ T, (P.only t).chance E pf g Z W := by
  induction P generalizing Z W with
  | toss m hm n ih =>
    simp only [HashPlayer.chance, HashPlayer.only]
    rw [← avg_sum]
    exact avg_mono fun c => ih c Z W S hpk hT
  | eval m n ih => exact ih _ Z W S hpk hT
  | point n ih =>
    simp only [HashPlayer.chance, HashPlayer.only]
    rw [← avg_sum]
    exact avg_mono fun r => ih _ Z { W with answers := _ } S hpk hT
  | sign msg n ih =>
    simp only [HashPlayer.chance, HashPlayer.only]
    rcases Signature.signPresent E.sha512 pf Z.sk.time W.pp msg Z.sk with ⟨s | e | e, sk⟩
    · exact ih _ _ W S hpk hT
    · simp
    · simp
  | update tar seed n ih =>
    simp only [HashPlayer.chance, HashPlayer.only]
    rcases SecretKey.update E.sha512 pf W.pp tar seed Z.sk with ⟨_ | e | e, sk⟩
    · exact ih _ W S hpk hT
    · exact ih _ W S hpk hT
    · simp
  | breakIn n ih =>
    simp only [HashPlayer.chance, HashPlayer.only]
    exact ih _ _ W S hpk hT
  | forge F =>
    by_cases hF : F.time ∈ T
    · refine le_trans ?_ (Finset.single_le_sum
        (fun t _ => HashPlayer.chance_nonneg pf _ Z W) hF)
      simp only [HashPlayer.only, if_true]
      exact le_rfl
    · refine le_trans (le_of_eq ?_) (Finset.sum_nonneg
        fun t _ => HashPlayer.chance_nonneg pf _ Z W)
      simp only [HashPlayer.chance]
      refine if_neg fun h => hF ?_
      obtain ⟨v, hv⟩ := accepted_time H pf S h.1 hpk
      exact hT _ v hv

/-- after a break-in at time `t0` or before nothing can be won -/
theorem caught_hash [DecidableEq GT] (H : HashLaws E) (pf : Profile) {t0 b : Nat} (hb : b ≤ t0)
    (P : HashPlayer G1 G2) (Z : CodeSigner G1 G2) (hZ : b ∈ Z.broken)
    (W : World G1 G2) (S : ParamShape W.pp) (hpk : W.pk.ciphersuite = W.pp.ciphersuite) :
    (P.only t0).chance E pf g Z W = 0 := by
  induction P generalizing Z W with
  | toss m hm n ih => exact avg_zero fun c => ih c Z hZ W S hpk
  | eval m n ih => exact ih _ Z hZ W S hpk
  | point n ih => exact avg_zero fun r : Fr => ih _ Z hZ { W with answers := _ } S hpk
  | sign msg n ih =>
    simp only [HashPlayer.chance, HashPlayer.only]
    rcases Signature.signPresent E.sha512 pf Z.sk.time W.pp msg Z.sk with ⟨s | e | e, sk⟩
    · refine ih _ _ ?_ W S hpk
      exact hZ
    · rfl
    · rfl
  | update tar seed n ih =>
    simp only [HashPlayer.chance, HashPlayer.only]
    rcases SecretKey.update E.sha512 pf W.pp tar seed Z.sk with ⟨_ | e | e, sk⟩
    · refine ih _ ?_ W S hpk
      exact hZ
    · refine ih _ ?_ W S hpk
      exact hZ
    · rfl
  | breakIn n ih =>
    simp only [HashPlayer.chance, HashPlayer.only]
    exact ih _ { Z with broken := _ } (List.mem_append_left _ hZ) W S hpk
  | forge F =>
    simp only [HashPlayer.only]
    split_ifs with hF
    · simp only [HashPlayer.chance]
      refine if_neg fun h => ?_
      have := h.2.1 b hZ
      omega
    · exact none_hash H pf S hpk Z

/-! ## After `t0` -/

section Tail
variable [DecidableEq GT] {sha : Bytes → Bytes} {pf : Profile} {t0 : Nat} {sg : List (Nat × Bytes)}
  {W : World G1 G2}

theorem mac_eval {K : Bytes} (hK : K.length = 64) (m : Bytes) (k : Bytes → HashTail G1 G2) :
    ((HashTail.mac K m k).check E pf g t0 sg W).eval sha =
      ((k (hmac sha K m)).check E pf g t0 sg W).eval sha := by
  rw [hmac_pads sha (by omega)]
  rfl

theorem mix_eval (h : ∀ m, (sha m).length = 64) {p : Prng} (hp : p.WF) (seed info : Bytes)
    (k : Bytes → HashTail G1 G2) :
    ((HashTail.mix p.seed seed info k).check E pf g t0 sg W).eval sha =
      ((k (mixed sha p seed info).seed).check E pf g t0 sg W).eval sha := by
  unfold HashTail.mix
  rw [mac_eval hp, mac_eval hp, mac_eval (hmac_length h _ _)]
  rfl

theorem drawsT_eval (h : ∀ m, (sha m).length = 64) (n : Nat) {p : Prng} (hp : p.WF)
    (k : List Fr → Bytes → HashTail G1 G2) :
    ((HashTail.draws n p.seed k).check E pf g t0 sg W).eval sha =
      ((k ((List.range n).map fun j => drawn sha (text "Pixel secret key update")
        (afterDraws sha p j)) (afterDraws sha p n).seed).check E pf g t0 sg W).eval sha := by
  induction n generalizing k p with
  | zero => rfl
  | succ n ih =>
    have h1 : (drawNext sha p DOM_SEP_SK_UPDATE).seed =
        hmac sha p.seed (hmac sha p.seed (DOM_SEP_SK_UPDATE ++ [1]) ++ DOM_SEP_SK_UPDATE ++ [2]) := rfl
    rw [HashTail.draws, mac_eval hp, mac_eval hp, ← h1, ih (drawNext_wf h _ _), afterDraws_succ,
      afterDraw_eq h, List.range_succ_eq_map, List.map_cons, List.map_map]
    congr 4
    · show _ = drawn sha _ p
      rw [drawn_eq h, text_update]
      exact (drawVal_eq p.seed _).symm
    · refine List.map_congr_left fun j _ => ?_
      simp only [Function.comp_apply]
      rw [afterDraws_succ, afterDraw_eq h]

end Tail

theorem claimProbe_bounded [DecidableEq GT] (pf : Profile) (t0 : Nat) (W : World G1 G2)
    (sg : List (Nat × Bytes)) (F : Claim G1 G2) : (claimProbe E pf t0 W sg F).Bounded := by
  unfold claimProbe
  split_ifs
  · exact fun b => verdict_bounds pf W sg F b
  · exact ⟨le_rfl, zero_le_one⟩

theorem check_bounded [DecidableEq GT] (pf : Profile) (t0 : Nat) (sg : List (Nat × Bytes))
    (T : HashTail G1 G2) (W : World G1 G2) : (T.check E pf g t0 sg W).Bounded := by
  induction T generalizing W with
  | toss m hm n ih => exact fun c => ih c W
  | eval m n ih => exact fun b => ih b W
  | point n ih => exact fun c => ih _ _
  | forge F => exact claimProbe_bounded pf t0 W sg F

theorem eval_nonneg {sha : Bytes → Bytes} (R : Probe) (hb : R.Bounded) : 0 ≤ R.eval sha := by
  induction R with
  | toss m hm n ih => exact avg_nonneg fun c => ih c (hb c)
  | hash m n ih => exact ih _ (hb _)
  | stop v => exact hb.1

theorem claim_eval [DecidableEq GT] {sha : Bytes → Bytes} (h : ∀ m, (sha m).length = 64)
    (pf : Profile) {t0 : Nat} {sg : List (Nat × Bytes)} (F : Claim G1 G2) (Z : CodeSigner G1 G2)
    (hZ : ∀ m, (t0, m) ∈ sg → (t0, m) ∈ Z.signed) {W : World G1 G2} (SP : ParamShape W.pp)
    (hpk : W.pk.ciphersuite = W.pp.ciphersuite) :
    ((HashPlayer.forge F).only t0).chance (withHash E sha) pf g Z W ≤
      (claimProbe E pf t0 W sg F).eval sha := by
  unfold claimProbe
  simp only [HashPlayer.only]
  by_cases hF : F.time = t0
  · rw [if_pos hF, if_pos hF]
    simp only [HashPlayer.chance, Probe.eval, verdict]
    split_ifs with h1 h2
    · exact le_rfl
    · refine absurd ⟨accepted_hash h pf h1.1, fun hm => h1.2.2 ?_⟩ h2
      rw [hF] at hm ⊢
      exact hZ _ hm
    · exact zero_le_one
    · exact le_rfl
  · rw [if_neg hF, if_neg hF, none_hash ⟨h⟩ pf SP hpk]
    exact le_rfl

theorem keyAs_eq {x : Fr} {t : Nat} {rho : List Fr} {sk : SecretKey G1 G2} (h : KeyAs pp x t rho sk) :
    sk = ⟨pp.ciphersuite, t, keysOf pp x t rho, ⟨sk.prng.seed⟩⟩ := by
  obtain ⟨c', t', s', p'⟩ := sk
  have a1 := h.suite
  have a2 := h.time
  have a3 := h.ssk
  simp only [] at a1 a2 a3
  subst a1 a2 a3
  rfl

theorem tail_le [DecidableEq GT] {sha : Bytes → Bytes} (h : ∀ m, (sha m).length = 64)
    (L : GroupLaws E) (pf : Profile) (x : Fr) (WF : ParamWF E pp) (hc : Supported pp.ciphersuite)
    (t0 : Nat) (sg : List (Nat × Bytes)) (P : HashPlayer G1 G2) (t : Nat) (rho : List Fr)
    (sg' : List (Nat × Bytes)) (hsg : ∀ m, (t0, m) ∈ sg → (t0, m) ∈ sg') (br : List Nat)
    (sk : SecretKey G1 G2) (hk : KeyAs pp x t rho sk) (W : World G1 G2) (hW : W.pp = pp)
    (hpk : W.pk.ciphersuite = W.pp.ciphersuite) :
    (P.only t0).chance (withHash E sha) pf g ⟨sk, sg', br⟩ W ≤
      ((P.tail pf pp t (keysOf pp x t rho) sk.prng.seed).check E pf g t0 sg W).eval sha := by
  have hSW : ParamShape W.pp := by rw [hW]; exact WF.toParamShape
  have H : HashLaws (withHash E sha) := ⟨h⟩
  have L' := withHash_laws L sha
  have WF' := withHash_wf WF sha
  induction P generalizing t rho sg' br sk W with
  | toss m hm n ih => exact avg_mono fun c => ih c t rho sg' hsg br sk hk W hW hpk hSW
  | eval m n ih => exact ih _ t rho sg' hsg br sk hk W hW hpk hSW
  | point n ih =>
    simp only [HashPlayer.tail, HashPlayer.only, HashPlayer.chance, HashTail.check, Probe.eval]
    rw [← avg_equiv dieEquiv]
    exact avg_mono fun c => ih _ t rho sg' hsg br sk hk { W with answers := _ } hW hpk hSW
  | sign msg n ih =>
    simp only [HashPlayer.tail, HashPlayer.only, HashPlayer.chance, HashTail.check, Probe.eval]
    rw [mac_eval hk.prng, signWith_eq L pf WF hk.valid hk.length, hk.time, hW]
    have h1 := C77_sign H L' pf WF' hc hk msg
    have h2 : signDraw (withHash E sha).sha512 sk.prng t msg = _ := signDraw_eq h sk.prng t msg
    rw [h2, drawVal_eq] at h1
    rw [show (Signature.signPresent (withHash E sha).sha512 pf t pp msg).run sk = _ from h1]
    exact ih _ t rho (sg' ++ [(t, msg)]) (fun m hm => List.mem_append_left _ (hsg m hm)) br sk hk W hW
      hpk hSW
  | update tar seed n ih =>
    simp only [HashPlayer.tail, HashPlayer.only, HashPlayer.chance]
    rw [hW]
    by_cases h1 : t < tar ∧ tar ≤ 2 ^ pp.depth - 1
    · rw [if_pos h1]
      rcases update_exact h pf WF.toParamShape hk.keyFor h1.1 h1.2 seed with
        ⟨_, e⟩ | ⟨_, sk', e, _⟩
      · rw [show SecretKey.update (withHash E sha).sha512 pf pp tar seed sk = _ from e]
        exact eval_nonneg _ (check_bounded pf t0 sg _ W)
      · obtain ⟨_, _, hk', hp⟩ := C77_update H L' pf WF' hk tar seed e
        rw [show SecretKey.update (withHash E sha).sha512 pf pp tar seed sk = _ from e]
        simp only []
        rw [mix_eval h hk.prng]
        have hre : mixed sha sk.prng seed (DOM_SEP_SK_RERANDOMIZE_INFO ++ timeBytes t) =
            reseeded sha sk.prng seed t := (reseeded_eq h _ _ _).symm
        rw [hre]
        have hwf : (reseeded sha sk.prng seed t).WF := by rw [← hre]; exact h _
        rw [drawsT_eval h _ hwf, stepKeys_eq L pf WF hk.valid h1.1 h1.2 hk.length (by simp)]
        have hp' : sk'.prng = afterDraws sha (reseeded sha sk.prng seed t)
          (drawsNeeded pp.depth t tar) := hp
        rw [← hp']
        exact ih tar _ sg' hsg br sk' hk' W hW hpk hSW
    · rw [if_neg h1, show SecretKey.update (withHash E sha).sha512 pf pp tar seed sk = _ from
        (C15_update_outcome h pf WF.toParamShape hk.keyFor tar seed).1 h1]
      exact ih t rho sg' hsg br sk hk W hW hpk hSW
  | breakIn n ih =>
    simp only [HashPlayer.tail, HashPlayer.only, HashPlayer.chance]
    rw [← keyAs_eq hk]
    exact ih sk t rho sg' hsg _ sk hk W hW hpk hSW
  | forge F => exact claim_eval h pf F _ hsg hSW hpk

/-! ## Up to `t0` -/

theorem drawsQ_using {sha : Bytes → Bytes} (n : Nat) (k : List Fr → PrngProber) :
    (drawsQ n k).using sha = PrngPlayer.draws n fun l => (k l).using sha := by
  induction n generalizing k with
  | zero => rfl
  | succ n ih => simp only [drawsQ, PrngProber.using, PrngPlayer.draws, ih]

theorem using_real_nonneg {sha : Bytes → Bytes} (h : ∀ m, (sha m).length = 64) (P : PrngProber)
    (hb : P.Bounded) (p : Prng) : 0 ≤ (P.using sha).real sha p := by
  induction P generalizing p with
  | toss m hm n ih => exact avg_nonneg fun c => ih c (hb c) p
  | hash m n ih => exact ih _ (hb _) p
  | sample info n ih =>
    simp only [PrngProber.using]
    rw [real_sample h]
    exact ih _ (hb _) _
  | draw info n ih =>
    simp only [PrngProber.using]
    rw [real_draw h]
    exact ih _ (hb _) _
  | mix seed info n ih =>
    simp only [PrngProber.using]
    rw [real_mix h]
    exact ih hb _
  | look n => exact eval_nonneg _ (hb _)
  | stop v => exact hb.1

theorem drawsQ_bounded {n : Nat} {k : List Fr → PrngProber} (h : ∀ l, (k l).Bounded) :
    (drawsQ n k).Bounded := by
  induction n generalizing k with
  | zero => exact h []
  | succ n ih => exact fun r => ih fun l => h _

theorem playQ_bounded [DecidableEq GT] (pf : Profile) (t0 : Nat) (x : Fr) (P : HashPlayer G1 G2)
    (S : Known0) (W : World G1 G2) : (P.playQ E pf g t0 x S W).Bounded := by
  induction P generalizing S W with
  | toss m hm n ih => exact fun c => ih c _ _
  | eval m n ih => exact fun b => ih b _ _
  | point n ih => exact fun c => ih _ _ _
  | sign msg n ih => exact fun b r => ih _ _ _
  | update tar seed n ih =>
    simp only [HashPlayer.playQ]
    split_ifs
    · exact drawsQ_bounded fun l => ih _ _
    · exact drawsQ_bounded fun l K => check_bounded pf t0 _ _ W
    · exact ih _ _
  | breakIn n ih => exact ⟨le_rfl, zero_le_one⟩
  | forge F =>
    simp only [HashPlayer.playQ]
    split_ifs
    · exact fun b => verdict_bounds pf W _ F b
    · exact ⟨le_rfl, zero_le_one⟩

theorem game_bounded [DecidableEq GT] (pf : Profile) (d : Nat) (cs : UInt8)
    (A : World G1 G2 → HashPlayer G1 G2) (t0 : Nat) : (hashGame E pf g d cs A t0).Bounded :=
  fun _ _ _ => playQ_bounded pf t0 _ _ _ _

theorem hash_le_playQ [DecidableEq GT] {sha : Bytes → Bytes} (h : ∀ m, (sha m).length = 64)
    (L : GroupLaws E) (pf : Profile) (x : Fr) (WF : ParamWF E pp) (hc : Supported pp.ciphersuite)
    (t0 : Nat) (P : HashPlayer G1 G2) (t : Nat) (rho : List Fr)
    (sg : List (Nat × Bytes)) (htt : t ≤ t0) (sk : SecretKey G1 G2) (hk : KeyAs pp x t rho sk)
    (W : World G1 G2) (hW : W.pp = pp) (hpk : W.pk.ciphersuite = W.pp.ciphersuite) :
    (P.only t0).chance (withHash E sha) pf g ⟨sk, sg, []⟩ W ≤
      ((P.playQ E pf g t0 x ⟨t, rho, sg⟩ W).using sha).real sha sk.prng := by
  have hSW : ParamShape W.pp := by rw [hW]; exact WF.toParamShape
  have H : HashLaws (withHash E sha) := ⟨h⟩
  have L' := withHash_laws L sha
  have WF' := withHash_wf WF sha
  induction P generalizing t rho sg sk W with
  | toss m hm n ih => exact avg_mono fun c => ih c t rho sg htt sk hk W hW hpk hSW
  | eval m n ih => exact ih _ t rho sg htt sk hk W hW hpk hSW
  | point n ih =>
    simp only [HashPlayer.playQ, HashPlayer.only, HashPlayer.chance, PrngProber.using, PrngPlayer.real]
    rw [← avg_equiv dieEquiv]
    exact avg_mono fun c => ih _ t rho sg htt sk hk { W with answers := _ } hW hpk hSW
  | sign msg n ih =>
    simp only [HashPlayer.playQ, HashPlayer.only, HashPlayer.chance, PrngProber.using]
    rw [real_sample h, hk.time, hW]
    have h1 := C77_sign H L' pf WF' hc hk msg
    have h2 : signDraw (withHash E sha).sha512 sk.prng t msg = _ := signDraw_eq h sk.prng t msg
    rw [h2] at h1
    rw [show (Signature.signPresent (withHash E sha).sha512 pf t pp msg).run sk = _ from h1]
    exact ih _ t rho (sg ++ [(t, msg)]) htt sk hk W hW hpk hSW
  | update tar seed n ih =>
    have hnn := using_real_nonneg h _
      (playQ_bounded (E := E) (g := g) pf t0 x (.update tar seed n) ⟨t, rho, sg⟩ W) sk.prng
    simp only [HashPlayer.playQ, HashPlayer.only, HashPlayer.chance] at hnn ⊢
    rw [hW] at hnn ⊢
    by_cases h1 : t < tar ∧ tar ≤ 2 ^ pp.depth - 1
    · rw [if_pos h1] at hnn ⊢
      rcases update_exact h pf WF.toParamShape hk.keyFor h1.1 h1.2 seed with
        ⟨_, e⟩ | ⟨_, sk', e, _⟩
      · rw [show SecretKey.update (withHash E sha).sha512 pf pp tar seed sk = _ from e]
        exact hnn
      · obtain ⟨_, _, hk', hp⟩ := C77_update H L' pf WF' hk tar seed e
        rw [show SecretKey.update (withHash E sha).sha512 pf pp tar seed sk = _ from e]
        simp only [PrngProber.using]
        rw [real_mix h, drawsQ_using, draws_real h]
        have hre : mixed sha sk.prng seed (DOM_SEP_SK_RERANDOMIZE_INFO ++ timeBytes t) =
            reseeded sha sk.prng seed t := (reseeded_eq h _ _ _).symm
        have hp' : sk'.prng = afterDraws sha (reseeded sha sk.prng seed t)
          (drawsNeeded pp.depth t tar) := hp
        rw [hre, ← hp']
        by_cases h2 : tar ≤ t0
        · rw [if_pos h2]
          exact ih tar _ sg h2 sk' hk' W hW hpk hSW
        · rw [if_neg h2]
          simp only [PrngProber.using, PrngPlayer.real]
          exact tail_le h L pf x WF hc t0 sg n tar _ sg (fun _ hm => hm) [] sk' hk' W hW hpk
    · rw [if_neg h1, show SecretKey.update (withHash E sha).sha512 pf pp tar seed sk = _ from
        (C15_update_outcome h pf WF.toParamShape hk.keyFor tar seed).1 h1]
      exact ih t rho sg htt sk hk W hW hpk hSW
  | breakIn n ih =>
    simp only [HashPlayer.playQ, HashPlayer.only, HashPlayer.chance, PrngProber.using, PrngPlayer.real]
    exact (caught_hash H pf (b := t) htt (n sk) _ (by simp [hk.time]) W hSW hpk).le
  | forge F =>
    refine (claim_eval h pf F ⟨sk, sg, []⟩ (sg := sg) (fun _ hm => hm) hSW hpk).trans (le_of_eq ?_)
    unfold claimProbe
    simp only [HashPlayer.playQ]
    split_ifs <;> rfl

/-! ## The whole game -/

theorem seed_start {E : Ext G1 G2 GT} (H : HashLaws E) {g : G1} {d : Nat} {cs : UInt8}
    (hsup : Supported cs) (f : World G1 G2 → SecretKey G1 G2 → ℚ)
    (a : Secret d 0 → Fr) (S : ParamShape (gameParam E g cs a)) {seed : Bytes}
    (hs : 32 ≤ seed.length) :
    (match keygen { E with hashToG1 := fun _ _ => (a .q).val • g } seed (gameParam E g cs a) with
      | .ok (pk, sk, pop) => f ⟨gameParam E g cs a, pk, (a .q).val • g, pop.pop, []⟩ sk
      | _ => 0) =
    match Prng.sampleThenUpdate E.sha512 (ascii "key initialization")
      ⟨hmac E.sha512 (text "Pixel master key" ++ [cs]) seed⟩ with
    | (.ok x, p) =>
      match SecretKey.init E.sha512 (worldOf E g cs (Function.update a .x x) []).pp
        (mulFr x (worldOf E g cs (Function.update a .x x) []).pp.h) p with
      | .ok sk => f (worldOf E g cs (Function.update a .x x) []) sk
      | _ => 0
    | _ => 0 := by
  have hE : ∃ E' : Ext G1 G2 GT, E' = { E with hashToG1 := fun _ _ => (a .q).val • g } := ⟨_, rfl⟩
  obtain ⟨E', hE⟩ := hE
  have h0 : E'.sha512 = E.sha512 := by rw [hE]
  have hq : E'.hashToG1 = fun _ _ => (a .q).val • g := by rw [hE]
  obtain ⟨sk, h1, h2⟩ := keygen_init (E := E') (pp := gameParam E g cs a)
    ⟨by rw [h0]; exact H.sha_len⟩ S hs hsup
  rw [← hE, h2, sampleThenUpdate_eq H.sha_len]
  rw [h0] at *
  rw [hq]
  simp only [worldOf_update]
  rw [show (⟨hmac E.sha512 (text "Pixel master key" ++ [cs]) seed⟩ : Prng) = kgState E.sha512 seed cs by
    rw [← text_masterSalt]; rfl]
  erw [h1]
  rfl

theorem hash_le_games [DecidableEq GT] {sha : Bytes → Bytes} (h : ∀ m, (sha m).length = 64)
    (L : GroupLaws E) {d : Nat} {cs : UInt8} (hsup : Supported cs)
    (hsub : E.inSub1 g = true) (hd : 0 < d) (hd' : d ≤ 63) (pf : Profile) {n : Nat} (hn : 32 ≤ n)
    (A : World G1 G2 → HashPlayer G1 G2) :
    hashForgeChance (withHash E sha) pf g d cs n A ≤
      ∑ t ∈ Finset.Icc 1 (2 ^ d - 1), avg fun s : Seed n =>
        ((hashGame E pf g d cs A t).using sha).real sha
          ⟨hmac sha (text "Pixel master key" ++ [cs]) s.bytes⟩ := by
  have H : HashLaws (withHash E sha) := ⟨h⟩
  have L' := withHash_laws L sha
  unfold hashForgeChance
  rw [avg_comm, ← avg_sum]
  refine avg_mono fun s => ?_
  have hlen : 32 ≤ s.bytes.length := by
    rw [show s.bytes.length = n from natToBE_length n s.val]
    exact hn
  simp only [hashGame, PrngProber.using, PrngPlayer.real]
  rw [← avg_sum, ← avg_equiv (Fintype.equivFin (Secret d 0 → Fr)).symm]
  refine avg_mono fun c => ?_
  generalize (Fintype.equivFin (Secret d 0 → Fr)).symm c = a
  have SP : ParamShape (gameParam (withHash E sha) g cs a) :=
    (viewOf_wf (E := E) (cs := cs) L hsub hd hd' (toVar a)).toParamShape
  refine Eq.trans_le (seed_start (E := withHash E sha) H hsup
    (fun W sk => (A W).chance (withHash E sha) pf g ⟨sk, [], []⟩ W) a SP hlen) ?_
  show (match Prng.sampleThenUpdate sha (ascii "key initialization") ⟨hmac sha
    (text "Pixel master key" ++ [cs]) s.bytes⟩ with
    | (.ok x, p) =>
      match SecretKey.init sha (worldOf E g cs (Function.update a .x x) []).pp
        (mulFr x (worldOf E g cs (Function.update a .x x) []).pp.h) p with
      | .ok sk => (A (worldOf E g cs (Function.update a .x x) [])).chance (withHash E sha) pf g
          ⟨sk, [], []⟩ (worldOf E g cs (Function.update a .x x) [])
      | _ => 0
    | _ => 0) ≤ _
  generalize hmac sha (text "Pixel master key" ++ [cs]) s.bytes = K
  rw [sampleThenUpdate_eq h]
  simp only []
  generalize hx : drawVal sha ⟨K⟩ (ascii "key initialization") = x
  have WF : ParamWF E (worldOf E g cs (Function.update a .x x) []).pp :=
    viewOf_wf (E := E) (cs := cs) L hsub hd hd' (toVar (Function.update a .x x))
  have hpk : (worldOf E g cs (Function.update a .x x) []).pk.ciphersuite =
    (worldOf E g cs (Function.update a .x x) []).pp.ciphersuite := rfl
  have hdep : (worldOf E g cs (Function.update a .x x) []).pp.depth = d := rfl
  have hc : Supported (worldOf E g cs (Function.update a .x x) []).pp.ciphersuite := hsup
  generalize worldOf E g cs (Function.update a .x x) [] = W at *
  obtain ⟨sk, h1, h2, h3⟩ := init_keyAs H L' (withHash_wf WF sha) hc x
    (drawNext sha ⟨K⟩ (ascii "key initialization"))
  rw [show SecretKey.init sha W.pp (mulFr x W.pp.h) _ = _ from h1]
  simp only []
  refine ((A W).chance_le_only H pf ⟨sk, [], []⟩ W WF.toParamShape hpk
    (T := Finset.Icc 1 (2 ^ d - 1)) fun t v h => ?_).trans (Finset.sum_le_sum fun t ht => ?_)
  · rw [hdep] at h
    exact Finset.mem_Icc.2 (nodeAt_iff.1 h).1
  · rw [sampleThenUpdate_eq h]
    simp only []
    have h3' : sk.prng = drawNext sha (drawNext sha ⟨K⟩ (ascii "key initialization"))
      (DOM_SEP_SK_INIT ++ [0, 0, 0, 1]) := h3
    rw [← h3']
    exact hash_le_playQ h L pf x WF hc t (A W) 1 _ [] (Finset.mem_Icc.1 ht).1 sk h2 W rfl hpk

end Pixel
