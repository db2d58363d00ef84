import Verif.Spec.Spill
import Verif.Proof.Recover
import Verif.Proof.Leak
import Verif.Proof.SingleLift

/-!
# The game against a signer whose generator leaks, with a random function for SHA-512: proofs
-/

namespace Pixel

open Spec Props

set_option linter.unusedSectionVars false

variable {G1 G2 GT : Type} [AddCommGroup G1] [AddCommGroup G2] [CommGroup GT]
  {E : Ext G1 G2 GT} {g : G1} {pp : PubParam G1 G2} {n : Nat}

/-! ## The game for a bet -/

/-- the adversary gives up if its claim would not be for time `t0` -/
def Spec.SpillPlayer.only (t0 : Nat) : SpillPlayer G1 G2 → SpillPlayer G1 G2
  | .toss m hm n => .toss m hm fun c => (n c).only t0
  | .eval m n => .eval m fun b => (n b).only t0
  | .point n => .point fun p => (n p).only t0
  | .sign msg n => .sign msg fun s => (n s).only t0
  | .update tar seed n => .update tar seed (n.only t0)
  | .refresh tar n => .refresh tar (n.only t0)
  | .look n => .look fun p => (n p).only t0
  | .breakIn n => .breakIn fun sk => (n sk).only t0
  | .forge F => if F.time = t0 then .forge F else .forge .none

/-- a program that does not use the generator any more -/
def Spec.HealProber.rest : Probe → HealProber
  | .toss m hm n => .toss m hm fun c => .rest (n c)
  | .hash m n => .hash m fun b => .rest (n b)
  | .stop v => .stop v

/-- `n` draws for an update -/
def drawsH : Nat → (List Fr → HealProber) → HealProber
  | 0, k => k []
  | n + 1, k => .draw DOM_SEP_SK_UPDATE fun r => drawsH n fun l => k (r :: l)

/-- The game for a bet on `t0`, played with the generator; `looked` and `used` are as in the record of
the signer. -/
noncomputable def Spec.SpillPlayer.playH [DecidableEq GT] (E : Ext G1 G2 GT) (pf : Profile) (g : G1)
    (n : Nat) (t0 : Nat) (x : Fr) :
    SpillPlayer G1 G2 → Known0 → (looked used : Bool) → World G1 G2 → HealProber
  | .toss m hm nx, S, lo, us, W => .toss m hm fun c => (nx c).playH E pf g n t0 x S lo us W
  | .eval m nx, S, lo, us, W => .hash m fun b => (nx b).playH E pf g n t0 x S lo us W
  | .point nx, S, lo, us, W => .toss rOrder (Nat.pos_of_ne_zero (NeZero.ne rOrder)) fun c =>
      (nx ((c.val : Fr).val • g)).playH E pf g n t0 x S lo us
        { W with answers := W.answers ++ [.point ((c.val : Fr).val • g)] }
  | .sign msg nx, S, lo, _, W =>
      if lo then .stop 0
      else .hash (msgTag W.pp.ciphersuite ++ msg) fun b => .sample (signInfo msg S.time) fun r =>
        (nx (signatureOf W.pp x S.time (natOfBytes b) (S.rho.headD 0 + r))).playH E pf g n t0 x
          { S with signed := S.signed ++ [(S.time, msg)] } lo true W
  | .update tar seed nx, S, lo, us, W =>
      if S.time < tar ∧ tar ≤ 2 ^ W.pp.depth - 1 then
        if lo then .stop 0
        else .mix seed (DOM_SEP_SK_RERANDOMIZE_INFO ++ timeBytes S.time)
          (drawsH (drawsNeeded W.pp.depth S.time tar) fun rs =>
            if tar ≤ t0 then nx.playH E pf g n t0 x
              { S with time := tar, rho := stepExponents W.pp.depth S.time tar S.rho rs } lo false W
            else .leak fun K => .rest (((nx.freed n).tail pf W.pp tar
              (keysOf W.pp x tar (stepExponents W.pp.depth S.time tar S.rho rs)) K).check E pf g t0
                S.signed W))
      else nx.playH E pf g n t0 x S lo us W
  | .refresh tar nx, S, lo, us, W =>
      if S.time < tar ∧ tar ≤ 2 ^ W.pp.depth - 1 then
        .refresh (DOM_SEP_SK_RERANDOMIZE_INFO ++ timeBytes S.time)
          (drawsH (drawsNeeded W.pp.depth S.time tar) fun rs =>
            if tar ≤ t0 then nx.playH E pf g n t0 x
              { S with time := tar, rho := stepExponents W.pp.depth S.time tar S.rho rs } false false W
            else .leak fun K => .rest (((nx.freed n).tail pf W.pp tar
              (keysOf W.pp x tar (stepExponents W.pp.depth S.time tar S.rho rs)) K).check E pf g t0
                S.signed W))
      else nx.playH E pf g n t0 x S lo us W
  | .look nx, S, _, us, W =>
      if us then .stop 0 else .leak fun K => (nx ⟨K⟩).playH E pf g n t0 x S true us W
  | .breakIn _, _, _, _, _ => .stop 0
  | .forge F, S, _, _, W => .rest (claimProbe E pf t0 W S.signed F)

/-- The whole game for a bet on `t0`. -/
noncomputable def spillGame [DecidableEq GT] (E : Ext G1 G2 GT) (pf : Profile) (g : G1) (d : Nat)
    (cs : UInt8) (n : Nat) (A : World G1 G2 → SpillPlayer G1 G2) (t0 : Nat) : HealProber :=
  .toss (Fintype.card (Secret d 0 → Fr)) Fintype.card_pos fun c =>
    .draw (ascii "key initialization") fun x => .draw (DOM_SEP_SK_INIT ++ [0, 0, 0, 1]) fun r =>
      (A (worldOf E g cs (Function.update ((Fintype.equivFin _).symm c) .x x) [])).playH E pf g n t0 x
        { time := 1, rho := [r], signed := [] } false false
        (worldOf E g cs (Function.update ((Fintype.equivFin _).symm c) .x x) [])

/-! ## Chances -/

theorem Spec.SpillPlayer.chance_nonneg [DecidableEq GT] (pf : Profile) (P : SpillPlayer G1 G2)
    (S : LeakSigner G1 G2) (W : World G1 G2) : 0 ≤ P.chance E pf g n S W := by
  induction P generalizing S W with
  | toss _ _ nx ih => exact avg_nonneg fun c => ih c _ _
  | eval m nx ih => exact ih _ _ _
  | point nx ih => exact avg_nonneg fun r => ih _ _ _
  | sign msg nx ih =>
    simp only [SpillPlayer.chance]
    rcases Signature.signPresent E.sha512 pf S.sk.time W.pp msg S.sk with ⟨s | e | e, sk⟩
    · exact ih _ _ _
    · exact le_rfl
    · exact le_rfl
  | update tar seed nx ih =>
    simp only [SpillPlayer.chance]
    rcases SecretKey.update E.sha512 pf W.pp tar seed S.sk with ⟨_ | e | e, sk⟩
    · exact ih _ _
    · exact ih _ _
    · exact le_rfl
  | refresh tar nx ih =>
    simp only [SpillPlayer.chance]
    refine avg_nonneg fun s => ?_
    rcases SecretKey.update E.sha512 pf W.pp tar s.bytes S.sk with ⟨_ | e | e, sk⟩
    · exact ih _ _
    · exact ih _ _
    · exact le_rfl
  | look nx ih => exact ih _ _ _
  | breakIn nx ih => exact ih _ _ _
  | forge F =>
    simp only [SpillPlayer.chance]
    split_ifs <;> norm_num

theorem none_spill [DecidableEq GT] (H : HashLaws E) (pf : Profile) {W : World G1 G2}
    (S : ParamShape W.pp) (hpk : W.pk.ciphersuite = W.pp.ciphersuite) (Z : LeakSigner G1 G2) :
    (SpillPlayer.forge .none).chance E pf g n Z W = 0 :=
  none_hash (g := g) H pf S hpk ⟨Z.sk, Z.signed, Z.broken⟩

theorem Spec.SpillPlayer.chance_le_only [DecidableEq GT] (H : HashLaws E) (pf : Profile)
    (P : SpillPlayer G1 G2) (Z : LeakSigner G1 G2) (W : World G1 G2)
    (S : ParamShape W.pp) (hpk : W.pk.ciphersuite = W.pp.ciphersuite) {T : Finset Nat}
    (hT : ∀ t v, NodeAt W.pp.depth t v → t ∈ T) :
    P.chance E pf g n Z W ≤ ∑ t ∈ T, (P.only t).chance E pf g n Z W := by
  induction P generalizing Z W with
  | toss m hm nx ih =>
    simp only [SpillPlayer.chance, SpillPlayer.only]
    rw [← avg_sum]
    exact avg_mono fun c => ih c Z W S hpk hT
  | eval m nx ih => exact ih _ Z W S hpk hT
  | point nx ih =>
    simp only [SpillPlayer.chance, SpillPlayer.only]
    rw [← avg_sum]
    exact avg_mono fun r => ih _ Z { W with answers := _ } S hpk hT
  | sign msg nx ih =>
    simp only [SpillPlayer.chance, SpillPlayer.only]
    rcases Signature.signPresent E.sha512 pf Z.sk.time W.pp msg Z.sk with ⟨s | e | e, sk⟩
    · exact ih _ _ W S hpk hT
    · simp
    · simp
  | update tar seed nx ih =>
    simp only [SpillPlayer.chance, SpillPlayer.only]
    rcases SecretKey.update E.sha512 pf W.pp tar seed Z.sk with ⟨_ | e | e, sk⟩
    · exact ih _ W S hpk hT
    · exact ih _ W S hpk hT
    · simp
  | refresh tar nx ih =>
    simp only [SpillPlayer.chance, SpillPlayer.only]
    rw [← avg_sum]
    refine avg_mono fun s => ?_
    rcases SecretKey.update E.sha512 pf W.pp tar s.bytes Z.sk with ⟨_ | e | e, sk⟩
    · exact ih _ W S hpk hT
    · exact ih _ W S hpk hT
    · simp
  | look nx ih =>
    simp only [SpillPlayer.chance, SpillPlayer.only]
    exact ih _ _ W S hpk hT
  | breakIn nx ih =>
    simp only [SpillPlayer.chance, SpillPlayer.only]
    exact ih _ _ W S hpk hT
  | forge F =>
    by_cases hF : F.time ∈ T
    · refine le_trans ?_ (Finset.single_le_sum
        (fun t _ => SpillPlayer.chance_nonneg pf _ Z W) hF)
      simp only [SpillPlayer.only, if_true]
      exact le_rfl
    · refine le_trans (le_of_eq ?_) (Finset.sum_nonneg
        fun t _ => SpillPlayer.chance_nonneg pf _ Z W)
      simp only [SpillPlayer.chance]
      refine if_neg fun h => hF ?_
      obtain ⟨v, hv⟩ := accepted_time H pf S h.1 hpk
      exact hT _ v hv

/-- after a break-in at time `t0` or before nothing can be won -/
theorem caught_spill [DecidableEq GT] (H : HashLaws E) (pf : Profile) {t0 b : Nat} (hb : b ≤ t0)
    (P : SpillPlayer G1 G2) (Z : LeakSigner G1 G2) (hZ : b ∈ Z.broken)
    (W : World G1 G2) (S : ParamShape W.pp) (hpk : W.pk.ciphersuite = W.pp.ciphersuite) :
    (P.only t0).chance E pf g n Z W = 0 := by
  induction P generalizing Z W with
  | toss m hm nx ih => exact avg_zero fun c => ih c Z hZ W S hpk
  | eval m nx ih => exact ih _ Z hZ W S hpk
  | point nx ih => exact avg_zero fun r : Fr => ih _ Z hZ { W with answers := _ } S hpk
  | sign msg nx ih =>
    simp only [SpillPlayer.chance, SpillPlayer.only]
    rcases Signature.signPresent E.sha512 pf Z.sk.time W.pp msg Z.sk with ⟨s | e | e, sk⟩
    · exact ih _ _ (mem_spoiled hZ _) W S hpk
    · rfl
    · rfl
  | update tar seed nx ih =>
    simp only [SpillPlayer.chance, SpillPlayer.only]
    rcases SecretKey.update E.sha512 pf W.pp tar seed Z.sk with ⟨_ | e | e, sk⟩
    · exact ih _ (mem_spoiled hZ _) W S hpk
    · refine ih _ ?_ W S hpk
      exact hZ
    · rfl
  | refresh tar nx ih =>
    simp only [SpillPlayer.chance, SpillPlayer.only]
    refine avg_zero fun s => ?_
    rcases SecretKey.update E.sha512 pf W.pp tar s.bytes Z.sk with ⟨_ | e | e, sk⟩
    · refine ih _ ?_ W S hpk
      exact hZ
    · refine ih _ ?_ W S hpk
      exact hZ
    · rfl
  | look nx ih =>
    simp only [SpillPlayer.chance, SpillPlayer.only]
    exact ih _ _ (mem_spoiled hZ _) W S hpk
  | breakIn nx ih =>
    simp only [SpillPlayer.chance, SpillPlayer.only]
    exact ih _ _ (mem_spoiled hZ true) W S hpk
  | forge F =>
    simp only [SpillPlayer.only]
    split_ifs with hF
    · simp only [SpillPlayer.chance]
      refine if_neg fun h => ?_
      have := h.2.1 b hZ
      omega
    · exact none_spill H pf S hpk Z

/-! ## After `t0` -/

theorem rest_real {sha : Bytes → Bytes} (R : Probe) (p : Prng) :
    ((HealProber.rest R).using sha).real sha n p = R.eval sha := by
  induction R with
  | toss m hm nx ih => exact avg_congr fun c => ih c
  | hash m nx ih => exact ih _
  | stop v => rfl

theorem rest_ideal {sha : Bytes → Bytes} (R : Probe) (S : HealState) :
    ((HealProber.rest R).using sha).ideal sha S = R.eval sha := by
  induction R with
  | toss m hm nx ih => exact avg_congr fun c => ih c
  | hash m nx ih => exact ih _
  | stop v => rfl

theorem rest_bounded {R : Probe} (h : R.Bounded) : (HealProber.rest R).Bounded := by
  induction R with
  | toss m hm nx ih => exact fun c => ih c (h c)
  | hash m nx ih => exact fun b => ih b (h b)
  | stop v => exact h

theorem rest_careful (R : Probe) (m : Mark) : (HealProber.rest R).Careful m := by
  induction R with
  | toss m hm nx ih => exact fun c => ih c
  | hash m nx ih => exact fun b => ih b
  | stop v => trivial

theorem rest_within {B : Nat} {R : Probe} (h : R.Short B) {q : Nat} (hq : R.Hashes q) (u c : Nat) :
    (HealProber.rest R).Within B q u c := by
  induction R generalizing q with
  | toss m hm nx ih => exact fun c => ih c (h c) (hq c)
  | hash m nx ih => exact ⟨h.1, hq.1, fun b hb => ih b (h.2 b hb) (hq.2 b hb)⟩
  | stop v => trivial

theorem spill_claim [DecidableEq GT] {sha : Bytes → Bytes} (h : ∀ m, (sha m).length = 64)
    (pf : Profile) {t0 : Nat} {sg : List (Nat × Bytes)} (F : Claim G1 G2) (Z : LeakSigner G1 G2)
    (hZ : ∀ m, (t0, m) ∈ sg → (t0, m) ∈ Z.signed) {W : World G1 G2} (SP : ParamShape W.pp)
    (hpk : W.pk.ciphersuite = W.pp.ciphersuite) :
    ((SpillPlayer.forge F).only t0).chance (withHash E sha) pf g n Z W ≤
      (claimProbe E pf t0 W sg F).eval sha := by
  refine Eq.trans_le ?_ (claim_eval (g := g) h pf F ⟨Z.sk, Z.signed, Z.broken⟩ hZ SP hpk)
  simp only [SpillPlayer.only, HashPlayer.only]
  split_ifs <;> rfl

theorem freed_le [DecidableEq GT] {sha : Bytes → Bytes} (h : ∀ m, (sha m).length = 64)
    (L : GroupLaws E) (pf : Profile) (x : Fr) (WF : ParamWF E pp) (hc : Supported pp.ciphersuite)
    (t0 : Nat) (sg : List (Nat × Bytes)) (P : SpillPlayer G1 G2) (t : Nat) (rho : List Fr)
    (sg' : List (Nat × Bytes)) (hsg : ∀ m, (t0, m) ∈ sg → (t0, m) ∈ sg') (br : List Nat)
    (lo us : Bool) (sk : SecretKey G1 G2) (hk : KeyAs pp x t rho sk) (W : World G1 G2) (hW : W.pp = pp)
    (hpk : W.pk.ciphersuite = W.pp.ciphersuite) :
    (P.only t0).chance (withHash E sha) pf g n ⟨sk, sg', br, lo, us⟩ W ≤
      (((P.freed n).tail pf pp t (keysOf pp x t rho) sk.prng.seed).check E pf g t0 sg W).eval sha := by
  have hSW : ParamShape W.pp := by rw [hW]; exact WF.toParamShape
  have H : HashLaws (withHash E sha) := ⟨h⟩
  have L' := withHash_laws L sha
  have WF' := withHash_wf WF sha
  have hre : ∀ (sk : SecretKey G1 G2) (seed : Bytes) (t : Nat),
      mixed sha sk.prng seed (DOM_SEP_SK_RERANDOMIZE_INFO ++ timeBytes t) =
        reseeded sha sk.prng seed t := fun sk seed t => (reseeded_eq h _ _ _).symm
  have hwf : ∀ (sk : SecretKey G1 G2) (seed : Bytes) (t : Nat),
      (reseeded sha sk.prng seed t).WF := fun sk seed t => by rw [← hre]; exact h _
  induction P generalizing t rho sg' br lo us sk W with
  | toss m hm nx ih => exact avg_mono fun c => ih c t rho sg' hsg br lo us sk hk W hW hpk hSW
  | eval m nx ih => exact ih _ t rho sg' hsg br lo us sk hk W hW hpk hSW
  | point nx ih =>
    simp only [SpillPlayer.freed, HashPlayer.tail, SpillPlayer.only, SpillPlayer.chance, HashTail.check,
      Probe.eval]
    rw [← avg_equiv dieEquiv]
    exact avg_mono fun c => ih _ t rho sg' hsg br lo us sk hk { W with answers := _ } hW hpk hSW
  | sign msg nx ih =>
    simp only [SpillPlayer.freed, HashPlayer.tail, SpillPlayer.only, SpillPlayer.chance, HashTail.check,
      Probe.eval]
    rw [mac_eval hk.prng, signWith_eq L pf WF hk.valid hk.length, hk.time, hW]
    have h1 := C77_sign H L' pf WF' hc hk msg
    have h2 : signDraw (withHash E sha).sha512 sk.prng t msg = _ := signDraw_eq h sk.prng t msg
    rw [h2, drawVal_eq] at h1
    rw [show (Signature.signPresent (withHash E sha).sha512 pf t pp msg).run sk = _ from h1]
    exact ih _ t rho (sg' ++ [(t, msg)]) (fun m hm => List.mem_append_left _ (hsg m hm)) _ _ _ sk hk W
      hW hpk hSW
  | update tar seed nx ih =>
    simp only [SpillPlayer.freed, HashPlayer.tail, SpillPlayer.only, SpillPlayer.chance]
    rw [hW]
    by_cases h1 : t < tar ∧ tar ≤ 2 ^ pp.depth - 1
    · rw [if_pos h1]
      rcases update_exact h pf WF.toParamShape hk.keyFor h1.1 h1.2 seed with
        ⟨_, e⟩ | ⟨_, sk', e, _⟩
      · rw [show SecretKey.update (withHash E sha).sha512 pf pp tar seed sk = _ from e]
        exact eval_nonneg _ (check_bounded pf t0 sg _ W)
      · obtain ⟨_, _, hk', hp⟩ := C77_update H L' pf WF' hk tar seed e
        rw [show SecretKey.update (withHash E sha).sha512 pf pp tar seed sk = _ from e]
        simp only []
        rw [mix_eval h hk.prng, hre, drawsT_eval h _ (hwf _ _ _),
          stepKeys_eq L pf WF hk.valid h1.1 h1.2 hk.length (by simp)]
        have hp' : sk'.prng = afterDraws sha (reseeded sha sk.prng seed t)
          (drawsNeeded pp.depth t tar) := hp
        rw [← hp']
        exact ih tar _ sg' hsg _ _ _ sk' hk' W hW hpk hSW
    · rw [if_neg h1, show SecretKey.update (withHash E sha).sha512 pf pp tar seed sk = _ from
        (C15_update_outcome h pf WF.toParamShape hk.keyFor tar seed).1 h1]
      exact ih t rho sg' hsg br lo us sk hk W hW hpk hSW
  | refresh tar nx ih =>
    simp only [SpillPlayer.freed, HashPlayer.tail, SpillPlayer.only, SpillPlayer.chance]
    rw [hW]
    refine avg_mono (α := Seed n) fun s => ?_
    beta_reduce
    by_cases h1 : t < tar ∧ tar ≤ 2 ^ pp.depth - 1
    · rw [if_pos h1]
      rcases update_exact h pf WF.toParamShape hk.keyFor h1.1 h1.2 s.bytes with
        ⟨_, e⟩ | ⟨_, sk', e, _⟩
      · rw [show SecretKey.update (withHash E sha).sha512 pf pp tar s.bytes sk = _ from e]
        exact eval_nonneg _ (check_bounded pf t0 sg _ W)
      · obtain ⟨_, _, hk', hp⟩ := C77_update H L' pf WF' hk tar s.bytes e
        rw [show SecretKey.update (withHash E sha).sha512 pf pp tar s.bytes sk = _ from e]
        simp only []
        rw [mix_eval h hk.prng, hre, drawsT_eval h _ (hwf _ _ _),
          stepKeys_eq L pf WF hk.valid h1.1 h1.2 hk.length (by simp)]
        have hp' : sk'.prng = afterDraws sha (reseeded sha sk.prng s.bytes t)
          (drawsNeeded pp.depth t tar) := hp
        rw [← hp']
        exact ih tar _ sg' hsg _ _ _ sk' hk' W hW hpk hSW
    · rw [if_neg h1, show SecretKey.update (withHash E sha).sha512 pf pp tar s.bytes sk = _ from
        (C15_update_outcome h pf WF.toParamShape hk.keyFor tar s.bytes).1 h1]
      exact ih t rho sg' hsg br lo us sk hk W hW hpk hSW
  | look nx ih =>
    simp only [SpillPlayer.freed, HashPlayer.tail, SpillPlayer.only, SpillPlayer.chance]
    exact ih _ t rho sg' hsg _ _ _ sk hk W hW hpk hSW
  | breakIn nx ih =>
    simp only [SpillPlayer.freed, HashPlayer.tail, SpillPlayer.only, SpillPlayer.chance]
    rw [← keyAs_eq hk]
    exact ih sk t rho sg' hsg _ _ _ sk hk W hW hpk hSW
  | forge F => exact spill_claim h pf F _ hsg hSW hpk

/-! ## Up to `t0` -/

theorem drawsH_using {sha : Bytes → Bytes} (m : Nat) (k : List Fr → HealProber) :
    (drawsH m k).using sha = HealPlayer.draws m fun l => (k l).using sha := by
  induction m generalizing k with
  | zero => rfl
  | succ m ih => simp only [drawsH, HealProber.using, HealPlayer.draws, ih]

theorem drawsH_bounded {m : Nat} {k : List Fr → HealProber} (h : ∀ l, (k l).Bounded) :
    (drawsH m k).Bounded := by
  induction m generalizing k with
  | zero => exact h []
  | succ m ih => exact fun r => ih fun l => h _

theorem playH_bounded [DecidableEq GT] (pf : Profile) (t0 : Nat) (x : Fr) (P : SpillPlayer G1 G2)
    (S : Known0) (lo us : Bool) (W : World G1 G2) : (P.playH E pf g n t0 x S lo us W).Bounded := by
  induction P generalizing S lo us W with
  | toss m hm nx ih => exact fun c => ih c _ _ _ _
  | eval m nx ih => exact fun b => ih b _ _ _ _
  | point nx ih => exact fun c => ih _ _ _ _ _
  | sign msg nx ih =>
    simp only [SpillPlayer.playH]
    split_ifs
    · exact ⟨le_rfl, zero_le_one⟩
    · exact fun b r => ih _ _ _ _ _
  | update tar seed nx ih =>
    simp only [SpillPlayer.playH]
    split_ifs
    · exact ⟨le_rfl, zero_le_one⟩
    · exact drawsH_bounded fun l => ih _ _ _ _
    · exact drawsH_bounded fun l K => rest_bounded (check_bounded pf t0 _ _ W)
    · exact ih _ _ _ _
  | refresh tar nx ih =>
    simp only [SpillPlayer.playH]
    split_ifs
    · exact drawsH_bounded fun l => ih _ _ _ _
    · exact drawsH_bounded fun l K => rest_bounded (check_bounded pf t0 _ _ W)
    · exact ih _ _ _ _
  | look nx ih =>
    simp only [SpillPlayer.playH]
    split_ifs
    · exact ⟨le_rfl, zero_le_one⟩
    · exact fun b => ih _ _ _ _ _
  | breakIn nx ih => exact ⟨le_rfl, zero_le_one⟩
  | forge F => exact rest_bounded (claimProbe_bounded pf t0 W _ F)

theorem heal_using_nonneg {sha : Bytes → Bytes} (h : ∀ m, (sha m).length = 64) (P : HealProber)
    (hb : P.Bounded) (p : Prng) : 0 ≤ (P.using sha).real sha n p := by
  induction P generalizing p with
  | toss m hm nx ih => exact avg_nonneg fun c => ih c (hb c) p
  | hash m nx ih => exact ih _ (hb _) p
  | sample info nx ih =>
    simp only [HealProber.using, HealPlayer.real, sample_eq h]
    exact ih _ (hb _) _
  | draw info nx ih =>
    simp only [HealProber.using, HealPlayer.real, sampleThenUpdate_eq h]
    exact ih _ (hb _) _
  | mix seed info nx ih =>
    simp only [HealProber.using, HealPlayer.real, rerandomize_eq h]
    exact ih hb _
  | refresh info nx ih =>
    simp only [HealProber.using, HealPlayer.real, rerandomize_eq h]
    exact avg_nonneg fun s => ih hb _
  | leak nx ih => exact ih _ (hb _) _
  | stop v => exact hb.1

theorem spill_le_playH [DecidableEq GT] {sha : Bytes → Bytes} (h : ∀ m, (sha m).length = 64)
    (L : GroupLaws E) (pf : Profile) (x : Fr) (WF : ParamWF E pp) (hc : Supported pp.ciphersuite)
    (t0 : Nat) (P : SpillPlayer G1 G2) (t : Nat) (rho : List Fr)
    (sg : List (Nat × Bytes)) (lo us : Bool) (htt : t ≤ t0) (sk : SecretKey G1 G2)
    (hk : KeyAs pp x t rho sk)
    (W : World G1 G2) (hW : W.pp = pp) (hpk : W.pk.ciphersuite = W.pp.ciphersuite) :
    (P.only t0).chance (withHash E sha) pf g n ⟨sk, sg, [], lo, us⟩ W ≤
      ((P.playH E pf g n t0 x ⟨t, rho, sg⟩ lo us W).using sha).real sha n sk.prng := by
  have hSW : ParamShape W.pp := by rw [hW]; exact WF.toParamShape
  have H : HashLaws (withHash E sha) := ⟨h⟩
  have L' := withHash_laws L sha
  have WF' := withHash_wf WF sha
  have hre : ∀ (sk : SecretKey G1 G2) (seed : Bytes) (t : Nat),
      mixed sha sk.prng seed (DOM_SEP_SK_RERANDOMIZE_INFO ++ timeBytes t) =
        reseeded sha sk.prng seed t := fun sk seed t => (reseeded_eq h _ _ _).symm
  induction P generalizing t rho sg lo us sk W with
  | toss m hm nx ih => exact avg_mono fun c => ih c t rho sg lo us htt sk hk W hW hpk hSW
  | eval m nx ih => exact ih _ t rho sg lo us htt sk hk W hW hpk hSW
  | point nx ih =>
    simp only [SpillPlayer.playH, SpillPlayer.only, SpillPlayer.chance, HealProber.using,
      HealPlayer.real]
    rw [← avg_equiv dieEquiv]
    exact avg_mono fun c => ih _ t rho sg lo us htt sk hk { W with answers := _ } hW hpk hSW
  | sign msg nx ih =>
    simp only [SpillPlayer.playH, SpillPlayer.only, SpillPlayer.chance]
    rw [hk.time, hW]
    have h1 := C77_sign H L' pf WF' hc hk msg
    have h2 : signDraw (withHash E sha).sha512 sk.prng t msg = _ := signDraw_eq h sk.prng t msg
    rw [h2] at h1
    rw [show (Signature.signPresent (withHash E sha).sha512 pf t pp msg).run sk = _ from h1]
    cases lo with
    | true =>
      rw [if_pos rfl]
      exact le_of_eq (caught_spill H pf htt _ _ (by simp [LeakSigner.spoiled, hk.time]) W hSW hpk)
    | false =>
      rw [if_neg Bool.false_ne_true]
      simp only [HealProber.using, HealPlayer.real, sample_eq h]
      exact ih _ t rho (sg ++ [(t, msg)]) false true htt sk hk W hW hpk hSW
  | update tar seed nx ih =>
    have hnn := heal_using_nonneg (n := n) h _
      (playH_bounded (E := E) (g := g) (n := n) pf t0 x (.update tar seed nx) ⟨t, rho, sg⟩ lo us W)
      sk.prng
    simp only [SpillPlayer.playH, SpillPlayer.only, SpillPlayer.chance] at hnn ⊢
    rw [hW] at hnn ⊢
    by_cases h1 : t < tar ∧ tar ≤ 2 ^ pp.depth - 1
    · rw [if_pos h1] at hnn ⊢
      rcases update_exact h pf WF.toParamShape hk.keyFor h1.1 h1.2 seed with
        ⟨_, e⟩ | ⟨_, sk', e, _⟩
      · rw [show SecretKey.update (withHash E sha).sha512 pf pp tar seed sk = _ from e]
        exact hnn
      · obtain ⟨_, _, hk', hp⟩ := C77_update H L' pf WF' hk tar seed e
        rw [show SecretKey.update (withHash E sha).sha512 pf pp tar seed sk = _ from e]
        simp only []
        cases lo with
        | true =>
          rw [if_pos rfl]
          exact le_of_eq (caught_spill H pf htt _ _ (by simp [LeakSigner.spoiled, hk.time]) W hSW hpk)
        | false =>
          rw [if_neg Bool.false_ne_true]
          simp only [HealProber.using, HealPlayer.real, rerandomize_eq h]
          rw [drawsH_using, heal_draws_real h]
          have hp' : sk'.prng = afterDraws sha (reseeded sha sk.prng seed t)
            (drawsNeeded pp.depth t tar) := hp
          rw [hre, ← hp']
          by_cases h2 : tar ≤ t0
          · rw [if_pos h2]
            exact ih tar _ sg false false h2 sk' hk' W hW hpk hSW
          · rw [if_neg h2]
            simp only [HealProber.using, HealPlayer.real]
            rw [rest_real]
            exact freed_le h L pf x WF hc t0 sg nx tar _ sg (fun _ hm => hm) [] _ _ sk' hk' W hW hpk
    · rw [if_neg h1, show SecretKey.update (withHash E sha).sha512 pf pp tar seed sk = _ from
        (C15_update_outcome h pf WF.toParamShape hk.keyFor tar seed).1 h1]
      exact ih t rho sg lo us htt sk hk W hW hpk hSW
  | refresh tar nx ih =>
    simp only [SpillPlayer.playH, SpillPlayer.only, SpillPlayer.chance]
    rw [hW]
    by_cases h1 : t < tar ∧ tar ≤ 2 ^ pp.depth - 1
    · rw [if_pos h1]
      simp only [HealProber.using, HealPlayer.real, rerandomize_eq h]
      refine avg_mono fun s => ?_
      rw [drawsH_using, heal_draws_real h, hre]
      rcases update_exact h pf WF.toParamShape hk.keyFor h1.1 h1.2 s.bytes with
        ⟨_, e⟩ | ⟨_, sk', e, _⟩
      · rw [show SecretKey.update (withHash E sha).sha512 pf pp tar s.bytes sk = _ from e]
        simp only []
        split_ifs
        · exact heal_using_nonneg h _ (playH_bounded pf t0 x _ _ _ _ _) _
        · refine heal_using_nonneg h (.leak _) ?_ _
          exact fun K => rest_bounded (check_bounded pf t0 _ _ W)
      · obtain ⟨_, _, hk', hp⟩ := C77_update H L' pf WF' hk tar s.bytes e
        rw [show SecretKey.update (withHash E sha).sha512 pf pp tar s.bytes sk = _ from e]
        have hp' : sk'.prng = afterDraws sha (reseeded sha sk.prng s.bytes t)
          (drawsNeeded pp.depth t tar) := hp
        rw [← hp']
        simp only []
        by_cases h2 : tar ≤ t0
        · rw [if_pos h2]
          exact ih tar _ sg false false h2 sk' hk' W hW hpk hSW
        · rw [if_neg h2]
          simp only [HealProber.using, HealPlayer.real]
          rw [rest_real]
          exact freed_le h L pf x WF hc t0 sg nx tar _ sg (fun _ hm => hm) [] _ _ sk' hk' W hW hpk
    · rw [if_neg h1]
      refine (avg_congr fun s => ?_).trans_le ((avg_const (α := Seed n) _).trans_le
        (ih t rho sg lo us htt sk hk W hW hpk hSW))
      rw [show SecretKey.update (withHash E sha).sha512 pf pp tar s.bytes sk = _ from
        (C15_update_outcome h pf WF.toParamShape hk.keyFor tar s.bytes).1 h1]
  | look nx ih =>
    simp only [SpillPlayer.playH, SpillPlayer.only, SpillPlayer.chance]
    cases us with
    | true =>
      rw [if_pos rfl]
      exact le_of_eq (caught_spill H pf htt _ _ (by simp [LeakSigner.spoiled, hk.time]) W hSW hpk)
    | false =>
      rw [if_neg Bool.false_ne_true]
      simp only [HealProber.using, HealPlayer.real]
      exact ih _ t rho sg true false htt sk hk W hW hpk hSW
  | breakIn nx ih =>
    simp only [SpillPlayer.playH, SpillPlayer.only, SpillPlayer.chance, HealProber.using,
      HealPlayer.real]
    exact le_of_eq (caught_spill H pf htt _ _ (by simp [LeakSigner.spoiled, hk.time]) W hSW hpk)
  | forge F =>
    refine (spill_claim h pf F ⟨sk, sg, [], lo, us⟩ (sg := sg) (fun _ hm => hm) hSW hpk).trans
      (le_of_eq ?_)
    simp only [SpillPlayer.playH]
    rw [rest_real]

/-! ## The whole game -/

theorem spill_le_games [DecidableEq GT] {sha : Bytes → Bytes} (h : ∀ m, (sha m).length = 64)
    (L : GroupLaws E) {d : Nat} {cs : UInt8} (hsup : Supported cs)
    (hsub : E.inSub1 g = true) (hd : 0 < d) (hd' : d ≤ 63) (pf : Profile) {k : Nat} (hk : 32 ≤ k)
    (A : World G1 G2 → SpillPlayer G1 G2) :
    spillForgeChance (withHash E sha) pf g d cs k n A ≤
      ∑ t ∈ Finset.Icc 1 (2 ^ d - 1), avg fun s : Seed k =>
        ((spillGame E pf g d cs n A t).using sha).real sha n
          ⟨hmac sha (text "Pixel master key" ++ [cs]) s.bytes⟩ := by
  have H : HashLaws (withHash E sha) := ⟨h⟩
  have L' := withHash_laws L sha
  unfold spillForgeChance
  rw [avg_comm, ← avg_sum]
  refine avg_mono fun s => ?_
  have hlen : 32 ≤ s.bytes.length := by
    rw [show s.bytes.length = k from natToBE_length k s.val]
    exact hk
  simp only [spillGame, HealProber.using, HealPlayer.real]
  rw [← avg_sum, ← avg_equiv (Fintype.equivFin (Secret d 0 → Fr)).symm]
  refine avg_mono fun c => ?_
  generalize (Fintype.equivFin (Secret d 0 → Fr)).symm c = a
  have SP : ParamShape (gameParam (withHash E sha) g cs a) :=
    (viewOf_wf (E := E) (cs := cs) L hsub hd hd' (toVar a)).toParamShape
  refine Eq.trans_le (seed_start (E := withHash E sha) H hsup
    (fun W sk => (A W).chance (withHash E sha) pf g n ⟨sk, [], [], false, false⟩ W) a SP hlen) ?_
  show (match Prng.sampleThenUpdate sha (ascii "key initialization") ⟨hmac sha
    (text "Pixel master key" ++ [cs]) s.bytes⟩ with
    | (.ok x, p) =>
      match SecretKey.init sha (worldOf E g cs (Function.update a .x x) []).pp
        (mulFr x (worldOf E g cs (Function.update a .x x) []).pp.h) p with
      | .ok sk => (A (worldOf E g cs (Function.update a .x x) [])).chance (withHash E sha) pf g n
          ⟨sk, [], [], false, false⟩ (worldOf E g cs (Function.update a .x x) [])
      | _ => 0
    | _ => 0) ≤ _
  generalize hmac sha (text "Pixel master key" ++ [cs]) s.bytes = K
  rw [sampleThenUpdate_eq h]
  simp only []
  generalize hx : drawVal sha ⟨K⟩ (ascii "key initialization") = x
  have WF : ParamWF E (worldOf E g cs (Function.update a .x x) []).pp :=
    viewOf_wf (E := E) (cs := cs) L hsub hd hd' (toVar (Function.update a .x x))
  have hpk : (worldOf E g cs (Function.update a .x x) []).pk.ciphersuite =
    (worldOf E g cs (Function.update a .x x) []).pp.ciphersuite := rfl
  have hdep : (worldOf E g cs (Function.update a .x x) []).pp.depth = d := rfl
  have hc : Supported (worldOf E g cs (Function.update a .x x) []).pp.ciphersuite := hsup
  generalize worldOf E g cs (Function.update a .x x) [] = W at *
  obtain ⟨sk, h1, h2, h3⟩ := init_keyAs H L' (withHash_wf WF sha) hc x
    (drawNext sha ⟨K⟩ (ascii "key initialization"))
  rw [show SecretKey.init sha W.pp (mulFr x W.pp.h) _ = _ from h1]
  simp only []
  refine ((A W).chance_le_only H pf ⟨sk, [], [], false, false⟩ W WF.toParamShape hpk
    (T := Finset.Icc 1 (2 ^ d - 1)) fun t v h => ?_).trans (Finset.sum_le_sum fun t ht => ?_)
  · rw [hdep] at h
    exact Finset.mem_Icc.2 (nodeAt_iff.1 h).1
  · rw [sampleThenUpdate_eq h]
    simp only []
    have h3' : sk.prng = drawNext sha (drawNext sha ⟨K⟩ (ascii "key initialization"))
      (DOM_SEP_SK_INIT ++ [0, 0, 0, 1]) := h3
    rw [← h3']
    exact spill_le_playH h L pf x WF hc t (A W) 1 _ [] false false (Finset.mem_Icc.1 ht).1 sk h2 W rfl
      hpk

/-! ## The generator is used with care -/

theorem drawsH_careful {m : Nat} {k : List Fr → HealProber} (h : ∀ l, (k l).Careful .unused) :
    (drawsH m k).Careful .unused := by
  induction m generalizing k with
  | zero => exact h []
  | succ m ih => exact fun r => ih fun l => h _

theorem playH_careful [DecidableEq GT] (pf : Profile) (t0 : Nat) (x : Fr) (P : SpillPlayer G1 G2)
    (S : Known0) (lo us : Bool) (W : World G1 G2) :
    (P.playH E pf g n t0 x S lo us W).Careful (markFor lo us) := by
  induction P generalizing S lo us W with
  | toss m hm nx ih => exact fun c => ih c _ _ _ _
  | eval m nx ih => exact fun b => ih b _ _ _ _
  | point nx ih => exact fun c => ih _ _ _ _ _
  | sign msg nx ih =>
    rw [SpillPlayer.playH]
    cases lo
    · rw [if_neg Bool.false_ne_true]
      intro b r
      have := ih (signatureOf W.pp x S.time (natOfBytes b) (S.rho.headD 0 + r))
        { S with signed := S.signed ++ [(S.time, msg)] } false true W
      cases us <;> exact this
    · trivial
  | update tar seed nx ih =>
    simp only [SpillPlayer.playH]
    by_cases h1 : S.time < tar ∧ tar ≤ 2 ^ W.pp.depth - 1
    · rw [if_pos h1]
      cases lo with
      | true => trivial
      | false =>
        have : (markFor false us).replaced = .unused := by cases us <;> rfl
        simp only [Bool.false_eq_true, if_false, HealProber.Careful, this]
        refine drawsH_careful fun l => ?_
        split_ifs
        · exact ih _ false false _
        · exact ⟨by decide, fun _ => rest_careful _ _⟩
    · rw [if_neg h1]
      exact ih _ _ _ _
  | refresh tar nx ih =>
    simp only [SpillPlayer.playH]
    split_ifs
    · exact drawsH_careful fun l => ih _ false false _
    · exact drawsH_careful fun l => ⟨by decide, fun _ => rest_careful _ _⟩
    · exact ih _ _ _ _
  | look nx ih =>
    simp only [SpillPlayer.playH]
    split_ifs with hus
    · trivial
    · rw [Bool.not_eq_true] at hus
      subst hus
      exact ⟨by cases lo <;> decide, fun p => ih _ _ true false _⟩
  | breakIn nx ih => trivial
  | forge F => exact rest_careful _ _

theorem spillGame_careful [DecidableEq GT] (pf : Profile) (d : Nat) (cs : UInt8)
    (A : World G1 G2 → SpillPlayer G1 G2) (t0 : Nat) :
    (spillGame E pf g d cs n A t0).Careful .unused :=
  fun _ _ _ => playH_careful pf t0 _ _ _ false false _

theorem spillGame_bounded [DecidableEq GT] (pf : Profile) (d : Nat) (cs : UInt8)
    (A : World G1 G2 → SpillPlayer G1 G2) (t0 : Nat) : (spillGame E pf g d cs n A t0).Bounded :=
  fun _ _ _ => playH_bounded pf t0 _ _ _ _ _ _

/-! ## Counts -/

theorem spill_within_mono {B : Nat} {P : SpillPlayer G1 G2} {q s u c c' : Nat}
    (h : P.Within B q s u c) (hc : c ≤ c') : P.Within B q s u c' := by
  induction P generalizing q s u c c' with
  | toss m hm nx ih => exact fun i => ih i (h i) hc
  | eval m nx ih => exact ⟨h.1, h.2.1, fun b => ih b (h.2.2 b) hc⟩
  | point nx ih => exact fun p => ih p (h p) hc
  | sign msg nx ih => exact ⟨h.1, h.2.1, fun b => ih b (h.2.2 b) hc⟩
  | update tar seed nx ih => exact ⟨h.1, h.2.1, ih h.2.2 hc⟩
  | refresh tar nx ih => exact ⟨h.1, lt_of_lt_of_le h.2.1 hc, ih h.2.2 (by omega)⟩
  | look nx ih => exact fun p => ih p (h p) hc
  | breakIn nx ih => exact fun p => ih p (h p) hc
  | forge F => exact h

theorem freed_within {B : Nat} (hn : n + 300 ≤ B) (P : SpillPlayer G1 G2) {q s u c : Nat}
    (h : P.Within B q s u c) : (P.freed n).Within B q s u := by
  induction P generalizing q s u c with
  | toss m hm nx ih => exact fun i => ih i (h i)
  | eval m nx ih => exact ⟨h.1, h.2.1, fun b => ih b (h.2.2 b)⟩
  | point nx ih => exact fun p => ih p (h p)
  | sign msg nx ih => exact ⟨h.1, h.2.1, fun b => ih b (h.2.2 b)⟩
  | update tar seed nx ih => exact ⟨h.1, h.2.1, ih h.2.2⟩
  | refresh tar nx ih =>
    refine fun s => ⟨?_, h.1, ih h.2.2⟩
    rw [show (Seed.bytes s).length = n from natToBE_length n s.val]
    exact hn
  | look nx ih => exact fun sk => ih _ (h _)
  | breakIn nx ih => exact fun sk => ih _ (h _)
  | forge F => exact h

theorem freed_legal (P : SpillPlayer G1 G2) (h : P.Legal) : (P.freed n).Legal := by
  induction P with
  | toss m hm nx ih => exact fun i => ih i (h i)
  | eval m nx ih => exact fun i => ih i (h i)
  | point nx ih => exact fun i => ih i (h i)
  | sign msg nx ih => exact fun i => ih i (h i)
  | update tar seed nx ih => exact ih h
  | refresh tar nx ih => exact fun s => ih h
  | look nx ih => exact fun sk => ih _ (h _)
  | breakIn nx ih => exact fun sk => ih _ (h _)
  | forge F => exact h

theorem freed_points (P : SpillPlayer G1 G2) {k : Nat} (h : P.Points k) : (P.freed n).Points k := by
  induction P generalizing k with
  | toss m hm nx ih => exact fun i => ih i (h i)
  | eval m nx ih => exact fun i => ih i (h i)
  | point nx ih => exact ⟨h.1, fun i => ih i (h.2 i)⟩
  | sign msg nx ih => exact fun i => ih i (h i)
  | update tar seed nx ih => exact ih h
  | refresh tar nx ih => exact fun s => ih h
  | look nx ih => exact fun sk => ih _ (h _)
  | breakIn nx ih => exact fun sk => ih _ (h _)
  | forge F => trivial

theorem drawsH_within {B : Nat} (hB : 300 ≤ B) {m q u c j : Nat} (hj : m + u ≤ j)
    {k : List Fr → HealProber} (h : ∀ l u', u ≤ u' → (k l).Within B q u' c) :
    (drawsH m k).Within B q j c := by
  induction m generalizing k j with
  | zero => exact h [] j (by omega)
  | succ m ih =>
    have hlen : DOM_SEP_SK_UPDATE.length + 193 ≤ 300 := by decide +kernel
    exact ⟨by omega, by omega, fun r => ih (by omega) fun l => h _⟩

theorem playH_within [DecidableEq GT] {B : Nat} (hB : n + 300 ≤ B) (pf : Profile) (t0 : Nat) (x : Fr)
    (P : SpillPlayer G1 G2) {q s u c : Nat} (h : P.Within B q s u c) (S : Known0) (lo us : Bool)
    (W : World G1 G2) (hW : W.pp = pp) {e m : Nat}
    (he : q + 3 * s + u * (4 * pp.depth + 6) + 1 ≤ e) (hm : s + u * (pp.depth + 1) ≤ m) :
    (P.playH E pf g n t0 x S lo us W).Within B e m c := by
  induction P generalizing q s u c S lo us W e m with
  | toss m hm' nx ih => exact fun i => ih i (h i) S lo us W hW he hm
  | eval m nx ih =>
    obtain ⟨h0, h1, h2⟩ := h
    exact ⟨h0, by omega, fun b _ => ih b (h2 b) S lo us W hW (by omega) (by omega)⟩
  | point nx ih =>
    exact fun c => ih ((c.val : Fr).val • g) (h _) S lo us
      { W with answers := W.answers ++ [.point ((c.val : Fr).val • g)] } hW he hm
  | sign msg nx ih =>
    obtain ⟨h0, h1, h2⟩ := h
    simp only [SpillPlayer.playH]
    split_ifs
    · trivial
    refine ⟨?_, by omega, fun b _ => ⟨?_, by omega, fun r => ih _ (h2 _) _ _ _ W hW (by omega)
      (by omega)⟩⟩
    · rw [msgTag_length]
      omega
    · rw [signInfo_length]
      omega
  | update tar seed nx ih =>
    obtain ⟨h0, h1, h2⟩ := h
    obtain ⟨v, rfl⟩ : ∃ v, u = v + 1 := ⟨u - 1, by omega⟩
    rw [Nat.add_sub_cancel] at h2
    rw [Nat.add_mul, Nat.one_mul] at he hm
    simp only [SpillPlayer.playH]
    rw [hW]
    have hd := drawsNeeded_le pp.depth S.time tar
    have hi := rerandomize_length S.time
    by_cases hc : S.time < tar ∧ tar ≤ 2 ^ pp.depth - 1
    · rw [if_pos hc]
      cases lo with
      | true => trivial
      | false =>
        rw [if_neg Bool.false_ne_true]
        refine ⟨by omega, by omega, by omega, ?_⟩
        refine drawsH_within (by omega) (u := m - 1 - pp.depth) (by omega) fun l u' hu' => ?_
        by_cases h3 : tar ≤ t0
        · rw [if_pos h3]
          exact ih h2 _ _ _ W hW (by omega) (by omega)
        · rw [if_neg h3]
          refine fun K hK => rest_within (check_short pf t0 _ _ (tail_short (by omega) _
            (freed_within hB nx h2) _ _ hK) W) ?_ _ _
          exact probe_hashes_mono (check_hashes pf t0 _ _ (tail_evals _ (freed_within hB nx h2) _ _ _
            le_rfl) W) (by omega)
    · rw [if_neg hc]
      exact ih h2 S _ _ W hW (by omega) (by omega)
  | refresh tar nx ih =>
    obtain ⟨h1, h0, h2⟩ := h
    obtain ⟨v, rfl⟩ : ∃ v, u = v + 1 := ⟨u - 1, by omega⟩
    rw [Nat.add_sub_cancel] at h2
    rw [Nat.add_mul, Nat.one_mul] at he hm
    simp only [SpillPlayer.playH]
    rw [hW]
    have hd := drawsNeeded_le pp.depth S.time tar
    have hi := rerandomize_length S.time
    by_cases hc : S.time < tar ∧ tar ≤ 2 ^ pp.depth - 1
    · rw [if_pos hc]
      refine ⟨by omega, by omega, h0, ?_⟩
      refine drawsH_within (by omega) (u := m - 1 - pp.depth) (by omega) fun l u' hu' => ?_
      by_cases h3 : tar ≤ t0
      · rw [if_pos h3]
        exact ih h2 _ _ _ W hW (by omega) (by omega)
      · rw [if_neg h3]
        refine fun K hK => rest_within (check_short pf t0 _ _ (tail_short (by omega) _
          (freed_within hB nx h2) _ _ hK) W) ?_ _ _
        exact probe_hashes_mono (check_hashes pf t0 _ _ (tail_evals _ (freed_within hB nx h2) _ _ _
          le_rfl) W) (by omega)
    · rw [if_neg hc]
      exact ih (spill_within_mono h2 (Nat.sub_le c 1)) S _ _ W hW (by omega) (by omega)
  | look nx ih =>
    simp only [SpillPlayer.playH]
    split_ifs
    · trivial
    · exact fun b _ => ih _ (h _) S _ _ W hW he hm
  | breakIn nx ih => trivial
  | forge F =>
    simp only [SpillPlayer.playH, claimProbe]
    split_ifs
    · refine ⟨?_, by omega, fun _ _ => trivial⟩
      rw [msgTag_length]
      have : F.msg.length + 300 ≤ B := h
      omega
    · trivial

theorem spillGame_within [DecidableEq GT] {B : Nat} (hB : n + 300 ≤ B) (pf : Profile) (d : Nat)
    (cs : UInt8) (A : World G1 G2 → SpillPlayer G1 G2) {q s u c : Nat}
    (h : ∀ W, (A W).Within B q s u c) (t0 : Nat) :
    (spillGame E pf g d cs n A t0).Within B (hashUses d q s u) (prngUses d s u) c := by
  have h1 : (ascii "key initialization").length + 193 ≤ 300 := by decide +kernel
  have h2 : (DOM_SEP_SK_INIT ++ [0, 0, 0, 1]).length + 193 ≤ 300 := by decide +kernel
  unfold hashUses prngUses
  refine fun c => ⟨by omega, by omega, fun x => ⟨by omega, by omega, fun r => ?_⟩⟩
  exact playH_within hB pf t0 x _ (h _) _ _ _ _ rfl le_rfl (by simp; exact le_rfl)

/-! ## The game without leaks -/

theorem drawsH_ideal_le {sha : Bytes → Bytes} {m : Nat} {k : List Fr → HealProber}
    {k' : List Fr → PrngProber}
    (h : ∀ l, ((k l).using sha).ideal sha (.fresh []) ≤ ((k' l).using sha).ideal []) :
    ((drawsH m k).using sha).ideal sha (.fresh []) ≤ ((drawsQ m k').using sha).ideal [] := by
  rw [drawsH_using, drawsQ_using]
  exact draws_ideal_le h

theorem spill_shield_ideal [DecidableEq GT] {sha : Bytes → Bytes} (pf : Profile) (x : Fr) (t0 : Nat)
    (P : SpillPlayer G1 G2) (S : Known0) (se : Option Prng) (us : Bool) (ptab : Table)
    (W : World G1 G2) (hW : W.pp = pp) :
    ((P.playH E pf g n t0 x S se.isSome us W).using sha).ideal sha (stateFor se ptab) ≤
      (((P.shield n pp t0 S.time se us).playQ E pf g t0 x S W).using sha).ideal ptab := by
  have h0 : ∀ (S : Known0) (ptab : Table) (W : World G1 G2),
      0 ≤ (((HashPlayer.forge (.none : Claim G1 G2)).playQ E pf g t0 x S W).using sha).ideal ptab := by
    intro S ptab W
    simp only [HashPlayer.playQ]
    split_ifs
    · exact (verdict_bounds pf W _ _ _).1
    · exact le_rfl
  induction P generalizing S se us ptab W with
  | toss m hm nx ih => exact avg_mono fun c => ih c S se us ptab W hW
  | eval m nx ih => exact ih _ S se us ptab W hW
  | point nx ih => exact avg_mono fun c => ih _ S se us ptab { W with answers := _ } hW
  | sign msg nx ih =>
    simp only [SpillPlayer.playH, SpillPlayer.shield]
    rcases se with _ | p
    · simp only [Option.isSome_none, Bool.false_eq_true, if_false, HashPlayer.playQ, stateFor,
        HealProber.using, PrngProber.using, HealPlayer.ideal, PrngPlayer.ideal]
      exact oracle_mono fun D' ptab' => ih _ { S with signed := _ } none true ptab' W hW
    · exact h0 _ _ _
  | update tar seed nx ih =>
    simp only [SpillPlayer.playH, SpillPlayer.shield]
    rw [hW]
    by_cases h1 : S.time < tar ∧ tar ≤ 2 ^ pp.depth - 1
    · rw [if_pos h1, if_pos h1]
      rcases se with _ | p
      · simp only [Option.isSome_none, Bool.false_eq_true, if_false, HashPlayer.playQ]
        rw [hW, if_pos h1]
        simp only [stateFor, HealProber.using, PrngProber.using, HealPlayer.ideal, PrngPlayer.ideal]
        refine drawsH_ideal_le fun l => ?_
        by_cases h2 : tar ≤ t0
        · rw [if_pos h2, if_pos h2, if_pos h2]
          exact ih { S with time := tar, rho := _ } none false [] W hW
        · rw [if_neg h2, if_neg h2, if_neg h2]
          simp only [HealProber.using, PrngProber.using, HealPlayer.ideal, PrngPlayer.ideal]
          exact avg_mono fun K => (rest_ideal _ _).le
      · exact h0 _ _ _
    · rw [if_neg h1, if_neg h1, HashPlayer.playQ, hW, if_neg h1]
      exact ih S se us ptab W hW
  | refresh tar nx ih =>
    simp only [SpillPlayer.playH, SpillPlayer.shield]
    rw [hW]
    by_cases h1 : S.time < tar ∧ tar ≤ 2 ^ pp.depth - 1
    · rw [if_pos h1, if_pos h1, HashPlayer.playQ, hW, if_pos h1]
      have e : ∀ (nx : HealPlayer) (i : Bytes), (HealPlayer.refresh i nx).ideal sha
          (stateFor se ptab) = nx.ideal sha (.fresh []) := by
        intro nx i
        rcases se with _ | p <;> simp only [HealPlayer.ideal]
      simp only [HealProber.using, PrngProber.using]
      rw [e]
      simp only [PrngPlayer.ideal]
      refine drawsH_ideal_le fun l => ?_
      by_cases h2 : tar ≤ t0
      · rw [if_pos h2, if_pos h2, if_pos h2]
        exact ih { S with time := tar, rho := _ } none false [] W hW
      · rw [if_neg h2, if_neg h2, if_neg h2]
        simp only [HealProber.using, PrngProber.using, HealPlayer.ideal, PrngPlayer.ideal]
        exact avg_mono fun K => (rest_ideal _ _).le
    · rw [if_neg h1, if_neg h1, HashPlayer.playQ, hW, if_neg h1]
      exact ih S se us ptab W hW
  | look nx ih =>
    rcases se with _ | p
    · simp only [SpillPlayer.playH, SpillPlayer.shield]
      cases us with
      | true => exact h0 _ _ _
      | false =>
        simp only [Bool.false_eq_true, if_false, stateFor, HealProber.using, HealPlayer.ideal,
          HashPlayer.playQ, PrngProber.using, PrngPlayer.ideal]
        exact avg_mono (α := Digest) fun K => ih _ S (some ⟨K.bytes⟩) false ptab W hW
    · simp only [SpillPlayer.playH, SpillPlayer.shield]
      cases us with
      | true => exact h0 _ _ _
      | false =>
        simp only [Bool.false_eq_true, if_false, stateFor, HealProber.using, HealPlayer.ideal]
        exact ih _ S (some p) false ptab W hW
  | breakIn nx ih => exact h0 _ _ _
  | forge F =>
    simp only [SpillPlayer.playH, SpillPlayer.shield, HashPlayer.playQ]
    rw [rest_ideal]
    unfold claimProbe
    split_ifs <;> exact le_rfl

theorem spill_shield_game [DecidableEq GT] {sha : Bytes → Bytes} (pf : Profile) {d : Nat} {cs : UInt8}
    (A : World G1 G2 → SpillPlayer G1 G2) (t0 : Nat) :
    ((spillGame E pf g d cs n A t0).using sha).ideal sha (.fresh []) ≤
      ((hashGame E pf g d cs (spillShield n t0 A) t0).using sha).ideal [] := by
  simp only [spillGame, hashGame, HealProber.using, PrngProber.using, HealPlayer.ideal,
    PrngPlayer.ideal]
  exact avg_mono fun c => oracle_mono fun D _ => oracle_mono fun D' _ =>
    spill_shield_ideal pf _ t0 _ ⟨1, _, []⟩ none false [] _ rfl

theorem spill_shield_legal {t0 : Nat} (P : SpillPlayer G1 G2)
    (h : P.Legal) (t : Nat) (se : Option Prng) (us : Bool) :
    (P.shield n pp t0 t se us).Legal := by
  induction P generalizing t se us with
  | toss m hm nx ih => exact fun c => ih c (h c) _ _ _
  | eval m nx ih => exact fun c => ih c (h c) _ _ _
  | point nx ih => exact fun c => ih c (h c) _ _ _
  | sign msg nx ih =>
    simp only [SpillPlayer.shield]
    split_ifs
    · exact one_lt_order
    · exact fun c => ih c (h c) _ _ _
  | update tar seed nx ih =>
    simp only [SpillPlayer.shield]
    split_ifs
    · exact one_lt_order
    · exact ih h _ _ _
    · exact freed_legal nx h
    · exact ih h _ _ _
  | refresh tar nx ih =>
    simp only [SpillPlayer.shield]
    split_ifs
    · exact ih h _ _ _
    · exact freed_legal nx h
    · exact ih h _ _ _
  | look nx ih =>
    rcases se with _ | p
    · simp only [SpillPlayer.shield]
      split_ifs
      · exact one_lt_order
      · exact fun K => ih _ (h _) _ _ _
    · simp only [SpillPlayer.shield]
      split_ifs
      · exact one_lt_order
      · exact ih _ (h _) _ _ _
  | breakIn nx ih => exact one_lt_order
  | forge F => exact h

theorem spill_shield_points {t0 : Nat} (P : SpillPlayer G1 G2)
    {k : Nat} (h : P.Points k) (t : Nat) (se : Option Prng) (us : Bool) :
    (P.shield n pp t0 t se us).Points k := by
  induction P generalizing t se us k with
  | toss m hm nx ih => exact fun c => ih c (h c) _ _ _
  | eval m nx ih => exact fun c => ih c (h c) _ _ _
  | point nx ih => exact ⟨h.1, fun c => ih c (h.2 c) _ _ _⟩
  | sign msg nx ih =>
    simp only [SpillPlayer.shield]
    split_ifs
    · trivial
    · exact fun c => ih c (h c) _ _ _
  | update tar seed nx ih =>
    simp only [SpillPlayer.shield]
    split_ifs
    · trivial
    · exact ih h _ _ _
    · exact freed_points nx h
    · exact ih h _ _ _
  | refresh tar nx ih =>
    simp only [SpillPlayer.shield]
    split_ifs
    · exact ih h _ _ _
    · exact freed_points nx h
    · exact ih h _ _ _
  | look nx ih =>
    rcases se with _ | p
    · simp only [SpillPlayer.shield]
      split_ifs
      · trivial
      · exact fun K => ih _ (h _) _ _ _
    · simp only [SpillPlayer.shield]
      split_ifs
      · trivial
      · exact ih _ (h _) _ _ _
  | breakIn nx ih => trivial
  | forge F => trivial

theorem spill_shield_within {B : Nat} (hB : n + 300 ≤ B) {t0 : Nat} (P : SpillPlayer G1 G2)
    {q s u c : Nat} (h : P.Within B q s u c) (t : Nat) (se : Option Prng) (us : Bool) :
    (P.shield n pp t0 t se us).Within B q s u := by
  have hn : ∀ q s u, (HashPlayer.forge (.none : Claim G1 G2)).Within B q s u := fun q s u => by
    show ([] : Bytes).length + 300 ≤ B
    simp
    omega
  induction P generalizing q s u c t se us with
  | toss m hm nx ih => exact fun c => ih c (h c) _ _ _
  | eval m nx ih => exact ⟨h.1, h.2.1, fun c => ih c (h.2.2 c) _ _ _⟩
  | point nx ih => exact fun c => ih c (h c) _ _ _
  | sign msg nx ih =>
    simp only [SpillPlayer.shield]
    split_ifs
    · exact hn _ _ _
    · exact ⟨h.1, h.2.1, fun c => ih c (h.2.2 c) _ _ _⟩
  | update tar seed nx ih =>
    simp only [SpillPlayer.shield]
    split_ifs
    · exact hn _ _ _
    · exact ⟨h.1, h.2.1, ih h.2.2 _ _ _⟩
    · exact ⟨h.1, h.2.1, freed_within hB nx h.2.2⟩
    · exact ⟨h.1, h.2.1, ih h.2.2 _ _ _⟩
  | refresh tar nx ih =>
    have h0 : ([] : Bytes).length + 300 ≤ B := by simp; omega
    simp only [SpillPlayer.shield]
    split_ifs
    · exact ⟨h0, h.1, ih h.2.2 _ _ _⟩
    · exact ⟨h0, h.1, freed_within hB nx h.2.2⟩
    · exact ⟨h0, h.1, ih h.2.2 _ _ _⟩
  | look nx ih =>
    rcases se with _ | p
    · simp only [SpillPlayer.shield]
      split_ifs
      · exact hn _ _ _
      · exact fun K => ih _ (h _) _ _ _
    · simp only [SpillPlayer.shield]
      split_ifs
      · exact hn _ _ _
      · exact ih _ (h _) _ _ _
  | breakIn nx ih => exact hn _ _ _
  | forge F => exact h

/-! ## The reduction -/

/-- what is lost by the generator, the first seed and the unseen seeds -/
def spillLoss (d k n q s u c : Nat) : ℚ :=
  (periodLoss k (hashUses d q s u) (prngUses d s u) +
    c * periodLoss n (hashUses d q s u) (prngUses d s u)) +
    ((s + u * d : ℕ) + 2) * (1 / 2 ^ 257)

/-- the reduction, for one random function and leaks -/
theorem randomSpillChance_le [DecidableEq GT] (L : GroupLaws E) {d : Nat} {cs : UInt8}
    (hsup : Supported cs) (hsub : E.inSub1 g = true) (hd : 0 < d) (hd' : d ≤ 63) (pf : Profile)
    {k n B : Nat} (hk : 32 ≤ k) (hkB : 128 + k ≤ B) (hn : n + 300 ≤ B)
    (A : World G1 G2 → SpillPlayer G1 G2) (hA : ∀ W, (A W).Legal) {m : Nat}
    (hm : ∀ W, (A W).Points m) {q s u c : Nat} (hw : ∀ W, (A W).Within B q s u c) :
    randomSpillChance E pf g d cs k n B A ≤
      ∑ t ∈ Finset.Icc 1 (2 ^ d - 1), (∑ i ∈ Finset.range (hashUses d q s u),
        (solveChance E g d (roReduction E cs d (path d t) i
            (apiBet pf d t (hashLift pf d t (spillShield n t A)))) +
          ((m + 1) / rOrder + (hashUses d q s u : ℕ) / 2 ^ 254)) + spillLoss d k n q s u c) := by
  unfold randomSpillChance
  refine (avg_mono fun ω : HashFun B => spill_le_games (HashFun.sha_length ω) L hsup hsub hd hd' pf hk
    A).trans ?_
  rw [avg_sum]
  refine Finset.sum_le_sum fun t ht => ?_
  have hv : ValidTime d t := Finset.mem_Icc.1 ht
  have hsalt : (text "Pixel master key" ++ [cs]).length = 17 := by
    rw [List.length_append]
    have : (text "Pixel master key").length = 16 := by decide +kernel
    rw [this]
    rfl
  have h1 := seeded_recover_random (n := n) (k := k) (by omega) hkB
    (salt := text "Pixel master key" ++ [cs])
    (fun e => by rw [e] at hsalt; simp at hsalt) (by omega) (spillGame E pf g d cs n A t)
    (spillGame_bounded pf d cs A t) (spillGame_careful pf d cs A t)
    (spillGame_within (E := E) (g := g) hn pf d cs A hw t)
  have hw' : ∀ W, (spillShield n t A W).Within B q s u :=
    fun W => spill_shield_within hn (A W) (hw W) _ _ _
  have hl' : ∀ W, (spillShield n t A W).Legal := fun W => spill_shield_legal (A W) (hA W) _ _ _
  have hp' : ∀ W, (spillShield n t A W).Points m := fun W => spill_shield_points (A W) (hm W) _ _ _
  have h5 : (avg fun ω : HashFun B => ((spillGame E pf g d cs n A t).using ω.sha).ideal ω.sha
      (.fresh [])) ≤ ((hashGame E pf g d cs (spillShield n t A) t).idealQ []).lazy [] := by
    rw [← avg_ideal _ (hashGame_within (E := E) (g := g) (by omega) pf d cs (spillShield n t A) hw' t)]
    exact avg_mono fun ω => spill_shield_game pf A t
  have h2 := lazy_le_api (E := E) (g := g) (d := d) (cs := cs) pf (spillShield n t A) hw' hv.1
  have h3 := bet_le_ro (cs := cs) L hsub hd hd' pf (hashLift pf d t (spillShield n t A)) hv
    fun W => hashBet_only _ W
  have h4 := roForgeChance_le (cs := cs) L hsub hd hd' pf
    (apiBet pf d t (hashLift pf d t (spillShield n t A)))
    (fun W => bet_legal pf _ (hashBet_legal W (hl' W)) .start ⟨le_refl 1, hv.1.trans hv.2⟩)
    (fun W => bet_points pf _ m (hashBet_points W (hp' W)) .start)
    (Q := hashUses d q s u)
    (fun W => bet_hashes pf _ _ (hashBet_hashes W (hw' W)) .start) {t} (path d)
    (fun t' ht' => by
      rw [Finset.mem_singleton.1 ht']
      exact nodeAt_iff.2 ⟨hv, rfl⟩)
    (fun W => bet_aims pf _ .start)
  rw [Finset.sum_product, Finset.sum_singleton] at h4
  unfold spillLoss
  generalize (1 : ℚ) / 2 ^ 257 = δ at *
  generalize ((hashUses d q s u : ℕ) : ℚ) / 2 ^ 254 = z at *
  linarith

end Pixel
