import Verif.Spec.Leak
import Verif.Proof.Heal
import Verif.Proof.Lift
import Verif.Props.Heal

/-!
# The game against a signer whose generator leaks: proofs
-/

namespace Pixel

open Spec Props

set_option linter.unusedSectionVars false

variable {G1 G2 GT : Type} [AddCommGroup G1] [AddCommGroup G2] [CommGroup GT]
  {E : Ext G1 G2 GT} {g : G1} {pp : PubParam G1 G2} {n : Nat}

/-! ## Chances -/

theorem Spec.LeakPlayer.chance_nonneg [DecidableEq GT] (pf : Profile) (P : LeakPlayer G1 G2)
    (S : LeakSigner G1 G2) (tab : Table) (W : World G1 G2) : 0 ≤ P.chance E pf g n S tab W := by
  induction P generalizing S tab W with
  | toss _ _ nx ih => exact avg_nonneg fun c => ih c _ _ _
  | hash msg nx ih => exact oracle_nonneg fun D tab' => ih _ _ _ _
  | point nx ih => exact avg_nonneg fun r => ih _ _ _ _
  | sign msg nx ih =>
    simp only [LeakPlayer.chance]
    refine oracle_nonneg fun D tab' => ?_
    split
    · exact ih _ _ _ _
    · exact le_rfl
  | update tar seed nx ih =>
    simp only [LeakPlayer.chance]
    split
    · exact ih _ _ _
    · exact ih _ _ _
    · exact le_rfl
  | refresh tar nx ih =>
    simp only [LeakPlayer.chance]
    refine avg_nonneg fun s => ?_
    split
    · exact ih _ _ _
    · exact ih _ _ _
    · exact le_rfl
  | look nx ih => exact ih _ _ _ _
  | breakIn nx ih => exact ih _ _ _ _
  | forge F =>
    simp only [LeakPlayer.chance]
    exact oracle_nonneg fun D tab' => by split_ifs <;> norm_num

theorem none_leak [DecidableEq GT] (pf : Profile) {W : World G1 G2}
    (S : ParamShape W.pp) (hpk : W.pk.ciphersuite = W.pp.ciphersuite) (Z : LeakSigner G1 G2)
    (tab : Table) : (LeakPlayer.forge .none).chance E pf g n Z tab W = 0 := by
  simp only [LeakPlayer.chance]
  exact oracle_zero fun D tab' => if_neg fun h => none_accepted D pf S hpk h.1

theorem Spec.LeakPlayer.chance_le_only [DecidableEq GT] (pf : Profile)
    (P : LeakPlayer G1 G2) (Z : LeakSigner G1 G2) (tab : Table) (W : World G1 G2)
    (S : ParamShape W.pp) (hpk : W.pk.ciphersuite = W.pp.ciphersuite) {T : Finset Nat}
    (hT : ∀ t v, NodeAt W.pp.depth t v → t ∈ T) :
    P.chance E pf g n Z tab W ≤ ∑ t ∈ T, (P.only t).chance E pf g n Z tab W := by
  induction P generalizing Z tab W with
  | toss m hm nx ih =>
    simp only [LeakPlayer.chance, LeakPlayer.only]
    rw [← avg_sum]
    exact avg_mono fun c => ih c Z tab W S hpk hT
  | hash msg nx ih =>
    simp only [LeakPlayer.chance, LeakPlayer.only]
    rw [← oracle_sum]
    exact oracle_mono fun D tab' => ih _ Z tab' W S hpk hT
  | point nx ih =>
    simp only [LeakPlayer.chance, LeakPlayer.only]
    rw [← avg_sum]
    exact avg_mono fun r => ih _ Z tab { W with answers := _ } S hpk hT
  | sign msg nx ih =>
    simp only [LeakPlayer.chance, LeakPlayer.only]
    rw [← oracle_sum]
    refine oracle_mono fun D tab' => ?_
    rcases signHashed E.sha512 pf W.pp Z.sk msg D.field with s | e | e
    · exact ih _ _ tab' W S hpk hT
    · simp
    · simp
  | update tar seed nx ih =>
    simp only [LeakPlayer.chance, LeakPlayer.only]
    rcases SecretKey.update E.sha512 pf W.pp tar seed Z.sk with ⟨_ | e | e, sk⟩
    · exact ih _ tab W S hpk hT
    · exact ih _ tab W S hpk hT
    · simp
  | refresh tar nx ih =>
    simp only [LeakPlayer.chance, LeakPlayer.only]
    rw [← avg_sum]
    refine avg_mono fun s => ?_
    rcases SecretKey.update E.sha512 pf W.pp tar s.bytes Z.sk with ⟨_ | e | e, sk⟩
    · exact ih _ tab W S hpk hT
    · exact ih _ tab W S hpk hT
    · simp
  | look nx ih =>
    simp only [LeakPlayer.chance, LeakPlayer.only]
    exact ih _ _ tab W S hpk hT
  | breakIn nx ih =>
    simp only [LeakPlayer.chance, LeakPlayer.only]
    exact ih _ _ tab W S hpk hT
  | forge F =>
    by_cases hF : F.time ∈ T
    · refine le_trans ?_ (Finset.single_le_sum
        (fun t _ => LeakPlayer.chance_nonneg pf _ Z tab W) hF)
      simp only [LeakPlayer.only, if_true]
      exact le_rfl
    · refine le_trans (le_of_eq ?_) (Finset.sum_nonneg
        fun t _ => LeakPlayer.chance_nonneg pf _ Z tab W)
      simp only [LeakPlayer.chance]
      refine oracle_zero fun D tab' => if_neg fun h => hF ?_
      obtain ⟨v, hv⟩ := accepted_time (digest_laws E D) pf S h.1 hpk
      exact hT _ v hv

theorem mem_spoiled {Z : LeakSigner G1 G2} {b : Nat} (h : b ∈ Z.broken) (c : Bool) :
    b ∈ Z.spoiled c := by
  unfold LeakSigner.spoiled
  cases c
  · exact h
  · exact List.mem_append_left _ h

/-- after a break-in at time `t0` or before nothing can be won -/
theorem caught_leak [DecidableEq GT] (pf : Profile) {t0 b : Nat} (hb : b ≤ t0)
    (P : LeakPlayer G1 G2) (Z : LeakSigner G1 G2) (hZ : b ∈ Z.broken) (tab : Table)
    (W : World G1 G2) (S : ParamShape W.pp) (hpk : W.pk.ciphersuite = W.pp.ciphersuite) :
    (P.only t0).chance E pf g n Z tab W = 0 := by
  induction P generalizing Z tab W with
  | toss m hm nx ih =>
    simp only [LeakPlayer.chance, LeakPlayer.only]
    exact avg_zero fun c => ih c Z hZ tab W S hpk
  | hash msg nx ih =>
    simp only [LeakPlayer.chance, LeakPlayer.only]
    exact oracle_zero fun D tab' => ih _ Z hZ tab' W S hpk
  | point nx ih =>
    simp only [LeakPlayer.chance, LeakPlayer.only]
    exact avg_zero fun r => ih _ Z hZ tab { W with answers := _ } S hpk
  | sign msg nx ih =>
    simp only [LeakPlayer.chance, LeakPlayer.only]
    refine oracle_zero fun D tab' => ?_
    split
    · exact ih _ _ (mem_spoiled hZ _) tab' W S hpk
    · rfl
  | update tar seed nx ih =>
    simp only [LeakPlayer.chance, LeakPlayer.only]
    split
    · exact ih _ (mem_spoiled hZ _) tab W S hpk
    · refine ih _ ?_ tab W S hpk
      exact hZ
    · rfl
  | refresh tar nx ih =>
    simp only [LeakPlayer.chance, LeakPlayer.only]
    refine avg_zero fun s => ?_
    split
    · refine ih _ ?_ tab W S hpk
      exact hZ
    · refine ih _ ?_ tab W S hpk
      exact hZ
    · rfl
  | look nx ih =>
    simp only [LeakPlayer.chance, LeakPlayer.only]
    exact ih _ _ (mem_spoiled hZ _) tab W S hpk
  | breakIn nx ih =>
    simp only [LeakPlayer.chance, LeakPlayer.only]
    exact ih _ _ (mem_spoiled hZ true) tab W S hpk
  | forge F =>
    simp only [LeakPlayer.only]
    split_ifs with hF
    · simp only [LeakPlayer.chance]
      refine oracle_zero fun D tab' => if_neg fun h => ?_
      have := h.2.1 b hZ
      omega
    · exact none_leak pf S hpk Z tab

/-! ## The game played with the PRNG -/

theorem heal_table_real {sha : Bytes → Bytes} (p : Prng) (tab : Table) (msg : Bytes)
    (f : Digest → Table → HealPlayer) :
    (HealPlayer.table tab msg f).real sha n p =
      oracle tab msg fun D tab' => (f D tab').real sha n p := by
  unfold HealPlayer.table oracle
  rcases tab.lookup msg with _ | D <;> rfl

theorem heal_table_ideal {sha : Bytes → Bytes} (S : HealState) (tab : Table) (msg : Bytes)
    (f : Digest → Table → HealPlayer) :
    (HealPlayer.table tab msg f).ideal sha S =
      oracle tab msg fun D tab' => (f D tab').ideal sha S := by
  unfold HealPlayer.table oracle
  rcases tab.lookup msg with _ | D <;> rfl

theorem heal_draws_real {sha : Bytes → Bytes} (h : ∀ m, (sha m).length = 64) (m : Nat)
    (k : List Fr → HealPlayer) (p : Prng) :
    (HealPlayer.draws m k).real sha n p = (k ((List.range m).map fun j =>
      drawn sha (text "Pixel secret key update") (afterDraws sha p j))).real sha n
        (afterDraws sha p m) := by
  induction m generalizing k p with
  | zero => rfl
  | succ m ih =>
    rw [HealPlayer.draws]
    simp only [HealPlayer.real, sampleThenUpdate_eq h]
    rw [ih, afterDraws_succ, afterDraw_eq h, List.range_succ_eq_map,
      List.map_cons, List.map_map]
    congr 3
    · show _ = drawn sha _ p
      rw [drawn_eq h, text_update]
    · refine List.map_congr_left fun j _ => ?_
      simp only [Function.comp_apply]
      rw [afterDraws_succ, afterDraw_eq h]

theorem leak_play_real_nonneg [DecidableEq GT] (H : HashLaws E) (pf : Profile) (t0 : Nat) (x : Fr)
    (P : LeakPlayer G1 G2) (S : Known0) (lo us : Bool) (tab : Table) (W : World G1 G2) (p : Prng) :
    0 ≤ (P.play E pf g n t0 x S lo us tab W).real E.sha512 n p := by
  induction P generalizing S lo us tab W p with
  | toss m hm nx ih => exact avg_nonneg fun c => ih c _ _ _ _ _ _
  | hash msg nx ih =>
    rw [LeakPlayer.play, heal_table_real]
    exact oracle_nonneg fun D tab' => ih _ _ _ _ _ _ _
  | point nx ih => exact avg_nonneg fun c => ih _ _ _ _ _ _ _
  | sign msg nx ih =>
    rw [LeakPlayer.play]
    split_ifs
    · exact le_rfl
    rw [heal_table_real]
    refine oracle_nonneg fun D tab' => ?_
    simp only [HealPlayer.real, sample_eq H.sha_len]
    exact ih _ _ _ _ _ _ _
  | update tar seed nx ih =>
    simp only [LeakPlayer.play]
    split_ifs
    · exact le_rfl
    · simp only [HealPlayer.real, rerandomize_eq H.sha_len]
      rw [heal_draws_real H.sha_len]
      exact ih _ _ _ _ _ _
    · simp only [HealPlayer.real, rerandomize_eq H.sha_len]
      rw [heal_draws_real H.sha_len]
      exact LeakPlayer.chance_nonneg pf _ _ _ _
    · exact ih _ _ _ _ _ _
  | refresh tar nx ih =>
    simp only [LeakPlayer.play]
    split_ifs
    · simp only [HealPlayer.real, rerandomize_eq H.sha_len]
      refine avg_nonneg fun s => ?_
      rw [heal_draws_real H.sha_len]
      exact ih _ _ _ _ _ _
    · simp only [HealPlayer.real, rerandomize_eq H.sha_len]
      refine avg_nonneg fun s => ?_
      rw [heal_draws_real H.sha_len]
      exact LeakPlayer.chance_nonneg pf _ _ _ _
    · exact ih _ _ _ _ _ _
  | look nx ih =>
    simp only [LeakPlayer.play]
    split_ifs
    · exact le_rfl
    · exact ih _ _ _ _ _ _ _
  | breakIn nx ih => exact le_rfl
  | forge F => exact LeakPlayer.chance_nonneg pf _ _ _ _

theorem keyAs_key {x : Fr} {t : Nat} {rho : List Fr} {sk : SecretKey G1 G2}
    (h : KeyAs pp x t rho sk) (sg : List (Nat × Bytes)) :
    sk = Known0.key pp x ⟨t, rho, sg⟩ sk.prng := by
  obtain ⟨c', t', s', p'⟩ := sk
  have a1 := h.suite
  have a2 := h.time
  have a3 := h.ssk
  simp only [] at a1 a2 a3
  subst a1 a2 a3
  rfl

theorem leak_le_play [DecidableEq GT] (H : HashLaws E) (L : GroupLaws E) (pf : Profile) (x : Fr)
    (WF : ParamWF E pp) (t0 : Nat) (P : LeakPlayer G1 G2) (t : Nat) (rho : List Fr)
    (sg : List (Nat × Bytes)) (lo us : Bool) (htt : t ≤ t0) (sk : SecretKey G1 G2)
    (hk : KeyAs pp x t rho sk) (tab : Table) (W : World G1 G2) (hW : W.pp = pp)
    (hpk : W.pk.ciphersuite = W.pp.ciphersuite) :
    (P.only t0).chance E pf g n ⟨sk, sg, [], lo, us⟩ tab W ≤
      (P.play E pf g n t0 x ⟨t, rho, sg⟩ lo us tab W).real E.sha512 n sk.prng := by
  have hSW : ParamShape W.pp := by rw [hW]; exact WF.toParamShape
  have mix_eq : ∀ (sk : SecretKey G1 G2) (t : Nat) (seed : Bytes),
      mixed E.sha512 sk.prng seed (DOM_SEP_SK_RERANDOMIZE_INFO ++ timeBytes t) =
        reseeded E.sha512 sk.prng seed t := fun _ _ _ => (reseeded_eq H.sha_len _ _ _).symm
  induction P generalizing t rho sg lo us sk tab W with
  | toss m hm nx ih => exact avg_mono fun c => ih c t rho sg lo us htt sk hk tab W hW hpk hSW
  | hash msg nx ih =>
    rw [LeakPlayer.play, heal_table_real]
    exact oracle_mono fun D tab' => ih _ t rho sg lo us htt sk hk tab' W hW hpk hSW
  | point nx ih =>
    simp only [LeakPlayer.play, LeakPlayer.only, LeakPlayer.chance, HealPlayer.real]
    rw [← avg_equiv dieEquiv]
    exact avg_mono fun c => ih _ t rho sg lo us htt sk hk tab { W with answers := _ } hW hpk hSW
  | sign msg nx ih =>
    rw [LeakPlayer.play]
    simp only [LeakPlayer.only, LeakPlayer.chance]
    cases lo with
    | true =>
      rw [if_pos rfl]
      refine le_of_eq (oracle_zero fun D tab' => ?_)
      rw [hW, signHashed_eq H L pf WF hk]
      exact caught_leak pf htt _ _ (by simp [LeakSigner.spoiled, hk.time]) tab' W hSW hpk
    | false =>
      rw [if_neg Bool.false_ne_true, heal_table_real]
      refine oracle_mono fun D tab' => ?_
      simp only [HealPlayer.real, sample_eq H.sha_len]
      rw [hW, signHashed_eq H L pf WF hk, hk.time]
      exact ih _ t rho (sg ++ [(t, msg)]) false true htt sk hk tab' W hW hpk hSW
  | update tar seed nx ih =>
    simp only [LeakPlayer.play, LeakPlayer.only, LeakPlayer.chance]
    rw [hW]
    by_cases h1 : t < tar ∧ tar ≤ 2 ^ pp.depth - 1
    · rw [if_pos h1]
      rcases update_exact H.sha_len pf WF.toParamShape hk.keyFor h1.1 h1.2 seed with
        ⟨_, e⟩ | ⟨_, sk', e, _⟩
      · rw [e]
        simp only []
        have := leak_play_real_nonneg (g := g) (n := n) H pf t0 x (.update tar seed nx) ⟨t, rho, sg⟩
          lo us tab W sk.prng
        rw [LeakPlayer.play, hW, if_pos h1] at this
        exact this
      · obtain ⟨_, _, hk', hp⟩ := C77_update H L pf WF hk tar seed e
        rw [e]
        simp only []
        cases lo with
        | true =>
          rw [if_pos rfl]
          exact le_of_eq (caught_leak pf htt _ _ (by simp [LeakSigner.spoiled, hk.time]) tab W hSW hpk)
        | false =>
          rw [if_neg Bool.false_ne_true]
          simp only [HealPlayer.real, rerandomize_eq H.sha_len]
          rw [heal_draws_real H.sha_len, mix_eq, ← hp]
          by_cases h2 : tar ≤ t0
          · rw [if_pos h2]
            exact ih tar _ sg false false h2 sk' hk' tab W hW hpk hSW
          · rw [if_neg h2]
            exact le_of_eq (congrArg (fun z => (nx.only t0).chance E pf g n ⟨z, sg, [], false, false⟩
              tab W) (keyAs_key hk' sg))
    · rw [if_neg h1, (C15_update_outcome H.sha_len pf WF.toParamShape hk.keyFor tar seed).1 h1]
      exact ih t rho sg lo us htt sk hk tab W hW hpk hSW
  | refresh tar nx ih =>
    simp only [LeakPlayer.play, LeakPlayer.only, LeakPlayer.chance]
    rw [hW]
    by_cases h1 : t < tar ∧ tar ≤ 2 ^ pp.depth - 1
    · rw [if_pos h1]
      simp only [HealPlayer.real, rerandomize_eq H.sha_len]
      refine avg_mono fun s => ?_
      rw [heal_draws_real H.sha_len, mix_eq]
      rcases update_exact H.sha_len pf WF.toParamShape hk.keyFor h1.1 h1.2 s.bytes with
        ⟨_, e⟩ | ⟨_, sk', e, _⟩
      · rw [e]
        simp only []
        split_ifs
        · exact leak_play_real_nonneg H pf t0 x _ _ _ _ _ _ _
        · exact LeakPlayer.chance_nonneg pf _ _ _ _
      · obtain ⟨_, _, hk', hp⟩ := C77_update H L pf WF hk tar s.bytes e
        rw [e, ← hp]
        simp only []
        by_cases h2 : tar ≤ t0
        · rw [if_pos h2]
          exact ih tar _ sg false false h2 sk' hk' tab W hW hpk hSW
        · rw [if_neg h2]
          exact le_of_eq (congrArg (fun z => (nx.only t0).chance E pf g n ⟨z, sg, [], false, false⟩
            tab W) (keyAs_key hk' sg))
    · rw [if_neg h1]
      refine (avg_congr fun s => ?_).trans_le ((avg_const (α := Seed n) _).trans_le
        (ih t rho sg lo us htt sk hk tab W hW hpk hSW))
      rw [(C15_update_outcome H.sha_len pf WF.toParamShape hk.keyFor tar s.bytes).1 h1]
  | look nx ih =>
    simp only [LeakPlayer.play, LeakPlayer.only, LeakPlayer.chance]
    cases us with
    | true =>
      rw [if_pos rfl]
      exact le_of_eq (caught_leak pf htt _ _ (by simp [LeakSigner.spoiled, hk.time]) tab W hSW hpk)
    | false =>
      rw [if_neg Bool.false_ne_true]
      simp only [HealPlayer.real]
      exact ih _ t rho sg true false htt sk hk tab W hW hpk hSW
  | breakIn nx ih =>
    simp only [LeakPlayer.play, LeakPlayer.only, LeakPlayer.chance, HealPlayer.real]
    exact le_of_eq (caught_leak pf htt _ _ (by simp [LeakSigner.spoiled, hk.time]) tab W hSW hpk)
  | forge F =>
    simp only [LeakPlayer.play, LeakPlayer.only, HealPlayer.real]
    split_ifs <;> exact le_rfl

theorem leak_le_games [DecidableEq GT] (H : HashLaws E) (L : GroupLaws E) {d : Nat} {cs : UInt8}
    (hsub : E.inSub1 g = true) (hd : 0 < d) (hd' : d ≤ 63) (pf : Profile) (n : Nat)
    (A : World G1 G2 → LeakPlayer G1 G2) :
    leakForgeChance E pf g d cs n A ≤ ∑ t ∈ Finset.Icc 1 (2 ^ d - 1),
      avg fun K : Digest => (leakGame E pf g d cs n A t).real E.sha512 n ⟨K.bytes⟩ := by
  unfold leakForgeChance
  rw [avg_comm, ← avg_sum]
  refine avg_mono fun K => ?_
  simp only [leakGame, HealPlayer.real]
  rw [← avg_sum, ← avg_equiv (Fintype.equivFin (Secret d 0 → Fr)).symm]
  refine avg_mono fun c => ?_
  generalize (Fintype.equivFin (Secret d 0 → Fr)).symm c = a
  rw [sampleThenUpdate_eq H.sha_len]
  simp only []
  generalize hx : drawVal E.sha512 ⟨K.bytes⟩ (ascii "key initialization") = x
  have WF : ParamWF E (worldOf E g cs (Function.update a .x x) []).pp :=
    viewOf_wf (E := E) (cs := cs) L hsub hd hd' (toVar (Function.update a .x x))
  have hpk : (worldOf E g cs (Function.update a .x x) []).pk.ciphersuite =
    (worldOf E g cs (Function.update a .x x) []).pp.ciphersuite := rfl
  have hdep : (worldOf E g cs (Function.update a .x x) []).pp.depth = d := rfl
  generalize worldOf E g cs (Function.update a .x x) [] = W at *
  by_cases hc : Supported W.pp.ciphersuite
  swap
  · rw [init_unsupported hc]
    refine Finset.sum_nonneg fun t _ => ?_
    rw [sampleThenUpdate_eq H.sha_len]
    exact leak_play_real_nonneg H _ _ _ _ _ _ _ _ _ _
  obtain ⟨sk, h1, h2, h3⟩ := init_keyAs H L WF hc x
    (drawNext E.sha512 ⟨K.bytes⟩ (ascii "key initialization"))
  rw [h1]
  simp only []
  refine ((A W).chance_le_only pf ⟨sk, [], [], false, false⟩ [] W WF.toParamShape hpk
    (T := Finset.Icc 1 (2 ^ d - 1)) fun t v h => ?_).trans (Finset.sum_le_sum fun t ht => ?_)
  · rw [hdep] at h
    exact Finset.mem_Icc.2 (nodeAt_iff.1 h).1
  · rw [sampleThenUpdate_eq H.sha_len]
    simp only []
    rw [← h3]
    exact leak_le_play H L pf x WF t (A W) 1 _ [] false false (Finset.mem_Icc.1 ht).1 sk h2 [] W
      rfl hpk

/-! ## The generator is used with care -/

theorem heal_table_careful {u : Mark} {tab : Table} {msg : Bytes} {f : Digest → Table → HealPlayer}
    (h : ∀ D tab', (f D tab').Careful u) : (HealPlayer.table tab msg f).Careful u := by
  unfold HealPlayer.table
  rcases tab.lookup msg with _ | D
  · exact fun D => h _ _
  · exact h _ _

theorem heal_table_keys {k : Nat} {tab : Table} {msg : Bytes} {f : Digest → Table → HealPlayer}
    (h : ∀ D tab', (f D tab').Keys k) : (HealPlayer.table tab msg f).Keys k := by
  unfold HealPlayer.table
  rcases tab.lookup msg with _ | D
  · exact fun D => h _ _
  · exact h _ _

theorem heal_table_refreshes {k : Nat} {tab : Table} {msg : Bytes} {f : Digest → Table → HealPlayer}
    (h : ∀ D tab', (f D tab').Refreshes k) : (HealPlayer.table tab msg f).Refreshes k := by
  unfold HealPlayer.table
  rcases tab.lookup msg with _ | D
  · exact fun D => h _ _
  · exact h _ _

theorem heal_draws_careful {m : Nat} {k : List Fr → HealPlayer} (h : ∀ l, (k l).Careful .unused) :
    (HealPlayer.draws m k).Careful .unused := by
  induction m generalizing k with
  | zero => exact h []
  | succ m ih => exact fun r => ih fun l => h _

theorem heal_draws_keys {m j : Nat} {k : List Fr → HealPlayer} (h : ∀ l, (k l).Keys j) :
    (HealPlayer.draws m k).Keys (m + j) := by
  induction m generalizing k with
  | zero => rw [Nat.zero_add]; exact h []
  | succ m ih =>
    refine ⟨by omega, fun r => ?_⟩
    rw [show m + 1 + j - 1 = m + j by omega]
    exact ih fun l => h _

theorem heal_draws_refreshes {m j : Nat} {k : List Fr → HealPlayer} (h : ∀ l, (k l).Refreshes j) :
    (HealPlayer.draws m k).Refreshes j := by
  induction m generalizing k with
  | zero => exact h []
  | succ m ih => exact fun r => ih fun l => h _

theorem heal_keys_mono {P : HealPlayer} {k k' : Nat} (h : P.Keys k) (hk : k ≤ k') : P.Keys k' := by
  induction P generalizing k k' with
  | toss m hm next ih => exact fun c => ih c (h c) hk
  | sample info next ih => exact fun r => ih r (h r) hk
  | draw info next ih => exact ⟨by have := h.1; omega, fun r => ih r (h.2 r) (by omega)⟩
  | mix seed info next ih => exact ⟨by have := h.1; omega, ih h.2 (by omega)⟩
  | refresh info next ih => exact ⟨by have := h.1; omega, ih h.2 (by omega)⟩
  | leak next ih => exact fun p => ih p (h p) hk
  | stop out => trivial

/-- what is known of the state, by the record of the signer -/
def markFor : Bool → Bool → Mark
  | true, _ => .known
  | false, true => .used
  | false, false => .unused

theorem leak_play_careful [DecidableEq GT] (pf : Profile) (t0 : Nat) (x : Fr) (P : LeakPlayer G1 G2)
    (S : Known0) (lo us : Bool) (tab : Table) (W : World G1 G2) :
    (P.play E pf g n t0 x S lo us tab W).Careful (markFor lo us) := by
  induction P generalizing S lo us tab W with
  | toss m hm nx ih => exact fun c => ih c _ _ _ _ _
  | hash msg nx ih =>
    rw [LeakPlayer.play]
    exact heal_table_careful fun D tab' => ih _ _ _ _ _ _
  | point nx ih => exact fun c => ih _ _ _ _ _ _
  | sign msg nx ih =>
    rw [LeakPlayer.play]
    cases lo
    · rw [if_neg Bool.false_ne_true]
      refine heal_table_careful fun D tab' => ?_
      intro r
      have := ih (signatureOf W.pp x S.time D.field (S.rho.headD 0 + r))
        { S with signed := S.signed ++ [(S.time, msg)] } false true tab' W
      cases us <;> exact this
    · trivial
  | update tar seed nx ih =>
    simp only [LeakPlayer.play]
    by_cases h1 : S.time < tar ∧ tar ≤ 2 ^ W.pp.depth - 1
    · rw [if_pos h1]
      cases lo with
      | true => trivial
      | false =>
        have : (markFor false us).replaced = .unused := by cases us <;> rfl
        simp only [Bool.false_eq_true, if_false, HealPlayer.Careful, this]
        refine heal_draws_careful fun l => ?_
        split_ifs
        · exact ih _ false false _ _
        · exact ⟨by decide, fun _ => trivial⟩
    · rw [if_neg h1]
      exact ih _ _ _ _ _
  | refresh tar nx ih =>
    simp only [LeakPlayer.play]
    split_ifs
    · exact heal_draws_careful fun l => ih _ false false _ _
    · exact heal_draws_careful fun l => ⟨by decide, fun _ => trivial⟩
    · exact ih _ _ _ _ _
  | look nx ih =>
    simp only [LeakPlayer.play]
    split_ifs with hus
    · trivial
    · rw [Bool.not_eq_true] at hus
      subst hus
      exact ⟨by cases lo <;> decide, fun p => ih _ _ true false _ _⟩
  | breakIn nx ih => trivial
  | forge F => trivial

theorem leak_play_keys [DecidableEq GT] (pf : Profile) (t0 : Nat) (x : Fr) {d : Nat}
    (P : LeakPlayer G1 G2) (S : Known0) (lo us : Bool) (tab : Table) (W : World G1 G2)
    (hW : W.pp.depth = d) {u : Nat} (h : P.Updates u) :
    (P.play E pf g n t0 x S lo us tab W).Keys (u * (d + 2)) := by
  induction P generalizing S lo us tab W u with
  | toss m hm nx ih => exact fun c => ih c _ _ _ _ _ hW (h c)
  | hash msg nx ih =>
    rw [LeakPlayer.play]
    exact heal_table_keys fun D tab' => ih _ _ _ _ _ _ hW (h _)
  | point nx ih =>
    intro c
    refine ih _ _ _ _ _ _ ?_ (h _)
    exact hW
  | sign msg nx ih =>
    rw [LeakPlayer.play]
    split_ifs
    · trivial
    · exact heal_table_keys fun D tab' r => ih _ _ _ _ _ _ hW (h _)
  | update tar seed nx ih =>
    obtain ⟨hu, h⟩ := h
    obtain ⟨u, rfl⟩ := Nat.exists_eq_add_of_lt hu
    rw [show 0 + u + 1 = u + 1 by omega] at *
    rw [Nat.add_sub_cancel] at h
    have e : (u + 1) * (d + 2) = u * (d + 2) + (d + 2) := by ring
    simp only [LeakPlayer.play]
    rw [hW]
    have hd := drawsNeeded_le d S.time tar
    by_cases h1 : S.time < tar ∧ tar ≤ 2 ^ d - 1
    · rw [if_pos h1]
      split_ifs
      · trivial
      · exact ⟨by omega, heal_keys_mono (heal_draws_keys (j := u * (d + 2))
          fun l => ih _ _ _ _ _ hW h) (by omega)⟩
      · exact ⟨by omega, heal_keys_mono (heal_draws_keys (j := u * (d + 2))
          fun l => fun _ => trivial) (by omega)⟩
    · rw [if_neg h1]
      exact heal_keys_mono (ih _ _ _ _ _ hW h) (by omega)
  | refresh tar nx ih =>
    obtain ⟨hu, h⟩ := h
    obtain ⟨u, rfl⟩ := Nat.exists_eq_add_of_lt hu
    rw [show 0 + u + 1 = u + 1 by omega] at *
    rw [Nat.add_sub_cancel] at h
    have e : (u + 1) * (d + 2) = u * (d + 2) + (d + 2) := by ring
    simp only [LeakPlayer.play]
    rw [hW]
    have hd := drawsNeeded_le d S.time tar
    by_cases h1 : S.time < tar ∧ tar ≤ 2 ^ d - 1
    · rw [if_pos h1]
      split_ifs
      · exact ⟨by omega, heal_keys_mono (heal_draws_keys (j := u * (d + 2))
          fun l => ih _ _ _ _ _ hW h) (by omega)⟩
      · exact ⟨by omega, heal_keys_mono (heal_draws_keys (j := u * (d + 2))
          fun l => fun _ => trivial) (by omega)⟩
    · rw [if_neg h1]
      exact heal_keys_mono (ih _ _ _ _ _ hW h) (by omega)
  | look nx ih =>
    simp only [LeakPlayer.play]
    split_ifs
    · trivial
    · exact fun p => ih _ _ _ _ _ _ hW (h _)
  | breakIn nx ih => trivial
  | forge F => trivial

theorem heal_refreshes_mono {P : HealPlayer} {k k' : Nat} (h : P.Refreshes k) (hk : k ≤ k') :
    P.Refreshes k' := by
  induction P generalizing k k' with
  | toss m hm next ih => exact fun c => ih c (h c) hk
  | sample info next ih => exact fun r => ih r (h r) hk
  | draw info next ih => exact fun r => ih r (h r) hk
  | mix seed info next ih => exact ih h hk
  | refresh info next ih => exact ⟨by have := h.1; omega, ih h.2 (by omega)⟩
  | leak next ih => exact fun p => ih p (h p) hk
  | stop out => trivial

theorem leak_play_refreshes [DecidableEq GT] (pf : Profile) (t0 : Nat) (x : Fr)
    (P : LeakPlayer G1 G2) (S : Known0) (lo us : Bool) (tab : Table) (W : World G1 G2)
    {c : Nat} (h : P.Refreshes c) :
    (P.play E pf g n t0 x S lo us tab W).Refreshes c := by
  induction P generalizing S lo us tab W c with
  | toss m hm nx ih => exact fun i => ih i _ _ _ _ _ (h i)
  | hash msg nx ih =>
    rw [LeakPlayer.play]
    exact heal_table_refreshes fun D tab' => ih _ _ _ _ _ _ (h _)
  | point nx ih => exact fun c => ih _ _ _ _ _ _ (h _)
  | sign msg nx ih =>
    rw [LeakPlayer.play]
    split_ifs
    · trivial
    · exact heal_table_refreshes fun D tab' r => ih _ _ _ _ _ _ (h _)
  | update tar seed nx ih =>
    simp only [LeakPlayer.play]
    split_ifs
    · trivial
    · exact heal_draws_refreshes fun l => ih _ _ _ _ _ h
    · exact heal_draws_refreshes fun l => fun _ => trivial
    · exact ih _ _ _ _ _ h
  | refresh tar nx ih =>
    simp only [LeakPlayer.play]
    split_ifs
    · exact ⟨h.1, heal_draws_refreshes fun l => ih _ _ _ _ _ h.2⟩
    · exact ⟨h.1, heal_draws_refreshes fun l => fun _ => trivial⟩
    · exact heal_refreshes_mono (ih _ _ _ _ _ h.2) (by omega)
  | look nx ih =>
    simp only [LeakPlayer.play]
    split_ifs
    · trivial
    · exact fun p => ih _ _ _ _ _ _ (h _)
  | breakIn nx ih => trivial
  | forge F => trivial

/-! ## The adversary without leaks -/

theorem copied_le [DecidableEq GT] (pf : Profile) (t0 : Nat) (P : LeakPlayer G1 G2)
    (Z : LeakSigner G1 G2) (br : List Nat) (hbr : ∀ b ∈ br, t0 < b) (tab : Table)
    (W : World G1 G2) (hW : W.pp = pp) :
    (P.only t0).chance E pf g n Z tab W ≤
      ((P.copied E.sha512 pf n pp Z.sk).only t0).chance E pf g ⟨Z.sk, Z.signed, br⟩ tab W := by
  induction P generalizing Z tab W with
  | toss m hm nx ih => exact avg_mono fun c => ih c Z tab W hW
  | hash msg nx ih => exact oracle_mono fun D tab' => ih _ Z tab' W hW
  | point nx ih => exact avg_mono fun r => ih _ Z tab { W with answers := _ } hW
  | sign msg nx ih =>
    simp only [LeakPlayer.only, LeakPlayer.chance, LeakPlayer.copied, CodePlayer.only,
      CodePlayer.chance]
    refine oracle_mono fun D tab' => ?_
    rcases signHashed E.sha512 pf W.pp Z.sk msg D.field with s | e | e
    · exact ih s { Z with signed := _, broken := _, used := _ } tab' W hW
    · exact le_rfl
    · exact le_rfl
  | update tar seed nx ih =>
    simp only [LeakPlayer.only, LeakPlayer.chance, LeakPlayer.copied, CodePlayer.only,
      CodePlayer.chance]
    rw [hW]
    rcases SecretKey.update E.sha512 pf pp tar seed Z.sk with ⟨_ | e | e, sk⟩
    · exact ih { Z with sk := sk, broken := _, used := _ } tab W hW
    · exact ih { Z with sk := sk } tab W hW
    · exact le_rfl
  | refresh tar nx ih =>
    simp only [LeakPlayer.only, LeakPlayer.chance, LeakPlayer.copied, CodePlayer.only,
      CodePlayer.chance]
    rw [hW]
    refine avg_mono (α := Seed n) fun s => ?_
    rcases SecretKey.update E.sha512 pf pp tar (Seed.bytes s) Z.sk with ⟨_ | e | e, sk⟩
    · exact ih { Z with sk := sk, looked := _, used := _ } tab W hW
    · exact ih { Z with sk := sk } tab W hW
    · exact le_rfl
  | look nx ih => exact ih _ { Z with broken := _, looked := _ } tab W hW
  | breakIn nx ih => exact ih _ { Z with broken := _ } tab W hW
  | forge F =>
    simp only [LeakPlayer.only, LeakPlayer.copied, CodePlayer.only]
    split_ifs with hF
    · simp only [LeakPlayer.chance, CodePlayer.chance]
      refine oracle_mono fun D tab' => ?_
      split_ifs with h1 h2 h2
      · exact le_rfl
      · exact absurd ⟨h1.1, fun b hb => by rw [hF]; exact hbr b hb, h1.2.2⟩ h2
      · exact zero_le_one
      · exact le_rfl
    · simp only [LeakPlayer.chance, CodePlayer.chance]
      refine oracle_mono fun D tab' => ?_
      split_ifs with h1 h2 h2
      · exact le_rfl
      · refine absurd ⟨h1.1, fun b hb => ?_, h1.2.2⟩ h2
        exact (Nat.zero_le t0).trans_lt (hbr b hb)
      · exact zero_le_one
      · exact le_rfl

theorem draws_ideal_le {sha : Bytes → Bytes} {m : Nat} {k : List Fr → HealPlayer}
    {k' : List Fr → PrngPlayer} (h : ∀ l, (k l).ideal sha (.fresh []) ≤ (k' l).ideal []) :
    (HealPlayer.draws m k).ideal sha (.fresh []) ≤ (PrngPlayer.draws m k').ideal [] := by
  induction m generalizing k k' with
  | zero => exact h []
  | succ m ih =>
    simp only [HealPlayer.draws, PrngPlayer.draws, HealPlayer.ideal, PrngPlayer.ideal]
    exact oracle_mono fun D _ => ih fun l => h _

/-- the state in the ideal game, by what was seen -/
def stateFor : Option Prng → Table → HealState
  | some p, _ => .known p
  | none, tab => .fresh tab

theorem passed_le [DecidableEq GT] (pf : Profile) {t0 tar : Nat} (h : ¬ tar ≤ t0)
    (P : LeakPlayer G1 G2) {sk : SecretKey G1 G2} (ht : sk.time = tar) (sg : List (Nat × Bytes))
    (lo us : Bool) (tab : Table) (W : World G1 G2) (hW : W.pp = pp) :
    (P.only t0).chance E pf g n ⟨sk, sg, [], lo, us⟩ tab W ≤
      ((CodePlayer.breakIn fun sk => P.copied E.sha512 pf n pp sk).only t0).chance E pf g
        ⟨sk, sg, []⟩ tab W := by
  simp only [CodePlayer.only, CodePlayer.chance]
  refine copied_le pf t0 P ⟨sk, sg, [], lo, us⟩ _ (fun b hb => ?_) tab W hW
  rw [List.nil_append, List.mem_singleton] at hb
  omega

theorem shield_ideal [DecidableEq GT] (pf : Profile) (x : Fr) (t0 : Nat) (P : LeakPlayer G1 G2)
    (S : Known0) (se : Option Prng) (us : Bool) (ptab tab : Table) (W : World G1 G2)
    (hW : W.pp = pp) :
    (P.play E pf g n t0 x S se.isSome us tab W).ideal E.sha512 (stateFor se ptab) ≤
      ((P.shield E.sha512 pf n pp t0 S.time se us).play E pf g t0 x S tab W).ideal ptab := by
  have h0 : ∀ (S : Known0) (ptab tab : Table) (W : World G1 G2),
      0 ≤ ((CodePlayer.forge (.none : Claim G1 G2)).play E pf g t0 x S tab W).ideal ptab :=
    fun S ptab tab W => CodePlayer.chance_nonneg pf _ _ _ _
  induction P generalizing S se us ptab tab W with
  | toss m hm nx ih => exact avg_mono fun c => ih c S se us ptab tab W hW
  | hash msg nx ih =>
    rw [LeakPlayer.play, LeakPlayer.shield, CodePlayer.play, heal_table_ideal, table_ideal]
    exact oracle_mono fun D tab' => ih _ S se us ptab tab' W hW
  | point nx ih => exact avg_mono fun c => ih _ S se us ptab tab { W with answers := _ } hW
  | sign msg nx ih =>
    simp only [LeakPlayer.play, LeakPlayer.shield]
    rcases se with _ | p
    · simp only [Option.isSome_none, Bool.false_eq_true, if_false, CodePlayer.play]
      rw [heal_table_ideal, table_ideal]
      refine oracle_mono fun D tab' => ?_
      simp only [stateFor, HealPlayer.ideal, PrngPlayer.ideal]
      exact oracle_mono fun D' ptab' => ih _ { S with signed := _ } none true ptab' tab' W hW
    · exact h0 _ _ _ _
  | update tar seed nx ih =>
    simp only [LeakPlayer.play, LeakPlayer.shield]
    rw [hW]
    by_cases h1 : S.time < tar ∧ tar ≤ 2 ^ pp.depth - 1
    · rw [if_pos h1, if_pos h1]
      rcases se with _ | p
      · simp only [Option.isSome_none, Bool.false_eq_true, if_false, CodePlayer.play]
        rw [hW, if_pos h1]
        simp only [stateFor, HealPlayer.ideal, PrngPlayer.ideal]
        refine draws_ideal_le fun l => ?_
        by_cases h2 : tar ≤ t0
        · rw [if_pos h2, if_pos h2, if_pos h2]
          exact ih { S with time := tar, rho := _ } none false [] tab W hW
        · rw [if_neg h2, if_neg h2, if_neg h2]
          simp only [HealPlayer.ideal, PrngPlayer.ideal]
          exact avg_mono fun K => passed_le pf h2 nx rfl _ _ _ _ _ hW
      · exact h0 _ _ _ _
    · rw [if_neg h1, if_neg h1, CodePlayer.play, hW, if_neg h1]
      exact ih S se us ptab tab W hW
  | refresh tar nx ih =>
    simp only [LeakPlayer.play, LeakPlayer.shield]
    rw [hW]
    by_cases h1 : S.time < tar ∧ tar ≤ 2 ^ pp.depth - 1
    · rw [if_pos h1, if_pos h1, CodePlayer.play, hW, if_pos h1]
      have e : ∀ (nx : HealPlayer) (i : Bytes), (HealPlayer.refresh i nx).ideal E.sha512
          (stateFor se ptab) = nx.ideal E.sha512 (.fresh []) := by
        intro nx i
        rcases se with _ | p <;> simp only [HealPlayer.ideal]
      rw [e]
      simp only [PrngPlayer.ideal]
      refine draws_ideal_le fun l => ?_
      by_cases h2 : tar ≤ t0
      · rw [if_pos h2, if_pos h2, if_pos h2]
        exact ih { S with time := tar, rho := _ } none false [] tab W hW
      · rw [if_neg h2, if_neg h2, if_neg h2]
        simp only [HealPlayer.ideal, PrngPlayer.ideal]
        exact avg_mono fun K => passed_le pf h2 nx rfl _ _ _ _ _ hW
    · rw [if_neg h1, if_neg h1, CodePlayer.play, hW, if_neg h1]
      exact ih S se us ptab tab W hW
  | look nx ih =>
    rcases se with _ | p
    · simp only [LeakPlayer.play, LeakPlayer.shield]
      cases us with
      | true => exact h0 _ _ _ _
      | false =>
        simp only [Bool.false_eq_true, if_false, stateFor, HealPlayer.ideal, CodePlayer.play,
          PrngPlayer.ideal]
        exact avg_mono (α := Digest) fun K => ih _ S (some ⟨K.bytes⟩) false ptab tab W hW
    · simp only [LeakPlayer.play, LeakPlayer.shield]
      cases us with
      | true => exact h0 _ _ _ _
      | false =>
        simp only [Bool.false_eq_true, if_false, stateFor, HealPlayer.ideal]
        exact ih _ S (some p) false ptab tab W hW
  | breakIn nx ih => exact h0 _ _ _ _
  | forge F =>
    simp only [LeakPlayer.play, LeakPlayer.shield, CodePlayer.play, HealPlayer.ideal,
      PrngPlayer.ideal, LeakPlayer.only, CodePlayer.only]
    split_ifs <;> exact le_rfl

theorem copied_legal {sha : Bytes → Bytes} {pf : Profile} (P : LeakPlayer G1 G2) (h : P.Legal)
    (sk : SecretKey G1 G2) : (P.copied sha pf n pp sk).Legal := by
  induction P generalizing sk with
  | toss m hm nx ih => exact fun c => ih c (h c) _
  | hash msg nx ih => exact fun c => ih c (h c) _
  | point nx ih => exact fun c => ih c (h c) _
  | sign msg nx ih => exact fun c => ih c (h c) _
  | update tar seed nx ih => exact ih h _
  | refresh tar nx ih => exact fun c => ih h _
  | look nx ih => exact ih _ (h _) _
  | breakIn nx ih => exact ih _ (h _) _
  | forge F => exact h

theorem copied_points {sha : Bytes → Bytes} {pf : Profile} (P : LeakPlayer G1 G2) {k : Nat}
    (h : P.Points k) (sk : SecretKey G1 G2) : (P.copied sha pf n pp sk).Points k := by
  induction P generalizing sk k with
  | toss m hm nx ih => exact fun c => ih c (h c) _
  | hash msg nx ih => exact fun c => ih c (h c) _
  | point nx ih => exact ⟨h.1, fun c => ih c (h.2 c) _⟩
  | sign msg nx ih => exact fun c => ih c (h c) _
  | update tar seed nx ih => exact ih h _
  | refresh tar nx ih => exact fun c => ih h _
  | look nx ih => exact ih _ (h _) _
  | breakIn nx ih => exact ih _ (h _) _
  | forge F => trivial

theorem copied_hashes {sha : Bytes → Bytes} {pf : Profile} (P : LeakPlayer G1 G2) {k : Nat}
    (h : P.Hashes k) (sk : SecretKey G1 G2) : (P.copied sha pf n pp sk).Hashes k := by
  induction P generalizing sk k with
  | toss m hm nx ih => exact fun c => ih c (h c) _
  | hash msg nx ih => exact ⟨h.1, fun c => ih c (h.2 c) _⟩
  | point nx ih => exact fun c => ih c (h c) _
  | sign msg nx ih => exact ⟨h.1, fun c => ih c (h.2 c) _⟩
  | update tar seed nx ih => exact ih h _
  | refresh tar nx ih => exact fun c => ih h _
  | look nx ih => exact ih _ (h _) _
  | breakIn nx ih => exact ih _ (h _) _
  | forge F => exact h

theorem copied_scalars {sha : Bytes → Bytes} {pf : Profile} (P : LeakPlayer G1 G2) {d k : Nat}
    (h : P.Scalars d k) (sk : SecretKey G1 G2) : (P.copied sha pf n pp sk).Scalars d k := by
  induction P generalizing sk k with
  | toss m hm nx ih => exact fun c => ih c (h c) _
  | hash msg nx ih => exact fun c => ih c (h c) _
  | point nx ih => exact fun c => ih c (h c) _
  | sign msg nx ih => exact ⟨h.1, fun c => ih c (h.2 c) _⟩
  | update tar seed nx ih => exact ⟨h.1, ih h.2 _⟩
  | refresh tar nx ih => exact fun c => ⟨h.1, ih h.2 _⟩
  | look nx ih => exact ih _ (h _) _
  | breakIn nx ih => exact ih _ (h _) _
  | forge F => trivial

theorem leak_hashes_pos [Nonempty G1] [Nonempty G2] {P : LeakPlayer G1 G2} {k : Nat}
    (h : P.Hashes k) : 0 < k := by
  induction P generalizing k with
  | toss m hm nx ih => exact ih ⟨0, hm⟩ (h _)
  | hash msg nx ih => exact h.1
  | point nx ih => exact ih 0 (h _)
  | sign msg nx ih => exact h.1
  | update tar seed nx ih => exact ih h
  | refresh tar nx ih => exact ih h
  | look nx ih => exact ih ⟨[]⟩ (h _)
  | breakIn nx ih => exact ih ⟨0, 0, [], ⟨[]⟩⟩ (h _)
  | forge F => exact h

theorem shield_legal {sha : Bytes → Bytes} {pf : Profile} {t0 : Nat} (P : LeakPlayer G1 G2)
    (h : P.Legal) (t : Nat) (se : Option Prng) (us : Bool) :
    (P.shield sha pf n pp t0 t se us).Legal := by
  induction P generalizing t se us with
  | toss m hm nx ih => exact fun c => ih c (h c) _ _ _
  | hash msg nx ih => exact fun c => ih c (h c) _ _ _
  | point nx ih => exact fun c => ih c (h c) _ _ _
  | sign msg nx ih =>
    simp only [LeakPlayer.shield]
    split_ifs
    · exact one_lt_order
    · exact fun c => ih c (h c) _ _ _
  | update tar seed nx ih =>
    simp only [LeakPlayer.shield]
    split_ifs
    · exact one_lt_order
    · exact ih h _ _ _
    · exact fun sk => copied_legal nx h _
    · exact ih h _ _ _
  | refresh tar nx ih =>
    simp only [LeakPlayer.shield]
    split_ifs
    · exact ih h _ _ _
    · exact fun sk => copied_legal nx h _
    · exact ih h _ _ _
  | look nx ih =>
    rcases se with _ | p
    · simp only [LeakPlayer.shield]
      split_ifs
      · exact one_lt_order
      · exact fun K => ih _ (h _) _ _ _
    · simp only [LeakPlayer.shield]
      split_ifs
      · exact one_lt_order
      · exact ih _ (h _) _ _ _
  | breakIn nx ih => exact one_lt_order
  | forge F => exact h

theorem shield_points {sha : Bytes → Bytes} {pf : Profile} {t0 : Nat} (P : LeakPlayer G1 G2)
    {k : Nat} (h : P.Points k) (t : Nat) (se : Option Prng) (us : Bool) :
    (P.shield sha pf n pp t0 t se us).Points k := by
  induction P generalizing t se us k with
  | toss m hm nx ih => exact fun c => ih c (h c) _ _ _
  | hash msg nx ih => exact fun c => ih c (h c) _ _ _
  | point nx ih => exact ⟨h.1, fun c => ih c (h.2 c) _ _ _⟩
  | sign msg nx ih =>
    simp only [LeakPlayer.shield]
    split_ifs
    · trivial
    · exact fun c => ih c (h c) _ _ _
  | update tar seed nx ih =>
    simp only [LeakPlayer.shield]
    split_ifs
    · trivial
    · exact ih h _ _ _
    · exact fun sk => copied_points nx h _
    · exact ih h _ _ _
  | refresh tar nx ih =>
    simp only [LeakPlayer.shield]
    split_ifs
    · exact ih h _ _ _
    · exact fun sk => copied_points nx h _
    · exact ih h _ _ _
  | look nx ih =>
    rcases se with _ | p
    · simp only [LeakPlayer.shield]
      split_ifs
      · trivial
      · exact fun K => ih _ (h _) _ _ _
    · simp only [LeakPlayer.shield]
      split_ifs
      · trivial
      · exact ih _ (h _) _ _ _
  | breakIn nx ih => trivial
  | forge F => trivial

theorem shield_hashes {sha : Bytes → Bytes} {pf : Profile} {t0 : Nat} (P : LeakPlayer G1 G2)
    {k : Nat} (h : P.Hashes k) (t : Nat) (se : Option Prng) (us : Bool) :
    (P.shield sha pf n pp t0 t se us).Hashes k := by
  induction P generalizing t se us k with
  | toss m hm nx ih => exact fun c => ih c (h c) _ _ _
  | hash msg nx ih => exact ⟨h.1, fun c => ih c (h.2 c) _ _ _⟩
  | point nx ih => exact fun c => ih c (h c) _ _ _
  | sign msg nx ih =>
    simp only [LeakPlayer.shield]
    split_ifs
    · exact h.1
    · exact ⟨h.1, fun c => ih c (h.2 c) _ _ _⟩
  | update tar seed nx ih =>
    simp only [LeakPlayer.shield]
    split_ifs
    · exact leak_hashes_pos (P := nx) h
    · exact ih h _ _ _
    · exact fun sk => copied_hashes nx h _
    · exact ih h _ _ _
  | refresh tar nx ih =>
    simp only [LeakPlayer.shield]
    split_ifs
    · exact ih h _ _ _
    · exact fun sk => copied_hashes nx h _
    · exact ih h _ _ _
  | look nx ih =>
    rcases se with _ | p
    · simp only [LeakPlayer.shield]
      split_ifs
      · exact leak_hashes_pos (P := nx ⟨[]⟩) (h _)
      · exact fun K => ih _ (h _) _ _ _
    · simp only [LeakPlayer.shield]
      split_ifs
      · exact leak_hashes_pos (P := nx ⟨[]⟩) (h _)
      · exact ih _ (h _) _ _ _
  | breakIn nx ih => exact leak_hashes_pos (P := nx ⟨0, 0, [], ⟨[]⟩⟩) (h _)
  | forge F => exact h

theorem shield_scalars {sha : Bytes → Bytes} {pf : Profile} {t0 : Nat} (P : LeakPlayer G1 G2)
    {d k : Nat} (h : P.Scalars d k) (t : Nat) (se : Option Prng) (us : Bool) :
    (P.shield sha pf n pp t0 t se us).Scalars d k := by
  induction P generalizing t se us k with
  | toss m hm nx ih => exact fun c => ih c (h c) _ _ _
  | hash msg nx ih => exact fun c => ih c (h c) _ _ _
  | point nx ih => exact fun c => ih c (h c) _ _ _
  | sign msg nx ih =>
    simp only [LeakPlayer.shield]
    split_ifs
    · trivial
    · exact ⟨h.1, fun c => ih c (h.2 c) _ _ _⟩
  | update tar seed nx ih =>
    simp only [LeakPlayer.shield]
    split_ifs
    · trivial
    · exact ⟨h.1, ih h.2 _ _ _⟩
    · exact ⟨h.1, fun sk => copied_scalars nx h.2 _⟩
    · exact ⟨h.1, ih h.2 _ _ _⟩
  | refresh tar nx ih =>
    simp only [LeakPlayer.shield]
    split_ifs
    · exact ⟨h.1, ih h.2 _ _ _⟩
    · exact ⟨h.1, fun sk => copied_scalars nx h.2 _⟩
    · exact ⟨h.1, ih h.2 _ _ _⟩
  | look nx ih =>
    rcases se with _ | p
    · simp only [LeakPlayer.shield]
      split_ifs
      · trivial
      · exact fun K => ih _ (h _) _ _ _
    · simp only [LeakPlayer.shield]
      split_ifs
      · trivial
      · exact ih _ (h _) _ _ _
  | breakIn nx ih => trivial
  | forge F => trivial

theorem shield_game [DecidableEq GT] (pf : Profile) {d : Nat} {cs : UInt8}
    (A : World G1 G2 → LeakPlayer G1 G2) (t0 : Nat) :
    (leakGame E pf g d cs n A t0).ideal E.sha512 (.fresh []) ≤
      (codeGame E pf g d cs (leakShield E.sha512 pf n t0 A) t0).ideal [] := by
  simp only [leakGame, codeGame, HealPlayer.ideal, PrngPlayer.ideal]
  exact avg_mono fun c => oracle_mono fun D _ => oracle_mono fun D' _ =>
    shield_ideal pf _ t0 _ ⟨1, _, []⟩ none false [] [] _ rfl

theorem leak_game_careful [DecidableEq GT] (pf : Profile) (d : Nat) (cs : UInt8)
    (A : World G1 G2 → LeakPlayer G1 G2) (t0 : Nat) :
    (leakGame E pf g d cs n A t0).Careful .unused :=
  fun _ _ _ => leak_play_careful pf t0 _ _ _ false false _ _

theorem leak_game_keys [DecidableEq GT] (pf : Profile) (d : Nat) (cs : UInt8)
    (A : World G1 G2 → LeakPlayer G1 G2) (t0 : Nat) {u : Nat} (h : ∀ W, (A W).Updates u) :
    (leakGame E pf g d cs n A t0).Keys (u * (d + 2) + 2) :=
  fun _ => ⟨by omega, fun _ => ⟨by omega, fun _ => leak_play_keys pf t0 _ _ _ _ _ _ _ rfl (h _)⟩⟩

theorem leak_game_refreshes [DecidableEq GT] (pf : Profile) (d : Nat) (cs : UInt8)
    (A : World G1 G2 → LeakPlayer G1 G2) (t0 : Nat) {c : Nat} (h : ∀ W, (A W).Refreshes c) :
    (leakGame E pf g d cs n A t0).Refreshes c :=
  fun _ _ _ => leak_play_refreshes pf t0 _ _ _ _ _ _ _ (h _)

/-- the reduction for the signer whose generator leaks -/
theorem leakForgeChance_le [DecidableEq GT] (H : HashLaws E) (L : GroupLaws E) {d : Nat} {cs : UInt8}
    (hsub : E.inSub1 g = true) (hd : 0 < d) (hd' : d ≤ 63) (pf : Profile) (n : Nat)
    (A : World G1 G2 → LeakPlayer G1 G2) (hA : ∀ W, (A W).Legal) {m : Nat}
    (hm : ∀ W, (A W).Points m) {Q : Nat} (hQ : ∀ W, (A W).Hashes Q) {u : Nat}
    (hu : ∀ W, (A W).Updates u) {c : Nat} (hc : ∀ W, (A W).Refreshes c) {k : Nat}
    (hk : ∀ W, (A W).Scalars d k) :
    leakForgeChance E pf g d cs n A ≤
      ∑ t ∈ Finset.Icc 1 (2 ^ d - 1), (∑ i ∈ Finset.range Q,
        (solveChance E g d (roReduction E cs d (path d t) i
            (apiBet pf d t (codeLift E.sha512 pf t (leakShield E.sha512 pf n t A)))) +
          ((m + 1) / rOrder + Q / 2 ^ 254)) +
        ∑ j ∈ Finset.range (u * (d + 2) + 3),
          prfGain E.sha512 (prfAttack E.sha512 ((leakGame E pf g d cs n A t).live E.sha512 n) j) +
        ∑ i ∈ Finset.range c, (((leakGame E pf g d cs n A t).entry E.sha512 n i (.fresh [])).gain
            E.sha512 n +
          ∑ j ∈ Finset.range (u * (d + 2) + 3), prfGain E.sha512 (prfAttack E.sha512
            ((leakGame E pf g d cs n A t).period E.sha512 n i (.fresh [])) j)) +
        (k + 2) * (1 / 2 ^ 257)) := by
  refine (leak_le_games H L hsub hd hd' pf n A).trans (Finset.sum_le_sum fun t ht => ?_)
  have hv : ValidTime d t := Finset.mem_Icc.1 ht
  have h1 := C85_from_uniform H.sha_len n (leakGame E pf g d cs n A t) (leak_game_careful pf d cs A t)
    (leak_game_keys pf d cs A t hu) (leak_game_refreshes pf d cs A t hc)
  have h5 := shield_game (E := E) (g := g) (n := n) (d := d) (cs := cs) pf A t
  have h2 := ideal_le_api (cs := cs) L hsub hd hd' pf (leakShield E.sha512 pf n t A)
    (fun W => shield_scalars (A W) (hk W) _ _ _) hv.1
  have h3 := api_le_ro (cs := cs) L hsub hd hd' pf E.sha512 (leakShield E.sha512 pf n t A) hv
  have h4 := roForgeChance_le (cs := cs) L hsub hd hd' pf
    (apiBet pf d t (codeLift E.sha512 pf t (leakShield E.sha512 pf n t A)))
    (fun W => bet_legal pf _ (lift_legal _ (shield_legal (A W) (hA W) _ _ _) _ _) .start
      ⟨le_refl 1, hv.1.trans hv.2⟩)
    (fun W => bet_points pf _ m (lift_points _ (shield_points (A W) (hm W) _ _ _) _ _) .start)
    (fun W => bet_hashes pf _ Q (lift_hashes _ (shield_hashes (A W) (hQ W) _ _ _) _ _) .start) {t}
    (path d)
    (fun t' ht' => by
      rw [Finset.mem_singleton.1 ht']
      exact nodeAt_iff.2 ⟨hv, rfl⟩)
    (fun W => bet_aims pf _ .start)
  rw [Finset.sum_product, Finset.sum_singleton] at h4
  generalize (1 : ℚ) / 2 ^ 257 = δ at *
  generalize (Q : ℚ) / 2 ^ 254 = z at *
  linarith

end Pixel
