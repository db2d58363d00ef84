import Verif.Spec.Api
import Verif.Proof.Signer

/-!
# The game against a signer: proofs
-/

namespace Pixel

open Spec Props

set_option linter.unusedSectionVars false

variable {G1 G2 GT : Type} [AddCommGroup G1] [AddCommGroup G2] [CommGroup GT]
  {E : Ext G1 G2 GT} {g : G1} {pp : PubParam G1 G2}

/-! ## Averages and the oracle -/

theorem avg_zero {α : Type} [Fintype α] {f : α → ℚ} (h : ∀ a, f a = 0) : avg f = 0 := by
  unfold avg
  rw [Finset.sum_eq_zero fun a _ => h a, zero_div]

theorem avgs_zero {n : Nat} {f : List Fr → ℚ} (h : ∀ l, f l = 0) : avgs n f = 0 := by
  rw [avgs_congr fun l _ => h l, avgs_const]

theorem avgs_nonneg {n : Nat} {f : List Fr → ℚ} (h : ∀ l, 0 ≤ f l) : 0 ≤ avgs n f := by
  rw [← avgs_const n 0]
  exact avgs_mono fun l _ => h l

theorem avgs_sum {ι : Type} (s : Finset ι) (n : Nat) (f : ι → List Fr → ℚ) :
    avgs n (fun l => ∑ i ∈ s, f i l) = ∑ i ∈ s, avgs n (f i) := by
  induction n generalizing f with
  | zero => rfl
  | succ n ih =>
    simp only [avgs]
    rw [← avg_sum]
    exact avg_congr fun r => ih fun i l => f i (r :: l)

theorem oracle_mono {tab : Table} {msg : Bytes} {f f' : Digest → Table → ℚ}
    (h : ∀ D tab', f D tab' ≤ f' D tab') : oracle tab msg f ≤ oracle tab msg f' := by
  unfold oracle
  rcases tab.lookup msg with _ | D
  · exact avg_mono fun D => h _ _
  · exact h _ _

theorem oracle_congr {tab : Table} {msg : Bytes} {f f' : Digest → Table → ℚ}
    (h : ∀ D tab', f D tab' = f' D tab') : oracle tab msg f = oracle tab msg f' := by
  rw [show f = f' from funext fun D => funext fun tab' => h D tab']

theorem oracle_zero {tab : Table} {msg : Bytes} {f : Digest → Table → ℚ}
    (h : ∀ D tab', f D tab' = 0) : oracle tab msg f = 0 := by
  unfold oracle
  rcases tab.lookup msg with _ | D
  · exact avg_zero fun D => h _ _
  · exact h _ _

theorem oracle_nonneg {tab : Table} {msg : Bytes} {f : Digest → Table → ℚ}
    (h : ∀ D tab', 0 ≤ f D tab') : 0 ≤ oracle tab msg f := by
  rw [← oracle_zero (tab := tab) (msg := msg) (f := fun _ _ => 0) fun _ _ => rfl]
  exact oracle_mono h

theorem oracle_sum {ι : Type} {s : Finset ι} {tab : Table} {msg : Bytes}
    (f : ι → Digest → Table → ℚ) :
    oracle tab msg (fun D tab' => ∑ i ∈ s, f i D tab') = ∑ i ∈ s, oracle tab msg (f i) := by
  unfold oracle
  rcases tab.lookup msg with _ | D
  · exact avg_sum s fun i D => f i D (tab ++ [(msg, D)])
  · rfl

theorem oracle_avgs {n : Nat} {tab : Table} {msg : Bytes} (f : List Fr → Digest → Table → ℚ) :
    (avgs n fun l => oracle tab msg (f l)) = oracle tab msg fun D tab' => avgs n fun l => f l D tab' := by
  unfold oracle
  rcases tab.lookup msg with _ | D
  · exact (avg_avgs n fun D l => f l D (tab ++ [(msg, D)])).symm
  · rfl

theorem Spec.RoPlayer.chance_nonneg [DecidableEq GT] (pf : Profile) (x : Fr) (P : RoPlayer G1 G2)
    (qs : List RoQuery) (tab : Table) (W : World G1 G2) : 0 ≤ P.chance E pf g x qs tab W := by
  induction P generalizing qs tab W with
  | toss _ _ n ih => exact avg_nonneg fun c => ih c _ _ _
  | hash msg n ih => exact oracle_nonneg fun D tab' => ih _ _ _ _
  | ask q n ih =>
    cases q with
    | subKey t' v => exact avg_nonneg fun r => ih _ _ _ _
    | point => exact avg_nonneg fun r => ih _ _ _ _
    | signature t' v msg => exact oracle_nonneg fun D tab' => avg_nonneg fun r => ih _ _ _ _
  | forge F =>
    simp only [RoPlayer.chance]
    exact oracle_nonneg fun D tab' => by split_ifs <;> norm_num

theorem Spec.ApiPlayer.chance_nonneg [DecidableEq GT] (pf : Profile) (x : Fr) (P : ApiPlayer G1 G2)
    (S : Signer) (tab : Table) (W : World G1 G2) : 0 ≤ P.chance E pf g x S tab W := by
  induction P generalizing S tab W with
  | toss _ _ n ih => exact avg_nonneg fun c => ih c _ _ _
  | hash msg n ih => exact oracle_nonneg fun D tab' => ih _ _ _ _
  | point n ih => exact avg_nonneg fun r => ih _ _ _ _
  | sign msg n ih => exact oracle_nonneg fun D tab' => avg_nonneg fun r => ih _ _ _ _
  | update tar n ih =>
    simp only [ApiPlayer.chance]
    split_ifs
    · exact avgs_nonneg fun rs => ih _ _ _
    · exact ih _ _ _
  | breakIn n ih => exact ih _ _ _ _ _
  | forge F =>
    simp only [ApiPlayer.chance]
    exact oracle_nonneg fun D tab' => by split_ifs <;> norm_num

/-! ## Claims for one time only -/

/-- the adversary gives up if its claim would not be for time `t0` -/
def Spec.ApiPlayer.only (t0 : Nat) : ApiPlayer G1 G2 → ApiPlayer G1 G2
  | .toss m hm n => .toss m hm fun c => (n c).only t0
  | .hash msg n => .hash msg fun b => (n b).only t0
  | .point n => .point fun p => (n p).only t0
  | .sign msg n => .sign msg fun s => (n s).only t0
  | .update tar n => .update tar (n.only t0)
  | .breakIn n => .breakIn fun l s => (n l s).only t0
  | .forge F => if F.time = t0 then .forge F else .forge .none

/-- the claim that cannot win does not -/
theorem none_accepted [DecidableEq GT] (D : Digest) (pf : Profile) {W : World G1 G2}
    (S : ParamShape W.pp) (hpk : W.pk.ciphersuite = W.pp.ciphersuite) :
    ¬ (Claim.none : Claim G1 G2).Accepted { E with sha512 := fun _ => D.bytes } pf W := by
  intro h
  obtain ⟨v, hv⟩ := accepted_time (digest_laws E D) pf S h hpk
  have := (nodeAt_iff.1 hv).1.1
  exact absurd this (by simp [Claim.none])

theorem none_chance [DecidableEq GT] (pf : Profile) (x : Fr) {W : World G1 G2}
    (S : ParamShape W.pp) (hpk : W.pk.ciphersuite = W.pp.ciphersuite) (Z : Signer) (tab : Table) :
    (ApiPlayer.forge .none).chance E pf g x Z tab W = 0 := by
  simp only [ApiPlayer.chance]
  refine oracle_zero fun D tab' => if_neg fun h => none_accepted D pf S hpk h.1

theorem Spec.ApiPlayer.chance_le_only [DecidableEq GT] (pf : Profile) (x : Fr)
    (P : ApiPlayer G1 G2) (Z : Signer) (tab : Table) (W : World G1 G2) (S : ParamShape W.pp)
    (hpk : W.pk.ciphersuite = W.pp.ciphersuite) {T : Finset Nat}
    (hT : ∀ t v, NodeAt W.pp.depth t v → t ∈ T) :
    P.chance E pf g x Z tab W ≤ ∑ t ∈ T, (P.only t).chance E pf g x Z tab W := by
  induction P generalizing Z tab W with
  | toss m hm n ih =>
    simp only [ApiPlayer.chance, ApiPlayer.only]
    rw [← avg_sum]
    exact avg_mono fun c => ih c Z tab W S hpk hT
  | hash msg n ih =>
    simp only [ApiPlayer.chance, ApiPlayer.only]
    rw [← oracle_sum]
    exact oracle_mono fun D tab' => ih _ Z tab' W S hpk hT
  | point n ih =>
    simp only [ApiPlayer.chance, ApiPlayer.only]
    rw [← avg_sum]
    exact avg_mono fun r => ih _ Z tab { W with answers := _ } S hpk hT
  | sign msg n ih =>
    simp only [ApiPlayer.chance, ApiPlayer.only]
    rw [← oracle_sum]
    refine oracle_mono fun D tab' => ?_
    rw [← avg_sum]
    exact avg_mono fun r => ih _ _ tab' W S hpk hT
  | update tar n ih =>
    simp only [ApiPlayer.chance, ApiPlayer.only]
    split_ifs
    · rw [← avgs_sum]
      exact avgs_mono fun rs _ => ih _ tab W S hpk hT
    · exact ih Z tab W S hpk hT
  | breakIn n ih =>
    simp only [ApiPlayer.chance, ApiPlayer.only]
    exact ih _ _ _ tab W S hpk hT
  | forge F =>
    by_cases hF : F.time ∈ T
    · refine le_trans ?_ (Finset.single_le_sum
        (fun t _ => ApiPlayer.chance_nonneg pf x _ Z tab W) hF)
      simp only [ApiPlayer.only, if_true]
      exact le_rfl
    · refine le_trans (le_of_eq ?_) (Finset.sum_nonneg
        fun t _ => ApiPlayer.chance_nonneg pf x _ Z tab W)
      simp only [ApiPlayer.chance]
      refine oracle_zero fun D tab' => if_neg fun h => hF ?_
      obtain ⟨v, hv⟩ := accepted_time (digest_laws E D) pf S h.1 hpk
      exact hT _ v hv

/-- after a break-in at time `t0` or before nothing can be won -/
theorem caught_chance [DecidableEq GT] (pf : Profile) (x : Fr) {t0 b : Nat} (hb : b ≤ t0)
    (P : ApiPlayer G1 G2) (Z : Signer) (hZ : b ∈ Z.broken) (tab : Table) (W : World G1 G2)
    (S : ParamShape W.pp) (hpk : W.pk.ciphersuite = W.pp.ciphersuite) :
    (P.only t0).chance E pf g x Z tab W = 0 := by
  induction P generalizing Z tab W with
  | toss m hm n ih =>
    simp only [ApiPlayer.chance, ApiPlayer.only]
    exact avg_zero fun c => ih c Z hZ tab W S hpk
  | hash msg n ih =>
    simp only [ApiPlayer.chance, ApiPlayer.only]
    exact oracle_zero fun D tab' => ih _ Z hZ tab' W S hpk
  | point n ih =>
    simp only [ApiPlayer.chance, ApiPlayer.only]
    exact avg_zero fun r => ih _ Z hZ tab { W with answers := _ } S hpk
  | sign msg n ih =>
    simp only [ApiPlayer.chance, ApiPlayer.only]
    exact oracle_zero fun D tab' => avg_zero fun r => ih _ (Z.after msg r) hZ tab' W S hpk
  | update tar n ih =>
    simp only [ApiPlayer.chance, ApiPlayer.only]
    split_ifs
    · exact avgs_zero fun rs => ih (Z.updated _ _ _) hZ tab W S hpk
    · exact ih Z hZ tab W S hpk
  | breakIn n ih =>
    simp only [ApiPlayer.chance, ApiPlayer.only]
    exact ih _ _ Z.caught (List.mem_append_left _ hZ) tab W S hpk
  | forge F =>
    simp only [ApiPlayer.only]
    split_ifs with hF
    · simp only [ApiPlayer.chance]
      refine oracle_zero fun D tab' => if_neg fun h => ?_
      have := h.2.1 b hZ
      omega
    · exact none_chance pf x S hpk Z tab

/-! ## Asking for a whole key, and throwing dice for scalars -/

/-- dice for a scalar -/
def dieEquiv : Fin rOrder ≃ Fr where
  toFun c := (c.val : Fr)
  invFun z := ⟨z.val, ZMod.val_lt z⟩
  left_inv c := Fin.ext (by simp only []; rw [ZMod.val_natCast, Nat.mod_eq_of_lt c.isLt])
  right_inv z := ZMod.natCast_zmod_val z

theorem scalars_chance [DecidableEq GT] (pf : Profile) (x : Fr) (n : Nat)
    (k : List Fr → RoPlayer G1 G2) (qs : List RoQuery) (tab : Table) (W : World G1 G2) :
    (RoPlayer.scalars n k).chance E pf g x qs tab W =
      avgs n fun l => (k l).chance E pf g x qs tab W := by
  induction n generalizing k with
  | zero => rfl
  | succ n ih =>
    simp only [RoPlayer.scalars, RoPlayer.chance, avgs]
    rw [avg_congr fun c => ih _]
    exact avg_equiv dieEquiv fun r => avgs n fun l => (k (r :: l)).chance E pf g x qs tab W

theorem fetch_chance [DecidableEq GT] (pf : Profile) (x : Fr) (ss : List Nat)
    (k : List (SubSecretKey G1 G2) → RoPlayer G1 G2) (qs : List RoQuery) (tab : Table)
    (W : World G1 G2) :
    (RoPlayer.fetch W.pp.depth ss k).chance E pf g x qs tab W =
      avgs ss.length fun rho => (k (List.zipWith (subKeyOf W.pp x) ss rho)).chance E pf g x
        (qs ++ ss.map fun s => .subKey s (path W.pp.depth s)) tab
        { W with answers := W.answers ++
            (List.zipWith (subKeyOf W.pp x) ss rho).map Answer.subKey } := by
  induction ss generalizing k qs W with
  | nil => simp [RoPlayer.fetch, avgs]
  | cons s ss ih =>
    simp only [RoPlayer.fetch, RoPlayer.chance, List.length_cons, avgs]
    refine avg_congr fun r => ?_
    have := ih (fun l => k (subKeyOf W.pp x s r :: l)) (qs ++ [.subKey s (path W.pp.depth s)])
      { W with answers := W.answers ++ [.subKey (subKeyOf W.pp x s r)] }
    simp only [List.append_assoc] at this
    exact this

theorem fetch_legal {d : Nat} {ss : List Nat} (hs : ∀ s ∈ ss, ValidTime d s)
    {k : List (SubSecretKey G1 G2) → RoPlayer G1 G2} (hk : ∀ l, (k l).Legal d) :
    (RoPlayer.fetch d ss k).Legal d := by
  induction ss generalizing k with
  | nil => exact hk []
  | cons s ss ih =>
    refine ⟨nodeAt_iff.2 ⟨hs s (by simp), rfl⟩, fun a => ?_⟩
    have hs' : ∀ s ∈ ss, ValidTime d s := fun s h => hs s (by simp [h])
    cases a with
    | subKey key => exact ih hs' fun l => hk _
    | signature _ => exact ih hs' hk
    | point _ => exact ih hs' hk

theorem fetch_points {d : Nat} {ss : List Nat} {m : Nat}
    {k : List (SubSecretKey G1 G2) → RoPlayer G1 G2} (hk : ∀ l, (k l).Points m) :
    (RoPlayer.fetch d ss k).Points m := by
  induction ss generalizing k with
  | nil => exact hk []
  | cons s ss ih =>
    intro a
    cases a with
    | subKey key => exact ih fun l => hk _
    | signature _ => exact ih hk
    | point _ => exact ih hk

theorem fetch_hashes {d : Nat} {ss : List Nat} {m : Nat}
    {k : List (SubSecretKey G1 G2) → RoPlayer G1 G2} (hk : ∀ l, (k l).Hashes m) :
    (RoPlayer.fetch d ss k).Hashes m := by
  induction ss generalizing k with
  | nil => exact hk []
  | cons s ss ih =>
    intro a
    cases a with
    | subKey key => exact ih fun l => hk _
    | signature _ => exact ih hk
    | point _ => exact ih hk

theorem fetch_aims {d : Nat} {T : Finset Nat} {ss : List Nat}
    {k : List (SubSecretKey G1 G2) → RoPlayer G1 G2} (hk : ∀ l, (k l).Aims d T) :
    (RoPlayer.fetch d ss k).Aims d T := by
  induction ss generalizing k with
  | nil => exact hk []
  | cons s ss ih =>
    intro a
    cases a with
    | subKey key => exact ih fun l => hk _
    | signature _ => exact ih hk
    | point _ => exact ih hk

theorem scalars_legal {d n : Nat} {k : List Fr → RoPlayer G1 G2} (hk : ∀ l, (k l).Legal d) :
    (RoPlayer.scalars n k).Legal d := by
  induction n generalizing k with
  | zero => exact hk []
  | succ n ih => exact fun c => ih fun l => hk _

theorem scalars_points {m n : Nat} {k : List Fr → RoPlayer G1 G2} (hk : ∀ l, (k l).Points m) :
    (RoPlayer.scalars n k).Points m := by
  induction n generalizing k with
  | zero => exact hk []
  | succ n ih => exact fun c => ih fun l => hk _

theorem scalars_hashes {m n : Nat} {k : List Fr → RoPlayer G1 G2} (hk : ∀ l, (k l).Hashes m) :
    (RoPlayer.scalars n k).Hashes m := by
  induction n generalizing k with
  | zero => exact hk []
  | succ n ih => exact fun c => ih fun l => hk _

theorem scalars_aims {d n : Nat} {T : Finset Nat} {k : List Fr → RoPlayer G1 G2}
    (hk : ∀ l, (k l).Aims d T) : (RoPlayer.scalars n k).Aims d T := by
  induction n generalizing k with
  | zero => exact hk []
  | succ n ih => exact fun c => ih fun l => hk _

/-! ## The adversary that bets is admitted -/

theorem valid_of_mem_cover {d t s : Nat} (ht : ValidTime d t) (hs : s ∈ coverTimes d t) :
    ValidTime d s := by
  have hn := path_isNode ht
  rw [← num_path ht, coverTimes_num hn] at hs
  obtain ⟨a, ha, rfl⟩ := List.mem_map.1 hs
  exact valid_num (gam_isNode hn ha)

theorem one_lt_order : 0 + 1 < rOrder := by decide +kernel

theorem bet_legal (pf : Profile) {d t0 : Nat} (P : ApiPlayer G1 G2) (h : P.Legal) (C : Copy G1 G2)
    (hC : ValidTime d C.time) : (P.bet pf pp d t0 C).Legal d := by
  induction P generalizing C with
  | toss m hm n ih => exact fun c => ih c (h c) C hC
  | hash msg n ih => exact fun b => ih b (h b) C hC
  | point n ih =>
    simp only [ApiPlayer.bet]
    refine ⟨trivial, fun a => ?_⟩
    cases a with
    | point p => exact ih p (h p) { C with asked := _, points := _ } hC
    | subKey _ => exact one_lt_order
    | signature _ => exact one_lt_order
  | sign msg n ih =>
    simp only [ApiPlayer.bet]
    split_ifs
    · refine ⟨nodeAt_iff.2 ⟨hC, rfl⟩, fun a => ?_⟩
      cases a with
      | signature s => exact ih s (h s) { C with asked := _ } hC
      | subKey _ => exact one_lt_order
      | point _ => exact one_lt_order
    · exact fun b => scalars_legal fun rs => ih _ (h _) { C with shown := _ } hC
  | update tar n ih =>
    simp only [ApiPlayer.bet]
    by_cases h1 : C.time < tar ∧ tar ≤ 2 ^ d - 1
    · have ht : ValidTime d tar := ⟨by have := hC.1; omega, h1.2⟩
      rw [if_pos h1]
      by_cases h2 : tar ≤ t0
      · rw [if_pos h2]
        exact ih h _ ht
      rw [if_neg h2]
      by_cases h3 : C.time ≤ t0
      · rw [if_pos h3]
        exact fetch_legal (fun s hs => valid_of_mem_cover ht hs) fun l => ih h _ ht
      · rw [if_neg h3]
        exact scalars_legal fun l => ih h _ ht
    · rw [if_neg h1]
      exact ih h C hC
  | breakIn n ih =>
    simp only [ApiPlayer.bet]
    split_ifs
    · exact one_lt_order
    · exact ih _ _ (h _ _) { C with broken := _ } hC
  | forge F =>
    simp only [ApiPlayer.bet]
    split_ifs
    · show (F.cosigners.map _).length + 1 < rOrder
      rw [List.length_map]
      exact h
    · exact one_lt_order

theorem bet_points (pf : Profile) {d t0 : Nat} (P : ApiPlayer G1 G2) (m : Nat) (h : P.Points m)
    (C : Copy G1 G2) : (P.bet pf pp d t0 C).Points m := by
  induction P generalizing m C with
  | toss _ _ n ih => exact fun c => ih c m (h c) C
  | hash msg n ih => exact fun b => ih b m (h b) C
  | point n ih =>
    simp only [ApiPlayer.bet]
    refine ⟨h.1, fun a => ?_⟩
    cases a with
    | point p => exact ih p _ (h.2 p) _
    | subKey _ => exact trivial
    | signature _ => exact trivial
  | sign msg n ih =>
    simp only [ApiPlayer.bet]
    split_ifs
    · intro a
      cases a with
      | signature s => exact ih s m (h s) _
      | subKey _ => exact trivial
      | point _ => exact trivial
    · exact fun b => scalars_points fun rs => ih _ m (h _) _
  | update tar n ih =>
    simp only [ApiPlayer.bet]
    by_cases h1 : C.time < tar ∧ tar ≤ 2 ^ d - 1
    · rw [if_pos h1]
      by_cases h2 : tar ≤ t0
      · rw [if_pos h2]
        exact ih m h _
      rw [if_neg h2]
      by_cases h3 : C.time ≤ t0
      · rw [if_pos h3]
        exact fetch_points fun l => ih m h _
      · rw [if_neg h3]
        exact scalars_points fun l => ih m h _
    · rw [if_neg h1]
      exact ih m h C
  | breakIn n ih =>
    simp only [ApiPlayer.bet]
    split_ifs
    · exact trivial
    · exact ih _ _ m (h _ _) _
  | forge F =>
    simp only [ApiPlayer.bet]
    split_ifs <;> exact trivial

theorem hashes_pos (P : ApiPlayer G1 G2) (k : Nat) (h : P.Hashes k) : 0 < k := by
  induction P generalizing k with
  | toss m hm n ih => exact ih ⟨0, hm⟩ k (h _)
  | hash msg n ih => exact h.1
  | point n ih => exact ih 0 k (h 0)
  | sign msg n ih => exact h.1
  | update tar n ih => exact ih k h
  | breakIn n ih => exact ih [] [] k (h _ _)
  | forge F => exact h

theorem bet_hashes (pf : Profile) {d t0 : Nat} (P : ApiPlayer G1 G2) (k : Nat) (h : P.Hashes k)
    (C : Copy G1 G2) : (P.bet pf pp d t0 C).Hashes k := by
  have hk : ∀ (Q : ApiPlayer G1 G2) (k : Nat), Q.Hashes k →
      (RoPlayer.forge .none : RoPlayer G1 G2).Hashes k := hashes_pos
  induction P generalizing k C with
  | toss m hm n ih => exact fun c => ih c k (h c) C
  | hash msg n ih => exact ⟨h.1, fun b => ih b _ (h.2 b) C⟩
  | point n ih =>
    simp only [ApiPlayer.bet]
    intro a
    cases a with
    | point p => exact ih p k (h p) _
    | subKey _ => exact hk _ _ (h 0)
    | signature _ => exact hk _ _ (h 0)
  | sign msg n ih =>
    have hpos : ∀ s, (RoPlayer.forge .none : RoPlayer G1 G2).Hashes (k - 1) := fun s => hk _ _ (h.2 s)
    simp only [ApiPlayer.bet]
    split_ifs
    · refine ⟨h.1, fun a => ?_⟩
      cases a with
      | signature s => exact ih s _ (h.2 s) _
      | subKey _ => exact hpos ⟨0, 0, 0, 0⟩
      | point _ => exact hpos ⟨0, 0, 0, 0⟩
    · exact ⟨h.1, fun b => scalars_hashes fun rs => ih _ _ (h.2 _) _⟩
  | update tar n ih =>
    simp only [ApiPlayer.bet]
    by_cases h1 : C.time < tar ∧ tar ≤ 2 ^ d - 1
    · rw [if_pos h1]
      by_cases h2 : tar ≤ t0
      · rw [if_pos h2]
        exact ih k h _
      rw [if_neg h2]
      by_cases h3 : C.time ≤ t0
      · rw [if_pos h3]
        exact fetch_hashes fun l => ih k h _
      · rw [if_neg h3]
        exact scalars_hashes fun l => ih k h _
    · rw [if_neg h1]
      exact ih k h C
  | breakIn n ih =>
    simp only [ApiPlayer.bet]
    split_ifs
    · exact hk _ _ (h [] [])
    · exact ih _ _ k (h _ _) _
  | forge F =>
    simp only [ApiPlayer.bet]
    split_ifs <;> exact h

theorem none_aims {d : Nat} {T : Finset Nat} :
    (RoPlayer.forge .none : RoPlayer G1 G2).Aims d T := by
  intro v hv
  exact absurd (nodeAt_iff.1 hv).1.1 (by simp [Claim.none])

theorem bet_aims (pf : Profile) {d t0 : Nat} (P : ApiPlayer G1 G2) (C : Copy G1 G2) :
    (P.bet pf pp d t0 C).Aims d {t0} := by
  induction P generalizing C with
  | toss m hm n ih => exact fun c => ih c C
  | hash msg n ih => exact fun b => ih b C
  | point n ih =>
    simp only [ApiPlayer.bet]
    intro a
    cases a with
    | point p => exact ih p _
    | subKey _ => exact none_aims
    | signature _ => exact none_aims
  | sign msg n ih =>
    simp only [ApiPlayer.bet]
    split_ifs
    · intro a
      cases a with
      | signature s => exact ih s _
      | subKey _ => exact none_aims
      | point _ => exact none_aims
    · exact fun b => scalars_aims fun rs => ih _ _
  | update tar n ih =>
    simp only [ApiPlayer.bet]
    by_cases h1 : C.time < tar ∧ tar ≤ 2 ^ d - 1
    · rw [if_pos h1]
      by_cases h2 : tar ≤ t0
      · rw [if_pos h2]
        exact ih _
      rw [if_neg h2]
      by_cases h3 : C.time ≤ t0
      · rw [if_pos h3]
        exact fetch_aims fun l => ih _
      · rw [if_neg h3]
        exact scalars_aims fun l => ih _
    · rw [if_neg h1]
      exact ih C
  | breakIn n ih =>
    simp only [ApiPlayer.bet]
    split_ifs
    · exact none_aims
    · exact ih _ _ _
  | forge F =>
    simp only [ApiPlayer.bet]
    split_ifs with hF
    · intro v _
      rw [Finset.mem_singleton]
      exact hF
    · exact none_aims

end Pixel
