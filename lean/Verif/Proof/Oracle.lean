import Verif.Spec.Oracle
import Verif.Proof.ReduceWin
import Mathlib.Data.Int.CardIntervalMod

/-!
# The game with a random oracle: betting on a target
-/

namespace Pixel

open Spec

set_option linter.unusedSectionVars false

variable {G1 G2 GT : Type} [AddCommGroup G1] [AddCommGroup G2] [CommGroup GT]
  {E : Ext G1 G2 GT} {g : G1} {d : Nat} {cs : UInt8} {w : List Nat}

instance : Nonempty Digest := ⟨⟨0, digests_pos⟩⟩

/-! ## Averages and digests -/

theorem avg_comm {α β : Type} [Fintype α] [Fintype β] (f : α → β → ℚ) :
    (avg fun a => avg (f a)) = avg fun b => avg fun a => f a b := by
  rw [← avg_prod, ← avg_prod (fun b a => f a b), ← avg_equiv (Equiv.prodComm α β)]
  rfl

theorem digest_field (D : Digest) (c : UInt8) (msg : Bytes) :
    msgField (fun _ => D.bytes) c msg = D.field := by
  rw [msgField, natOfBytes_eq]
  unfold Digest.bytes Digest.field
  rw [beNat_natToBE, Nat.mod_eq_of_lt D.isLt]

/-- the share of digests that give a fixed field element -/
theorem digest_share (c : Fr) :
    avg (fun D : Digest => if D.field = c then (1 : ℚ) else 0) ≤ 1 / 2 ^ 254 := by
  unfold avg
  have hcard : (Fintype.card Digest : ℚ) = 2 ^ 512 := by
    rw [Fintype.card_fin, Nat.cast_pow, Nat.cast_ofNat, show (256 : ℚ) = 2 ^ 8 by norm_num,
      ← pow_mul]
  have hsum : (∑ D : Digest, if D.field = c then (1 : ℚ) else 0) =
      ((2 ^ 512 / rOrder + if c.val < 2 ^ 512 % rOrder then 1 else 0 : Nat) : ℚ) := by
    have h1 : (∑ D : Digest, if D.field = c then (1 : ℚ) else 0) =
        ∑ n ∈ Finset.range (256 ^ 64), if (n : Fr) = c then (1 : ℚ) else 0 :=
      Fin.sum_univ_eq_sum_range (fun n => if (n : Fr) = c then (1 : ℚ) else 0) (256 ^ 64)
    have h2 : ∀ n : Nat, (n : Fr) = c ↔ n ≡ c.val [MOD rOrder] := by
      intro n
      conv_lhs => rw [← ZMod.natCast_zmod_val c]
      exact ZMod.natCast_eq_natCast_iff _ _ _
    rw [h1]
    simp only [h2]
    rw [Finset.sum_boole, ← Nat.count_eq_card_filter_range,
      Nat.count_modEq_card _ (Nat.pos_of_ne_zero (NeZero.ne rOrder)),
      Nat.mod_eq_of_lt (ZMod.val_lt c), show (256 : ℕ) ^ 64 = 2 ^ 512 from by
        rw [show (256 : ℕ) = 2 ^ 8 from rfl, ← pow_mul]]
  rw [hsum, hcard, div_le_div_iff₀ (pow_pos (by norm_num) _) (pow_pos (by norm_num) _), one_mul]
  have h2 : (2 ^ 512 / rOrder + 1) * 2 ^ 254 ≤ 2 ^ 512 := by decide +kernel
  have h3 : (2 ^ 512 / rOrder + if c.val < 2 ^ 512 % rOrder then 1 else 0 : Nat) ≤
      2 ^ 512 / rOrder + 1 := by
    split
    · exact le_rfl
    · exact Nat.add_le_add_left (Nat.zero_le 1) _
  exact_mod_cast (Nat.mul_le_mul_right (2 ^ 254) h3).trans h2

/-! ## The oracle with a value fixed in advance -/

/-- as `oracle`, but the value for new message number `i` may be given -/
noncomputable def oracleAt (i : Nat) (pre : Option Digest) (tab : Table) (msg : Bytes)
    (f : Digest → Table → ℚ) : ℚ :=
  match tab.lookup msg with
  | some D => f D tab
  | none => match (if tab.length = i then pre else none) with
    | some D0 => f D0 (tab ++ [(msg, D0)])
    | none => avg fun D : Digest => f D (tab ++ [(msg, D)])

/-- what the oracle can give: a stored value, or a new entry -/
inductive Gives (tab : Table) (msg : Bytes) : Digest → Table → Prop where
  | old (D : Digest) (j : Nat) (h : tab[j]? = some (msg, D)) : Gives tab msg D tab
  | new (D : Digest) : Gives tab msg D (tab ++ [(msg, D)])

theorem Gives.length {tab tab' : Table} {msg : Bytes} {D : Digest} (h : Gives tab msg D tab') :
    tab.length ≤ tab'.length ∧ tab'.length ≤ tab.length + 1 := by
  cases h <;> simp

theorem Gives.entry {tab tab' : Table} {msg : Bytes} {D : Digest} (h : Gives tab msg D tab') :
    ∃ j < tab'.length, tab'[j]? = some (msg, D) := by
  cases h with
  | old j h => exact ⟨j, (List.getElem?_eq_some_iff.1 h).1, h⟩
  | new => exact ⟨tab.length, by simp, by simp⟩

theorem Gives.mono {tab tab' : Table} {msg : Bytes} {D : Digest} (h : Gives tab msg D tab')
    {j : Nat} {e : Bytes × Digest} (he : tab[j]? = some e) : tab'[j]? = some e := by
  cases h with
  | old => exact he
  | new =>
    rw [List.getElem?_append_left (List.getElem?_eq_some_iff.1 he).1]
    exact he

theorem lookup_entry {tab : Table} {msg : Bytes} {D : Digest} (h : tab.lookup msg = some D) :
    ∃ j : Nat, tab[j]? = some (msg, D) := by
  rw [List.lookup_eq_some_iff] at h
  obtain ⟨l1, l2, h1, _⟩ := h
  exact ⟨l1.length, by rw [h1]; simp⟩

/-- two functions are compared under the oracle -/
theorem oracle_le {S : Finset (Nat × Nat)} {tab : Table} {msg : Bytes} {f : Digest → Table → ℚ}
    {f' : Nat × Nat → Digest → Table → ℚ}
    (h : ∀ D tab', Gives tab msg D tab' → f D tab' ≤ ∑ p ∈ S, f' p D tab') :
    oracle tab msg f ≤ ∑ p ∈ S, oracleAt p.2 none tab msg (f' p) := by
  unfold oracle oracleAt
  rcases hl : tab.lookup msg with _ | D
  · simp only [ite_self]
    rw [← avg_sum]
    exact avg_mono fun D => h D _ (.new D)
  · obtain ⟨j, hj⟩ := lookup_entry hl
    exact h D _ (.old D j hj)

theorem oracleAt_congr {i : Nat} {pre pre' : Option Digest} {tab : Table} {msg : Bytes}
    {f f' : Digest → Table → ℚ} (hi : i < tab.length)
    (h : ∀ D tab', i < tab'.length → f D tab' = f' D tab') :
    oracleAt i pre tab msg f = oracleAt i pre' tab msg f' := by
  unfold oracleAt
  rw [if_neg (by omega), if_neg (by omega)]
  rcases tab.lookup msg with _ | D
  · exact avg_congr fun D => h D _ (by simp; omega)
  · exact h D _ hi

theorem oracleAt_avg {i : Nat} {tab : Table} {msg : Bytes} {f : Digest → Table → ℚ}
    {f' : Digest → Digest → Table → ℚ} (h : ∀ D tab', f D tab' = avg fun D0 => f' D0 D tab')
    (h' : ∀ D0 D tab', i < tab'.length → f' D0 D tab' = f D tab') :
    oracleAt i none tab msg f = avg fun D0 => oracleAt i (some D0) tab msg (f' D0) := by
  unfold oracleAt
  rcases tab.lookup msg with _ | D
  · simp only [ite_self]
    by_cases hi : tab.length = i
    · simp only [if_pos hi]
      exact avg_congr fun D => (h' D D _ (by simp; omega)).symm
    · simp only [if_neg hi]
      rw [avg_congr fun D => h D (tab ++ [(msg, D)])]
      exact avg_comm _
  · exact h D tab

/-! ## Winning bets -/

open Classical in
/-- As `RoPlayer.chance`, but the value for new message number `i` may be given in advance, and only
claims for time `t` and that message count. -/
noncomputable def Spec.RoPlayer.bet [DecidableEq GT] (E : Ext G1 G2 GT) (pf : Profile) (g : G1)
    (x : Fr) (t i : Nat) (pre : Option Digest) :
    RoPlayer G1 G2 → List RoQuery → Table → World G1 G2 → ℚ
  | .toss _ _ n, qs, tab, W => avg fun c => (n c).bet E pf g x t i pre qs tab W
  | .hash msg n, qs, tab, W => oracleAt i pre tab msg fun D tab' =>
      (n D.bytes).bet E pf g x t i pre qs tab' W
  | .ask (.subKey t' v) n, qs, tab, W => avg fun r =>
      (n (answer W.pp g x r (.subKey t' v))).bet E pf g x t i pre (qs ++ [.subKey t' v]) tab
        { W with answers := W.answers ++ [answer W.pp g x r (.subKey t' v)] }
  | .ask .point n, qs, tab, W => avg fun r =>
      (n (answer W.pp g x r .point)).bet E pf g x t i pre (qs ++ [.point]) tab
        { W with answers := W.answers ++ [answer W.pp g x r .point] }
  | .ask (.signature t' v msg) n, qs, tab, W => oracleAt i pre tab msg fun D tab' => avg fun r =>
      (n (answer W.pp g x r (.signature t' v D.field))).bet E pf g x t i pre
        (qs ++ [.signature t' v msg]) tab'
        { W with answers := W.answers ++ [answer W.pp g x r (.signature t' v D.field)] }
  | .forge F, qs, tab, W => oracleAt i pre tab F.msg fun D tab' =>
      if (F.Accepted { E with sha512 := fun _ => D.bytes } pf W ∧ F.RoFresh W.pp.depth qs) ∧
        F.time = t ∧ tab'[i]? = some (F.msg, D) then 1 else 0

theorem oracleAt_nonneg {i : Nat} {pre : Option Digest} {tab : Table} {msg : Bytes}
    {f : Digest → Table → ℚ} (h : ∀ D tab', 0 ≤ f D tab') : 0 ≤ oracleAt i pre tab msg f := by
  unfold oracleAt
  rcases tab.lookup msg with _ | D
  · simp only []
    rcases (if tab.length = i then pre else none) with _ | D0
    · exact avg_nonneg fun D => h _ _
    · exact h _ _
  · exact h _ _

theorem oracleAt_le_one {i : Nat} {pre : Option Digest} {tab : Table} {msg : Bytes}
    {f : Digest → Table → ℚ} (h : ∀ D tab', f D tab' ≤ 1) : oracleAt i pre tab msg f ≤ 1 := by
  unfold oracleAt
  rcases tab.lookup msg with _ | D
  · simp only []
    rcases (if tab.length = i then pre else none) with _ | D0
    · exact avg_le_one fun D => h _ _
    · exact h _ _
  · exact h _ _

theorem Spec.RoPlayer.bet_nonneg [DecidableEq GT] (pf : Profile) (x : Fr) (t i : Nat)
    (pre : Option Digest) (P : RoPlayer G1 G2) (qs : List RoQuery) (tab : Table)
    (W : World G1 G2) : 0 ≤ P.bet E pf g x t i pre qs tab W := by
  induction P generalizing qs tab W with
  | toss _ _ n ih => exact avg_nonneg fun c => ih c _ _ _
  | hash msg n ih => exact oracleAt_nonneg fun D tab' => ih _ _ _ _
  | ask q n ih =>
    cases q with
    | subKey t' v => exact avg_nonneg fun r => ih _ _ _ _
    | point => exact avg_nonneg fun r => ih _ _ _ _
    | signature t' v msg => exact oracleAt_nonneg fun D tab' => avg_nonneg fun r => ih _ _ _ _
  | forge F =>
    simp only [RoPlayer.bet]
    exact oracleAt_nonneg fun D tab' => by split_ifs <;> norm_num

theorem Spec.RoPlayer.bet_le_one [DecidableEq GT] (pf : Profile) (x : Fr) (t i : Nat)
    (pre : Option Digest) (P : RoPlayer G1 G2) (qs : List RoQuery) (tab : Table)
    (W : World G1 G2) : P.bet E pf g x t i pre qs tab W ≤ 1 := by
  induction P generalizing qs tab W with
  | toss m hm n ih =>
    have : Nonempty (Fin m) := ⟨⟨0, hm⟩⟩
    exact avg_le_one fun c => ih c _ _ _
  | hash msg n ih => exact oracleAt_le_one fun D tab' => ih _ _ _ _
  | ask q n ih =>
    cases q with
    | subKey t' v => exact avg_le_one fun r => ih _ _ _ _
    | point => exact avg_le_one fun r => ih _ _ _ _
    | signature t' v msg => exact oracleAt_le_one fun D tab' => avg_le_one fun r => ih _ _ _ _
  | forge F =>
    simp only [RoPlayer.bet]
    exact oracleAt_le_one fun D tab' => by split_ifs <;> norm_num

/-- an accepted claim is for a valid time -/
theorem accepted_time [DecidableEq GT] (H : HashLaws E) (pf : Profile) {W : World G1 G2}
    (S : ParamShape W.pp) {F : Claim G1 G2} (h : F.Accepted E pf W)
    (hpk : W.pk.ciphersuite = W.pp.ciphersuite) : ∃ v, NodeAt W.pp.depth F.time v := by
  have hver := h.2
  rw [Signature.verifyBytesAggregated_eq _ _ _ _ _ _ (by simp) (by
    intro pk hpk'
    rcases List.mem_cons.1 hpk' with rfl | hpk'
    · exact hpk
    · obtain ⟨c, _, rfl⟩ := List.mem_map.1 hpk'
      rfl), Signature.verifyBytes_eq H S] at hver
  obtain ⟨_, _, _, _, v, hv, _⟩ := @of_decide_eq_true _ (_) (Res.ok.inj hver)
  exact ⟨v, hv⟩

theorem digest_laws (E : Ext G1 G2 GT) (D : Digest) :
    HashLaws { E with sha512 := fun _ => D.bytes } :=
  ⟨fun _ => natToBE_length 64 D.val⟩

/-- all claims are for times in `T`, or for no time of the tree -/
def Spec.RoPlayer.Aims (d : Nat) (T : Finset Nat) : RoPlayer G1 G2 → Prop
  | .toss _ _ n => ∀ c, (n c).Aims d T
  | .hash _ n => ∀ b, (n b).Aims d T
  | .ask _ n => ∀ a, (n a).Aims d T
  | .forge F => ∀ v, NodeAt d F.time v → F.time ∈ T

theorem Spec.RoPlayer.aims_all {T : Finset Nat} (hT : ∀ t v, NodeAt d t v → t ∈ T)
    (P : RoPlayer G1 G2) : P.Aims d T := by
  induction P with
  | toss _ _ n ih => exact fun c => ih c
  | hash msg n ih => exact fun b => ih b
  | ask q n ih => exact fun a => ih a
  | forge F => exact fun v hv => hT _ v hv

/-- one of the bets wins -/
theorem Spec.RoPlayer.chance_le_bets [DecidableEq GT] (pf : Profile) (x : Fr) {Q : Nat}
    (P : RoPlayer G1 G2) (k : Nat) (hk : P.Hashes k) (qs : List RoQuery) (tab : Table)
    (hQ : tab.length + k ≤ Q) (W : World G1 G2) (S : ParamShape W.pp)
    (hpk : W.pk.ciphersuite = W.pp.ciphersuite) {T : Finset Nat}
    (hT : P.Aims W.pp.depth T) :
    P.chance E pf g x qs tab W ≤
      ∑ p ∈ T ×ˢ Finset.range Q, P.bet E pf g x p.1 p.2 none qs tab W := by
  induction P generalizing k qs tab W with
  | toss _ _ n ih =>
    simp only [RoPlayer.chance, RoPlayer.bet]
    rw [← avg_sum]
    exact avg_mono fun c => ih c k (hk c) qs tab hQ W S hpk (hT c)
  | hash msg n ih =>
    simp only [RoPlayer.chance, RoPlayer.bet]
    refine oracle_le fun D tab' hG => ih _ (k - 1) (hk.2 _) qs tab' ?_ W S hpk (hT _)
    have := hG.length
    have := hk.1
    omega
  | ask q n ih =>
    cases q with
    | subKey t v =>
      simp only [RoPlayer.chance, RoPlayer.bet]
      rw [← avg_sum]
      exact avg_mono fun r => ih _ k (hk _) _ tab hQ { W with answers := _ } S hpk (hT _)
    | point =>
      simp only [RoPlayer.chance, RoPlayer.bet]
      rw [← avg_sum]
      exact avg_mono fun r => ih _ k (hk _) _ tab hQ { W with answers := _ } S hpk (hT _)
    | signature t v msg =>
      simp only [RoPlayer.chance, RoPlayer.bet]
      refine oracle_le fun D tab' hG => ?_
      rw [← avg_sum]
      refine avg_mono fun r => ih _ (k - 1) (hk.2 _) _ tab' ?_ { W with answers := _ } S hpk (hT _)
      have := hG.length
      have := hk.1
      omega
  | forge F =>
    simp only [RoPlayer.chance, RoPlayer.bet]
    refine oracle_le fun D tab' hG => ?_
    classical
    have hnn : ∀ p ∈ T ×ˢ Finset.range Q, (0 : ℚ) ≤
        if (F.Accepted { E with sha512 := fun _ => D.bytes } pf W ∧ F.RoFresh W.pp.depth qs) ∧
          F.time = p.1 ∧ tab'[p.2]? = some (F.msg, D) then 1 else 0 := by
      intro p _
      split_ifs <;> norm_num
    split_ifs with hwin
    · obtain ⟨j, hj, hent⟩ := hG.entry
      obtain ⟨v, hv⟩ := accepted_time (digest_laws E D) pf S hwin.1 hpk
      have hmem : (F.time, j) ∈ T ×ˢ Finset.range Q := by
        rw [Finset.mem_product, Finset.mem_range]
        refine ⟨hT v hv, ?_⟩
        have := hG.length
        have h0 : 0 < k := hk
        simp only []
        omega
      refine le_trans ?_ (Finset.single_le_sum hnn hmem)
      rw [if_pos ⟨hwin, rfl, hent⟩]
    · exact Finset.sum_nonneg hnn

/-- once the message is in the table, the value given in advance does not matter -/
theorem Spec.RoPlayer.bet_past [DecidableEq GT] (pf : Profile) (x : Fr) (t i : Nat)
    (pre : Option Digest) (P : RoPlayer G1 G2) (qs : List RoQuery) (tab : Table)
    (W : World G1 G2) (hi : i < tab.length) :
    P.bet E pf g x t i pre qs tab W = P.bet E pf g x t i none qs tab W := by
  induction P generalizing qs tab W with
  | toss _ _ n ih => exact avg_congr fun c => ih c _ _ _ hi
  | hash msg n ih => exact oracleAt_congr hi fun D tab' h => ih _ _ _ _ h
  | ask q n ih =>
    cases q with
    | subKey t' v => exact avg_congr fun r => ih _ _ _ _ hi
    | point => exact avg_congr fun r => ih _ _ _ _ hi
    | signature t' v msg =>
      exact oracleAt_congr hi fun D tab' h => avg_congr fun r => ih _ _ _ _ h
  | forge F =>
    simp only [RoPlayer.bet]
    exact oracleAt_congr hi fun D tab' h => rfl

/-- the value may be drawn in advance -/
theorem Spec.RoPlayer.bet_avg [DecidableEq GT] (pf : Profile) (x : Fr) (t i : Nat)
    (P : RoPlayer G1 G2) (qs : List RoQuery) (tab : Table) (W : World G1 G2) :
    P.bet E pf g x t i none qs tab W =
      avg fun D0 : Digest => P.bet E pf g x t i (some D0) qs tab W := by
  induction P generalizing qs tab W with
  | toss m hm n ih =>
    simp only [RoPlayer.bet]
    rw [avg_congr fun c => ih c qs tab W]
    exact avg_comm _
  | hash msg n ih =>
    simp only [RoPlayer.bet]
    exact oracleAt_avg (fun D tab' => ih _ _ _ _)
      fun D0 D tab' h => RoPlayer.bet_past pf x t i _ _ _ _ _ h
  | ask q n ih =>
    cases q with
    | subKey t' v =>
      simp only [RoPlayer.bet]
      rw [avg_congr fun r => ih _ _ tab _]
      exact avg_comm _
    | point =>
      simp only [RoPlayer.bet]
      rw [avg_congr fun r => ih _ _ tab _]
      exact avg_comm _
    | signature t' v msg =>
      simp only [RoPlayer.bet]
      refine oracleAt_avg (fun D tab' => ?_)
        fun D0 D tab' h => avg_congr fun r => RoPlayer.bet_past pf x t i _ _ _ _ _ h
      rw [avg_congr fun r => ih _ _ tab' _]
      exact avg_comm _
  | forge F =>
    simp only [RoPlayer.bet]
    refine oracleAt_avg (fun D tab' => ?_) fun D0 D tab' h => rfl
    exact (avg_const _).symm

/-! ## A bet is a game without oracle -/

/-- the entries of the table: number `i` is the one given in advance, the others differ from it -/
def Apart (i : Nat) (D0 : Digest) (tab : Table) : Prop :=
  ∀ (j : Nat) msg D, tab[j]? = some (msg, D) →
    (j = i → D = D0) ∧ (j ≠ i → D.field ≠ D0.field)

/-- the queries with hashed messages -/
structure Translated (tab : Table) (qs : List RoQuery) (qs' : List Query) : Prop where
  subKey : ∀ t v, .subKey t v ∈ qs' → .subKey t v ∈ qs
  signature : ∀ t v M, .signature t v M ∈ qs' → ∃ (j : Nat) (msg : Bytes) (D : Digest),
    tab[j]? = some (msg, D) ∧ M = D.field ∧ .signature t v msg ∈ qs

theorem Translated.mono {tab tab' : Table} {msg : Bytes} {D : Digest} {qs : List RoQuery}
    {qs' : List Query} (h : Translated tab qs qs') (hG : Gives tab msg D tab') :
    Translated tab' qs qs' where
  subKey := h.subKey
  signature t v M hm := by
    obtain ⟨j, m, D', h1, h2, h3⟩ := h.signature t v M hm
    exact ⟨j, m, D', hG.mono h1, h2, h3⟩

theorem collision_nonneg (k : Nat) : (0 : ℚ) ≤ (k : ℚ) / 2 ^ 254 :=
  div_nonneg (Nat.cast_nonneg _) (pow_nonneg (by norm_num) _)

/-- one use of the oracle costs `2^-254` -/
theorem oracle_plain [DecidableEq GT] {E' : Ext G1 G2 GT} {pf : Profile} {T : Finset (Nat × Fr)}
    {x : Fr} {i : Nat} {D0 : Digest} {tab : Table} {msg : Bytes} {qs' : List Query}
    {W : World G1 G2} {f : Digest → Table → ℚ} {F : Digest → Table → Player G1 G2} {k : Nat}
    (hk : 0 < k) (hA : Apart i D0 tab) (hf : ∀ D tab', f D tab' ≤ 1)
    (h : ∀ D tab', Gives tab msg D tab' → Apart i D0 tab' →
      f D tab' ≤ (F D tab').chance E' pf g T x qs' W + ((k - 1 : Nat) : ℚ) / 2 ^ 254) :
    oracleAt i (some D0) tab msg f ≤
      (playOracle i D0 tab msg F).chance E' pf g T x qs' W + (k : ℚ) / 2 ^ 254 := by
  have hsplit : (k : ℚ) / 2 ^ 254 = 1 / 2 ^ 254 + ((k - 1 : Nat) : ℚ) / 2 ^ 254 := by
    rw [Nat.cast_sub hk]
    push_cast
    ring
  have hpos : (0 : ℚ) ≤ 1 / 2 ^ 254 := div_nonneg (by norm_num) (pow_nonneg (by norm_num) _)
  have hnew : ∀ D, (tab.length = i → D = D0) → (tab.length ≠ i → D.field ≠ D0.field) →
      Apart i D0 (tab ++ [(msg, D)]) := by
    intro D h1 h2 j m D' hj
    by_cases hlt : j < tab.length
    · rw [List.getElem?_append_left hlt] at hj
      exact hA j m D' hj
    · rw [List.getElem?_append_right (by omega)] at hj
      have hj0 : j - tab.length = 0 := by
        by_contra hc
        rw [List.getElem?_eq_none (by simp; omega)] at hj
        cases hj
      rw [hj0] at hj
      simp only [List.getElem?_cons_zero, Option.some_inj, Prod.mk.injEq] at hj
      have hje : j = tab.length := by omega
      rw [← hj.2, hje]
      exact ⟨h1, h2⟩
  unfold oracleAt playOracle
  rcases hl : tab.lookup msg with _ | D
  · simp only []
    by_cases hi : tab.length = i
    · simp only [if_pos hi]
      have := h D0 _ (.new D0) (hnew D0 (fun _ => rfl) (fun h => absurd hi h))
      rw [hsplit]
      linarith
    · simp only [if_neg hi, Player.chance]
      have hshare := digest_share D0.field
      rw [hsplit]
      have key : avg (fun D => f D (tab ++ [(msg, D)])) ≤
          avg (fun D => (F D (tab ++ [(msg, D)])).chance E' pf g T x qs' W) +
            avg (fun D : Digest => if D.field = D0.field then (1 : ℚ) else 0) +
            ((k - 1 : Nat) : ℚ) / 2 ^ 254 := by
        rw [← avg_add, ← avg_add_const]
        refine avg_mono fun D => ?_
        have h0 := Player.chance_nonneg (E := E') (g := g) pf T x (F D (tab ++ [(msg, D)])) qs' W
        have h1 := collision_nonneg (k - 1)
        by_cases hD : D.field = D0.field
        · rw [if_pos hD]
          have := hf D (tab ++ [(msg, D)])
          linarith
        · rw [if_neg hD, add_zero]
          exact h D _ (.new D) (hnew D (fun h => absurd h hi) (fun _ => hD))
      linarith
  · obtain ⟨j, hj⟩ := lookup_entry hl
    simp only []
    have := h D tab (.old D j hj) hA
    rw [hsplit]
    linarith

theorem Spec.RoPlayer.bet_le_plain [DecidableEq GT] (pf : Profile) (x : Fr) {t i : Nat} {D0 : Digest}
    (P : RoPlayer G1 G2) (k : Nat) (hk : P.Hashes k)
    (qs : List RoQuery) (qs' : List Query) (tab : Table) (W : World G1 G2) (hdp : W.pp.depth = d)
    (hA : Apart i D0 tab) (hT : Translated tab qs qs') :
    P.bet E pf g x t i (some D0) qs tab W ≤
      (P.plain i D0 tab).chance { E with sha512 := fun _ => D0.bytes } pf g {(t, D0.field)} x qs' W +
        (k : ℚ) / 2 ^ 254 := by
  induction P generalizing k qs qs' tab W with
  | toss m hm n ih =>
    have : Nonempty (Fin m) := ⟨⟨0, hm⟩⟩
    simp only [RoPlayer.bet, RoPlayer.plain, Player.chance]
    rw [← avg_add_const]
    exact avg_mono fun c => ih c k (hk c) qs qs' tab W hdp hA hT
  | hash msg n ih =>
    simp only [RoPlayer.bet, RoPlayer.plain]
    exact oracle_plain hk.1 hA (fun D tab' => RoPlayer.bet_le_one _ _ _ _ _ _ _ _ _)
      fun D tab' hG hA' => ih _ (k - 1) (hk.2 _) qs qs' tab' W hdp hA' (hT.mono hG)
  | ask q n ih =>
    cases q with
    | subKey t' v =>
      simp only [RoPlayer.bet, RoPlayer.plain, Player.chance]
      rw [← avg_add_const]
      refine avg_mono fun r => ih _ k (hk _) _ _ tab { W with answers := _ } hdp hA ⟨?_, ?_⟩
      · intro t1 v1 h
        rcases List.mem_append.1 h with h | h
        · exact List.mem_append_left _ (hT.subKey _ _ h)
        · rw [List.mem_singleton] at h
          cases h
          exact List.mem_append_right _ (by simp)
      · intro t1 v1 M h
        rcases List.mem_append.1 h with h | h
        · obtain ⟨j, m, D, h1, h2, h3⟩ := hT.signature _ _ _ h
          exact ⟨j, m, D, h1, h2, List.mem_append_left _ h3⟩
        · rw [List.mem_singleton] at h
          cases h
    | point =>
      simp only [RoPlayer.bet, RoPlayer.plain, Player.chance]
      rw [← avg_add_const]
      refine avg_mono fun r => ih _ k (hk _) _ _ tab { W with answers := _ } hdp hA ⟨?_, ?_⟩
      · intro t1 v1 h
        rcases List.mem_append.1 h with h | h
        · exact List.mem_append_left _ (hT.subKey _ _ h)
        · rw [List.mem_singleton] at h
          cases h
      · intro t1 v1 M h
        rcases List.mem_append.1 h with h | h
        · obtain ⟨j, m, D, h1, h2, h3⟩ := hT.signature _ _ _ h
          exact ⟨j, m, D, h1, h2, List.mem_append_left _ h3⟩
        · rw [List.mem_singleton] at h
          cases h
    | signature t' v msg =>
      simp only [RoPlayer.bet, RoPlayer.plain]
      refine oracle_plain hk.1 hA
        (fun D tab' => avg_le_one fun r => RoPlayer.bet_le_one _ _ _ _ _ _ _ _ _)
        fun D tab' hG hA' => ?_
      simp only [Player.chance]
      rw [← avg_add_const]
      have hT' := hT.mono hG
      refine avg_mono fun r => ih _ (k - 1) (hk.2 _) _ _ tab' { W with answers := _ } hdp hA' ⟨?_, ?_⟩
      · intro t1 v1 h
        rcases List.mem_append.1 h with h | h
        · exact List.mem_append_left _ (hT'.subKey _ _ h)
        · rw [List.mem_singleton] at h
          cases h
      · intro t1 v1 M h
        rcases List.mem_append.1 h with h | h
        · obtain ⟨j, m, D', h1, h2, h3⟩ := hT'.signature _ _ _ h
          exact ⟨j, m, D', h1, h2, List.mem_append_left _ h3⟩
        · rw [List.mem_singleton] at h
          cases h
          obtain ⟨j, _, hj⟩ := hG.entry
          exact ⟨j, msg, D, hj, rfl, List.mem_append_right _ (by simp)⟩
  | forge F =>
    simp only [RoPlayer.bet, RoPlayer.plain]
    refine oracle_plain hk hA (fun D tab' => by split_ifs <;> norm_num) fun D tab' hG hA' => ?_
    have h0 := collision_nonneg (k - 1)
    simp only [Player.chance]
    split_ifs with h1 h2 h2
    · linarith
    · refine absurd ?_ h2
      obtain ⟨⟨hacc, hfr⟩, ht, hent⟩ := h1
      have hD : D = D0 := (hA' i _ _ hent).1 rfl
      subst hD
      refine ⟨hacc, ?_, ?_⟩
      · intro w' hw'
        obtain ⟨f1, f2⟩ := hfr w' hw'
        refine ⟨fun t1 v h => f1 t1 v (hT.subKey _ _ h), fun t1 h => ?_⟩
        rw [digest_field] at h
        obtain ⟨j, m, D', e1, e2, e3⟩ := (hT.mono hG).signature _ _ _ h
        have hj : j = i := by
          by_contra hc
          exact (hA' j _ _ e1).2 hc e2.symm
        rw [hj, hent] at e1
        simp only [Option.some_inj, Prod.mk.injEq] at e1
        rw [← e1.1] at e3
        exact f2 t1 e3
      · rw [Finset.mem_singleton, digest_field, ht]
    · linarith
    · linarith

theorem plain_legal {D0 : Digest} {i : Nat} (P : RoPlayer G1 G2) (h : P.Legal d) (tab : Table) :
    (P.plain i D0 tab).Legal d := by
  have ho : ∀ (tab : Table) (msg : Bytes) (F : Digest → Table → Player G1 G2),
      (∀ D tab', (F D tab').Legal d) → (playOracle i D0 tab msg F).Legal d := by
    intro tab msg F hF
    unfold playOracle
    rcases tab.lookup msg with _ | D
    · simp only []
      split_ifs
      · exact hF _ _
      · exact fun D => hF _ _
    · exact hF _ _
  induction P generalizing tab with
  | toss _ _ n ih => exact fun c => ih c (h c) tab
  | hash msg n ih => exact ho _ _ _ fun D tab' => ih _ (h _) _
  | ask q n ih =>
    cases q with
    | subKey t v => exact ⟨h.1, fun a => ih _ (h.2 a) _⟩
    | point => exact ⟨trivial, fun a => ih _ (h.2 a) _⟩
    | signature t v msg => exact ho _ _ _ fun D tab' => ⟨h.1, fun a => ih _ (h.2 a) _⟩
  | forge F => exact ho _ _ _ fun D tab' => h

theorem plain_points {D0 : Digest} {i : Nat} (P : RoPlayer G1 G2) (k : Nat) (h : P.Points k)
    (tab : Table) : (P.plain i D0 tab).Points k := by
  have ho : ∀ (k : Nat) (tab : Table) (msg : Bytes) (F : Digest → Table → Player G1 G2),
      (∀ D tab', (F D tab').Points k) → (playOracle i D0 tab msg F).Points k := by
    intro k tab msg F hF
    unfold playOracle
    rcases tab.lookup msg with _ | D
    · simp only []
      split_ifs
      · exact hF _ _
      · exact fun D => hF _ _
    · exact hF _ _
  induction P generalizing tab k with
  | toss _ _ n ih => exact fun c => ih c k (h c) tab
  | hash msg n ih => exact ho _ _ _ _ fun D tab' => ih _ k (h _) _
  | ask q n ih =>
    cases q with
    | subKey t v => exact fun a => ih _ k (h a) _
    | point => exact ⟨h.1, fun a => ih _ _ (h.2 a) _⟩
    | signature t v msg => exact ho _ _ _ _ fun D tab' a => ih _ k (h a) _
  | forge F => exact ho _ _ _ _ fun D tab' => trivial

/-- the reduction does not use the hash function -/
theorem reduce_sha (sha : Bytes → Bytes) (M : Fr) (I : Instance G1 G2) (k : Coin d → Fr)
    (P : Player G1 G2) (us : List Fr) :
    P.reduce { E with sha512 := sha } cs d w M I k us = P.reduce E cs d w M I k us := by
  induction P generalizing us with
  | toss m hm n ih =>
    simp only [Player.reduce]
    congr 1
    funext c
    exact ih c us
  | ask q n ih =>
    simp only [Player.reduce]
    congr 1
    funext r
    exact ih _ _
  | forge F => rfl

theorem solveChance_sha (g : G1) (sha : Bytes → Bytes) (M : Fr) (A : World G1 G2 → Player G1 G2) :
    solveChance { E with sha512 := sha } g d (reduction { E with sha512 := sha } cs d w M A) =
      solveChance E g d (reduction E cs d w M A) := by
  unfold solveChance
  refine avg_congr fun γ => avg_congr fun b => avg_congr fun k => ?_
  unfold reduction
  rw [reduce_sha]
  rfl

theorem GroupLaws.withSha (L : GroupLaws E) (sha : Bytes → Bytes) :
    GroupLaws { E with sha512 := sha } where
  sub1_zero := L.sub1_zero
  sub1_add := L.sub1_add
  sub1_neg := L.sub1_neg
  sub1_order := L.sub1_order
  sub2_zero := L.sub2_zero
  sub2_add := L.sub2_add
  sub2_neg := L.sub2_neg
  sub2_order := L.sub2_order
  gen2_sub := L.gen2_sub
  gen2_gen := L.gen2_gen
  hash_sub := L.hash_sub
  pairing_prod := L.pairing_prod
  pair_add_left := L.pair_add_left
  pair_add_right := L.pair_add_right
  pair_nondeg := L.pair_nondeg

theorem worldOf_sha (sha : Bytes → Bytes) {N : Nat} (a : Secret d N → Fr) (qs : List Query) :
    worldOf { E with sha512 := sha } g cs a qs = worldOf E g cs a qs := rfl

/-- a bet, with the value of the oracle given in advance, against the game without oracle -/
theorem bet_le_forge [DecidableEq GT] (pf : Profile) (A : World G1 G2 → RoPlayer G1 G2)
    {Q : Nat} (hQ : ∀ W, (A W).Hashes Q) (t i : Nat) (D0 : Digest) :
    (avg fun a : Secret d 0 → Fr => (A (worldOf E g cs a [])).bet E pf g (a .x) t i (some D0) [] []
      (worldOf E g cs a [])) ≤
      forgeChance { E with sha512 := fun _ => D0.bytes } pf g d cs {(t, D0.field)}
        (fun W => (A W).plain i D0 []) + Q / 2 ^ 254 := by
  unfold forgeChance
  simp only [worldOf_sha]
  rw [← avg_add_const]
  refine avg_mono fun a => ?_
  have hdp : (worldOf E g cs a [] : World G1 G2).pp.depth = d := rfl
  generalize worldOf E g cs a [] = W at *
  exact RoPlayer.bet_le_plain pf (a .x) (A W) Q (hQ W)
    [] [] [] W hdp (by intro j msg D h; simp at h) ⟨by simp, by simp⟩

/-- a bet, with the value of the oracle given in advance, against the problem -/
theorem bet_le_solve [DecidableEq GT] (L : GroupLaws E) (hsub : E.inSub1 g = true)
    (hd : 0 < d) (hd' : d ≤ 63) (pf : Profile) (A : World G1 G2 → RoPlayer G1 G2)
    (hA : ∀ W, (A W).Legal d) {m : Nat} (hm : ∀ W, (A W).Points m) {Q : Nat}
    (hQ : ∀ W, (A W).Hashes Q) {t : Nat} (hw : NodeAt d t w) (i : Nat) (D0 : Digest) :
    (avg fun a : Secret d 0 → Fr => (A (worldOf E g cs a [])).bet E pf g (a .x) t i (some D0) [] []
      (worldOf E g cs a [])) ≤
      solveChance E g d (reduction E cs d w D0.field (fun W => (A W).plain i D0 [])) +
        ((m + 1) / rOrder + Q / 2 ^ 254) := by
  have h2 := forgeChance_le (M := D0.field) (cs := cs) (digest_laws E D0)
    (GroupLaws.withSha L fun _ => D0.bytes) (g := g) hsub hd hd' pf hw
    (fun W => (A W).plain i D0 []) (fun W => plain_legal _ (hA W) _)
    (fun W => plain_points _ _ (hm W) _)
  rw [solveChance_sha] at h2
  have h3 := bet_le_forge (E := E) (g := g) (d := d) (cs := cs) pf A hQ t i D0
  generalize (Q : ℚ) / 2 ^ 254 = z at *
  generalize ((m : ℚ) + 1) / rOrder = y at *
  rw [← add_assoc]
  exact h3.trans (by linarith)

/-- drawing the value first is what the reduction does -/
theorem solve_avg (i : Nat) (A : World G1 G2 → RoPlayer G1 G2) [DecidableEq GT] :
    (avg fun D0 : Digest => solveChance E g d (reduction E cs d w D0.field
      (fun W => (A W).plain i D0 []))) = solveChance E g d (roReduction E cs d w i A) := by
  unfold solveChance roReduction
  rw [avg_comm]
  refine avg_congr fun γ => ?_
  rw [avg_comm]
  refine avg_congr fun b => ?_
  rw [avg_comm]
  refine avg_congr fun k => ?_
  simp only [Guess.chance]

/-- the game is a sum of bets -/
theorem roForgeChance_bets [DecidableEq GT] (L : GroupLaws E) (hsub : E.inSub1 g = true)
    (hd : 0 < d) (hd' : d ≤ 63) (pf : Profile) (A : World G1 G2 → RoPlayer G1 G2) {Q : Nat}
    (hQ : ∀ W, (A W).Hashes Q) (T : Finset Nat) (hT : ∀ W, (A W).Aims d T) :
    roForgeChance E pf g d cs A ≤ ∑ p ∈ T ×ˢ Finset.range Q, avg fun D0 : Digest =>
      avg fun a : Secret d 0 → Fr => (A (worldOf E g cs a [])).bet E pf g (a .x) p.1 p.2 (some D0)
        [] [] (worldOf E g cs a []) := by
  unfold roForgeChance
  refine (avg_mono fun a => ?_).trans (b := avg fun a : Secret d 0 → Fr =>
    ∑ p ∈ T ×ˢ Finset.range Q, (A (worldOf E g cs a [])).bet E pf g (a .x) p.1 p.2 none [] []
      (worldOf E g cs a [])) ?_
  · have hS : ParamShape (worldOf E g cs a []).pp :=
      (viewOf_wf (E := E) (cs := cs) L hsub hd hd' (toVar a)).toParamShape
    have hT' : (A (worldOf E g cs a [])).Aims (worldOf E g cs a []).pp.depth T := hT _
    have hcs : (worldOf E g cs a []).pk.ciphersuite = (worldOf E g cs a []).pp.ciphersuite := rfl
    generalize worldOf E g cs a [] = W at *
    exact RoPlayer.chance_le_bets pf (a .x) (A W) Q (hQ _) [] [] (by simp) W hS hcs hT'
  · rw [avg_sum]
    refine Finset.sum_le_sum fun p _ => ?_
    rw [avg_congr fun a => RoPlayer.bet_avg pf (a .x) p.1 p.2 (A (worldOf E g cs a [])) [] []
      (worldOf E g cs a [])]
    exact (avg_comm _).le

/-- the reduction in the random-oracle game -/
theorem roForgeChance_le [DecidableEq GT] (L : GroupLaws E) (hsub : E.inSub1 g = true)
    (hd : 0 < d) (hd' : d ≤ 63) (pf : Profile) (A : World G1 G2 → RoPlayer G1 G2)
    (hA : ∀ W, (A W).Legal d) {m : Nat} (hm : ∀ W, (A W).Points m) {Q : Nat}
    (hQ : ∀ W, (A W).Hashes Q) (T : Finset Nat) (node : Nat → List Nat)
    (hT : ∀ t ∈ T, NodeAt d t (node t)) (hT' : ∀ W, (A W).Aims d T) :
    roForgeChance E pf g d cs A ≤
      ∑ p ∈ T ×ˢ Finset.range Q, (solveChance E g d (roReduction E cs d (node p.1) p.2 A) +
        ((m + 1) / rOrder + Q / 2 ^ 254)) := by
  refine (roForgeChance_bets L hsub hd hd' pf A hQ T hT').trans
    (Finset.sum_le_sum fun p hp => ?_)
  refine (avg_mono fun D0 => bet_le_solve L hsub hd hd' pf A hA hm hQ
    (hT _ (Finset.mem_product.1 hp).1) p.2 D0).trans ?_
  rw [avg_add_const, solve_avg]

end Pixel
