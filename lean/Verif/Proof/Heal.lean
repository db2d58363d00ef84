import Verif.Spec.Heal
import Verif.Proof.Code

/-!
# Leaks of the generator, and recovery by fresh seeds: proofs
-/

namespace Pixel

open Spec Props

set_option linter.unusedSectionVars false

variable {sha : Bytes → Bytes} {n : Nat}

/-- the first `i` periods are ideal -/
noncomputable def Spec.HealPlayer.hybrid (sha : Bytes → Bytes) (n : Nat) :
    HealPlayer → Nat → HealState → ℚ
  | .toss _ _ nx, i, S => avg fun c => (nx c).hybrid sha n i S
  | .sample info nx, i, .known p => (nx (drawVal sha p info)).hybrid sha n i (.known p)
  | .sample info nx, i, .fresh tab => oracle tab info fun D tab' =>
      (nx D.field).hybrid sha n i (.fresh tab')
  | .draw info nx, i, .known p =>
      (nx (drawVal sha p info)).hybrid sha n i (.known (drawNext sha p info))
  | .draw info nx, i, .fresh tab => oracle tab info fun D _ => (nx D.field).hybrid sha n i (.fresh [])
  | .mix seed info nx, i, .known p => nx.hybrid sha n i (.known (mixed sha p seed info))
  | .mix _ _ nx, i, .fresh _ => nx.hybrid sha n i (.fresh [])
  | .refresh info nx, 0, .known p => avg fun s : Seed n => nx.real sha n (mixed sha p s.bytes info)
  | .refresh _ nx, i + 1, .known _ => nx.hybrid sha n i (.fresh [])
  | .refresh _ nx, i, .fresh _ => nx.hybrid sha n i (.fresh [])
  | .leak nx, i, .known p => (nx p).hybrid sha n i (.known p)
  | .leak nx, i, .fresh _ => avg fun K : Digest => (nx ⟨K.bytes⟩).hybrid sha n i (.known ⟨K.bytes⟩)
  | .stop v, _, _ => v

/-- the first `i` periods are ideal, the next one begins with a uniform string -/
noncomputable def Spec.HealPlayer.begun (sha : Bytes → Bytes) (n : Nat) :
    HealPlayer → Nat → HealState → ℚ
  | .toss _ _ nx, i, S => avg fun c => (nx c).begun sha n i S
  | .sample info nx, i, .known p => (nx (drawVal sha p info)).begun sha n i (.known p)
  | .sample info nx, i, .fresh tab => oracle tab info fun D tab' =>
      (nx D.field).begun sha n i (.fresh tab')
  | .draw info nx, i, .known p =>
      (nx (drawVal sha p info)).begun sha n i (.known (drawNext sha p info))
  | .draw info nx, i, .fresh tab => oracle tab info fun D _ => (nx D.field).begun sha n i (.fresh [])
  | .mix seed info nx, i, .known p => nx.begun sha n i (.known (mixed sha p seed info))
  | .mix _ _ nx, i, .fresh _ => nx.begun sha n i (.fresh [])
  | .refresh _ nx, 0, .known _ => avg fun K : Digest => nx.real sha n ⟨K.bytes⟩
  | .refresh _ nx, i + 1, .known _ => nx.begun sha n i (.fresh [])
  | .refresh _ nx, i, .fresh _ => nx.begun sha n i (.fresh [])
  | .leak nx, i, .known p => (nx p).begun sha n i (.known p)
  | .leak nx, i, .fresh _ => avg fun K : Digest => (nx ⟨K.bytes⟩).begun sha n i (.known ⟨K.bytes⟩)
  | .stop v, _, _ => v

theorem hybrid_zero (h : ∀ m, (sha m).length = 64) (P : HealPlayer) (p : Prng) :
    P.hybrid sha n 0 (.known p) = P.real sha n p := by
  induction P generalizing p with
  | toss m hm nx ih =>
    simp only [HealPlayer.hybrid, HealPlayer.real]
    exact avg_congr fun c => ih c p
  | sample info nx ih =>
    simp only [HealPlayer.hybrid, HealPlayer.real, sample_eq h]
    exact ih _ _
  | draw info nx ih =>
    simp only [HealPlayer.hybrid, HealPlayer.real, sampleThenUpdate_eq h]
    exact ih _ _
  | mix seed info nx ih =>
    simp only [HealPlayer.hybrid, HealPlayer.real, rerandomize_eq h]
    exact ih _
  | refresh info nx ih =>
    simp only [HealPlayer.hybrid, HealPlayer.real, rerandomize_eq h]
  | leak nx ih =>
    simp only [HealPlayer.hybrid, HealPlayer.real]
    exact ih _ _
  | stop v => rfl

theorem hybrid_all (h : ∀ m, (sha m).length = 64) (P : HealPlayer) {c : Nat} (hc : P.Refreshes c)
    (S : HealState) : P.hybrid sha n c S = P.ideal sha S := by
  induction P generalizing c S with
  | toss m hm nx ih =>
    simp only [HealPlayer.hybrid, HealPlayer.ideal]
    exact avg_congr fun i => ih i (hc i) S
  | sample info nx ih =>
    rcases S with p | tab
    · simp only [HealPlayer.hybrid, HealPlayer.ideal, sample_eq h]
      exact ih _ (hc _) _
    · simp only [HealPlayer.hybrid, HealPlayer.ideal]
      exact oracle_congr fun D tab' => ih _ (hc _) _
  | draw info nx ih =>
    rcases S with p | tab
    · simp only [HealPlayer.hybrid, HealPlayer.ideal, sampleThenUpdate_eq h]
      exact ih _ (hc _) _
    · simp only [HealPlayer.hybrid, HealPlayer.ideal]
      exact oracle_congr fun D tab' => ih _ (hc _) _
  | mix seed info nx ih =>
    rcases S with p | tab
    · simp only [HealPlayer.hybrid, HealPlayer.ideal, rerandomize_eq h]
      exact ih hc _
    · simp only [HealPlayer.hybrid, HealPlayer.ideal]
      exact ih hc _
  | refresh info nx ih =>
    obtain ⟨h1, h2⟩ := hc
    obtain ⟨c, rfl⟩ : ∃ c', c = c' + 1 := ⟨c - 1, by omega⟩
    rcases S with p | tab
    · simp only [HealPlayer.hybrid, HealPlayer.ideal]
      exact ih h2 _
    · simp only [HealPlayer.hybrid, HealPlayer.ideal]
      refine ih (c := c + 1) ?_ _
      exact refreshes_mono h2 (by omega)
  | leak nx ih =>
    rcases S with p | tab
    · simp only [HealPlayer.hybrid, HealPlayer.ideal]
      exact ih _ (hc _) _
    · simp only [HealPlayer.hybrid, HealPlayer.ideal]
      exact avg_congr fun K => ih _ (hc _) _
  | stop v => cases S <;> rfl
where
  refreshes_mono {P : HealPlayer} {c c' : Nat} (hP : P.Refreshes c) (hc : c ≤ c') :
      P.Refreshes c' := by
    induction P generalizing c c' with
    | toss m hm nx ih => exact fun i => ih i (hP i) hc
    | sample info nx ih => exact fun r => ih r (hP r) hc
    | draw info nx ih => exact fun r => ih r (hP r) hc
    | mix seed info nx ih => exact ih hP hc
    | refresh info nx ih => exact ⟨by have := hP.1; omega, ih hP.2 (by omega)⟩
    | leak nx ih => exact fun p => ih p (hP p) hc
    | stop v => trivial

theorem hybrid_sub_begun (h : ∀ m, (sha m).length = 64) (P : HealPlayer) (i : Nat) (S : HealState) :
    P.hybrid sha n i S - P.begun sha n i S = (P.entry sha n i S).gain sha n := by
  have hsub : ∀ {α : Type} [Fintype α] [Nonempty α] (f f' : α → ℚ),
      avg f - avg f' = avg fun a => f a - f' a := by
    intro α _ _ f f'
    unfold avg
    rw [Finset.sum_sub_distrib, sub_div]
  induction P generalizing i S with
  | toss m hm nx ih =>
    have : Nonempty (Fin m) := ⟨⟨0, hm⟩⟩
    simp only [HealPlayer.hybrid, HealPlayer.begun, HealPlayer.entry, ExtractPlayer.gain]
    rw [hsub]
    exact avg_congr fun c => ih c i S
  | sample info nx ih =>
    rcases S with p | tab
    · simp only [HealPlayer.hybrid, HealPlayer.begun, HealPlayer.entry, sample_eq h]
      exact ih _ _ _
    · simp only [HealPlayer.hybrid, HealPlayer.begun, HealPlayer.entry, oracle]
      rcases tab.lookup info with _ | D
      · simp only [ExtractPlayer.gain]
        rw [hsub]
        exact avg_congr fun D => ih _ _ _
      · exact ih _ _ _
  | draw info nx ih =>
    rcases S with p | tab
    · simp only [HealPlayer.hybrid, HealPlayer.begun, HealPlayer.entry, sampleThenUpdate_eq h]
      exact ih _ _ _
    · simp only [HealPlayer.hybrid, HealPlayer.begun, HealPlayer.entry, oracle]
      rcases tab.lookup info with _ | D
      · simp only [ExtractPlayer.gain]
        rw [hsub]
        exact avg_congr fun D => ih _ _ _
      · exact ih _ _ _
  | mix seed info nx ih =>
    rcases S with p | tab
    · simp only [HealPlayer.hybrid, HealPlayer.begun, HealPlayer.entry, rerandomize_eq h]
      exact ih _ _
    · simp only [HealPlayer.hybrid, HealPlayer.begun, HealPlayer.entry]
      exact ih _ _
  | refresh info nx ih =>
    rcases S with p | tab
    · rcases i with _ | i
      · simp only [HealPlayer.hybrid, HealPlayer.begun, HealPlayer.entry, ExtractPlayer.gain]
        rfl
      · simp only [HealPlayer.hybrid, HealPlayer.begun, HealPlayer.entry]
        exact ih _ _
    · simp only [HealPlayer.hybrid, HealPlayer.begun, HealPlayer.entry]
      exact ih _ _
  | leak nx ih =>
    rcases S with p | tab
    · simp only [HealPlayer.hybrid, HealPlayer.begun, HealPlayer.entry]
      exact ih _ _ _
    · simp only [HealPlayer.hybrid, HealPlayer.begun, HealPlayer.entry, ExtractPlayer.gain]
      rw [hsub]
      exact avg_congr fun K => ih _ _ _
  | stop v => cases S <;> simp [HealPlayer.hybrid, HealPlayer.begun, HealPlayer.entry, ExtractPlayer.gain]

theorem live_real (h : ∀ m, (sha m).length = 64) (P : HealPlayer) (p : Prng) :
    (P.live sha n).real sha p = P.real sha n p := by
  induction P generalizing p with
  | toss m hm nx ih =>
    simp only [HealPlayer.live, HealPlayer.real, PrngPlayer.real]
    exact avg_congr fun c => ih c p
  | sample info nx ih =>
    simp only [HealPlayer.live, HealPlayer.real, PrngPlayer.real, sample_eq h]
    exact ih _ _
  | draw info nx ih =>
    simp only [HealPlayer.live, HealPlayer.real, PrngPlayer.real, sampleThenUpdate_eq h]
    exact ih _ _
  | mix seed info nx ih =>
    simp only [HealPlayer.live, HealPlayer.real, PrngPlayer.real, rerandomize_eq h]
    exact ih _
  | refresh info nx ih =>
    simp only [HealPlayer.live, HealPlayer.real, PrngPlayer.real, rerandomize_eq h]
    exact avg_congr fun s => ih _
  | leak nx ih => rfl
  | stop v => rfl

theorem live_ideal (h : ∀ m, (sha m).length = 64) (P : HealPlayer) (tab : Table) :
    (P.live sha n).ideal tab = P.hybrid sha n 0 (.fresh tab) := by
  induction P generalizing tab with
  | toss m hm nx ih =>
    simp only [HealPlayer.live, HealPlayer.hybrid, PrngPlayer.ideal]
    exact avg_congr fun c => ih c tab
  | sample info nx ih =>
    simp only [HealPlayer.live, HealPlayer.hybrid, PrngPlayer.ideal]
    exact oracle_congr fun D tab' => ih _ _
  | draw info nx ih =>
    simp only [HealPlayer.live, HealPlayer.hybrid, PrngPlayer.ideal]
    exact oracle_congr fun D tab' => ih _ _
  | mix seed info nx ih =>
    simp only [HealPlayer.live, HealPlayer.hybrid, PrngPlayer.ideal]
    exact ih _
  | refresh info nx ih =>
    simp only [HealPlayer.live, HealPlayer.hybrid, PrngPlayer.ideal]
    have : Nonempty (Fin (256 ^ n)) := ⟨⟨0, Nat.pow_pos (by decide)⟩⟩
    rw [avg_const]
    exact ih _
  | leak nx ih =>
    simp only [HealPlayer.live, HealPlayer.hybrid, PrngPlayer.ideal]
    exact avg_congr fun K => (hybrid_zero h _ _).symm
  | stop v => rfl

theorem period_real (h : ∀ m, (sha m).length = 64) (P : HealPlayer) (i : Nat) (S : HealState) :
    realOutput sha (P.period sha n i S) = P.begun sha n i S := by
  unfold realOutput
  induction P generalizing i S with
  | toss m hm nx ih =>
    simp only [HealPlayer.period, HealPlayer.begun, PrngPlayer.real]
    rw [avg_comm]
    exact avg_congr fun c => ih c i S
  | sample info nx ih =>
    rcases S with p | tab
    · simp only [HealPlayer.period, HealPlayer.begun, sample_eq h]
      exact ih _ _ _
    · simp only [HealPlayer.period, HealPlayer.begun, table_real]
      rw [avg_oracle]
      exact oracle_congr fun D tab' => ih _ _ _
  | draw info nx ih =>
    rcases S with p | tab
    · simp only [HealPlayer.period, HealPlayer.begun, sampleThenUpdate_eq h]
      exact ih _ _ _
    · simp only [HealPlayer.period, HealPlayer.begun, table_real]
      rw [avg_oracle]
      exact oracle_congr fun D tab' => ih _ _ _
  | mix seed info nx ih =>
    rcases S with p | tab
    · simp only [HealPlayer.period, HealPlayer.begun, rerandomize_eq h]
      exact ih _ _
    · simp only [HealPlayer.period, HealPlayer.begun]
      exact ih _ _
  | refresh info nx ih =>
    rcases S with p | tab
    · rcases i with _ | i
      · simp only [HealPlayer.period, HealPlayer.begun]
        exact avg_congr fun K => live_real h _ _
      · simp only [HealPlayer.period, HealPlayer.begun]
        exact ih _ _
    · simp only [HealPlayer.period, HealPlayer.begun]
      exact ih _ _
  | leak nx ih =>
    rcases S with p | tab
    · simp only [HealPlayer.period, HealPlayer.begun]
      exact ih _ _ _
    · simp only [HealPlayer.period, HealPlayer.begun, PrngPlayer.real]
      rw [avg_comm]
      exact avg_congr fun K => ih _ _ _
  | stop v =>
    cases S <;> exact avg_const v

theorem period_ideal (h : ∀ m, (sha m).length = 64) (P : HealPlayer) (i : Nat) (S : HealState) :
    (P.period sha n i S).ideal [] = P.hybrid sha n (i + 1) S := by
  induction P generalizing i S with
  | toss m hm nx ih =>
    simp only [HealPlayer.period, HealPlayer.hybrid, PrngPlayer.ideal]
    exact avg_congr fun c => ih c i S
  | sample info nx ih =>
    rcases S with p | tab
    · simp only [HealPlayer.period, HealPlayer.hybrid, sample_eq h]
      exact ih _ _ _
    · simp only [HealPlayer.period, HealPlayer.hybrid, table_ideal]
      exact oracle_congr fun D tab' => ih _ _ _
  | draw info nx ih =>
    rcases S with p | tab
    · simp only [HealPlayer.period, HealPlayer.hybrid, sampleThenUpdate_eq h]
      exact ih _ _ _
    · simp only [HealPlayer.period, HealPlayer.hybrid, table_ideal]
      exact oracle_congr fun D tab' => ih _ _ _
  | mix seed info nx ih =>
    rcases S with p | tab
    · simp only [HealPlayer.period, HealPlayer.hybrid, rerandomize_eq h]
      exact ih _ _
    · simp only [HealPlayer.period, HealPlayer.hybrid]
      exact ih _ _
  | refresh info nx ih =>
    rcases S with p | tab
    · rcases i with _ | i
      · simp only [HealPlayer.period, HealPlayer.hybrid]
        exact live_ideal h _ _
      · simp only [HealPlayer.period, HealPlayer.hybrid]
        exact ih _ _
    · simp only [HealPlayer.period, HealPlayer.hybrid]
      exact ih _ _
  | leak nx ih =>
    rcases S with p | tab
    · simp only [HealPlayer.period, HealPlayer.hybrid]
      exact ih _ _ _
    · simp only [HealPlayer.period, HealPlayer.hybrid, PrngPlayer.ideal]
      exact avg_congr fun K => ih _ _ _
  | stop v => cases S <;> rfl

/-! ## The conditions on users of the generator -/

theorem live_careful (P : HealPlayer) {u : Bool}
    (hP : P.Careful (if u then .used else .unused)) : (P.live sha n).Careful u := by
  induction P generalizing u with
  | toss m hm nx ih => exact fun c => ih c (hP c)
  | sample info nx ih =>
    intro r
    refine ih r (u := true) ?_
    have := hP r
    cases u <;> exact this
  | draw info nx ih =>
    intro r
    refine ih r (u := false) ?_
    have := hP r
    cases u <;> exact this
  | mix seed info nx ih =>
    refine ih (u := false) ?_
    cases u <;> exact hP
  | refresh info nx ih => exact fun s => ih (u := false) hP
  | leak nx ih =>
    cases u
    · rfl
    · exact absurd rfl hP.1
  | stop v => trivial

/-- what is known about a state of the ideal game -/
def markOf : HealState → Mark → Prop
  | .known _, u => u = .known
  | .fresh _, u => u ≠ .known

theorem period_careful (h : ∀ m, (sha m).length = 64) (P : HealPlayer) (i : Nat) {S : HealState}
    {u : Mark} (hu : markOf S u) (hP : P.Careful u) : (P.period sha n i S).Careful false := by
  have hne : ∀ {u : Mark}, u ≠ .known → u.replaced ≠ .known ∧ u.sampled ≠ .known := by
    intro u hu
    cases u <;> simp_all [Mark.replaced, Mark.sampled]
  induction P generalizing i S u with
  | toss m hm nx ih => exact fun c => ih c i hu (hP c)
  | sample info nx ih =>
    rcases S with p | tab
    · simp only [HealPlayer.period, sample_eq h]
      cases hu
      exact ih _ _ rfl (hP _)
    · exact table_careful fun D tab' => ih _ _ (hne hu).2 (hP _)
  | draw info nx ih =>
    rcases S with p | tab
    · simp only [HealPlayer.period, sampleThenUpdate_eq h]
      cases hu
      exact ih _ _ rfl (hP _)
    · exact table_careful fun D tab' => ih _ _ (hne hu).1 (hP _)
  | mix seed info nx ih =>
    rcases S with p | tab
    · simp only [HealPlayer.period, rerandomize_eq h]
      cases hu
      exact ih _ rfl hP
    · simp only [HealPlayer.period]
      exact ih _ (hne hu).1 hP
  | refresh info nx ih =>
    rcases S with p | tab
    · rcases i with _ | i
      · simp only [HealPlayer.period]
        exact live_careful nx (u := false) hP
      · simp only [HealPlayer.period]
        exact ih _ (u := .unused) (by simp [markOf]) hP
    · simp only [HealPlayer.period]
      exact ih _ (u := .unused) (by simp [markOf]) hP
  | leak nx ih =>
    rcases S with p | tab
    · simp only [HealPlayer.period]
      exact ih _ _ (u := .known) rfl (hP.2 _)
    · exact fun K => ih _ _ (u := .known) rfl (hP.2 _)
  | stop v => cases S <;> trivial

theorem live_keys (P : HealPlayer) {k : Nat} (hP : P.Keys k) : (P.live sha n).Keys k := by
  induction P generalizing k with
  | toss m hm nx ih => exact fun c => ih c (hP c)
  | sample info nx ih => exact fun r => ih r (hP r)
  | draw info nx ih => exact ⟨hP.1, fun r => ih r (hP.2 r)⟩
  | mix seed info nx ih => exact ⟨hP.1, ih hP.2⟩
  | refresh info nx ih => exact fun s => ⟨hP.1, ih hP.2⟩
  | leak nx ih => trivial
  | stop v => trivial

theorem period_keys (h : ∀ m, (sha m).length = 64) (P : HealPlayer) (i : Nat) (S : HealState)
    {k : Nat} (hP : P.Keys k) : (P.period sha n i S).Keys k := by
  induction P generalizing i S k with
  | toss m hm nx ih => exact fun c => ih c i S (hP c)
  | sample info nx ih =>
    rcases S with p | tab
    · simp only [HealPlayer.period, sample_eq h]
      exact ih _ _ _ (hP _)
    · exact table_keys fun D tab' => ih _ _ _ (hP _)
  | draw info nx ih =>
    rcases S with p | tab
    · simp only [HealPlayer.period, sampleThenUpdate_eq h]
      exact keys_mono (ih _ _ _ (hP.2 _)) (by omega)
    · exact table_keys fun D tab' => keys_mono (ih _ _ _ (hP.2 _)) (by omega)
  | mix seed info nx ih =>
    rcases S with p | tab
    · simp only [HealPlayer.period, rerandomize_eq h]
      exact keys_mono (ih _ _ hP.2) (by omega)
    · simp only [HealPlayer.period]
      exact keys_mono (ih _ _ hP.2) (by omega)
  | refresh info nx ih =>
    rcases S with p | tab
    · rcases i with _ | i
      · simp only [HealPlayer.period]
        exact keys_mono (live_keys nx hP.2) (by omega)
      · simp only [HealPlayer.period]
        exact keys_mono (ih _ _ hP.2) (by omega)
    · simp only [HealPlayer.period]
      exact keys_mono (ih _ _ hP.2) (by omega)
  | leak nx ih =>
    rcases S with p | tab
    · simp only [HealPlayer.period]
      exact ih _ _ _ (hP _)
    · exact fun K => ih _ _ _ (hP _)
  | stop v => cases S <;> trivial

/-! ## All periods -/

theorem hybrid_step (h : ∀ m, (sha m).length = 64) (P : HealPlayer) (i : Nat) {S : HealState}
    {u : Mark} (hu : markOf S u) (hP : P.Careful u) {k : Nat} (hk : P.Keys k) :
    P.hybrid sha n i S - P.hybrid sha n (i + 1) S = (P.entry sha n i S).gain sha n +
      ∑ j ∈ Finset.range (k + 1), prfGain sha (prfAttack sha (P.period sha n i S) j) := by
  rw [← hybrid_sub_begun h, ← real_sub_ideal h _ (period_careful h P i hu hP) (period_keys h P i S hk),
    period_real h, period_ideal h]
  ring

theorem hybrid_sum (h : ∀ m, (sha m).length = 64) (P : HealPlayer) {S : HealState}
    {u : Mark} (hu : markOf S u) (hP : P.Careful u) {k : Nat} (hk : P.Keys k) {c : Nat}
    (hc : P.Refreshes c) :
    P.hybrid sha n 0 S - P.ideal sha S = ∑ i ∈ Finset.range c, ((P.entry sha n i S).gain sha n +
      ∑ j ∈ Finset.range (k + 1), prfGain sha (prfAttack sha (P.period sha n i S) j)) := by
  rw [← hybrid_all (n := n) h P hc, ← Finset.sum_range_sub' (fun i => P.hybrid sha n i S) c]
  exact Finset.sum_congr rfl fun i _ => hybrid_step h P i hu hP hk

end Pixel
