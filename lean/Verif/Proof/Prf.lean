import Verif.Spec.Prf
import Verif.Proof.Oracle
import Verif.Proof.Api
import Verif.Proof.Prng

/-!
# The generator: from HMAC to uniform strings, one key after the other
-/

namespace Pixel

open Spec

set_option linter.unusedSectionVars false

variable {sha : Bytes → Bytes}

theorem digest_value (D : Digest) : ((natOfBytes D.bytes : Nat) : Fr) = D.field := by
  rw [natOfBytes_eq]
  unfold Digest.bytes Digest.field
  rw [beNat_natToBE, Nat.mod_eq_of_lt D.isLt]

theorem tossOracle_keyed (K : Bytes) (tab : Table) (info : Bytes)
    (f : Digest → Table → PrfPlayer) :
    (tossOracle tab info f).keyed sha K = oracle tab info fun D tab' => (f D tab').keyed sha K := by
  unfold tossOracle oracle
  rcases tab.lookup info with _ | D <;> rfl

theorem tossOracle_random (T tab : Table) (info : Bytes) (f : Digest → Table → PrfPlayer) :
    (tossOracle tab info f).random T = oracle tab info fun D tab' => (f D tab').random T := by
  unfold tossOracle oracle
  rcases tab.lookup info with _ | D <;> rfl

theorem avg_oracle {α : Type} [Fintype α] [Nonempty α] {tab : Table} {msg : Bytes}
    (f : α → Digest → Table → ℚ) :
    (avg fun a => oracle tab msg (f a)) = oracle tab msg fun D tab' => avg fun a => f a D tab' := by
  unfold oracle
  rcases tab.lookup msg with _ | D
  · exact avg_comm fun a D => f a D (tab ++ [(msg, D)])
  · rfl

/-! ## The real generator -/

theorem real_sample (h : ∀ m, (sha m).length = 64) (info : Bytes) (n : Fr → PrngPlayer) (p : Prng) :
    (PrngPlayer.sample info n).real sha p = (n (drawVal sha p info)).real sha p := by
  rw [PrngPlayer.real, sample_eq h]

theorem real_draw (h : ∀ m, (sha m).length = 64) (info : Bytes) (n : Fr → PrngPlayer) (p : Prng) :
    (PrngPlayer.draw info n).real sha p =
      (n (drawVal sha p info)).real sha (drawNext sha p info) := by
  rw [PrngPlayer.real, sampleThenUpdate_eq h]

theorem real_mix (h : ∀ m, (sha m).length = 64) (seed info : Bytes) (n : PrngPlayer) (p : Prng) :
    (PrngPlayer.mix seed info n).real sha p = n.real sha (mixed sha p seed info) := by
  rw [PrngPlayer.real, rerandomize_eq h]

theorem attack_real_keyed (h : ∀ m, (sha m).length = 64) (K : Bytes) (P : PrngPlayer) (p : Prng) :
    (P.attack sha (.real p)).keyed sha K = P.real sha p := by
  induction P generalizing p with
  | toss n hn next ih =>
    simp only [PrngPlayer.attack, PrfPlayer.keyed, PrngPlayer.real]
    exact avg_congr fun c => ih c p
  | sample info next ih => rw [PrngPlayer.attack, sample_eq h, real_sample h]; exact ih _ _
  | draw info next ih => rw [PrngPlayer.attack, sampleThenUpdate_eq h, real_draw h]; exact ih _ _
  | mix seed info next ih => rw [PrngPlayer.attack, rerandomize_eq h, real_mix h]; exact ih _
  | reveal out => rfl
  | stop out => rfl

theorem attack_real_random (h : ∀ m, (sha m).length = 64) (T : Table) (P : PrngPlayer) (p : Prng) :
    (P.attack sha (.real p)).random T = P.real sha p := by
  induction P generalizing p with
  | toss n hn next ih =>
    simp only [PrngPlayer.attack, PrfPlayer.random, PrngPlayer.real]
    exact avg_congr fun c => ih c p
  | sample info next ih => rw [PrngPlayer.attack, sample_eq h, real_sample h]; exact ih _ _
  | draw info next ih => rw [PrngPlayer.attack, sampleThenUpdate_eq h, real_draw h]; exact ih _ _
  | mix seed info next ih => rw [PrngPlayer.attack, rerandomize_eq h, real_mix h]; exact ih _
  | reveal out => rfl
  | stop out => rfl

/-! ## The key that is asked for, when it is HMAC's -/

theorem drawVal_eq (K info : Bytes) :
    drawVal sha ⟨K⟩ info = ((natOfBytes (hmac sha K (info ++ [1])) : Nat) : Fr) := by
  rw [natOfBytes_eq]; rfl

theorem attack_live_used (h : ∀ m, (sha m).length = 64) (K : Bytes) (P : PrngPlayer)
    (hP : P.Careful true) : (P.attack sha .live).keyed sha K = P.real sha ⟨K⟩ := by
  induction P with
  | toss n hn next ih =>
    simp only [PrngPlayer.attack, PrfPlayer.keyed, PrngPlayer.real]
    exact avg_congr fun c => ih c (hP c)
  | sample info next ih =>
    rw [real_sample h, drawVal_eq]
    exact ih _ (hP _)
  | draw info next ih =>
    rw [real_draw h, drawVal_eq]
    exact attack_real_keyed h K _ _
  | mix seed info next ih =>
    rw [real_mix h]
    exact attack_real_keyed h K _ _
  | reveal out => exact absurd hP (by simp [PrngPlayer.Careful])
  | stop out => rfl

theorem attack_live_fresh (h : ∀ m, (sha m).length = 64) (P : PrngPlayer)
    (hP : P.Careful false) :
    (avg fun K : Digest => (P.attack sha .live).keyed sha K.bytes) =
      avg fun K : Digest => P.real sha ⟨K.bytes⟩ := by
  induction P with
  | toss n hn next ih =>
    simp only [PrngPlayer.attack, PrfPlayer.keyed, PrngPlayer.real]
    rw [avg_comm, avg_comm (fun (K : Digest) c => (next c).real sha ⟨K.bytes⟩)]
    exact avg_congr fun c => ih c (hP c)
  | sample info next ih =>
    refine avg_congr fun K => ?_
    rw [real_sample h, drawVal_eq]
    exact attack_live_used h _ _ (hP _)
  | draw info next ih =>
    refine avg_congr fun K => ?_
    rw [real_draw h, drawVal_eq]
    exact attack_real_keyed h _ _ _
  | mix seed info next ih =>
    refine avg_congr fun K => ?_
    rw [real_mix h]
    exact attack_real_keyed h _ _ _
  | reveal out =>
    exact avg_const (α := Digest) (avg fun K : Digest => out ⟨K.bytes⟩)
  | stop out => rfl

/-! ## The key that is asked for, when the function is random -/

/-- the table of the random function has the strings given out at the live key -/
structure Live (tab T : Table) : Prop where
  first : ∀ info, T.lookup (info ++ [1]) = tab.lookup info
  second : ∀ b, T.lookup (b ++ [2]) = none

theorem live_nil : Live [] [] := ⟨fun _ => rfl, fun _ => rfl⟩

theorem lookup_snoc {T : Table} {b c : Bytes} {D : Digest} :
    (T ++ [(c, D)]).lookup b = (T.lookup b).or (if b = c then some D else none) := by
  induction T with
  | nil =>
    rw [List.nil_append, List.lookup_cons]
    by_cases hb : b = c
    · subst hb; simp
    · rw [if_neg hb, show (b == c) = false from beq_eq_false_iff_ne.mpr hb]; rfl
  | cons x T ih =>
    obtain ⟨y, E⟩ := x
    rw [List.cons_append, List.lookup_cons, List.lookup_cons]
    by_cases hb : b == y
    · simp [hb]
    · simp only [hb]; exact ih

theorem Live.snoc {tab T : Table} (hL : Live tab T) (info : Bytes) (D : Digest) :
    Live (tab ++ [(info, D)]) (T ++ [(info ++ [1], D)]) := by
  constructor
  · intro i
    rw [lookup_snoc, lookup_snoc, hL.first]
    by_cases hi : i = info
    · rw [hi, if_pos rfl, if_pos rfl]
    · rw [if_neg hi, if_neg fun hc => hi (List.append_cancel_right hc)]
  · intro b
    rw [lookup_snoc, hL.second, if_neg]
    · rfl
    · intro hc
      have := (List.append_inj_right' hc rfl)
      simp at this

/-- the first value at the live key -/
theorem Live.oracle {tab T : Table} (hL : Live tab T) (info : Bytes) {f f' : Digest → Table → ℚ}
    (h : ∀ D tab' T', Live tab' T' → f D T' = f' D tab') :
    oracle T (info ++ [1]) f = oracle tab info f' := by
  unfold Spec.oracle
  rw [hL.first]
  rcases tab.lookup info with _ | D
  · exact avg_congr fun D => h _ _ _ (hL.snoc info D)
  · exact h _ _ _ hL

/-- the second value is new -/
theorem Live.second_new {tab T : Table} (hL : Live tab T) (b : Bytes) (f : Digest → Table → ℚ) :
    Spec.oracle T (b ++ [2]) f = avg fun D : Digest => f D (T ++ [(b ++ [2], D)]) := by
  unfold Spec.oracle
  rw [hL.second]

theorem attack_live_random (h : ∀ m, (sha m).length = 64) (P : PrngPlayer) {u : Bool}
    (hP : P.Careful u) {tab T : Table} (hL : Live tab T) :
    (P.attack sha .live).random T =
      avg fun K : Digest => (P.attack sha (.ideal 0 tab)).keyed sha K.bytes := by
  induction P generalizing u tab T with
  | toss n hn next ih =>
    simp only [PrngPlayer.attack, PrfPlayer.keyed, PrfPlayer.random]
    rw [avg_comm]
    exact avg_congr fun c => ih c (hP c) hL
  | sample info next ih =>
    simp only [PrngPlayer.attack, PrfPlayer.random, tossOracle_keyed]
    rw [avg_oracle]
    refine hL.oracle info fun D tab' T' hL' => ?_
    rw [digest_value]
    exact ih _ (hP _) hL'
  | draw info next ih =>
    simp only [PrngPlayer.attack, PrfPlayer.random, tossOracle_keyed, stageAfter]
    rw [avg_oracle]
    refine hL.oracle info fun D tab' T' hL' => ?_
    rw [hL'.second_new, digest_value, attack_live_fresh h _ (hP _)]
    exact avg_congr fun K => attack_real_random h _ _ _
  | mix seed info next ih =>
    simp only [PrngPlayer.attack, PrfPlayer.random, PrfPlayer.keyed, tossOracle_keyed]
    rw [avg_oracle]
    refine hL.oracle info fun D tab' T' hL' => ?_
    rw [hL'.second_new]
    refine avg_congr fun K => ?_
    rw [attack_real_random h, attack_real_keyed h]
  | reveal out =>
    exact (avg_const (α := Digest) (avg fun K : Digest => out ⟨K.bytes⟩)).symm
  | stop out => exact (avg_const (α := Digest) out).symm

theorem oracle_new (b : Bytes) (f : Digest → Table → ℚ) :
    oracle [] b f = avg fun D : Digest => f D [(b, D)] := rfl

theorem oracle_const (tab : Table) (b : Bytes) (v : ℚ) : oracle tab b (fun _ _ => v) = v := by
  unfold oracle
  rcases tab.lookup b with _ | D
  · exact avg_const v
  · rfl

theorem attack_ideal_random (h : ∀ m, (sha m).length = 64) (P : PrngPlayer) {u : Bool}
    (hP : P.Careful u) (k : Nat) (tab : Table) :
    (P.attack sha (.ideal k tab)).random [] =
      avg fun K : Digest => (P.attack sha (.ideal (k + 1) tab)).keyed sha K.bytes := by
  induction P generalizing u k tab with
  | toss n hn next ih =>
    simp only [PrngPlayer.attack, PrfPlayer.keyed, PrfPlayer.random]
    rw [avg_comm]
    exact avg_congr fun c => ih c (hP c) k tab
  | sample info next ih =>
    simp only [PrngPlayer.attack, tossOracle_random, tossOracle_keyed]
    rw [avg_oracle]
    exact oracle_congr fun D tab' => ih _ (hP _) k tab'
  | draw info next ih =>
    simp only [PrngPlayer.attack, tossOracle_random, tossOracle_keyed]
    rw [avg_oracle]
    refine oracle_congr fun D tab' => ?_
    rcases k with _ | k
    · exact attack_live_random h _ (hP _) live_nil
    · exact ih _ (hP _) k []
  | mix seed info next ih =>
    rcases k with _ | _ | k
    · simp only [PrngPlayer.attack, tossOracle_random, PrfPlayer.random, stageAfter]
      rw [attack_live_fresh h _ hP]
      refine Eq.trans (oracle_congr fun D tab' => ?_) (oracle_const tab info _)
      rw [oracle_new]
      exact avg_congr fun K => attack_real_random h _ _ _
    · exact attack_live_random h next hP live_nil
    · exact ih hP k []
  | reveal out =>
    exact (avg_const (α := Digest) (avg fun K : Digest => out ⟨K.bytes⟩)).symm
  | stop out => exact (avg_const (α := Digest) out).symm

theorem attack_all_ideal (K : Bytes) (P : PrngPlayer) {k : Nat} (hP : P.Keys k) (tab : Table) :
    (P.attack sha (.ideal k tab)).keyed sha K = P.ideal tab := by
  induction P generalizing k tab with
  | toss n hn next ih =>
    simp only [PrngPlayer.attack, PrfPlayer.keyed, PrngPlayer.ideal]
    exact avg_congr fun c => ih c (hP c) tab
  | sample info next ih =>
    simp only [PrngPlayer.attack, tossOracle_keyed, PrngPlayer.ideal]
    exact oracle_congr fun D tab' => ih _ (hP _) tab'
  | draw info next ih =>
    obtain ⟨hk, hP⟩ := hP
    obtain ⟨k, rfl⟩ := Nat.exists_eq_add_of_lt hk
    rw [Nat.zero_add] at *
    simp only [PrngPlayer.attack, tossOracle_keyed, PrngPlayer.ideal]
    exact oracle_congr fun D tab' => ih _ (hP _) []
  | mix seed info next ih =>
    obtain ⟨hk, hP⟩ := hP
    obtain ⟨k, rfl⟩ := Nat.exists_eq_add_of_lt hk
    rw [show 1 + k + 1 = k + 1 + 1 by omega] at *
    exact ih hP []
  | reveal out => rfl
  | stop out => rfl

/-- the expected output of adversary `j` against HMAC -/
noncomputable def hybrid (sha : Bytes → Bytes) (P : PrngPlayer) (j : Nat) : ℚ :=
  avg fun K : Digest => (prfAttack sha P j).keyed sha K.bytes

theorem prfGain_hybrid (h : ∀ m, (sha m).length = 64) (P : PrngPlayer) (hP : P.Careful false)
    (j : Nat) : prfGain sha (prfAttack sha P j) = hybrid sha P j - hybrid sha P (j + 1) := by
  unfold prfGain hybrid prfAttack
  congr 1
  rcases j with _ | j
  · exact attack_live_random h P hP live_nil
  · exact attack_ideal_random h P hP j []

theorem real_sub_ideal (h : ∀ m, (sha m).length = 64) (P : PrngPlayer) (hP : P.Careful false)
    {k : Nat} (hk : P.Keys k) :
    realOutput sha P - P.ideal [] = ∑ j ∈ Finset.range (k + 1), prfGain sha (prfAttack sha P j) := by
  rw [Finset.sum_congr rfl fun j _ => prfGain_hybrid h P hP j,
    Finset.sum_range_sub' (hybrid sha P) (k + 1)]
  have h0 : hybrid sha P 0 = realOutput sha P := attack_live_fresh h P hP
  have h1 : hybrid sha P (k + 1) = P.ideal [] :=
    Eq.trans (avg_congr fun K => attack_all_ideal _ P hk []) (avg_const _)
  rw [h0, h1]

/-! ## How often the adversaries ask -/

theorem asks_mono {D : PrfPlayer} {k k' : Nat} (h : D.Asks k) (hk : k ≤ k') : D.Asks k' := by
  induction D generalizing k k' with
  | toss n hn next ih => exact fun c => ih c (h c) hk
  | ask data next ih => exact ⟨by have := h.1; omega, fun b => ih b (h.2 b) (by omega)⟩
  | out v => trivial

theorem tossOracle_asks {tab : Table} {info : Bytes} {f : Digest → Table → PrfPlayer} {k : Nat}
    (h : ∀ D tab', (f D tab').Asks k) : (tossOracle tab info f).Asks k := by
  unfold tossOracle
  rcases tab.lookup info with _ | D
  · exact fun D => h _ _
  · exact h _ _

theorem attack_real_asks (h : ∀ m, (sha m).length = 64) (P : PrngPlayer) (p : Prng) :
    (P.attack sha (.real p)).Asks 0 := by
  induction P generalizing p with
  | toss n hn next ih => exact fun c => ih c p
  | sample info next ih => rw [PrngPlayer.attack, sample_eq h]; exact ih _ _
  | draw info next ih => rw [PrngPlayer.attack, sampleThenUpdate_eq h]; exact ih _ _
  | mix seed info next ih => rw [PrngPlayer.attack, rerandomize_eq h]; exact ih _
  | reveal out => trivial
  | stop out => trivial

theorem attack_asks (h : ∀ m, (sha m).length = 64) (P : PrngPlayer) {k : Nat} (hP : P.Uses k)
    (S : Stage) : (P.attack sha S).Asks (k + 1) := by
  induction P generalizing k S with
  | toss n hn next ih => exact fun c => ih c (hP c) S
  | sample info next ih =>
    obtain ⟨hk, hP⟩ := hP
    rcases S with ⟨m, tab⟩ | _ | p
    · simp only [PrngPlayer.attack]
      exact tossOracle_asks fun D tab' => asks_mono (ih _ (hP _) _) (by omega)
    · exact ⟨by omega, fun b => asks_mono (ih _ (hP _) _) (by omega)⟩
    · exact asks_mono (attack_real_asks h _ _) (by omega)
  | draw info next ih =>
    obtain ⟨hk, hP⟩ := hP
    rcases S with ⟨m, tab⟩ | _ | p
    · simp only [PrngPlayer.attack]
      exact tossOracle_asks fun D tab' => asks_mono (ih _ (hP _) _) (by omega)
    · exact ⟨by omega, fun b => ⟨by omega, fun b' =>
        asks_mono (attack_real_asks h _ _) (by omega)⟩⟩
    · exact asks_mono (attack_real_asks h _ _) (by omega)
  | mix seed info next ih =>
    obtain ⟨hk, hP⟩ := hP
    rcases S with ⟨_ | m, tab⟩ | _ | p
    · simp only [PrngPlayer.attack]
      exact tossOracle_asks fun D tab' =>
        ⟨by omega, fun b => asks_mono (attack_real_asks h _ _) (by omega)⟩
    · exact asks_mono (ih hP _) (by omega)
    · exact ⟨by omega, fun b => ⟨by omega, fun b' =>
        asks_mono (attack_real_asks h _ _) (by omega)⟩⟩
    · exact asks_mono (attack_real_asks h _ _) (by omega)
  | reveal out =>
    rcases S with ⟨m, tab⟩ | _ | p
    · exact fun _ => trivial
    · exact fun _ => trivial
    · trivial
  | stop out => trivial

end Pixel
