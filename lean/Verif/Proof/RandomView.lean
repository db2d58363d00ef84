import Verif.Proof.Random

/-! # A random function in the place of SHA-512: the generator, the seed and the API -/

namespace Pixel

open Spec Props

set_option linter.unusedSectionVars false

variable {G1 G2 GT : Type} [AddCommGroup G1] [AddCommGroup G2] [CommGroup GT]

/-! ## HMAC with two evaluations -/

/-- HMAC with a key of at most 128 octets -/
def macShort (K m : Bytes) (k : Bytes → Prober) : Prober :=
  .hash (keyPad 0x36 K ++ m) fun e => .hash (keyPad 0x5c K ++ e) k

/-- HMAC -/
def mac (K m : Bytes) (k : Bytes → Prober) : Prober :=
  if K.length ≤ 128 then macShort K m k else .hash K fun K' => macShort K' m k

theorem mac_using {sha : Bytes → Bytes} (K m : Bytes) (k : Bytes → Prober) :
    (mac K m k).using sha = (k (hmac sha K m)).using sha := by
  unfold mac
  split_ifs with h
  · rw [hmac_pads sha h]
    rfl
  · have h1 : hmac sha K m = sha (keyPad 0x5c (sha K) ++ sha (keyPad 0x36 (sha K) ++ m)) := by
      unfold hmac hmacKey keyPad
      rw [if_pos (by omega)]
    rw [h1]
    rfl

theorem within_mono {B : Nat} {Q : Prober} {q q' k k' : Nat} (h : Q.Within B q k) (hq : q ≤ q')
    (hk : k ≤ k') : Q.Within B q' k' := by
  induction Q generalizing q q' k k' with
  | toss n hn next ih => exact fun c => ih c (h c) hq hk
  | hash m next ih =>
    exact ⟨h.1, by have := h.2.1; omega, fun b hb => ih b (h.2.2 b hb) (by omega) hk⟩
  | ask m next ih =>
    exact ⟨h.1, by have := h.2.1; omega, fun b hb => ih b (h.2.2 b hb) hq (by omega)⟩
  | stop v => trivial

theorem mac_within {B q q' k : Nat} (hB : 192 ≤ B) (hq : q + 2 ≤ q') {K m : Bytes}
    (hK : K.length = 64) (hm : 128 + m.length ≤ B) {f : Bytes → Prober}
    (h : ∀ b : Bytes, b.length = 64 → (f b).Within B q k) : (mac K m f).Within B q' k := by
  unfold mac
  rw [if_pos (by omega)]
  refine ⟨?_, by omega, fun e he => ⟨?_, by omega, fun b hb => within_mono (h b hb) (by omega) le_rfl⟩⟩
  · rw [List.length_append, keyPad_length (by omega)]
    exact hm
  · rw [List.length_append, keyPad_length (by omega), he]
    exact hB

/-! ## The adversaries against HMAC -/

/-- as `tossOracle` -/
def tossOracleQ (tab : Table) (info : Bytes) (f : Digest → Table → Prober) : Prober :=
  match tab.lookup info with
  | some D => f D tab
  | none => .toss (256 ^ 64) digests_pos fun D => f D (tab ++ [(info, D)])

theorem tossOracleQ_using {sha : Bytes → Bytes} (tab : Table) (info : Bytes)
    (f : Digest → Table → Prober) :
    (tossOracleQ tab info f).using sha = tossOracle tab info fun D tab' => (f D tab').using sha := by
  unfold tossOracleQ tossOracle
  rcases tab.lookup info with _ | D <;> rfl

theorem tossOracleQ_within {B q k : Nat} {tab : Table} {info : Bytes} {f : Digest → Table → Prober}
    (h : ∀ D tab', (f D tab').Within B q k) : (tossOracleQ tab info f).Within B q k := by
  unfold tossOracleQ
  rcases tab.lookup info with _ | D
  · exact fun D => h _ _
  · exact h _ _

theorem tossOracleQ_bounded {tab : Table} {info : Bytes} {f : Digest → Table → Prober}
    (h : ∀ D tab', (f D tab').Bounded) : (tossOracleQ tab info f).Bounded := by
  unfold tossOracleQ
  rcases tab.lookup info with _ | D
  · exact fun D => h _ _
  · exact h _ _

/-- a program that asks for nothing -/
def Spec.Probe.prober : Probe → Prober
  | .toss m hm n => .toss m hm fun c => (n c).prober
  | .hash m n => .hash m fun b => (n b).prober
  | .stop v => .stop v

/-- as `PrngPlayer.attack`, with the evaluations of the hash function -/
def Spec.PrngProber.attackQ : PrngProber → Stage → Prober
  | .toss m hm n, S => .toss m hm fun c => (n c).attackQ S
  | .hash m n, S => .hash m fun b => (n b).attackQ S
  | .sample info n, .ideal k tab => tossOracleQ tab info fun D tab' =>
      (n D.field).attackQ (.ideal k tab')
  | .sample info n, .live => .ask (info ++ [1]) fun t1 => (n (natOfBytes t1)).attackQ .live
  | .sample info n, .real p => mac p.seed (info ++ [1]) fun t1 =>
      (n (natOfBytes t1)).attackQ (.real p)
  | .draw info n, .ideal k tab => tossOracleQ tab info fun D _ =>
      (n D.field).attackQ (stageAfter k)
  | .draw info n, .live => .ask (info ++ [1]) fun t1 => .ask (t1 ++ info ++ [2]) fun t2 =>
      (n (natOfBytes t1)).attackQ (.real ⟨t2⟩)
  | .draw info n, .real p => mac p.seed (info ++ [1]) fun t1 =>
      mac p.seed (t1 ++ info ++ [2]) fun t2 => (n (natOfBytes t1)).attackQ (.real ⟨t2⟩)
  | .mix seed info n, .ideal 0 tab => tossOracleQ tab info fun D _ =>
      .ask (D.bytes ++ seed) fun s => n.attackQ (.real ⟨s⟩)
  | .mix _ _ n, .ideal (k + 1) _ => n.attackQ (stageAfter k)
  | .mix seed info n, .live => .ask (info ++ [1]) fun t1 => .ask (t1 ++ info ++ [2]) fun t2 =>
      mac t2 (t1 ++ seed) fun s => n.attackQ (.real ⟨s⟩)
  | .mix seed info n, .real p => mac p.seed (info ++ [1]) fun t1 =>
      mac p.seed (t1 ++ info ++ [2]) fun t2 => mac t2 (t1 ++ seed) fun s => n.attackQ (.real ⟨s⟩)
  | .look n, .real p => (n p.seed).prober
  | .look n, .live => .toss (256 ^ 64) digests_pos fun K => (n (Digest.bytes K)).prober
  | .look n, .ideal _ _ => .toss (256 ^ 64) digests_pos fun K => (n (Digest.bytes K)).prober
  | .stop v, _ => .stop v

/-- the two adversaries have the same expected outputs -/
def Alike (sha : Bytes → Bytes) (X Y : PrfPlayer) : Prop :=
  (∀ K, X.keyed sha K = Y.keyed sha K) ∧ ∀ tab, X.random tab = Y.random tab

theorem alike_toss {sha : Bytes → Bytes} {m : Nat} {hm : 0 < m} {X Y : Fin m → PrfPlayer}
    (h : ∀ c, Alike sha (X c) (Y c)) : Alike sha (.toss m hm X) (.toss m hm Y) :=
  ⟨fun K => avg_congr fun c => (h c).1 K, fun tab => avg_congr fun c => (h c).2 tab⟩

theorem alike_ask {sha : Bytes → Bytes} {b : Bytes} {X Y : Bytes → PrfPlayer}
    (h : ∀ c, Alike sha (X c) (Y c)) : Alike sha (.ask b X) (.ask b Y) :=
  ⟨fun K => (h _).1 K, fun tab => by
    simp only [PrfPlayer.random]
    unfold oracle
    rcases tab.lookup b with _ | D
    · exact avg_congr fun D => (h _).2 _
    · exact (h _).2 _⟩

theorem alike_oracle {sha : Bytes → Bytes} {tab : Table} {b : Bytes}
    {X Y : Digest → Table → PrfPlayer} (h : ∀ D tab', Alike sha (X D tab') (Y D tab')) :
    Alike sha (tossOracle tab b X) (tossOracle tab b Y) := by
  unfold tossOracle
  rcases tab.lookup b with _ | D
  · exact alike_toss fun c => h _ _
  · exact h _ _

theorem prober_alike {sha : Bytes → Bytes} (R : Probe) :
    Alike sha (R.prober.using sha) (.out (R.eval sha)) := by
  induction R with
  | toss m hm n ih => exact ⟨fun K => avg_congr fun c => (ih c).1 K, fun tab => avg_congr fun c => (ih c).2 tab⟩
  | hash m n ih => exact ih _
  | stop v => exact ⟨fun _ => rfl, fun _ => rfl⟩

theorem look_alike {sha : Bytes → Bytes} (n : Bytes → Probe) :
    Alike sha ((Prober.toss (256 ^ 64) digests_pos fun K => (n (Digest.bytes K)).prober).using sha)
      (.out (avg fun K : Digest => (n K.bytes).eval sha)) :=
  ⟨fun K => avg_congr fun _ => (prober_alike _).1 K, fun tab => avg_congr fun _ => (prober_alike _).2 tab⟩

theorem attackQ_using {sha : Bytes → Bytes} (h : ∀ m, (sha m).length = 64) (P : PrngProber)
    (S : Stage) : Alike sha ((P.attackQ S).using sha) ((P.using sha).attack sha S) := by
  induction P generalizing S with
  | toss n hn next ih => exact alike_toss fun c => ih c S
  | hash m next ih => exact ih _ S
  | sample info next ih =>
    rcases S with ⟨k, tab⟩ | _ | p
    · rw [PrngProber.attackQ, tossOracleQ_using]
      exact alike_oracle fun D tab' => ih _ _
    · exact alike_ask fun b => ih _ _
    · rw [PrngProber.attackQ, mac_using, PrngProber.using, PrngPlayer.attack, sample_eq h,
        show drawVal sha p info = _ from drawVal_eq p.seed info]
      exact ih _ _
  | draw info next ih =>
    rcases S with ⟨k, tab⟩ | _ | p
    · rw [PrngProber.attackQ, tossOracleQ_using]
      exact alike_oracle fun D tab' => ih _ _
    · exact alike_ask fun b => alike_ask fun b' => ih _ _
    · rw [PrngProber.attackQ, mac_using, mac_using, PrngProber.using, PrngPlayer.attack,
        sampleThenUpdate_eq h, show drawVal sha p info = _ from drawVal_eq p.seed info]
      exact ih _ _
  | mix seed info next ih =>
    rcases S with ⟨_ | k, tab⟩ | _ | p
    · rw [PrngProber.attackQ, tossOracleQ_using]
      exact alike_oracle fun D tab' => alike_ask fun b => ih _
    · exact ih _
    · refine alike_ask fun b => alike_ask fun b' => ?_
      rw [mac_using]
      exact ih _
    · rw [PrngProber.attackQ, mac_using, mac_using, mac_using, PrngProber.using, PrngPlayer.attack,
        rerandomize_eq h]
      exact ih _
  | look n =>
    rcases S with ⟨k, tab⟩ | _ | p
    · exact look_alike n
    · exact look_alike n
    · exact prober_alike _
  | stop v => exact ⟨fun _ => rfl, fun _ => rfl⟩

theorem prober_bounded (R : Probe) (hb : R.Bounded) : R.prober.Bounded := by
  induction R with
  | toss m hm n ih => exact fun c => ih c (hb c)
  | hash m n ih => exact fun b => ih b (hb b)
  | stop v => exact hb

theorem prober_within {B : Nat} (R : Probe) (hs : R.Short B) {q : Nat} (hq : R.Hashes q) :
    R.prober.Within B q 0 := by
  induction R generalizing q with
  | toss m hm n ih => exact fun c => ih c (hs c) (hq c)
  | hash m n ih => exact ⟨hs.1, hq.1, fun b hb => ih b (hs.2 b hb) (hq.2 b hb)⟩
  | stop v => trivial

theorem mac_bounded {K m : Bytes} {f : Bytes → Prober} (h : ∀ b, (f b).Bounded) :
    (mac K m f).Bounded := by
  unfold mac
  split_ifs
  · exact fun _ b => h b
  · exact fun _ _ b => h b

theorem attackQ_bounded (P : PrngProber) (hb : P.Bounded) (S : Stage) : (P.attackQ S).Bounded := by
  induction P generalizing S with
  | toss n hn next ih => exact fun c => ih c (hb c) S
  | hash m next ih => exact fun b => ih b (hb b) S
  | sample info next ih =>
    rcases S with ⟨k, tab⟩ | _ | p
    · exact tossOracleQ_bounded fun D tab' => ih _ (hb _) _
    · exact fun b => ih _ (hb _) _
    · exact mac_bounded fun b => ih _ (hb _) _
  | draw info next ih =>
    rcases S with ⟨k, tab⟩ | _ | p
    · exact tossOracleQ_bounded fun D tab' => ih _ (hb _) _
    · exact fun b b' => ih _ (hb _) _
    · exact mac_bounded fun b => mac_bounded fun b' => ih _ (hb _) _
  | mix seed info next ih =>
    rcases S with ⟨_ | k, tab⟩ | _ | p
    · exact tossOracleQ_bounded fun D tab' b => ih hb _
    · exact ih hb _
    · exact fun b b' => mac_bounded fun s => ih hb _
    · exact mac_bounded fun b => mac_bounded fun b' => mac_bounded fun s => ih hb _
  | look n =>
    rcases S with ⟨k, tab⟩ | _ | p
    · exact fun c => prober_bounded _ (hb _)
    · exact fun c => prober_bounded _ (hb _)
    · exact prober_bounded _ (hb _)
  | stop v => exact hb

theorem len_first {B : Nat} {info : Bytes} (h : info.length + 193 ≤ B) :
    128 + (info ++ [1]).length ≤ B := by
  simp
  omega

theorem len_second {B : Nat} {info t : Bytes} (h : info.length + 193 ≤ B) (ht : t.length = 64) :
    128 + (t ++ info ++ [2]).length ≤ B := by
  simp [ht]
  omega

theorem len_seed {B : Nat} {seed t : Bytes} (h : seed.length + 193 ≤ B) (ht : t.length = 64) :
    128 + (t ++ seed).length ≤ B := by
  simp [ht]
  omega

theorem attackQ_real_within {B : Nat} (P : PrngProber) {q u : Nat} (hP : P.Within B q u) {p : Prng}
    (hp : p.seed.length = 64) : (P.attackQ (.real p)).Within B (q + 6 * u) 0 := by
  induction P generalizing q u p with
  | toss n hn next ih => exact fun c => ih c (hP c) hp
  | hash m next ih =>
    obtain ⟨h1, h2, h3⟩ := hP
    exact ⟨h1, by omega, fun b hb => within_mono (ih b (h3 b hb) hp) (by omega) le_rfl⟩
  | sample info next ih =>
    obtain ⟨h1, h2, h3⟩ := hP
    exact mac_within (q := q + 6 * (u - 1)) (by omega) (by omega) hp (len_first h1)
      fun b hb => ih _ (h3 _) hp
  | draw info next ih =>
    obtain ⟨h1, h2, h3⟩ := hP
    exact mac_within (q := q + 6 * (u - 1) + 2) (by omega) (by omega) hp (len_first h1)
      fun b hb => mac_within (q := q + 6 * (u - 1)) (by omega) (by omega) hp (len_second h1 hb)
      fun b' hb' => ih _ (h3 _) hb'
  | mix seed info next ih =>
    obtain ⟨h0, h1, h2, h3⟩ := hP
    exact mac_within (q := q + 6 * (u - 1) + 4) (by omega) (by omega) hp (len_first h1)
      fun b hb => mac_within (q := q + 6 * (u - 1) + 2) (by omega) (by omega) hp (len_second h1 hb)
      fun b' hb' => mac_within (q := q + 6 * (u - 1)) (by omega) (by omega) hb' (len_seed h0 hb)
      fun s hs => ih h3 hs
  | look n => exact within_mono (prober_within _ (hP _ hp).1 (hP _ hp).2) (by omega) le_rfl
  | stop v => trivial

theorem attackQ_within {B : Nat} (P : PrngProber) {q u : Nat} (hP : P.Within B q u) (S : Stage)
    (hS : ∀ p, S = .real p → p.seed.length = 64) :
    (P.attackQ S).Within B (q + 6 * u) (u + 1) := by
  induction P generalizing q u S with
  | toss n hn next ih => exact fun c => ih c (hP c) S hS
  | hash m next ih =>
    obtain ⟨h1, h2, h3⟩ := hP
    exact ⟨h1, by omega, fun b hb => within_mono (ih b (h3 b hb) S hS) (by omega) le_rfl⟩
  | sample info next ih =>
    rcases S with ⟨k, tab⟩ | _ | p
    · obtain ⟨h1, h2, h3⟩ := hP
      exact tossOracleQ_within fun D tab' =>
        within_mono (ih _ (h3 _) _ fun p hp => by cases hp) (by omega) (by omega)
    · obtain ⟨h1, h2, h3⟩ := hP
      exact ⟨len_first h1, by omega, fun b hb =>
        within_mono (ih _ (h3 _) _ fun p hp => by cases hp) (by omega) (by omega)⟩
    · exact within_mono (attackQ_real_within _ hP (hS p rfl)) le_rfl (by omega)
  | draw info next ih =>
    rcases S with ⟨k, tab⟩ | _ | p
    · obtain ⟨h1, h2, h3⟩ := hP
      exact tossOracleQ_within fun D tab' =>
        within_mono (ih _ (h3 _) _ fun p hp => by rcases k with _ | k <;> cases hp) (by omega) (by omega)
    · obtain ⟨h1, h2, h3⟩ := hP
      exact ⟨len_first h1, by omega, fun b hb => ⟨len_second h1 hb, by omega, fun b' hb' =>
        within_mono (attackQ_real_within _ (h3 _) hb') (by omega) (by omega)⟩⟩
    · exact within_mono (attackQ_real_within _ hP (hS p rfl)) le_rfl (by omega)
  | mix seed info next ih =>
    rcases S with ⟨_ | k, tab⟩ | _ | p
    · obtain ⟨h0, h1, h2, h3⟩ := hP
      exact tossOracleQ_within fun D tab' => ⟨len_seed h0 (digest_length D), by omega, fun b hb =>
        within_mono (attackQ_real_within _ h3 hb) (by omega) (by omega)⟩
    · obtain ⟨h0, h1, h2, h3⟩ := hP
      exact within_mono (ih h3 _ fun p hp => by rcases k with _ | k <;> cases hp) (by omega) (by omega)
    · obtain ⟨h0, h1, h2, h3⟩ := hP
      exact ⟨len_first h1, by omega, fun b hb => ⟨len_second h1 hb, by omega, fun b' hb' =>
        mac_within (q := q + 6 * (u - 1)) (by omega) (by omega) hb' (len_seed h0 hb) fun s hs =>
          within_mono (attackQ_real_within _ h3 hs) (by omega) (by omega)⟩⟩
    · exact within_mono (attackQ_real_within _ hP (hS p rfl)) le_rfl (by omega)
  | look n =>
    have h1 : ∀ b : Bytes, b.length = 64 → (n b).prober.Within B (q + 6 * u) (u + 1) := fun b hb =>
      within_mono (prober_within _ (hP b hb).1 (hP b hb).2) (by omega) (by omega)
    rcases S with ⟨k, tab⟩ | _ | p
    · exact fun c => h1 _ (digest_length c)
    · exact fun c => h1 _ (digest_length c)
    · exact h1 _ (hS p rfl)
  | stop v => trivial

/-! ## The generator -/

theorem using_careful {sha : Bytes → Bytes} (P : PrngProber) {b : Bool} (hP : P.Careful b) :
    (P.using sha).Careful b := by
  induction P generalizing b with
  | toss n hn next ih => exact fun c => ih c (hP c)
  | hash m next ih => exact ih _ (hP _)
  | sample info next ih => exact fun r => ih r (hP r)
  | draw info next ih => exact fun r => ih r (hP r)
  | mix seed info next ih => exact ih hP
  | look n => exact hP
  | stop v => trivial

theorem using_keys {sha : Bytes → Bytes} (h : ∀ m, (sha m).length = 64) {B : Nat} (P : PrngProber)
    {q u : Nat} (hP : P.Within B q u) : (P.using sha).Keys (2 * u) := by
  induction P generalizing q u with
  | toss n hn next ih => exact fun c => ih c (hP c)
  | hash m next ih => exact ih _ (hP.2.2 _ (h m))
  | sample info next ih => exact fun r => keys_mono (ih r (hP.2.2 r)) (by omega)
  | draw info next ih =>
    have := hP.2.1
    exact ⟨by omega, fun r => keys_mono (ih r (hP.2.2 r)) (by omega)⟩
  | mix seed info next ih =>
    have := hP.2.2.1
    exact ⟨by omega, keys_mono (ih hP.2.2.2) (by omega)⟩
  | look n => trivial
  | stop v => trivial

/-- what the adversaries against HMAC gain together -/
def macLoss (q u : Nat) : ℚ := (2 * u + 1) * ((2 * (q + 6 * u) + (u + 1) ^ 2) / 2 ^ 512)

theorem generator_random {B : Nat} (hB : 192 ≤ B) (P : PrngProber) (hb : P.Bounded)
    (hc : P.Careful false) {q u : Nat} (hw : P.Within B q u) :
    (avg fun ω : HashFun B => realOutput ω.sha (P.using ω.sha)) ≤
      (avg fun ω : HashFun B => (P.using ω.sha).ideal []) + macLoss q u := by
  have h1 : ∀ ω : HashFun B, realOutput ω.sha (P.using ω.sha) = (P.using ω.sha).ideal [] +
      ∑ j ∈ Finset.range (2 * u + 1), prfGain ω.sha ((P.attackQ (stageAfter j)).using ω.sha) := by
    intro ω
    have := real_sub_ideal (sha := ω.sha) (HashFun.sha_length ω) (P.using ω.sha)
      (using_careful P hc) (using_keys (HashFun.sha_length ω) P hw)
    have e : ∀ j, prfGain ω.sha ((P.attackQ (stageAfter j)).using ω.sha) =
        prfGain ω.sha (prfAttack ω.sha (P.using ω.sha) j) := fun j => by
      have ha := attackQ_using (HashFun.sha_length ω) P (stageAfter j)
      unfold prfGain prfAttack
      rw [ha.2, avg_congr fun K => ha.1 _]
    rw [Finset.sum_congr rfl fun j _ => e j, ← this]
    ring
  rw [avg_congr h1, avg_add]
  refine add_le_add le_rfl ?_
  have h2 : (avg fun ω : HashFun B => ∑ j ∈ Finset.range (2 * u + 1),
      prfGain ω.sha ((P.attackQ (stageAfter j)).using ω.sha)) =
      ∑ j ∈ Finset.range (2 * u + 1), avg fun ω : HashFun B =>
        prfGain ω.sha ((P.attackQ (stageAfter j)).using ω.sha) := by
    unfold avg
    rw [Finset.sum_comm, Finset.sum_div]
  rw [h2]
  have h3 : ∀ j ∈ Finset.range (2 * u + 1), (avg fun ω : HashFun B =>
      prfGain ω.sha ((P.attackQ (stageAfter j)).using ω.sha)) ≤
      (2 * ((q + 6 * u : ℕ) : ℚ) + ((u + 1 : ℕ) : ℚ) ^ 2) / 2 ^ 512 := fun j _ =>
    hmac_random hB _ (attackQ_bounded P hb _) (attackQ_within P hw _ fun p hp => by
      rcases j with _ | j <;> cases hp)
  refine (Finset.sum_le_card_nsmul _ _ _ h3).trans (le_of_eq ?_)
  rw [Finset.card_range, nsmul_eq_mul]
  unfold macLoss
  push_cast
  rfl

/-! ## Hidden strings -/

namespace Spec.Probe

/-- the output is 1 when one of the strings `a`, `b` is hashed -/
noncomputable def alarm (a b : Bytes) : Probe → Table → ℚ
  | .toss _ _ n, tab => avg fun c => (n c).alarm a b tab
  | .hash m n, tab =>
    if m = a ∨ m = b then 1 else oracle tab m fun D tab' => (n D.bytes).alarm a b tab'
  | .stop v, _ => v

theorem alarm_nonneg {a b : Bytes} (R : Probe) (hb : R.Bounded) (tab : Table) :
    0 ≤ R.alarm a b tab := by
  induction R generalizing tab with
  | toss n hn next ih => exact avg_nonneg fun c => ih c (hb c) tab
  | hash m next ih =>
    rw [alarm]
    split_ifs
    · exact zero_le_one
    · unfold oracle
      rcases tab.lookup m with _ | D
      · exact avg_nonneg fun D => ih _ (hb _) _
      · exact ih _ (hb _) _
  | stop v => exact hb.1

theorem lazy_le_alarm {a b : Bytes} (R : Probe) (hb : R.Bounded) {all tab : Table}
    (h : ∀ m, m ≠ a → m ≠ b → all.lookup m = tab.lookup m) : R.lazy all ≤ R.alarm a b tab := by
  induction R generalizing all tab with
  | toss n hn next ih => exact avg_mono fun c => ih c (hb c) h
  | hash m next ih =>
    have hle := ((Probe.hash m next).lazy_bounds hb all).2
    rw [alarm]
    split_ifs with hm
    · exact hle
    · rw [not_or] at hm
      rw [Probe.lazy]
      unfold oracle
      rw [h m hm.1 hm.2]
      rcases tab.lookup m with _ | D
      · refine avg_mono fun D => ih _ (hb _) fun m' h1 h2 => ?_
        rw [List.lookup_append, List.lookup_append, h m' h1 h2]
      · exact ih _ (hb _) h
  | stop v => exact le_rfl

theorem alarm_le {Θ : Type} [Fintype Θ] [Nonempty Θ] {a b : Θ → Bytes} {δ : ℚ} (hδ : 0 ≤ δ)
    (hc : ∀ m, (avg fun θ => if m = a θ ∨ m = b θ then (1 : ℚ) else 0) ≤ δ) (R : Probe)
    (hb : R.Bounded) {q : Nat} (hq : R.Hashes q) (tab : Table) :
    (avg fun θ => R.alarm (a θ) (b θ) tab) ≤ R.lazy tab + q * δ := by
  induction R generalizing q tab with
  | toss n hn next ih =>
    have : Nonempty (Fin n) := ⟨⟨0, hn⟩⟩
    simp only [alarm, Probe.lazy]
    rw [avg_comm]
    refine (avg_mono fun c => ih c (hb c) (hq c) tab).trans (le_of_eq ?_)
    rw [avg_add, avg_const]
  | hash m next ih =>
    obtain ⟨hq0, hq⟩ := hq
    have h1 : ∀ θ, (Probe.hash m next).alarm (a θ) (b θ) tab ≤
        (if m = a θ ∨ m = b θ then 1 else 0) +
          oracle tab m fun D tab' => (next D.bytes).alarm (a θ) (b θ) tab' := fun θ => by
      rw [alarm]
      split_ifs
      · have : 0 ≤ oracle tab m fun D tab' => (next D.bytes).alarm (a θ) (b θ) tab' := by
          unfold oracle
          rcases tab.lookup m with _ | D
          · exact avg_nonneg fun D => alarm_nonneg _ (hb _) _
          · exact alarm_nonneg _ (hb _) _
        linarith
      · rw [zero_add]
    refine (avg_mono h1).trans ?_
    rw [avg_add, avg_oracle]
    have h2 : (oracle tab m fun D tab' => avg fun θ => (next D.bytes).alarm (a θ) (b θ) tab') ≤
        (Probe.hash m next).lazy tab + ((q - 1 : ℕ) : ℚ) * δ := by
      rw [Probe.lazy]
      unfold oracle
      rcases tab.lookup m with _ | D
      · simp only []
        refine (avg_mono fun D => ih _ (hb _) (hq _ (digest_length D)) _).trans (le_of_eq ?_)
        rw [avg_add, avg_const]
      · exact ih _ (hb _) (hq _ (digest_length D)) _
    have h3 := hc m
    rw [lookup_lt hq0]
    linarith
  | stop v =>
    simp only [alarm, Probe.lazy]
    rw [avg_const]
    have : 0 ≤ (q : ℚ) * δ := by positivity
    linarith

end Spec.Probe

theorem randomProbe_hashes {B : Nat} (Q : Prober) {q : Nat} (hQ : Q.Within B q 0) (tab : Table) :
    (Q.randomProbe tab).Hashes q := by
  induction Q generalizing q tab with
  | toss n hn next ih => exact fun c => ih c (hQ c) tab
  | hash m next ih => exact ⟨hQ.2.1, fun b hb => ih b (hQ.2.2 b hb) tab⟩
  | ask m next ih => exact absurd hQ.2.1 (by omega)
  | stop v => trivial

/-! ## The seed -/

theorem seed_inj {n : Nat} {s s' : Seed n} (h : s.bytes = s'.bytes) : s = s' := by
  have h1 := congrArg beNat h
  unfold Seed.bytes at h1
  rw [beNat_natToBE, beNat_natToBE, Nat.mod_eq_of_lt s.isLt, Nat.mod_eq_of_lt s'.isLt] at h1
  exact Fin.ext h1

/-- the chance to hash one of the two strings behind the state -/
def seedLoss (n : Nat) : ℚ := 1 / 256 ^ n + 1 / 2 ^ 512

theorem seedLoss_nonneg (n : Nat) : 0 ≤ seedLoss n := by unfold seedLoss; positivity

theorem seed_pos (n : Nat) : 0 < 256 ^ n := Nat.pow_pos (by norm_num)

instance (n : Nat) : Nonempty (Seed n) := ⟨⟨0, seed_pos n⟩⟩

theorem seed_found (n : Nat) {salt : Bytes} (m : Bytes) :
    (avg fun θ : Seed n × Digest => if m = keyPad 0x36 salt ++ θ.1.bytes ∨
      m = keyPad 0x5c salt ++ θ.2.bytes then (1 : ℚ) else 0) ≤ seedLoss n := by
  have h2 : ∀ θ : Seed n × Digest, (if m = keyPad 0x36 salt ++ θ.1.bytes ∨
      m = keyPad 0x5c salt ++ θ.2.bytes then (1 : ℚ) else 0) ≤
      (if m = keyPad 0x36 salt ++ θ.1.bytes then 1 else 0) +
        (if m = keyPad 0x5c salt ++ θ.2.bytes then 1 else 0) := fun θ => by
    by_cases ha : m = keyPad 0x36 salt ++ θ.1.bytes
    · rw [if_pos ha, if_pos (Or.inl ha)]
      split_ifs <;> norm_num
    · by_cases hb : m = keyPad 0x5c salt ++ θ.2.bytes
      · rw [if_neg ha, if_pos hb, if_pos (Or.inr hb)]
        norm_num
      · rw [if_neg ha, if_neg hb, if_neg (not_or.2 ⟨ha, hb⟩)]
        norm_num
  refine (avg_mono h2).trans ?_
  rw [avg_add]
  unfold seedLoss
  refine add_le_add ?_ ?_
  · rw [avg_prod fun (s : Seed n) (_ : Digest) =>
      if m = keyPad 0x36 salt ++ s.bytes then (1 : ℚ) else 0]
    simp only [avg_const]
    refine (avg_at_most_one fun s s' h h' => seed_inj (List.append_cancel_left (h.symm.trans h'))).trans ?_
    rw [show Fintype.card (Seed n) = 256 ^ n from Fintype.card_fin _, Nat.cast_pow]
    norm_num
  · rw [avg_prod fun (_ : Seed n) (e : Digest) =>
      if m = keyPad 0x5c salt ++ e.bytes then (1 : ℚ) else 0]
    rw [avg_const]
    refine (avg_at_most_one fun s s' h h' => digest_inj (List.append_cancel_left (h.symm.trans h'))).trans ?_
    exact one_div_digests.le

/-- a run from the state that HKDF-extract makes of a uniform seed, and one from a uniform state -/
theorem extract_random {B n : Nat} (hB : 192 ≤ B) (hn : 128 + n ≤ B) {salt : Bytes} (hs : salt ≠ [])
    (hl : salt.length ≤ 128) {R : Bytes → Probe} (hb : ∀ y, (R y).Bounded) {q : Nat}
    (hq : ∀ y : Bytes, y.length = 64 → (R y).Hashes q)
    (hS : ∀ y : Bytes, y.length = 64 → (R y).Short B) :
    (avg fun ω : HashFun B => avg fun s : Seed n => (R (hmac ω.sha salt s.bytes)).eval ω.sha) ≤
      (avg fun ω : HashFun B => avg fun K : Digest => (R K.bytes).eval ω.sha) + q * seedLoss n := by
  have hlen : ∀ s : Seed n, s.bytes.length = n := fun s => natToBE_length n s.val
  have h1 : ∀ s : Seed n, (avg fun ω : HashFun B => (R (hmac ω.sha salt s.bytes)).eval ω.sha) =
      avg fun e : Digest => avg fun y : Digest => (R y.bytes).lazy
        ([(keyPad 0x36 salt ++ s.bytes, e)] ++ [(keyPad 0x5c salt ++ e.bytes, y)]) := by
    intro s
    have h2 := avg_eval (B := B) (.hash (keyPad 0x36 salt ++ s.bytes) fun e =>
      .hash (keyPad 0x5c salt ++ e) R) ⟨by rw [List.length_append, keyPad_length hl, hlen]; exact hn,
        fun e he => ⟨by rw [List.length_append, keyPad_length hl, he]; exact hB, hS⟩⟩
    simp only [Probe.eval, Probe.lazy] at h2
    simp only [hmac_pads _ hl]
    rw [h2, oracle_new]
    refine avg_congr fun e => ?_
    unfold oracle
    rw [List.lookup_cons, beq_eq_false_iff_ne.2]
    · rfl
    · intro h
      exact keyPad_ne hs (List.append_inj h (by rw [keyPad_length hl, keyPad_length hl])).1.symm
  rw [avg_comm, avg_congr h1]
  have h3 : (avg fun ω : HashFun B => avg fun K : Digest => (R K.bytes).eval ω.sha) =
      avg fun K : Digest => (R K.bytes).lazy [] := by
    rw [avg_comm]
    exact avg_congr fun K => avg_eval _ (hS _ (digest_length K))
  rw [h3]
  have h4 : (avg fun s : Seed n => avg fun e : Digest => avg fun y : Digest => (R y.bytes).lazy
      ([(keyPad 0x36 salt ++ s.bytes, e)] ++ [(keyPad 0x5c salt ++ e.bytes, y)])) ≤
      avg fun θ : Seed n × Digest => avg fun y : Digest => (R y.bytes).alarm
        (keyPad 0x36 salt ++ θ.1.bytes) (keyPad 0x5c salt ++ θ.2.bytes) [] := by
    rw [avg_prod fun (s : Seed n) (e : Digest) => avg fun y : Digest => (R y.bytes).alarm
        (keyPad 0x36 salt ++ s.bytes) (keyPad 0x5c salt ++ e.bytes) []]
    refine avg_mono fun s => avg_mono fun e => avg_mono fun y =>
      Probe.lazy_le_alarm _ (hb _) fun m h1 h2 => ?_
    rw [lookup_snoc_ne h2, List.lookup_cons, beq_eq_false_iff_ne.2 h1]
  refine h4.trans ?_
  rw [avg_comm]
  refine (avg_mono fun y => Probe.alarm_le (seedLoss_nonneg n) (seed_found n) _ (hb _)
    (hq _ (digest_length y)) []).trans (le_of_eq ?_)
  rw [avg_add, avg_const]

/-- the generator from a seed -/
theorem seeded_random {B n : Nat} (hB : 192 ≤ B) (hn : 128 + n ≤ B) {salt : Bytes} (hs : salt ≠ [])
    (hl : salt.length ≤ 128) (P : PrngProber) (hb : P.Bounded) (hc : P.Careful false) {q u : Nat}
    (hw : P.Within B q u) :
    (avg fun ω : HashFun B => avg fun s : Seed n =>
      (P.using ω.sha).real ω.sha ⟨hmac ω.sha salt s.bytes⟩) ≤
      (avg fun ω : HashFun B => (P.using ω.sha).ideal []) + macLoss q u +
        ((q + 6 * u : ℕ) : ℚ) * seedLoss n := by
  have h1 : ∀ (ω : HashFun B) (y : Bytes), (P.using ω.sha).real ω.sha ⟨y⟩ =
      ((P.attackQ (.real ⟨y⟩)).randomProbe []).eval ω.sha := fun ω y => by
    rw [randomProbe_eval, (attackQ_using (HashFun.sha_length ω) P _).2,
      attack_real_random (HashFun.sha_length ω)]
  have h2 := extract_random hB hn hs hl (R := fun y => (P.attackQ (.real ⟨y⟩)).randomProbe [])
    (fun y => randomProbe_bounded _ (attackQ_bounded P hb _) _)
    (fun y hy => randomProbe_hashes _ (attackQ_real_within P hw (p := ⟨y⟩) hy) _)
    (fun y hy => randomProbe_short _ (attackQ_real_within P hw (p := ⟨y⟩) hy) _)
  have h3 := generator_random hB P hb hc hw
  unfold realOutput at h3
  simp only [h1] at h3 ⊢
  linarith

/-! ## The API -/

/-- as `PrngPlayer.watched` -/
def watchedQ (z : Fr) : Nat → (List Fr → PrngProber) → PrngProber
  | 0, k => k []
  | n + 1, k => .draw DOM_SEP_SK_UPDATE fun r => .sample [] fun y =>
      if y = z then .stop 1 else watchedQ z n fun l => k (r :: l)

/-- as `PrngPlayer.move` -/
def moveQ (d t tar : Nat) (seed : Bytes) (rho : List Fr) (no : PrngProber)
    (yes : List Fr → PrngProber) : PrngProber :=
  if t < tar ∧ tar ≤ 2 ^ d - 1 then
    .sample [] fun z => .mix seed (DOM_SEP_SK_RERANDOMIZE_INFO ++ timeBytes t)
      (watchedQ z (drawsNeeded d t tar) fun rs => yes (stepExponents d t tar rho rs))
  else no

/-- as `PrngPlayer.autograph` -/
def autographQ (pp : PubParam G1 G2) (x : Fr) (t : Nat) (rho : List Fr) (msg : Bytes)
    (k : Signature G1 G2 → PrngProber) : PrngProber :=
  .hash (text "Pixel hash to message" ++ [pp.ciphersuite] ++ msg) fun b =>
    .sample (signInfo msg t) fun r => k (signatureOf pp x t (natOfBytes b : Nat) (rho.headD 0 + r))

/-- as `Call.watch` -/
def Spec.Call.watchQ (pp : PubParam G1 G2) (x : Fr) (t : Nat) (rho : List Fr)
    (k : Res (Option (Signature G1 G2)) → Nat → List Fr → PrngProber) : Call → PrngProber
  | .update tar seed =>
      moveQ pp.depth t tar seed rho (k (.err .timeStamp) t rho) fun rho' => k (.ok none) tar rho'
  | .sign tar msg seed =>
      if t = tar then autographQ pp x t rho msg fun s => k (.ok (some s)) t rho
      else moveQ pp.depth t tar seed rho (k (.err .timeStamp) t rho) fun rho' =>
        autographQ pp x tar rho' msg fun s => k (.ok (some s)) tar rho'
  | .signPresent tar msg =>
      if t = tar then autographQ pp x t rho msg fun s => k (.ok (some s)) t rho
      else k (.err .timeStamp) t rho
  | .signThenUpdate tar msg seed =>
      if t = tar then autographQ pp x t rho msg fun s =>
        moveQ pp.depth t (t + 1) seed rho (k (.err .timeStamp) t rho) fun rho' =>
          k (.ok (some s)) (t + 1) rho'
      else k (.err .timeStamp) t rho

/-- as `Watcher.watch` -/
def Spec.Observer.watchQ (pp : PubParam G1 G2) (x : Fr) : Observer G1 G2 → Nat → List Fr → PrngProber
  | .toss m hm n, t, rho => .toss m hm fun c => (n c).watchQ pp x t rho
  | .hash m n, t, rho => .hash m fun b => (n b).watchQ pp x t rho
  | .call c n, t, rho => c.watchQ pp x t rho fun o t' rho' => (n o).watchQ pp x t' rho'
  | .stop v, _, _ => .stop v

/-- as `viewGame` -/
def viewQ (E : Ext G1 G2 GT) (pp : PubParam G1 G2)
    (U : PublicKey G2 → ProofOfPossession G1 → Observer G1 G2) : PrngProber :=
  .draw (ascii "key initialization") fun x => .draw (DOM_SEP_SK_INIT ++ [0, 0, 0, 1]) fun r =>
    (U (publicOf E pp x).1 (publicOf E pp x).2).watchQ pp x 1 [r]

section Using
variable {sha : Bytes → Bytes} {pp : PubParam G1 G2} {E : Ext G1 G2 GT}

theorem watchedQ_using (z : Fr) (n : Nat) (k : List Fr → PrngProber) :
    (watchedQ z n k).using sha = PrngPlayer.watched z n fun l => (k l).using sha := by
  induction n generalizing k with
  | zero => rfl
  | succ n ih =>
    simp only [watchedQ, PrngProber.using, PrngPlayer.watched]
    congr 1
    funext r
    congr 1
    funext y
    split_ifs
    · rfl
    · exact ih _

theorem moveQ_using (d t tar : Nat) (seed : Bytes) (rho : List Fr) (no : PrngProber)
    (yes : List Fr → PrngProber) :
    (moveQ d t tar seed rho no yes).using sha =
      PrngPlayer.move d t tar seed rho (no.using sha) fun l => (yes l).using sha := by
  unfold moveQ PrngPlayer.move
  split_ifs
  · simp only [PrngProber.using, watchedQ_using]
  · rfl

theorem autographQ_using (x : Fr) (t : Nat) (rho : List Fr) (msg : Bytes)
    (k : Signature G1 G2 → PrngProber) :
    (autographQ pp x t rho msg k).using sha =
      PrngPlayer.autograph sha pp x t rho msg fun s => (k s).using sha := rfl

theorem callQ_using (x : Fr) (t : Nat) (rho : List Fr)
    (k : Res (Option (Signature G1 G2)) → Nat → List Fr → PrngProber) (c : Call) :
    (c.watchQ pp x t rho k).using sha =
      c.watch sha pp x t rho fun o t' rho' => (k o t' rho').using sha := by
  rcases c with ⟨tar, seed⟩ | ⟨tar, msg, seed⟩ | ⟨tar, msg⟩ | ⟨tar, msg, seed⟩
  · exact moveQ_using _ _ _ _ _ _ _
  · simp only [Call.watchQ, Call.watch]
    split_ifs
    · rfl
    · exact moveQ_using _ _ _ _ _ _ _
  · simp only [Call.watchQ, Call.watch]
    split_ifs <;> rfl
  · simp only [Call.watchQ, Call.watch]
    split_ifs
    · simp only [autographQ_using, moveQ_using]
    · rfl

theorem watchQ_using (x : Fr) (U : Observer G1 G2) (t : Nat) (rho : List Fr) :
    (U.watchQ pp x t rho).using sha = (U.using sha).watch sha pp x t rho := by
  induction U generalizing t rho with
  | toss n hn next ih =>
    simp only [Observer.watchQ, PrngProber.using, Observer.using, Watcher.watch, ih]
  | hash m next ih => exact ih _ t rho
  | call c next ih =>
    simp only [Observer.watchQ, Observer.using, Watcher.watch, callQ_using, ih]
  | stop v => rfl

theorem viewQ_using (U : PublicKey G2 → ProofOfPossession G1 → Observer G1 G2) :
    (viewQ E pp U).using sha = viewGame (withHash E sha) pp fun pk pop => (U pk pop).using sha := by
  simp only [viewQ, viewGame, PrngProber.using, watchQ_using]
  rfl

/-! ### Bounds -/

theorem watchedQ_bounded (z : Fr) (n : Nat) {k : List Fr → PrngProber} (h : ∀ l, (k l).Bounded) :
    (watchedQ z n k).Bounded := by
  induction n generalizing k with
  | zero => exact h []
  | succ n ih =>
    intro r y
    show PrngProber.Bounded (if y = z then _ else _)
    split_ifs
    · exact ⟨zero_le_one, le_rfl⟩
    · exact ih fun l => h _

theorem moveQ_bounded {d t tar : Nat} {seed : Bytes} {rho : List Fr} {no : PrngProber}
    {yes : List Fr → PrngProber} (h0 : no.Bounded) (h : ∀ l, (yes l).Bounded) :
    (moveQ d t tar seed rho no yes).Bounded := by
  unfold moveQ
  split_ifs
  · exact fun z => watchedQ_bounded z _ fun l => h _
  · exact h0

theorem callQ_bounded {x : Fr} {t : Nat} {rho : List Fr}
    {k : Res (Option (Signature G1 G2)) → Nat → List Fr → PrngProber}
    (h : ∀ o t' rho', (k o t' rho').Bounded) (c : Call) : (c.watchQ pp x t rho k).Bounded := by
  rcases c with ⟨tar, seed⟩ | ⟨tar, msg, seed⟩ | ⟨tar, msg⟩ | ⟨tar, msg, seed⟩
  · exact moveQ_bounded (h _ _ _) fun l => h _ _ _
  · simp only [Call.watchQ]
    split_ifs
    · exact fun b r => h _ _ _
    · exact moveQ_bounded (h _ _ _) fun l b r => h _ _ _
  · simp only [Call.watchQ]
    split_ifs
    · exact fun b r => h _ _ _
    · exact h _ _ _
  · simp only [Call.watchQ]
    split_ifs
    · exact fun b r => moveQ_bounded (h _ _ _) fun l => h _ _ _
    · exact h _ _ _

theorem watchQ_bounded {x : Fr} (U : Observer G1 G2) (hb : U.Bounded) (t : Nat) (rho : List Fr) :
    (U.watchQ pp x t rho).Bounded := by
  induction U generalizing t rho with
  | toss n hn next ih => exact fun c => ih c (hb c) t rho
  | hash m next ih => exact fun b => ih b (hb b) t rho
  | call c next ih => exact callQ_bounded (fun o t' rho' => ih o (hb o) t' rho') c
  | stop v => exact hb

/-! ### The state is not looked at -/

theorem watchedQ_careful (z : Fr) (n : Nat) {k : List Fr → PrngProber} (h : ∀ l b, (k l).Careful b)
    (b : Bool) : (watchedQ z n k).Careful b := by
  induction n generalizing k b with
  | zero => exact h [] b
  | succ n ih =>
    intro r y
    show PrngProber.Careful (if y = z then _ else _) _
    split_ifs
    · trivial
    · exact ih (fun l b => h _ b) _

theorem moveQ_careful {d t tar : Nat} {seed : Bytes} {rho : List Fr} {no : PrngProber}
    {yes : List Fr → PrngProber} (h0 : ∀ b, no.Careful b) (h : ∀ l b, (yes l).Careful b) (b : Bool) :
    (moveQ d t tar seed rho no yes).Careful b := by
  unfold moveQ
  split_ifs
  · exact fun z => watchedQ_careful z _ (fun l b => h _ b) _
  · exact h0 b

theorem callQ_careful {x : Fr} {t : Nat} {rho : List Fr}
    {k : Res (Option (Signature G1 G2)) → Nat → List Fr → PrngProber}
    (h : ∀ o t' rho' b, (k o t' rho').Careful b) (c : Call) (b : Bool) :
    (c.watchQ pp x t rho k).Careful b := by
  rcases c with ⟨tar, seed⟩ | ⟨tar, msg, seed⟩ | ⟨tar, msg⟩ | ⟨tar, msg, seed⟩
  · refine moveQ_careful ?_ ?_ b
    · exact h _ _ _
    · exact fun l => h _ _ _
  · simp only [Call.watchQ]
    split_ifs
    · exact fun _ _ => h _ _ _ _
    · refine moveQ_careful ?_ ?_ b
      · exact h _ _ _
      · exact fun l b _ _ => h _ _ _ _
  · simp only [Call.watchQ]
    split_ifs
    · exact fun _ _ => h _ _ _ _
    · exact h _ _ _ _
  · simp only [Call.watchQ]
    split_ifs
    · exact fun _ _ => moveQ_careful (h _ _ _) (fun l => h _ _ _) _
    · exact h _ _ _ _

theorem watchQ_careful {x : Fr} (U : Observer G1 G2) (t : Nat) (rho : List Fr) (b : Bool) :
    (U.watchQ pp x t rho).Careful b := by
  induction U generalizing t rho b with
  | toss n hn next ih => exact fun c => ih c t rho b
  | hash m next ih => exact fun y => ih y t rho b
  | call c next ih => exact callQ_careful (fun o t' rho' b => ih o t' rho' b) c b
  | stop v => trivial

/-! ### Numbers -/

theorem probe_hashes_mono {R : Probe} {k k' : Nat} (h : R.Hashes k) (hk : k ≤ k') : R.Hashes k' := by
  induction R generalizing k k' with
  | toss n hn next ih => exact fun c => ih c (h c) hk
  | hash m next ih =>
    exact ⟨by have := h.1; omega, fun b hb => ih b (h.2 b hb) (by omega)⟩
  | stop v => trivial

theorem prng_within_mono {B : Nat} {P : PrngProber} {q q' k k' : Nat} (h : P.Within B q k)
    (hq : q ≤ q') (hk : k ≤ k') : P.Within B q' k' := by
  induction P generalizing q q' k k' with
  | toss n hn next ih => exact fun c => ih c (h c) hq hk
  | hash m next ih =>
    exact ⟨h.1, by have := h.2.1; omega, fun b hb => ih b (h.2.2 b hb) (by omega) hk⟩
  | sample info next ih =>
    exact ⟨h.1, by have := h.2.1; omega, fun r => ih r (h.2.2 r) hq (by omega)⟩
  | draw info next ih =>
    exact ⟨h.1, by have := h.2.1; omega, fun r => ih r (h.2.2 r) hq (by omega)⟩
  | mix seed info next ih =>
    exact ⟨h.1, h.2.1, by have := h.2.2.1; omega, ih h.2.2.2 hq (by omega)⟩
  | look n => exact fun b hb => ⟨(h b hb).1, probe_hashes_mono (h b hb).2 hq⟩
  | stop v => trivial

theorem watchedQ_within {B : Nat} (hB : 300 ≤ B) (z : Fr) {n q m j : Nat} (hj : 2 * n + m ≤ j)
    {k : List Fr → PrngProber} (h : ∀ l, (k l).Within B q m) : (watchedQ z n k).Within B q j := by
  induction n generalizing k j with
  | zero => exact prng_within_mono (h []) le_rfl (by omega)
  | succ n ih =>
    have hlen : DOM_SEP_SK_UPDATE.length + 193 ≤ 300 := by decide +kernel
    refine ⟨by omega, by omega, fun r => ⟨by simp; omega, by omega, fun y => ?_⟩⟩
    show PrngProber.Within B (if y = z then _ else _) q (j - 1 - 1)
    split_ifs
    · trivial
    · exact ih (by omega) fun l => h _

theorem moveQ_within {B : Nat} {d t tar q m j : Nat} (hj : 2 * d + 2 + m ≤ j)
    {seed : Bytes} (hs : seed.length + 300 ≤ B) {rho : List Fr} {no : PrngProber}
    {yes : List Fr → PrngProber} (h0 : no.Within B q m) (h : ∀ l, (yes l).Within B q m) :
    (moveQ d t tar seed rho no yes).Within B q j := by
  unfold moveQ
  have := drawsNeeded_le d t tar
  have hlen : (DOM_SEP_SK_RERANDOMIZE_INFO ++ timeBytes t).length + 193 ≤ 300 := by
    rw [List.length_append]
    have : DOM_SEP_SK_RERANDOMIZE_INFO.length = 35 := by decide +kernel
    have : (timeBytes t).length = 4 := rfl
    omega
  split_ifs
  · exact ⟨by simp; omega, by omega, fun z => ⟨by omega, by omega, by omega,
      watchedQ_within (by omega) z (m := m) (by omega) fun l => h _⟩⟩
  · exact prng_within_mono h0 le_rfl (by omega)

theorem autographQ_within {B : Nat} {x : Fr} {t q q' m j : Nat} {rho : List Fr} {msg : Bytes}
    (hs : msg.length + 300 ≤ B) (hq : q + 1 ≤ q') (hj : m + 1 ≤ j)
    {k : Signature G1 G2 → PrngProber} (h : ∀ s, (k s).Within B q m) :
    (autographQ pp x t rho msg k).Within B q' j := by
  have h1 : (text "Pixel hash to message" ++ [pp.ciphersuite] ++ msg).length = 22 + msg.length := by
    rw [List.length_append, List.length_append]
    have : (text "Pixel hash to message").length = 21 := by decide +kernel
    rw [this]
    rfl
  have h2 : (signInfo msg t).length = 32 + msg.length := by
    unfold signInfo
    rw [List.length_append, List.length_append]
    have : DOM_SEP_SIG.length = 28 := by decide +kernel
    have : (timeBytes t).length = 4 := rfl
    omega
  exact ⟨by omega, by omega, fun b _ => ⟨by omega, by omega, fun r =>
    prng_within_mono (h _) (by omega) (by omega)⟩⟩

theorem callQ_within {B : Nat} {x : Fr} {t q m : Nat} {rho : List Fr}
    {k : Res (Option (Signature G1 G2)) → Nat → List Fr → PrngProber}
    (h : ∀ o t' rho', (k o t' rho').Within B q m) {cl : Call} (hs : cl.Fits B) :
    (cl.watchQ pp x t rho k).Within B (q + 1) (2 * pp.depth + 3 + m) := by
  have h' : ∀ o t' rho', (k o t' rho').Within B (q + 1) m := fun o t' rho' =>
    prng_within_mono (h o t' rho') (by omega) le_rfl
  rcases cl with ⟨tar, seed⟩ | ⟨tar, msg, seed⟩ | ⟨tar, msg⟩ | ⟨tar, msg, seed⟩
  · exact moveQ_within (by omega) hs (h' _ _ _) fun l => h' _ _ _
  · simp only [Call.watchQ]
    split_ifs
    · exact autographQ_within hs.1 le_rfl (by omega) fun s => h _ _ _
    · exact moveQ_within (m := m + 1) (by omega) hs.2 (prng_within_mono (h' _ _ _) le_rfl (by omega))
        fun l => autographQ_within hs.1 le_rfl le_rfl fun s => h _ _ _
  · simp only [Call.watchQ]
    split_ifs
    · exact autographQ_within hs le_rfl (by omega) fun s => h _ _ _
    · exact prng_within_mono (h' _ _ _) le_rfl (by omega)
  · simp only [Call.watchQ]
    split_ifs
    · exact autographQ_within (m := 2 * pp.depth + 2 + m) hs.1 le_rfl (by omega) fun s =>
        moveQ_within le_rfl hs.2 (h _ _ _) fun l => h _ _ _
    · exact prng_within_mono (h' _ _ _) le_rfl (by omega)

theorem watchQ_within {B : Nat} {x : Fr} (U : Observer G1 G2) {q u : Nat} (hu : U.Within B q u)
    (t : Nat) (rho : List Fr) :
    (U.watchQ pp x t rho).Within B (q + u) (u * (2 * pp.depth + 3)) := by
  induction U generalizing q u t rho with
  | toss n hn next ih => exact fun c => ih c (hu c) t rho
  | hash m next ih =>
    obtain ⟨h1, h2, h3⟩ := hu
    exact ⟨h1, by omega, fun b hb => prng_within_mono (ih b (h3 b hb) t rho) (by omega) le_rfl⟩
  | call c next ih =>
    obtain ⟨h0, h1, h2⟩ := hu
    obtain ⟨v, rfl⟩ := Nat.exists_eq_add_of_le' h1
    rw [Nat.add_sub_cancel] at h2
    refine prng_within_mono (callQ_within (q := q + v) (m := v * (2 * pp.depth + 3))
      (fun o t' rho' => ih o (h2 o) t' rho') h0) (by omega) (le_of_eq ?_)
    ring
  | stop v => trivial

theorem viewQ_within {B : Nat} (hB : 300 ≤ B)
    (U : PublicKey G2 → ProofOfPossession G1 → Observer G1 G2) {q u : Nat}
    (hu : ∀ pk pop, (U pk pop).Within B q u) :
    (viewQ E pp U).Within B (q + u) (u * (2 * pp.depth + 3) + 2) := by
  have h1 : (ascii "key initialization").length + 193 ≤ 300 := by decide +kernel
  have h2 : (DOM_SEP_SK_INIT ++ [0, 0, 0, 1]).length + 193 ≤ 300 := by decide +kernel
  exact ⟨by omega, by omega, fun _ => ⟨by omega, by omega, fun _ => watchQ_within _ (hu _ _) _ _⟩⟩

end Using

/-! ### Observers -/

theorem observer_bounded {sha : Bytes → Bytes} (U : Observer G1 G2) (hb : U.Bounded) :
    (U.using sha).Bounded := by
  induction U with
  | toss n hn next ih => exact fun c => ih c (hb c)
  | hash m next ih => exact ih _ (hb _)
  | call c next ih => exact fun o => ih o (hb o)
  | stop v => exact hb

theorem observer_calls {sha : Bytes → Bytes} (h : ∀ m, (sha m).length = 64) {B : Nat}
    (U : Observer G1 G2) {q u : Nat} (hu : U.Within B q u) : (U.using sha).Calls u := by
  induction U generalizing q u with
  | toss n hn next ih => exact fun c => ih c (hu c)
  | hash m next ih => exact ih _ (hu.2.2 _ (h m))
  | call c next ih => exact ⟨hu.2.1, fun o => ih o (hu.2.2 o)⟩
  | stop v => trivial

theorem observer_flip {sha : Bytes → Bytes} (U : Observer G1 G2) :
    U.flip.using sha = (U.using sha).flip := by
  induction U with
  | toss n hn next ih => simp only [Observer.flip, Observer.using, Watcher.flip, ih]
  | hash m next ih => exact ih _
  | call c next ih => simp only [Observer.flip, Observer.using, Watcher.flip, ih]
  | stop v => rfl

theorem observer_flip_bounded (U : Observer G1 G2) (hb : U.Bounded) : U.flip.Bounded := by
  induction U with
  | toss n hn next ih => exact fun c => ih c (hb c)
  | hash m next ih => exact fun b => ih b (hb b)
  | call c next ih => exact fun o => ih o (hb o)
  | stop v => exact ⟨by have := hb.2; linarith, by have := hb.1; linarith⟩

theorem observer_flip_within {B : Nat} (U : Observer G1 G2) {q u : Nat} (hu : U.Within B q u) :
    U.flip.Within B q u := by
  induction U generalizing q u with
  | toss n hn next ih => exact fun c => ih c (hu c)
  | hash m next ih => exact ⟨hu.1, hu.2.1, fun b hb => ih b (hu.2.2 b hb)⟩
  | call c next ih => exact ⟨hu.1, hu.2.1, fun o => ih o (hu.2.2 o)⟩
  | stop v => trivial

/-! ### Laws -/

theorem withHash_laws {E : Ext G1 G2 GT} (L : GroupLaws E) (sha : Bytes → Bytes) :
    GroupLaws (withHash E sha) :=
  ⟨L.sub1_zero, L.sub1_add, L.sub1_neg, L.sub1_order, L.sub2_zero, L.sub2_add, L.sub2_neg,
    L.sub2_order, L.gen2_sub, L.gen2_gen, L.hash_sub, L.pairing_prod, L.pair_add_left,
    L.pair_add_right, L.pair_nondeg⟩

theorem withHash_wf {E : Ext G1 G2 GT} {pp : PubParam G1 G2} (W : ParamWF E pp) (sha : Bytes → Bytes) :
    ParamWF (withHash E sha) pp := ⟨W.toParamShape, W.hlist_sub, W.h_sub, W.g2_gen⟩

/-- all that is lost -/
noncomputable def randomLoss (d n q u : Nat) : ℚ :=
  macLoss (q + u) (u * (2 * d + 3) + 2) +
    ((q + u + 6 * (u * (2 * d + 3) + 2) : ℕ) : ℚ) * seedLoss n +
    (1 / 2 ^ 257 + u * viewLoss d)

theorem view_random {E : Ext G1 G2 GT} (L : GroupLaws E) (pf : Profile) {pp : PubParam G1 G2}
    (W : ParamWF E pp) (hc : Supported pp.ciphersuite) {B n : Nat} (hB : 300 ≤ B) (hn : 32 ≤ n)
    (hnB : 128 + n ≤ B) (U : PublicKey G2 → ProofOfPossession G1 → Observer G1 G2)
    (hb : ∀ pk pop, (U pk pop).Bounded) {q u : Nat} (hu : ∀ pk pop, (U pk pop).Within B q u) :
    (avg fun ω : HashFun B => seesFromSeed (withHash E ω.sha) pf pp n
      fun pk pop => (U pk pop).using ω.sha) ≤
      (avg fun ω : HashFun B => imaginesAtAll (withHash E ω.sha) pp
        fun pk pop => (U pk pop).using ω.sha) + randomLoss pp.depth n q u := by
  have hP := seeded_random (n := n) (by omega) hnB
    (salt := text "Pixel master key" ++ [pp.ciphersuite]) (by simp) (by
      rw [List.length_append]
      have : (text "Pixel master key").length = 16 := by decide +kernel
      rw [this]
      simp)
    (viewQ E pp U) (fun x r => watchQ_bounded _ (hb _ _) _ _)
    (fun x r => watchQ_careful _ _ _ _) (viewQ_within hB U hu)
  have h1 : ∀ ω : HashFun B, seesFromSeed (withHash E ω.sha) pf pp n
      (fun pk pop => (U pk pop).using ω.sha) ≤ avg fun s : Seed n =>
        ((viewQ E pp U).using ω.sha).real ω.sha
          ⟨hmac ω.sha (text "Pixel master key" ++ [pp.ciphersuite]) s.bytes⟩ := by
    intro ω
    have H : HashLaws (withHash E ω.sha) := ⟨HashFun.sha_length ω⟩
    refine avg_mono fun s => ?_
    refine le_of_eq_of_le (seesFromSeed_eq H pf W.toParamShape hc _ ?_) ?_
    · unfold Seed.bytes
      rw [natToBE_length]
      exact hn
    · rw [viewQ_using]
      exact seesFrom_le H (withHash_laws L _) pf (withHash_wf W _) hc _
        (fun pk pop => observer_bounded _ (hb pk pop)) _
  have h2 : ∀ ω : HashFun B, ((viewQ E pp U).using ω.sha).ideal [] ≤
      imaginesAtAll (withHash E ω.sha) pp (fun pk pop => (U pk pop).using ω.sha) +
        (1 / 2 ^ 257 + u * viewLoss pp.depth) := by
    intro ω
    rw [viewQ_using]
    exact viewGame_ideal _ (fun pk pop => observer_bounded _ (hb pk pop))
      (fun pk pop => observer_calls (HashFun.sha_length ω) _ (hu pk pop))
  have h3 := avg_mono h1
  have h4 := avg_mono h2
  rw [avg_add_const] at h4
  unfold randomLoss
  linarith

/-! ## Panics -/

/-- the observer who stops with 1 when a call has panicked, and with 0 otherwise -/
def Spec.Observer.onPanic : Observer G1 G2 → Observer G1 G2
  | .toss k hk n => .toss k hk fun c => (n c).onPanic
  | .hash m n => .hash m fun b => (n b).onPanic
  | .call c n => .call c fun o => if o.isPanic then .stop 1 else (n o).onPanic
  | .stop _ => .stop 0

theorem onPanic_sees {sha sha' : Bytes → Bytes} (pf : Profile) {pp : PubParam G1 G2} (U : Observer G1 G2)
    (sk : SecretKey G1 G2) :
    (U.onPanic.using sha').sees sha pf pp sk = (U.user sha').panics sha pf pp sk := by
  induction U generalizing sk with
  | toss n hn next ih => exact avg_congr fun c => ih c sk
  | hash m next ih => exact ih _ sk
  | call c next ih =>
    simp only [Observer.onPanic, Observer.using, Watcher.sees, Observer.user, User.panics]
    rcases c.run sha pf pp sk with ⟨o | e | p, sk'⟩
    · exact ih _ _
    · exact ih _ _
    · rfl
  | stop v => rfl

theorem exponent_zero {memo : List (Bytes × Fr)} {msg : Bytes} {f : Fr → List (Bytes × Fr) → ℚ}
    (h : ∀ r m, f r m = 0) : exponent memo msg f = 0 := by
  unfold exponent
  rcases memo.lookup msg with _ | r
  · exact (avg_congr fun r => h _ _).trans (avg_const 0)
  · exact h _ _

theorem imagine_zero {sha : Bytes → Bytes} {pp : PubParam G1 G2} {x : Fr} {t : Nat}
    {memo : List (Bytes × Fr)} {k : Res (Option (Signature G1 G2)) → Nat → List (Bytes × Fr) → ℚ}
    (h : ∀ o t' m, o.isPanic = false → k o t' m = 0) (c : Call) : c.imagine sha pp x t memo k = 0 := by
  rcases c with ⟨tar, seed⟩ | ⟨tar, msg, seed⟩ | ⟨tar, msg⟩ | ⟨tar, msg, seed⟩
  · simp only [Call.imagine]
    split_ifs <;> exact h _ _ _ rfl
  · simp only [Call.imagine]
    split_ifs
    · exact exponent_zero fun r m => h _ _ _ rfl
    · exact exponent_zero fun r m => h _ _ _ rfl
    · exact h _ _ _ rfl
  · simp only [Call.imagine]
    split_ifs
    · exact exponent_zero fun r m => h _ _ _ rfl
    · exact h _ _ _ rfl
  · simp only [Call.imagine]
    split_ifs
    · exact exponent_zero fun r m => h _ _ _ rfl
    · exact exponent_zero fun r m => h _ _ _ rfl
    · exact h _ _ _ rfl

theorem onPanic_imagines {sha sha' : Bytes → Bytes} {pp : PubParam G1 G2} {x : Fr} (U : Observer G1 G2)
    (t : Nat) (memo : List (Bytes × Fr)) : (U.onPanic.using sha').imagines sha pp x t memo = 0 := by
  induction U generalizing t memo with
  | toss n hn next ih =>
    have : Nonempty (Fin n) := ⟨⟨0, hn⟩⟩
    exact (avg_congr fun c => ih c t memo).trans (avg_const 0)
  | hash m next ih => exact ih _ t memo
  | call c next ih =>
    simp only [Observer.onPanic, Observer.using, Watcher.imagines]
    refine imagine_zero (fun o t' m ho => ?_) c
    rw [if_neg (by rw [ho]; simp)]
    exact ih o t' m
  | stop v => rfl

theorem onPanic_bounded (U : Observer G1 G2) : U.onPanic.Bounded := by
  induction U with
  | toss n hn next ih => exact fun c => ih c
  | hash m next ih => exact fun b => ih b
  | call c next ih =>
    intro o
    show Observer.Bounded (if o.isPanic then _ else _)
    split_ifs
    · exact ⟨zero_le_one, le_rfl⟩
    · exact ih o
  | stop v => exact ⟨le_rfl, zero_le_one⟩

theorem onPanic_within {B : Nat} (U : Observer G1 G2) {q u : Nat} (hu : U.Within B q u) :
    U.onPanic.Within B q u := by
  induction U generalizing q u with
  | toss n hn next ih => exact fun c => ih c (hu c)
  | hash m next ih => exact ⟨hu.1, hu.2.1, fun b hb => ih b (hu.2.2 b hb)⟩
  | call c next ih =>
    refine ⟨hu.1, hu.2.1, fun o => ?_⟩
    show Observer.Within B (if o.isPanic then _ else _) q (u - 1)
    split_ifs
    · trivial
    · exact ih o (hu.2.2 o)
  | stop v => trivial

end Pixel
