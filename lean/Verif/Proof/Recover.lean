import Verif.Spec.Recover
import Verif.Proof.Heal
import Verif.Proof.RandomView

/-!
# Leaks of the generator, with a random function in the place of SHA-512: proofs
-/

namespace Pixel

open Spec Props

set_option linter.unusedSectionVars false

/-! ## Programs that evaluate the hash function and break off -/

/-- a program that evaluates a hash function, with a result in `A` -/
inductive Run (A : Type) where
  | toss (n : Nat) (hn : 0 < n) (next : Fin n → Run A)
  | hash (m : Bytes) (next : Bytes → Run A)
  | done (a : A)

namespace Run

variable {A : Type}

/-- the expected value of `f` at the result -/
noncomputable def value (sha : Bytes → Bytes) (f : A → ℚ) : Run A → ℚ
  | .toss _ _ n => avg fun c => (n c).value sha f
  | .hash m n => (n (sha m)).value sha f
  | .done a => f a

/-- at most `q` evaluations of strings of at most `B` octets; with `k` evaluations left the result has
the property `C k` -/
def Within (B : Nat) (C : A → Nat → Prop) : Run A → Nat → Prop
  | .toss _ _ n, q => ∀ c, (n c).Within B C q
  | .hash m n, q => m.length ≤ B ∧ 0 < q ∧ ∀ b : Bytes, b.length = 64 → (n b).Within B C (q - 1)
  | .done a, q => C a q

/-- all results have the property -/
def All (C : A → Prop) : Run A → Prop
  | .toss _ _ n => ∀ c, (n c).All C
  | .hash _ n => ∀ b, (n b).All C
  | .done a => C a

theorem Within.mono {B : Nat} {C : A → Nat → Prop} (hC : ∀ a k k', C a k → k ≤ k' → C a k')
    {R : Run A} {q q' : Nat} (h : R.Within B C q) (hq : q ≤ q') : R.Within B C q' := by
  induction R generalizing q q' with
  | toss n hn next ih => exact fun c => ih c (h c) hq
  | hash m next ih =>
    exact ⟨h.1, by have := h.2.1; omega, fun b hb => ih b (h.2.2 b hb) (by omega)⟩
  | done a => exact hC _ _ _ h hq

/-- HMAC -/
def mac (K m : Bytes) (k : Bytes → Run A) : Run A :=
  if K.length ≤ 128 then .hash (keyPad 0x36 K ++ m) fun e => .hash (keyPad 0x5c K ++ e) k
  else .hash K fun K' => .hash (keyPad 0x36 K' ++ m) fun e => .hash (keyPad 0x5c K' ++ e) k

theorem mac_value {sha : Bytes → Bytes} (f : A → ℚ) (K m : Bytes) (k : Bytes → Run A) :
    (mac K m k).value sha f = (k (hmac sha K m)).value sha f := by
  unfold mac
  split_ifs with h
  · rw [hmac_pads sha h]
    rfl
  · have h1 : hmac sha K m = sha (keyPad 0x5c (sha K) ++ sha (keyPad 0x36 (sha K) ++ m)) := by
      unfold hmac hmacKey keyPad
      rw [if_pos (by omega)]
    rw [h1]
    rfl

theorem mac_within {B q q' : Nat} {C : A → Nat → Prop} (hC : ∀ a k k', C a k → k ≤ k' → C a k')
    (hB : 192 ≤ B) (hq : q + 2 ≤ q') {K m : Bytes}
    (hK : K.length = 64) (hm : 128 + m.length ≤ B) {f : Bytes → Run A}
    (h : ∀ b : Bytes, b.length = 64 → (f b).Within B C q) : (mac K m f).Within B C q' := by
  unfold mac
  rw [if_pos (by omega)]
  refine ⟨?_, by omega, fun e he => ⟨?_, by omega, fun b hb => Within.mono hC (h b hb) (by omega)⟩⟩
  · rw [List.length_append, keyPad_length (by omega)]
    exact hm
  · rw [List.length_append, keyPad_length (by omega), he]
    exact hB

theorem mac_all {C : A → Prop} {K m : Bytes} {f : Bytes → Run A} (h : ∀ b, (f b).All C) :
    (mac K m f).All C := by
  unfold mac
  split_ifs
  · exact fun _ b => h b
  · exact fun _ _ b => h b

/-- a value from a table, or a new one -/
def table (tab : Table) (info : Bytes) (f : Digest → Table → Run A) : Run A :=
  match tab.lookup info with
  | some D => f D tab
  | none => .toss (256 ^ 64) digests_pos fun D => f D (tab ++ [(info, D)])

theorem table_value {sha : Bytes → Bytes} (g : A → ℚ) (tab : Table) (info : Bytes)
    (f : Digest → Table → Run A) :
    (table tab info f).value sha g = oracle tab info fun D tab' => (f D tab').value sha g := by
  unfold table oracle
  rcases tab.lookup info with _ | D <;> rfl

theorem table_within {B q : Nat} {C : A → Nat → Prop} {tab : Table} {info : Bytes}
    {f : Digest → Table → Run A} (h : ∀ D tab', (f D tab').Within B C q) :
    (table tab info f).Within B C q := by
  unfold table
  rcases tab.lookup info with _ | D
  · exact fun D => h _ _
  · exact h _ _

theorem table_all {C : A → Prop} {tab : Table} {info : Bytes} {f : Digest → Table → Run A}
    (h : ∀ D tab', (f D tab').All C) : (table tab info f).All C := by
  unfold table
  rcases tab.lookup info with _ | D
  · exact fun D => h _ _
  · exact h _ _

/-- going on after the result -/
def probe (f : A → Probe) : Run A → Probe
  | .toss k hk n => .toss k hk fun c => (n c).probe f
  | .hash m n => .hash m fun b => (n b).probe f
  | .done a => f a

theorem probe_eval {sha : Bytes → Bytes} (f : A → Probe) (R : Run A) :
    (R.probe f).eval sha = R.value sha fun a => (f a).eval sha := by
  induction R with
  | toss n hn next ih => exact avg_congr fun c => ih c
  | hash m next ih => exact ih _
  | done a => rfl

theorem probe_bounded {f : A → Probe} {R : Run A} (h : R.All fun a => (f a).Bounded) :
    (R.probe f).Bounded := by
  induction R with
  | toss n hn next ih => exact fun c => ih c (h c)
  | hash m next ih => exact fun b => ih b (h b)
  | done a => exact h

theorem probe_short {B q : Nat} {C : A → Nat → Prop} {f : A → Probe} {R : Run A}
    (h : R.Within B C q) (hf : ∀ a k, C a k → (f a).Short B) : (R.probe f).Short B := by
  induction R generalizing q with
  | toss n hn next ih => exact fun c => ih c (h c)
  | hash m next ih => exact ⟨h.1, fun b hb => ih b (h.2.2 b hb)⟩
  | done a => exact hf _ _ h

theorem probe_hashes {B q : Nat} {C : A → Nat → Prop} {f : A → Probe} {R : Run A}
    (h : R.Within B C q) (hf : ∀ a k, C a k → (f a).Hashes k) : (R.probe f).Hashes q := by
  induction R generalizing q with
  | toss n hn next ih => exact fun c => ih c (h c)
  | hash m next ih => exact ⟨h.2.1, fun b hb => ih b (h.2.2 b hb)⟩
  | done a => exact hf _ _ h

end Run

/-! ## An unseen seed after some evaluations -/

/-- The program stops, or an unseen seed is extracted with this salt, behind this string, and the
generator is used. -/
inductive Break where
  | stop (v : ℚ)
  | start (salt first : Bytes) (P : PrngProber)

/-- as in the code -/
noncomputable def Break.real (sha : Bytes → Bytes) (n : Nat) : Break → ℚ
  | .stop v => v
  | .start salt first P =>
      avg fun s : Seed n => (P.using sha).real sha ⟨hmac sha salt (first ++ s.bytes)⟩

/-- with a uniform state -/
noncomputable def Break.begun (sha : Bytes → Bytes) : Break → ℚ
  | .stop v => v
  | .start _ _ P => avg fun K : Digest => (P.using sha).real sha ⟨K.bytes⟩

/-- with uniform strings -/
noncomputable def Break.ideal (sha : Bytes → Bytes) : Break → ℚ
  | .stop v => v
  | .start _ _ P => (P.using sha).ideal []

/-- what is supposed of the results -/
def Break.Sound : Break → Prop
  | .stop v => 0 ≤ v ∧ v ≤ 1
  | .start _ _ P => P.Bounded ∧ P.Careful false

def Break.Fits (B u : Nat) : Break → Nat → Prop
  | .stop _, _ => True
  | .start salt first P, q => salt.length = 64 ∧ first.length = 64 ∧ P.Within B q u

/-- the run of the generator from the state `y` -/
def fromState (P : PrngProber) (y : Bytes) : Probe := (P.attackQ (.real ⟨y⟩)).randomProbe []

theorem fromState_eval {sha : Bytes → Bytes} (h : ∀ m, (sha m).length = 64) (P : PrngProber)
    (y : Bytes) : (fromState P y).eval sha = (P.using sha).real sha ⟨y⟩ := by
  unfold fromState
  rw [randomProbe_eval, (attackQ_using h P _).2, attack_real_random h]

/-- as in the code, as a program -/
def Break.realProbe (n : Nat) : Break → Probe
  | .stop v => .stop v
  | .start salt first P => .toss (256 ^ n) (seed_pos n) fun s =>
      .hash (keyPad 0x36 salt ++ (first ++ Seed.bytes s)) fun e =>
        .hash (keyPad 0x5c salt ++ e) fun y => fromState P y

/-- with a uniform state, as a program -/
def Break.begunProbe : Break → Probe
  | .stop v => .stop v
  | .start _ _ P => .toss (256 ^ 64) digests_pos fun K => fromState P (Digest.bytes K)

theorem realProbe_eval {sha : Bytes → Bytes} (h : ∀ m, (sha m).length = 64) (n : Nat) {a : Break}
    {B u q : Nat} (ha : a.Fits B u q) : (a.realProbe n).eval sha = a.real sha n := by
  rcases a with v | ⟨salt, first, P⟩
  · rfl
  · refine avg_congr fun s => ?_
    show (fromState P _).eval sha = _
    rw [fromState_eval h, hmac_pads sha (by rw [ha.1]; omega)]

theorem begunProbe_eval {sha : Bytes → Bytes} (h : ∀ m, (sha m).length = 64) (a : Break) :
    a.begunProbe.eval sha = a.begun sha := by
  rcases a with v | ⟨salt, first, P⟩
  · rfl
  · exact avg_congr fun K => fromState_eval h P _

theorem break_found (n : Nat) {salt first : Bytes} (m : Bytes) :
    (avg fun θ : Seed n × Digest => if m = keyPad 0x36 salt ++ (first ++ θ.1.bytes) ∨
      m = keyPad 0x5c salt ++ θ.2.bytes then (1 : ℚ) else 0) ≤ seedLoss n := by
  have h2 : ∀ θ : Seed n × Digest, (if m = keyPad 0x36 salt ++ (first ++ θ.1.bytes) ∨
      m = keyPad 0x5c salt ++ θ.2.bytes then (1 : ℚ) else 0) ≤
      (if m = keyPad 0x36 salt ++ (first ++ θ.1.bytes) then 1 else 0) +
        (if m = keyPad 0x5c salt ++ θ.2.bytes then 1 else 0) := fun θ => by
    by_cases ha : m = keyPad 0x36 salt ++ (first ++ θ.1.bytes)
    · rw [if_pos ha, if_pos (Or.inl ha)]
      split_ifs <;> norm_num
    · by_cases hb : m = keyPad 0x5c salt ++ θ.2.bytes
      · rw [if_neg ha, if_pos hb, if_pos (Or.inr hb)]
        norm_num
      · rw [if_neg ha, if_neg hb, if_neg (not_or.2 ⟨ha, hb⟩)]
        norm_num
  refine (avg_mono h2).trans ?_
  rw [avg_add]
  unfold seedLoss
  refine add_le_add ?_ ?_
  · rw [avg_prod fun (s : Seed n) (_ : Digest) =>
      if m = keyPad 0x36 salt ++ (first ++ s.bytes) then (1 : ℚ) else 0]
    simp only [avg_const]
    refine (avg_at_most_one fun s s' h h' => seed_inj (List.append_cancel_left
      (List.append_cancel_left (h.symm.trans h')))).trans ?_
    rw [show Fintype.card (Seed n) = 256 ^ n from Fintype.card_fin _, Nat.cast_pow]
    norm_num
  · rw [avg_prod fun (_ : Seed n) (e : Digest) =>
      if m = keyPad 0x5c salt ++ e.bytes then (1 : ℚ) else 0]
    rw [avg_const]
    refine (avg_at_most_one fun s s' h h' => digest_inj (List.append_cancel_left (h.symm.trans h'))).trans ?_
    exact one_div_digests.le

/-- 1 for each string in the table that is one of the two -/
def hits (a b : Bytes) (tab : Table) : ℚ :=
  (tab.map fun e => if e.1 = a ∨ e.1 = b then (1 : ℚ) else 0).sum

theorem hits_nonneg (a b : Bytes) (tab : Table) : 0 ≤ hits a b tab := by
  unfold hits
  refine List.sum_nonneg fun x hx => ?_
  obtain ⟨e, _, rfl⟩ := List.mem_map.1 hx
  split_ifs <;> norm_num

theorem hits_found {a b m : Bytes} {tab : Table} {D : Digest} (hm : m = a ∨ m = b)
    (h : tab.lookup m = some D) : 1 ≤ hits a b tab := by
  induction tab with
  | nil => cases h
  | cons e tab ih =>
    obtain ⟨m', D'⟩ := e
    have h0 : hits a b ((m', D') :: tab) = (if m' = a ∨ m' = b then 1 else 0) + hits a b tab := by
      unfold hits
      rw [List.map_cons, List.sum_cons]
    rw [h0]
    by_cases he : m = m'
    · subst he
      rw [if_pos hm]
      have := hits_nonneg a b tab
      linarith
    · rw [List.lookup_cons, beq_eq_false_iff_ne.2 he] at h
      have := ih h
      split_ifs <;> linarith

theorem avg_hits {Θ : Type} [Fintype Θ] [Nonempty Θ] {a b : Θ → Bytes} {δ : ℚ}
    (hc : ∀ m, (avg fun θ => if m = a θ ∨ m = b θ then (1 : ℚ) else 0) ≤ δ) (tab : Table) :
    (avg fun θ => hits (a θ) (b θ) tab) ≤ tab.length * δ := by
  induction tab with
  | nil =>
    have h0 : ∀ θ, hits (a θ) (b θ) [] = 0 := fun θ => rfl
    simp only [h0]
    rw [avg_const]
    simp
  | cons e tab ih =>
    have h0 : ∀ θ, hits (a θ) (b θ) (e :: tab) =
        (if e.1 = a θ ∨ e.1 = b θ then 1 else 0) + hits (a θ) (b θ) tab := fun θ => by
      unfold hits
      rw [List.map_cons, List.sum_cons]
    rw [avg_congr h0, avg_add, List.length_cons]
    push_cast
    have := hc e.1
    linarith

theorem fromState_bounded {P : PrngProber} (hb : P.Bounded) (y : Bytes) : (fromState P y).Bounded :=
  randomProbe_bounded _ (attackQ_bounded P hb _) _

theorem begun_lazy (salt first : Bytes) (P : PrngProber) (tab : Table) :
    (Break.start salt first P).begunProbe.lazy tab =
      avg fun K : Digest => (fromState P K.bytes).lazy tab := rfl

theorem break_alarm {n B u q : Nat} {salt first : Bytes} {P : PrngProber} (hb : P.Bounded)
    (hw : P.Within B q u) (tab : Table) :
    (avg fun θ : Seed n × Digest => avg fun y : Digest => (fromState P y.bytes).alarm
      (keyPad 0x36 salt ++ (first ++ θ.1.bytes)) (keyPad 0x5c salt ++ θ.2.bytes) tab) ≤
      (avg fun K : Digest => (fromState P K.bytes).lazy tab) +
        ((q + 6 * u : ℕ) : ℚ) * seedLoss n := by
  rw [avg_comm]
  have h1 : ∀ y : Digest, (fromState P y.bytes).Hashes (q + 6 * u) := fun y =>
    randomProbe_hashes _ (attackQ_real_within P hw (p := ⟨y.bytes⟩) (digest_length y)) _
  have h2 : ∀ y : Digest, (avg fun θ : Seed n × Digest => (fromState P y.bytes).alarm
      (keyPad 0x36 salt ++ (first ++ θ.1.bytes)) (keyPad 0x5c salt ++ θ.2.bytes) tab) ≤
      (fromState P y.bytes).lazy tab + ((q + 6 * u : ℕ) : ℚ) * seedLoss n := fun y =>
    Probe.alarm_le (seedLoss_nonneg n) (break_found n) _ (fromState_bounded hb _) (h1 y) tab
  refine (avg_mono h2).trans (le_of_eq ?_)
  rw [avg_add, avg_const]

theorem break_lazy {n B u q : Nat} {a : Break} (hs : a.Sound) (ha : a.Fits B u q) (tab : Table) :
    (a.realProbe n).lazy tab ≤ a.begunProbe.lazy tab + (q + 6 * u + tab.length) * seedLoss n := by
  have hδ := seedLoss_nonneg n
  rcases a with v | ⟨salt, first, P⟩
  · have : 0 ≤ ((q : ℚ) + 6 * u + tab.length) * seedLoss n := by positivity
    show v ≤ v + _
    linarith
  · obtain ⟨hl, hf, hw⟩ := ha
    have hl' : salt.length ≤ 128 := by omega
    have hne : salt ≠ [] := fun h => by rw [h] at hl; cases hl
    have h1 : ∀ s : Seed n, (Probe.hash (keyPad 0x36 salt ++ (first ++ Seed.bytes s)) fun e =>
        .hash (keyPad 0x5c salt ++ e) fun y => fromState P y).lazy tab ≤
        avg fun e : Digest => (hits (keyPad 0x36 salt ++ (first ++ Seed.bytes s))
          (keyPad 0x5c salt ++ e.bytes) tab + avg fun y : Digest => (fromState P y.bytes).alarm
            (keyPad 0x36 salt ++ (first ++ Seed.bytes s)) (keyPad 0x5c salt ++ e.bytes) tab) := by
      intro s
      generalize ha : keyPad 0x36 salt ++ (first ++ Seed.bytes s) = a
      have hpos : ∀ e : Digest, 0 ≤ avg fun y : Digest => (fromState P y.bytes).alarm
          a (keyPad 0x5c salt ++ e.bytes) tab := fun e =>
        avg_nonneg fun y => Probe.alarm_nonneg _ (fromState_bounded hs.1 _) _
      rcases hlk : tab.lookup a with _ | D
      · simp only [Probe.lazy]
        unfold oracle
        rw [hlk]
        simp only []
        refine avg_mono fun e => ?_
        have hne2 : keyPad 0x5c salt ++ e.bytes ≠ a := fun h => by
          rw [← ha] at h
          exact keyPad_ne hne (List.append_inj h (by rw [keyPad_length hl', keyPad_length hl'])).1.symm
        rw [lookup_snoc_ne hne2]
        rcases hlk2 : tab.lookup (keyPad 0x5c salt ++ e.bytes) with _ | D
        · simp only []
          have h3 : (avg fun y : Digest => (fromState P y.bytes).lazy
              (tab ++ [(a, e)] ++ [(keyPad 0x5c salt ++ e.bytes, y)])) ≤
              avg fun y : Digest => (fromState P y.bytes).alarm
                a (keyPad 0x5c salt ++ e.bytes) tab := avg_mono fun y =>
            Probe.lazy_le_alarm _ (fromState_bounded hs.1 _) fun m h1 h2 => by
              rw [lookup_snoc_ne h2, lookup_snoc_ne h1]
          have := hits_nonneg a (keyPad 0x5c salt ++ e.bytes) tab
          linarith
        · simp only []
          have h3 := hits_found (a := a) (Or.inr rfl) hlk2
          have h4 := ((fromState P D.bytes).lazy_bounds (fromState_bounded hs.1 _) (tab ++ [(a, e)])).2
          have := hpos e
          linarith
      · have hb : (Probe.hash a fun e => .hash (keyPad 0x5c salt ++ e) fun y => fromState P y).Bounded :=
          fun e y => fromState_bounded hs.1 y
        refine (Probe.lazy_bounds _ hb tab).2.trans ?_
        have h5 : ∀ e : Digest, (1 : ℚ) ≤ hits a (keyPad 0x5c salt ++ e.bytes) tab +
            avg fun y : Digest => (fromState P y.bytes).alarm a (keyPad 0x5c salt ++ e.bytes) tab :=
          fun e => by
            have := hits_found (b := keyPad 0x5c salt ++ e.bytes) (Or.inl rfl) hlk
            have := hpos e
            linarith
        calc (1 : ℚ) = avg fun _ : Digest => 1 := (avg_const 1).symm
          _ ≤ _ := avg_mono h5
    have h2 : ((Break.start salt first P).realProbe n).lazy tab ≤
        avg fun θ : Seed n × Digest => (hits (keyPad 0x36 salt ++ (first ++ θ.1.bytes))
          (keyPad 0x5c salt ++ θ.2.bytes) tab + avg fun y : Digest => (fromState P y.bytes).alarm
            (keyPad 0x36 salt ++ (first ++ θ.1.bytes)) (keyPad 0x5c salt ++ θ.2.bytes) tab) := by
      rw [avg_prod fun (s : Seed n) (e : Digest) => (hits (keyPad 0x36 salt ++ (first ++ s.bytes))
          (keyPad 0x5c salt ++ e.bytes) tab + avg fun y : Digest => (fromState P y.bytes).alarm
            (keyPad 0x36 salt ++ (first ++ s.bytes)) (keyPad 0x5c salt ++ e.bytes) tab)]
      exact avg_mono h1
    refine h2.trans ?_
    rw [avg_add]
    have h6 := avg_hits (a := fun θ : Seed n × Digest => keyPad 0x36 salt ++ (first ++ θ.1.bytes))
      (b := fun θ => keyPad 0x5c salt ++ θ.2.bytes) (break_found n) tab
    have h7 := break_alarm (n := n) (salt := salt) (first := first) hs.1 hw tab
    rw [begun_lazy]
    push_cast at h7
    linarith

theorem run_lazy {n B u q : Nat} {T : Run Break} (hs : T.All Break.Sound)
    (hw : T.Within B (Break.Fits B u) q) (tab : Table) :
    (T.probe (Break.realProbe n)).lazy tab ≤ (T.probe Break.begunProbe).lazy tab +
      (q + 6 * u + tab.length) * seedLoss n := by
  have hδ := seedLoss_nonneg n
  induction T generalizing q tab with
  | toss m hm next ih =>
    have : Nonempty (Fin m) := ⟨⟨0, hm⟩⟩
    refine (avg_mono fun c => ih c (hs c) (hw c) tab).trans (le_of_eq ?_)
    rw [avg_add, avg_const]
    rfl
  | hash m next ih =>
    obtain ⟨h1, h2, h3⟩ := hw
    have hq := lookup_lt h2
    simp only [Run.probe, Probe.lazy]
    unfold oracle
    rcases tab.lookup m with _ | D
    · simp only []
      refine (avg_mono fun D => ih _ (hs _) (h3 _ (digest_length D)) _).trans (le_of_eq ?_)
      simp only [List.length_append, List.length_cons, List.length_nil]
      rw [avg_add, avg_const]
      push_cast
      rw [hq]
      ring
    · simp only []
      refine (ih _ (hs _) (h3 _ (digest_length D)) _).trans ?_
      rw [hq]
      linarith
  | done a => exact break_lazy hs hw tab

/-- with uniform states, as a user of the generator -/
def Run.prng : Run Break → PrngProber
  | .toss k hk n => .toss k hk fun c => (n c).prng
  | .hash m n => .hash m fun b => (n b).prng
  | .done (.stop v) => .stop v
  | .done (.start _ _ P) => P

theorem prng_bounded {T : Run Break} (h : T.All Break.Sound) : T.prng.Bounded := by
  induction T with
  | toss m hm next ih => exact fun c => ih c (h c)
  | hash m next ih => exact fun b => ih b (h b)
  | done a =>
    rcases a with v | ⟨salt, first, P⟩
    · exact h
    · exact h.1

theorem prng_careful {T : Run Break} (h : T.All Break.Sound) : T.prng.Careful false := by
  induction T with
  | toss m hm next ih => exact fun c => ih c (h c)
  | hash m next ih => exact fun b => ih b (h b)
  | done a =>
    rcases a with v | ⟨salt, first, P⟩
    · trivial
    · exact h.2

theorem prng_within {B u q : Nat} {T : Run Break} (h : T.Within B (Break.Fits B u) q) :
    T.prng.Within B q u := by
  induction T generalizing q with
  | toss m hm next ih => exact fun c => ih c (h c)
  | hash m next ih => exact ⟨h.1, h.2.1, fun b hb => ih b (h.2.2 b hb)⟩
  | done a =>
    rcases a with v | ⟨salt, first, P⟩
    · trivial
    · exact h.2.2

theorem prng_real {sha : Bytes → Bytes} (T : Run Break) :
    realOutput sha (T.prng.using sha) = T.value sha (Break.begun sha) := by
  unfold realOutput
  induction T with
  | toss m hm next ih =>
    simp only [Run.prng, PrngProber.using, PrngPlayer.real, Run.value]
    rw [avg_comm]
    exact avg_congr fun c => ih c
  | hash m next ih => exact ih _
  | done a =>
    rcases a with v | ⟨salt, first, P⟩
    · exact avg_const v
    · rfl

theorem prng_ideal {sha : Bytes → Bytes} (T : Run Break) :
    (T.prng.using sha).ideal [] = T.value sha (Break.ideal sha) := by
  induction T with
  | toss m hm next ih => exact avg_congr fun c => ih c
  | hash m next ih => exact ih _
  | done a => rcases a with v | ⟨salt, first, P⟩ <;> rfl

theorem value_congr {A : Type} {sha : Bytes → Bytes} (hsha : ∀ m, (sha m).length = 64) {f g : A → ℚ}
    {B q : Nat} {C : A → Nat → Prop} {T : Run A} (hw : T.Within B C q)
    (h : ∀ a k, C a k → f a = g a) : T.value sha f = T.value sha g := by
  induction T generalizing q with
  | toss m hm next ih => exact avg_congr fun c => ih c (hw c)
  | hash m next ih => exact ih _ (hw.2.2 _ (hsha m))
  | done a => exact h _ _ hw

/-- an unseen seed heals, at the cost of some evaluations that find it -/
theorem break_random {B n u q : Nat} (hB : 192 + n ≤ B) (T : Run Break) (hs : T.All Break.Sound)
    (hw : T.Within B (Break.Fits B u) q) :
    (avg fun ω : HashFun B => T.value ω.sha (Break.real ω.sha n)) ≤
      (avg fun ω : HashFun B => T.value ω.sha (Break.ideal ω.sha)) +
        (macLoss q u + (q + 6 * u) * seedLoss n) := by
  have h1 : ∀ ω : HashFun B, T.value ω.sha (Break.real ω.sha n) =
      (T.probe (Break.realProbe n)).eval ω.sha := fun ω => by
    rw [Run.probe_eval]
    exact value_congr (HashFun.sha_length ω) hw fun a k hk =>
      (realProbe_eval (HashFun.sha_length ω) n hk).symm
  have h2 : ∀ ω : HashFun B, T.value ω.sha (Break.begun ω.sha) =
      (T.probe Break.begunProbe).eval ω.sha := fun ω => by
    rw [Run.probe_eval]
    exact value_congr (HashFun.sha_length ω) hw fun a k hk =>
      (begunProbe_eval (HashFun.sha_length ω) a).symm
  have hS : ∀ (P : PrngProber) (k : Nat), P.Within B k u → ∀ y : Bytes, y.length = 64 →
      (fromState P y).Short B := fun P k hP y hy =>
    randomProbe_short _ (attackQ_real_within P hP (p := ⟨y⟩) hy) _
  have h3 := avg_eval (B := B) _ (Run.probe_short (f := Break.realProbe n) hw fun a k hk => by
    rcases a with v | ⟨salt, first, P⟩
    · trivial
    · obtain ⟨h1, h2, h3⟩ := hk
      refine fun s => ⟨?_, fun e he => ⟨?_, fun y hy => hS P k h3 y hy⟩⟩
      · rw [List.length_append, List.length_append, keyPad_length (by omega), h2]
        have : (Seed.bytes s).length = n := natToBE_length n _
        omega
      · rw [List.length_append, keyPad_length (by omega), he]
        omega)
  have h4 := avg_eval (B := B) _ (Run.probe_short (f := Break.begunProbe) hw fun a k hk => by
    rcases a with v | ⟨salt, first, P⟩
    · trivial
    · exact fun K => hS P k hk.2.2 _ (digest_length K))
  have h5 := run_lazy (n := n) hs hw []
  have h6 := generator_random (B := B) (by omega) T.prng (prng_bounded hs) (prng_careful hs)
    (prng_within hw)
  simp only [prng_real, prng_ideal] at h6
  rw [avg_congr h2, h4] at h6
  rw [avg_congr h1, h3]
  simp only [List.length_nil, Nat.cast_zero, add_zero] at h5
  linarith

/-! ## The adversary of `Spec/Recover.lean` -/

namespace Spec.HealProber

/-- the run as in the code, from the state `p` -/
def tail (n : Nat) : HealProber → Prng → Run ℚ
  | .toss k hk nx, p => .toss k hk fun c => (nx c).tail n p
  | .hash m nx, p => .hash m fun b => (nx b).tail n p
  | .sample info nx, p => .mac p.seed (info ++ [1]) fun t1 => (nx (natOfBytes t1)).tail n p
  | .draw info nx, p => .mac p.seed (info ++ [1]) fun t1 => .mac p.seed (t1 ++ info ++ [2]) fun t2 =>
      (nx (natOfBytes t1)).tail n ⟨t2⟩
  | .mix seed info nx, p => .mac p.seed (info ++ [1]) fun t1 =>
      .mac p.seed (t1 ++ info ++ [2]) fun t2 => .mac t2 (t1 ++ seed) fun s => nx.tail n ⟨s⟩
  | .refresh info nx, p => .toss (256 ^ n) (seed_pos n) fun x => .mac p.seed (info ++ [1]) fun t1 =>
      .mac p.seed (t1 ++ info ++ [2]) fun t2 => .mac t2 (t1 ++ Seed.bytes x) fun s => nx.tail n ⟨s⟩
  | .leak nx, p => (nx p.seed).tail n p
  | .stop v, _ => .done v

/-- as `HealPlayer.live` -/
def liveQ (n : Nat) : HealProber → PrngProber
  | .toss k hk nx => .toss k hk fun c => (nx c).liveQ n
  | .hash m nx => .hash m fun b => (nx b).liveQ n
  | .sample info nx => .sample info fun r => (nx r).liveQ n
  | .draw info nx => .draw info fun r => (nx r).liveQ n
  | .mix seed info nx => .mix seed info (nx.liveQ n)
  | .refresh info nx => .toss (256 ^ n) (seed_pos n) fun x => .mix (Seed.bytes x) info (nx.liveQ n)
  | .leak nx => .look fun b => ((nx b).tail n ⟨b⟩).probe .stop
  | .stop v => .stop v

/-- the first `i` periods are ideal, and period number `i` is the result -/
def upTo (n : Nat) : HealProber → Nat → HealState → Run Break
  | .toss k hk nx, i, S => .toss k hk fun c => (nx c).upTo n i S
  | .hash m nx, i, S => .hash m fun b => (nx b).upTo n i S
  | .sample info nx, i, .known p => .mac p.seed (info ++ [1]) fun t1 =>
      (nx (natOfBytes t1)).upTo n i (.known p)
  | .sample info nx, i, .fresh tab => .table tab info fun D tab' => (nx D.field).upTo n i (.fresh tab')
  | .draw info nx, i, .known p => .mac p.seed (info ++ [1]) fun t1 =>
      .mac p.seed (t1 ++ info ++ [2]) fun t2 => (nx (natOfBytes t1)).upTo n i (.known ⟨t2⟩)
  | .draw info nx, i, .fresh tab => .table tab info fun D _ => (nx D.field).upTo n i (.fresh [])
  | .mix seed info nx, i, .known p => .mac p.seed (info ++ [1]) fun t1 =>
      .mac p.seed (t1 ++ info ++ [2]) fun t2 => .mac t2 (t1 ++ seed) fun s =>
        nx.upTo n i (.known ⟨s⟩)
  | .mix _ _ nx, i, .fresh _ => nx.upTo n i (.fresh [])
  | .refresh info nx, 0, .known p => .mac p.seed (info ++ [1]) fun t1 =>
      .mac p.seed (t1 ++ info ++ [2]) fun t2 => .done (.start t2 t1 (nx.liveQ n))
  | .refresh _ nx, i + 1, .known _ => nx.upTo n i (.fresh [])
  | .refresh _ nx, i, .fresh _ => nx.upTo n i (.fresh [])
  | .leak nx, i, .known p => (nx p.seed).upTo n i (.known p)
  | .leak nx, i, .fresh _ => .toss (256 ^ 64) digests_pos fun K =>
      (nx (Digest.bytes K)).upTo n i (.known ⟨Digest.bytes K⟩)
  | .stop v, _, _ => .done (.stop v)

end Spec.HealProber

section Values
variable {sha : Bytes → Bytes} {n : Nat}

theorem tail_value (h : ∀ m, (sha m).length = 64) (P : HealProber) (p : Prng) :
    (P.tail n p).value sha (fun v => v) = (P.using sha).real sha n p := by
  induction P generalizing p with
  | toss m hm nx ih => exact avg_congr fun c => ih c p
  | hash m nx ih => exact ih _ p
  | sample info nx ih =>
    simp only [HealProber.tail, HealProber.using, HealPlayer.real, Run.mac_value, sample_eq h]
    rw [show drawVal sha p info = _ from drawVal_eq p.seed info]
    exact ih _ _
  | draw info nx ih =>
    simp only [HealProber.tail, HealProber.using, HealPlayer.real, Run.mac_value,
      sampleThenUpdate_eq h]
    rw [show drawVal sha p info = _ from drawVal_eq p.seed info]
    exact ih _ _
  | mix seed info nx ih =>
    simp only [HealProber.tail, HealProber.using, HealPlayer.real, Run.mac_value, rerandomize_eq h]
    exact ih _
  | refresh info nx ih =>
    simp only [HealProber.tail, HealProber.using, HealPlayer.real, Run.value, Run.mac_value,
      rerandomize_eq h]
    exact avg_congr fun s => ih _
  | leak nx ih => exact ih _ p
  | stop v => rfl

theorem liveQ_using (h : ∀ m, (sha m).length = 64) (P : HealProber) :
    (P.liveQ n).using sha = (P.using sha).live sha n := by
  induction P with
  | toss m hm nx ih => simp only [HealProber.liveQ, PrngProber.using, HealProber.using, HealPlayer.live, ih]
  | hash m nx ih => exact ih _
  | sample info nx ih =>
    simp only [HealProber.liveQ, PrngProber.using, HealProber.using, HealPlayer.live, ih]
  | draw info nx ih =>
    simp only [HealProber.liveQ, PrngProber.using, HealProber.using, HealPlayer.live, ih]
  | mix seed info nx ih =>
    simp only [HealProber.liveQ, PrngProber.using, HealProber.using, HealPlayer.live, ih]
  | refresh info nx ih =>
    simp only [HealProber.liveQ, PrngProber.using, HealProber.using, HealPlayer.live, ih]
  | leak nx ih =>
    simp only [HealProber.liveQ, PrngProber.using, HealProber.using, HealPlayer.live]
    congr 1
    funext p
    rw [Run.probe_eval]
    exact tail_value h _ _
  | stop v => rfl

theorem upTo_real (h : ∀ m, (sha m).length = 64) (P : HealProber) (i : Nat) (S : HealState) :
    (P.upTo n i S).value sha (Break.real sha n) = (P.using sha).hybrid sha n i S := by
  induction P generalizing i S with
  | toss m hm nx ih => exact avg_congr fun c => ih c i S
  | hash m nx ih => exact ih _ i S
  | sample info nx ih =>
    rcases S with p | tab
    · simp only [HealProber.upTo, HealProber.using, HealPlayer.hybrid, Run.mac_value]
      rw [show drawVal sha p info = _ from drawVal_eq p.seed info]
      exact ih _ _ _
    · simp only [HealProber.upTo, HealProber.using, HealPlayer.hybrid, Run.table_value]
      exact oracle_congr fun D tab' => ih _ _ _
  | draw info nx ih =>
    rcases S with p | tab
    · simp only [HealProber.upTo, HealProber.using, HealPlayer.hybrid, Run.mac_value]
      rw [show drawVal sha p info = _ from drawVal_eq p.seed info]
      exact ih _ _ _
    · simp only [HealProber.upTo, HealProber.using, HealPlayer.hybrid, Run.table_value]
      exact oracle_congr fun D tab' => ih _ _ _
  | mix seed info nx ih =>
    rcases S with p | tab
    · simp only [HealProber.upTo, HealProber.using, HealPlayer.hybrid, Run.mac_value]
      exact ih _ _
    · simp only [HealProber.upTo, HealProber.using, HealPlayer.hybrid]
      exact ih _ _
  | refresh info nx ih =>
    rcases S with p | tab
    · rcases i with _ | i
      · simp only [HealProber.upTo, HealProber.using, HealPlayer.hybrid, Run.mac_value, Run.value,
          Break.real, liveQ_using h, live_real h]
        rfl
      · simp only [HealProber.upTo, HealProber.using, HealPlayer.hybrid]
        exact ih _ _
    · simp only [HealProber.upTo, HealProber.using, HealPlayer.hybrid]
      exact ih _ _
  | leak nx ih =>
    rcases S with p | tab
    · exact ih _ _ _
    · exact avg_congr fun K => ih _ _ _
  | stop v => cases S <;> rfl

theorem upTo_ideal (h : ∀ m, (sha m).length = 64) (P : HealProber) (i : Nat) (S : HealState) :
    (P.upTo n i S).value sha (Break.ideal sha) = (P.using sha).hybrid sha n (i + 1) S := by
  induction P generalizing i S with
  | toss m hm nx ih => exact avg_congr fun c => ih c i S
  | hash m nx ih => exact ih _ i S
  | sample info nx ih =>
    rcases S with p | tab
    · simp only [HealProber.upTo, HealProber.using, HealPlayer.hybrid, Run.mac_value]
      rw [show drawVal sha p info = _ from drawVal_eq p.seed info]
      exact ih _ _ _
    · simp only [HealProber.upTo, HealProber.using, HealPlayer.hybrid, Run.table_value]
      exact oracle_congr fun D tab' => ih _ _ _
  | draw info nx ih =>
    rcases S with p | tab
    · simp only [HealProber.upTo, HealProber.using, HealPlayer.hybrid, Run.mac_value]
      rw [show drawVal sha p info = _ from drawVal_eq p.seed info]
      exact ih _ _ _
    · simp only [HealProber.upTo, HealProber.using, HealPlayer.hybrid, Run.table_value]
      exact oracle_congr fun D tab' => ih _ _ _
  | mix seed info nx ih =>
    rcases S with p | tab
    · simp only [HealProber.upTo, HealProber.using, HealPlayer.hybrid, Run.mac_value]
      exact ih _ _
    · simp only [HealProber.upTo, HealProber.using, HealPlayer.hybrid]
      exact ih _ _
  | refresh info nx ih =>
    rcases S with p | tab
    · rcases i with _ | i
      · simp only [HealProber.upTo, HealProber.using, HealPlayer.hybrid, Run.mac_value, Run.value,
          Break.ideal, liveQ_using h, live_ideal h]
      · simp only [HealProber.upTo, HealProber.using, HealPlayer.hybrid]
        exact ih _ _
    · simp only [HealProber.upTo, HealProber.using, HealPlayer.hybrid]
      exact ih _ _
  | leak nx ih =>
    rcases S with p | tab
    · exact ih _ _ _
    · exact avg_congr fun K => ih _ _ _
  | stop v => cases S <;> rfl

end Values

/-! ### Bounds and counts -/

theorem tail_bounded {n : Nat} (P : HealProber) (hb : P.Bounded) (p : Prng) :
    (P.tail n p).All fun v => 0 ≤ v ∧ v ≤ 1 := by
  induction P generalizing p with
  | toss m hm nx ih => exact fun c => ih c (hb c) p
  | hash m nx ih => exact fun b => ih b (hb b) p
  | sample info nx ih => exact Run.mac_all fun b => ih _ (hb _) _
  | draw info nx ih => exact Run.mac_all fun b => Run.mac_all fun b' => ih _ (hb _) _
  | mix seed info nx ih =>
    exact Run.mac_all fun b => Run.mac_all fun b' => Run.mac_all fun s => ih hb _
  | refresh info nx ih =>
    exact fun c => Run.mac_all fun b => Run.mac_all fun b' => Run.mac_all fun s => ih hb _
  | leak nx ih => exact ih _ (hb _) p
  | stop v => exact hb

theorem liveQ_bounded {n : Nat} (P : HealProber) (hb : P.Bounded) : (P.liveQ n).Bounded := by
  induction P with
  | toss m hm nx ih => exact fun c => ih c (hb c)
  | hash m nx ih => exact fun b => ih b (hb b)
  | sample info nx ih => exact fun r => ih r (hb r)
  | draw info nx ih => exact fun r => ih r (hb r)
  | mix seed info nx ih => exact ih hb
  | refresh info nx ih => exact fun s => ih hb
  | leak nx ih => exact fun b => Run.probe_bounded (tail_bounded _ (hb b) _)
  | stop v => exact hb

theorem liveQ_careful {n : Nat} (P : HealProber) {u : Bool}
    (hP : P.Careful (if u then .used else .unused)) : (P.liveQ n).Careful u := by
  induction P generalizing u with
  | toss m hm nx ih => exact fun c => ih c (hP c)
  | hash m nx ih => exact fun b => ih b (hP b)
  | sample info nx ih =>
    intro r
    refine ih r (u := true) ?_
    have := hP r
    cases u <;> exact this
  | draw info nx ih =>
    intro r
    refine ih r (u := false) ?_
    have := hP r
    cases u <;> exact this
  | mix seed info nx ih =>
    refine ih (u := false) ?_
    cases u <;> exact hP
  | refresh info nx ih => exact fun s => ih (u := false) hP
  | leak nx ih =>
    cases u
    · rfl
    · exact absurd rfl hP.1
  | stop v => trivial

theorem upTo_sound {n : Nat} (P : HealProber) (hb : P.Bounded) {m : Mark} (hP : P.Careful m)
    (i : Nat) (S : HealState) : (P.upTo n i S).All Break.Sound := by
  induction P generalizing m i S with
  | toss k hk nx ih => exact fun c => ih c (hb c) (hP c) i S
  | hash k nx ih => exact fun b => ih b (hb b) (hP b) i S
  | sample info nx ih =>
    rcases S with p | tab
    · exact Run.mac_all fun b => ih _ (hb _) (hP _) _ _
    · exact Run.table_all fun D tab' => ih _ (hb _) (hP _) _ _
  | draw info nx ih =>
    rcases S with p | tab
    · exact Run.mac_all fun b => Run.mac_all fun b' => ih _ (hb _) (hP _) _ _
    · exact Run.table_all fun D tab' => ih _ (hb _) (hP _) _ _
  | mix seed info nx ih =>
    rcases S with p | tab
    · exact Run.mac_all fun b => Run.mac_all fun b' => Run.mac_all fun s => ih hb hP _ _
    · exact ih hb hP _ _
  | refresh info nx ih =>
    rcases S with p | tab
    · rcases i with _ | i
      · exact Run.mac_all fun b => Run.mac_all fun b' =>
          ⟨liveQ_bounded _ hb, liveQ_careful _ (u := false) hP⟩
      · exact ih hb hP _ _
    · rw [HealProber.upTo]
      exact ih hb hP _ _
  | leak nx ih =>
    rcases S with p | tab
    · exact ih _ (hb _) (hP.2 _) _ _
    · exact fun K => ih _ (hb _) (hP.2 _) _ _
  | stop v => cases S <;> exact hb

theorem prngProber_within_mono {B : Nat} {P : PrngProber} {q q' u u' : Nat} (h : P.Within B q u)
    (hq : q ≤ q') (hu : u ≤ u') : P.Within B q' u' := by
  induction P generalizing q q' u u' with
  | toss n hn next ih => exact fun c => ih c (h c) hq hu
  | hash m next ih =>
    exact ⟨h.1, by have := h.2.1; omega, fun b hb => ih b (h.2.2 b hb) (by omega) hu⟩
  | sample info next ih =>
    exact ⟨h.1, by have := h.2.1; omega, fun r => ih r (h.2.2 r) hq (by omega)⟩
  | draw info next ih =>
    exact ⟨h.1, by have := h.2.1; omega, fun r => ih r (h.2.2 r) hq (by omega)⟩
  | mix seed info next ih =>
    exact ⟨h.1, h.2.1, by have := h.2.2.1; omega, ih h.2.2.2 hq (by omega)⟩
  | look n =>
    exact fun b hb => ⟨(h b hb).1, hashes_mono (h b hb).2 hq⟩
  | stop v => trivial
where
  hashes_mono {R : Probe} {q q' : Nat} (h : R.Hashes q) (hq : q ≤ q') : R.Hashes q' := by
    induction R generalizing q q' with
    | toss n hn next ih => exact fun c => ih c (h c) hq
    | hash m next ih => exact ⟨by have := h.1; omega, fun b hb => ih b (h.2 b hb) (by omega)⟩
    | stop v => trivial

theorem seedBytes_length {n : Nat} (s : Seed n) : s.bytes.length = n := natToBE_length n s.val

theorem tail_within {B n : Nat} (hB : n + 193 ≤ B) (P : HealProber) {q u c : Nat}
    (hP : P.Within B q u c) {p : Prng} (hp : p.seed.length = 64) :
    (P.tail n p).Within B (fun _ _ => True) (q + 6 * u) := by
  have hC : ∀ (a : ℚ) (k k' : Nat), True → k ≤ k' → True := fun _ _ _ _ _ => trivial
  induction P generalizing q u c p with
  | toss m hm nx ih => exact fun i => ih i (hP i) hp
  | hash m nx ih =>
    obtain ⟨h1, h2, h3⟩ := hP
    exact ⟨h1, by omega, fun b hb => Run.Within.mono hC (ih b (h3 b hb) hp) (by omega)⟩
  | sample info nx ih =>
    obtain ⟨h1, h2, h3⟩ := hP
    exact Run.mac_within hC (q := q + 6 * (u - 1)) (by omega) (by omega) hp (len_first h1)
      fun b hb => ih _ (h3 _) hp
  | draw info nx ih =>
    obtain ⟨h1, h2, h3⟩ := hP
    exact Run.mac_within hC (q := q + 6 * (u - 1) + 2) (by omega) (by omega) hp (len_first h1)
      fun b hb => Run.mac_within hC (q := q + 6 * (u - 1)) (by omega) (by omega) hp (len_second h1 hb)
      fun b' hb' => ih _ (h3 _) hb'
  | mix seed info nx ih =>
    obtain ⟨h0, h1, h2, h3⟩ := hP
    exact Run.mac_within hC (q := q + 6 * (u - 1) + 4) (by omega) (by omega) hp (len_first h1)
      fun b hb => Run.mac_within hC (q := q + 6 * (u - 1) + 2) (by omega) (by omega) hp
        (len_second h1 hb) fun b' hb' => Run.mac_within hC (q := q + 6 * (u - 1)) (by omega) (by omega)
        hb' (len_seed h0 hb) fun s hs => ih h3 hs
  | refresh info nx ih =>
    obtain ⟨h1, h2, h2', h3⟩ := hP
    exact fun x => Run.mac_within hC (q := q + 6 * (u - 1) + 4) (by omega) (by omega) hp (len_first h1)
      fun b hb => Run.mac_within hC (q := q + 6 * (u - 1) + 2) (by omega) (by omega) hp
        (len_second h1 hb) fun b' hb' => Run.mac_within hC (q := q + 6 * (u - 1)) (by omega) (by omega)
        hb' (len_seed (by rw [seedBytes_length]; exact hB) hb) fun s hs => ih h3 hs
  | leak nx ih => exact ih _ (hP _ hp) hp
  | stop v => trivial

theorem liveQ_within {B n : Nat} (hB : n + 193 ≤ B) (P : HealProber) {q u c : Nat}
    (hP : P.Within B q u c) : (P.liveQ n).Within B (q + 6 * u) u := by
  induction P generalizing q u c with
  | toss m hm nx ih => exact fun i => ih i (hP i)
  | hash m nx ih =>
    obtain ⟨h1, h2, h3⟩ := hP
    exact ⟨h1, by omega, fun b hb => prngProber_within_mono (ih b (h3 b hb)) (by omega) le_rfl⟩
  | sample info nx ih =>
    obtain ⟨h1, h2, h3⟩ := hP
    exact ⟨h1, h2, fun r => prngProber_within_mono (ih r (h3 r)) (by omega) le_rfl⟩
  | draw info nx ih =>
    obtain ⟨h1, h2, h3⟩ := hP
    exact ⟨h1, h2, fun r => prngProber_within_mono (ih r (h3 r)) (by omega) le_rfl⟩
  | mix seed info nx ih =>
    obtain ⟨h0, h1, h2, h3⟩ := hP
    exact ⟨h0, h1, h2, prngProber_within_mono (ih h3) (by omega) le_rfl⟩
  | refresh info nx ih =>
    obtain ⟨h1, h2, h2', h3⟩ := hP
    exact fun x => ⟨by rw [seedBytes_length]; exact hB, h1, h2,
      prngProber_within_mono (ih h3) (by omega) le_rfl⟩
  | leak nx ih =>
    exact fun b hb => ⟨Run.probe_short (tail_within hB _ (hP b hb) hb) fun _ _ _ => trivial,
      Run.probe_hashes (tail_within hB _ (hP b hb) hb) fun _ _ _ => trivial⟩
  | stop v => trivial

theorem break_fits_mono {B u : Nat} (a : Break) (k k' : Nat) (h : a.Fits B u k) (hk : k ≤ k') :
    a.Fits B u k' := by
  rcases a with v | ⟨salt, first, P⟩
  · trivial
  · exact ⟨h.1, h.2.1, prngProber_within_mono h.2.2 hk le_rfl⟩

theorem upTo_within {B n : Nat} (hB : n + 193 ≤ B) (P : HealProber) {q u c v : Nat} (hv : u ≤ v)
    (hP : P.Within B q u c) (i : Nat) (S : HealState) (hS : ∀ p, S = .known p → p.seed.length = 64) :
    (P.upTo n i S).Within B (Break.Fits B v) (q + 6 * u) := by
  have hC := break_fits_mono (B := B) (u := v)
  have hK : ∀ {b : Bytes}, b.length = 64 → ∀ p, HealState.known ⟨b⟩ = .known p → p.seed.length = 64 :=
    fun hb p hp => by cases hp; exact hb
  have hF : ∀ {tab : Table}, ∀ p, HealState.fresh tab = .known p → p.seed.length = 64 :=
    fun p hp => by cases hp
  induction P generalizing q u c i S with
  | toss m hm nx ih => exact fun j => ih j hv (hP j) i S hS
  | hash m nx ih =>
    obtain ⟨h1, h2, h3⟩ := hP
    exact ⟨h1, by omega, fun b hb => Run.Within.mono hC (ih b hv (h3 b hb) i S hS) (by omega)⟩
  | sample info nx ih =>
    obtain ⟨h1, h2, h3⟩ := hP
    rcases S with p | tab
    · exact Run.mac_within hC (q := q + 6 * (u - 1)) (by omega) (by omega) (hS p rfl) (len_first h1)
        fun b hb => ih _ (by omega) (h3 _) _ _ hS
    · exact Run.table_within fun D tab' =>
        Run.Within.mono hC (ih _ (by omega) (h3 _) _ _ hF) (by omega)
  | draw info nx ih =>
    obtain ⟨h1, h2, h3⟩ := hP
    rcases S with p | tab
    · exact Run.mac_within hC (q := q + 6 * (u - 1) + 2) (by omega) (by omega) (hS p rfl) (len_first h1)
        fun b hb => Run.mac_within hC (q := q + 6 * (u - 1)) (by omega) (by omega) (hS p rfl)
          (len_second h1 hb) fun b' hb' => ih _ (by omega) (h3 _) _ _ (hK hb')
    · exact Run.table_within fun D tab' =>
        Run.Within.mono hC (ih _ (by omega) (h3 _) _ _ hF) (by omega)
  | mix seed info nx ih =>
    obtain ⟨h0, h1, h2, h3⟩ := hP
    rcases S with p | tab
    · exact Run.mac_within hC (q := q + 6 * (u - 1) + 4) (by omega) (by omega) (hS p rfl) (len_first h1)
        fun b hb => Run.mac_within hC (q := q + 6 * (u - 1) + 2) (by omega) (by omega) (hS p rfl)
          (len_second h1 hb) fun b' hb' => Run.mac_within hC (q := q + 6 * (u - 1)) (by omega)
            (by omega) hb' (len_seed h0 hb) fun s hs => ih (by omega) h3 _ _ (hK hs)
    · exact Run.Within.mono hC (ih (by omega) h3 _ _ hF) (by omega)
  | refresh info nx ih =>
    obtain ⟨h1, h2, h2', h3⟩ := hP
    rcases S with p | tab
    · rcases i with _ | i
      · exact Run.mac_within hC (q := q + 6 * (u - 1) + 2) (by omega) (by omega) (hS p rfl)
          (len_first h1) fun b hb => Run.mac_within hC (q := q + 6 * (u - 1)) (by omega) (by omega)
            (hS p rfl) (len_second h1 hb) fun b' hb' =>
              ⟨hb', hb, prngProber_within_mono (liveQ_within hB _ h3) le_rfl (by omega)⟩
      · exact Run.Within.mono hC (ih (by omega) h3 _ _ hF) (by omega)
    · rw [HealProber.upTo]
      exact Run.Within.mono hC (ih (by omega) h3 _ _ hF) (by omega)
  | leak nx ih =>
    rcases S with p | tab
    · exact ih _ hv (hP _ (hS p rfl)) _ _ hS
    · exact fun K => ih _ hv (hP _ (digest_length K)) _ _ (hK (digest_length K))
  | stop v => cases S <;> trivial

theorem healProber_within_mono {B : Nat} {P : HealProber} {q u c c' : Nat} (h : P.Within B q u c)
    (hc : c ≤ c') : P.Within B q u c' := by
  induction P generalizing q u c c' with
  | toss n hn next ih => exact fun i => ih i (h i) hc
  | hash m next ih => exact ⟨h.1, h.2.1, fun b hb => ih b (h.2.2 b hb) hc⟩
  | sample info next ih => exact ⟨h.1, h.2.1, fun r => ih r (h.2.2 r) hc⟩
  | draw info next ih => exact ⟨h.1, h.2.1, fun r => ih r (h.2.2 r) hc⟩
  | mix seed info next ih => exact ⟨h.1, h.2.1, h.2.2.1, ih h.2.2.2 hc⟩
  | refresh info next ih =>
    exact ⟨h.1, h.2.1, by have := h.2.2.1; omega, ih h.2.2.2 (by omega)⟩
  | leak next ih => exact fun b hb => ih b (h b hb) hc
  | stop v => trivial

theorem using_hybrid {sha : Bytes → Bytes} (h : ∀ m, (sha m).length = 64) {B n : Nat}
    (P : HealProber) {q u c : Nat} (hP : P.Within B q u c) (S : HealState)
    (hS : ∀ p, S = .known p → p.seed.length = 64) :
    (P.using sha).hybrid sha n c S = (P.using sha).ideal sha S := by
  have hK : ∀ {x : Prng}, x.seed.length = 64 → ∀ p, HealState.known x = .known p → p.seed.length = 64 :=
    fun hb p hp => by cases hp; exact hb
  have hF : ∀ {tab : Table}, ∀ p, HealState.fresh tab = .known p → p.seed.length = 64 :=
    fun p hp => by cases hp
  induction P generalizing q u c S with
  | toss m hm nx ih => exact avg_congr fun i => ih i (hP i) S hS
  | hash m nx ih => exact ih _ (hP.2.2 _ (h m)) S hS
  | sample info nx ih =>
    rcases S with p | tab
    · simp only [HealProber.using, HealPlayer.hybrid, HealPlayer.ideal, sample_eq h]
      exact ih _ (hP.2.2 _) _ hS
    · simp only [HealProber.using, HealPlayer.hybrid, HealPlayer.ideal]
      exact oracle_congr fun D tab' => ih _ (hP.2.2 _) _ hF
  | draw info nx ih =>
    rcases S with p | tab
    · simp only [HealProber.using, HealPlayer.hybrid, HealPlayer.ideal, sampleThenUpdate_eq h]
      exact ih _ (hP.2.2 _) _ (hK (drawNext_wf h p info))
    · simp only [HealProber.using, HealPlayer.hybrid, HealPlayer.ideal]
      exact oracle_congr fun D tab' => ih _ (hP.2.2 _) _ hF
  | mix seed info nx ih =>
    rcases S with p | tab
    · simp only [HealProber.using, HealPlayer.hybrid, HealPlayer.ideal, rerandomize_eq h]
      exact ih hP.2.2.2 _ (hK (mixed_wf h p seed info))
    · simp only [HealProber.using, HealPlayer.hybrid, HealPlayer.ideal]
      exact ih hP.2.2.2 _ hF
  | refresh info nx ih =>
    obtain ⟨h1, h2, h3, h4⟩ := hP
    obtain ⟨c, rfl⟩ : ∃ c', c = c' + 1 := ⟨c - 1, by omega⟩
    rcases S with p | tab
    · simp only [HealProber.using, HealPlayer.hybrid, HealPlayer.ideal]
      exact ih h4 _ hF
    · simp only [HealProber.using, HealPlayer.hybrid, HealPlayer.ideal]
      exact ih (c := c + 1) (healProber_within_mono h4 (by omega)) _ hF
  | leak nx ih =>
    rcases S with p | tab
    · exact ih _ (hP _ (hS p rfl)) _ hS
    · exact avg_congr fun K => ih _ (hP _ (digest_length K)) _ (hK (digest_length K))
  | stop v => cases S <;> rfl

theorem healFlip_bounded (P : HealProber) (hb : P.Bounded) : P.flip.Bounded := by
  induction P with
  | toss m hm nx ih => exact fun c => ih c (hb c)
  | hash m nx ih => exact fun b => ih b (hb b)
  | sample info nx ih => exact fun r => ih r (hb r)
  | draw info nx ih => exact fun r => ih r (hb r)
  | mix seed info nx ih => exact ih hb
  | refresh info nx ih => exact ih hb
  | leak nx ih => exact fun b => ih b (hb b)
  | stop v => exact ⟨by linarith [hb.2], by linarith [hb.1]⟩

theorem healFlip_careful (P : HealProber) {m : Mark} (hP : P.Careful m) : P.flip.Careful m := by
  induction P generalizing m with
  | toss k hk nx ih => exact fun c => ih c (hP c)
  | hash k nx ih => exact fun b => ih b (hP b)
  | sample info nx ih => exact fun r => ih r (hP r)
  | draw info nx ih => exact fun r => ih r (hP r)
  | mix seed info nx ih => exact ih hP
  | refresh info nx ih => exact ih hP
  | leak nx ih => exact ⟨hP.1, fun b => ih b (hP.2 b)⟩
  | stop v => trivial

theorem healFlip_within {B : Nat} (P : HealProber) {q u c : Nat} (hP : P.Within B q u c) :
    P.flip.Within B q u c := by
  induction P generalizing q u c with
  | toss k hk nx ih => exact fun c => ih c (hP c)
  | hash k nx ih => exact ⟨hP.1, hP.2.1, fun b hb => ih b (hP.2.2 b hb)⟩
  | sample info nx ih => exact ⟨hP.1, hP.2.1, fun r => ih r (hP.2.2 r)⟩
  | draw info nx ih => exact ⟨hP.1, hP.2.1, fun r => ih r (hP.2.2 r)⟩
  | mix seed info nx ih => exact ⟨hP.1, hP.2.1, hP.2.2.1, ih hP.2.2.2⟩
  | refresh info nx ih => exact ⟨hP.1, hP.2.1, hP.2.2.1, ih hP.2.2.2⟩
  | leak nx ih => exact fun b hb => ih b (hP b hb)
  | stop v => trivial

theorem oracle_flip {tab : Table} {msg : Bytes} {f f' : Digest → Table → ℚ}
    (h : ∀ D tab', f D tab' = 1 - f' D tab') : oracle tab msg f = 1 - oracle tab msg f' := by
  unfold oracle
  rcases tab.lookup msg with _ | D
  · exact (avg_congr fun D => h _ _).trans (avg_flip _)
  · exact h _ _

theorem flip_hybrid {sha : Bytes → Bytes} (h : ∀ m, (sha m).length = 64) {n : Nat}
    (P : HealProber) (i : Nat) (S : HealState) :
    (P.flip.using sha).hybrid sha n i S = 1 - (P.using sha).hybrid sha n i S := by
  induction P generalizing i S with
  | toss m hm nx ih =>
    have : Nonempty (Fin m) := ⟨⟨0, hm⟩⟩
    exact (avg_congr fun c => ih c i S).trans (avg_flip _)
  | hash m nx ih => exact ih _ i S
  | sample info nx ih =>
    rcases S with p | tab
    · exact ih _ i _
    · exact oracle_flip fun D tab' => ih _ i _
  | draw info nx ih =>
    rcases S with p | tab
    · exact ih _ i _
    · exact oracle_flip fun D tab' => ih _ i _
  | mix seed info nx ih =>
    rcases S with p | tab
    · exact ih i _
    · exact ih i _
  | refresh info nx ih =>
    rcases S with p | tab
    · rcases i with _ | i
      · simp only [HealProber.flip, HealProber.using, HealPlayer.hybrid]
        refine (avg_congr fun s => ?_).trans (avg_flip _)
        rw [← hybrid_zero h, ← hybrid_zero h]
        exact ih 0 _
      · exact ih i _
    · simp only [HealProber.flip, HealProber.using, HealPlayer.hybrid]
      exact ih i _
  | leak nx ih =>
    rcases S with p | tab
    · exact ih _ i _
    · exact (avg_congr fun K => ih _ i _).trans (avg_flip _)
  | stop v => cases S <;> rfl

/-! ## The bound -/

/-- what one period costs -/
def periodLoss (n q u : Nat) : ℚ :=
  macLoss (q + 6 * u) u + ((q + 6 * u : ℕ) + 6 * u) * seedLoss n

theorem hybrid_random {B n : Nat} (hB : n + 193 ≤ B) (P : HealProber) (hb : P.Bounded) {m : Mark}
    (hm : P.Careful m) {q u c : Nat} (hP : P.Within B q u c) (S : HealState)
    (hS : ∀ p, S = .known p → p.seed.length = 64) (k : Nat) :
    (avg fun ω : HashFun B => (P.using ω.sha).hybrid ω.sha n 0 S) ≤
      (avg fun ω : HashFun B => (P.using ω.sha).hybrid ω.sha n k S) + k * periodLoss n q u := by
  induction k with
  | zero => simp
  | succ k ih =>
    have h1 := break_random (n := n) (by omega) (P.upTo n k S) (upTo_sound P hb hm k S)
      (upTo_within hB P le_rfl hP k S hS)
    rw [avg_congr fun ω : HashFun B => upTo_real (HashFun.sha_length ω) P k S,
      avg_congr fun ω : HashFun B => upTo_ideal (HashFun.sha_length ω) P k S] at h1
    unfold periodLoss at ih ⊢
    push_cast at ih h1 ⊢
    linarith

/-- from a known state -/
theorem recover_random {B n : Nat} (hB : n + 193 ≤ B) (P : HealProber) (hb : P.Bounded) {m : Mark}
    (hm : P.Careful m) {q u c : Nat} (hP : P.Within B q u c) {p : Prng} (hp : p.seed.length = 64) :
    (avg fun ω : HashFun B => (P.using ω.sha).real ω.sha n p) ≤
      (avg fun ω : HashFun B => (P.using ω.sha).ideal ω.sha (.known p)) + c * periodLoss n q u := by
  have hS : ∀ p', HealState.known p = .known p' → p'.seed.length = 64 := fun p' h => by cases h; exact hp
  have h1 := hybrid_random hB P hb hm hP (.known p) hS c
  rw [avg_congr fun ω : HashFun B => hybrid_zero (HashFun.sha_length ω) (P.using ω.sha) p,
    avg_congr fun ω : HashFun B => using_hybrid (HashFun.sha_length ω) P hP (.known p) hS] at h1
  exact h1

/-- from a seed that was not seen -/
theorem seeded_recover_random {B n k : Nat} (hB : n + 193 ≤ B) (hk : 128 + k ≤ B) {salt : Bytes}
    (hs : salt ≠ []) (hl : salt.length ≤ 128) (P : HealProber) (hb : P.Bounded)
    (hm : P.Careful .unused) {q u c : Nat} (hP : P.Within B q u c) :
    (avg fun ω : HashFun B => avg fun s : Seed k =>
      (P.using ω.sha).real ω.sha n ⟨hmac ω.sha salt s.bytes⟩) ≤
      (avg fun ω : HashFun B => (P.using ω.sha).ideal ω.sha (.fresh [])) +
        (periodLoss k q u + c * periodLoss n q u) := by
  have hS : ∀ p', HealState.fresh [] = .known p' → p'.seed.length = 64 := fun p' h => by cases h
  have h1 := hybrid_random hB P hb hm hP (.fresh []) hS c
  have h2 := seeded_random (B := B) (n := k) (by omega) hk hs hl (P.liveQ n) (liveQ_bounded P hb)
    (liveQ_careful P (u := false) hm) (liveQ_within hB P hP)
  have h3 : ∀ (ω : HashFun B) (y : Bytes), ((P.liveQ n).using ω.sha).real ω.sha ⟨y⟩ =
      (P.using ω.sha).real ω.sha n ⟨y⟩ := fun ω y => by
    rw [liveQ_using (HashFun.sha_length ω), live_real (HashFun.sha_length ω)]
  have h4 : ∀ ω : HashFun B, ((P.liveQ n).using ω.sha).ideal [] =
      (P.using ω.sha).hybrid ω.sha n 0 (.fresh []) := fun ω => by
    rw [liveQ_using (HashFun.sha_length ω), live_ideal (HashFun.sha_length ω)]
  simp only [h3, h4] at h2
  rw [avg_congr fun ω : HashFun B => using_hybrid (HashFun.sha_length ω) P hP (.fresh []) hS] at h1
  unfold periodLoss at h1 ⊢
  push_cast at h1 h2 ⊢
  linarith

end Pixel
