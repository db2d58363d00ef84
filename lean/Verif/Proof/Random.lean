import Verif.Spec.Random
import Verif.Proof.View
import Verif.Proof.Crowd

/-! # A random function in the place of SHA-512: proofs -/

namespace Pixel

open Spec

set_option linter.unusedSectionVars false

/-! ## Programs that evaluate a hash function -/

/-- the values of the hash function are drawn when they are needed -/
noncomputable def Spec.Probe.lazy : Probe → Table → ℚ
  | .toss _ _ n, tab => avg fun c => (n c).lazy tab
  | .hash m n, tab => oracle tab m fun D tab' => (n D.bytes).lazy tab'
  | .stop v, _ => v

theorem digest_length (D : Digest) : D.bytes.length = 64 := natToBE_length 64 D.val

theorem digest_inj {D D' : Digest} (h : D.bytes = D'.bytes) : D = D' := by
  have h1 := congrArg beNat h
  unfold Digest.bytes at h1
  rw [beNat_natToBE, beNat_natToBE, Nat.mod_eq_of_lt D.isLt, Nat.mod_eq_of_lt D'.isLt] at h1
  exact Fin.ext h1

theorem HashFun.sha_length {B : Nat} (ω : HashFun B) (m : Bytes) : (HashFun.sha ω m).length = 64 := by
  unfold HashFun.sha
  split
  · exact digest_length _
  · simp

/-- the hash function with the values of a table -/
def HashFun.over {B : Nat} (ω : HashFun B) (tab : Table) : HashFun B :=
  fun s => (tab.lookup s.1).getD (ω s)

theorem over_update {B : Nat} (ω : HashFun B) (tab : Table) {m : Bytes} (hm : m.length ≤ B)
    (D : Digest) (hl : tab.lookup m = none) :
    HashFun.over (Function.update ω ⟨m, hm⟩ D) tab = HashFun.over ω (tab ++ [(m, D)]) := by
  funext s
  unfold HashFun.over
  rw [List.lookup_append]
  by_cases hs : s.1 = m
  · have : s = ⟨m, hm⟩ := Subtype.ext hs
    subst this
    simp only [hl, Option.none_or, List.lookup_cons, beq_self_eq_true]
    exact Function.update_self (f := ω) ⟨m, hm⟩ D
  · have h1 : s ≠ ⟨m, hm⟩ := fun h => hs (by rw [h])
    rw [Function.update_of_ne h1]
    rcases tab.lookup s.1 with _ | D'
    · simp only [Option.none_or, List.lookup_cons, beq_eq_false_iff_ne.2 hs, List.lookup_nil]
    · rfl

theorem avg_eval_over {B : Nat} (R : Probe) (hR : R.Short B) (tab : Table) :
    (avg fun ω : HashFun B => R.eval (HashFun.over ω tab).sha) = R.lazy tab := by
  induction R generalizing tab with
  | toss n hn next ih =>
    have : Nonempty (Fin n) := ⟨⟨0, hn⟩⟩
    simp only [Probe.eval, Probe.lazy]
    rw [avg_comm]
    exact avg_congr fun c => ih c (hR c) tab
  | hash m next ih =>
    obtain ⟨hm, hn⟩ := hR
    have hv : ∀ ω : HashFun B, (HashFun.over ω tab).sha m = (HashFun.over ω tab ⟨m, hm⟩).bytes :=
      fun ω => dif_pos hm
    simp only [Probe.eval, Probe.lazy, hv]
    unfold oracle
    rcases hl : tab.lookup m with _ | D
    · simp only []
      have h1 : ∀ ω : HashFun B, HashFun.over ω tab ⟨m, hm⟩ = ω ⟨m, hm⟩ := fun ω => by
        unfold HashFun.over
        rw [hl]
        rfl
      rw [← avg_replace (show Strings B from ⟨m, hm⟩), avg_comm]
      refine avg_congr fun D => ?_
      rw [← ih D.bytes (hn _ (digest_length D)) (tab ++ [(m, D)])]
      refine avg_congr fun ω => ?_
      rw [h1, Function.update_self, over_update ω tab hm D hl]
    · simp only []
      have h1 : ∀ ω : HashFun B, HashFun.over ω tab ⟨m, hm⟩ = D := fun ω => by
        unfold HashFun.over
        rw [hl]
        rfl
      simp only [h1]
      exact ih _ (hn _ (digest_length D)) tab
  | stop v => exact avg_const v

theorem avg_eval {B : Nat} (R : Probe) (hR : R.Short B) :
    (avg fun ω : HashFun B => R.eval ω.sha) = R.lazy [] :=
  avg_eval_over R hR []

theorem Spec.Probe.lazy_bounds (R : Probe) (hb : R.Bounded) (tab : Table) :
    0 ≤ R.lazy tab ∧ R.lazy tab ≤ 1 := by
  induction R generalizing tab with
  | toss n hn next ih =>
    have : Nonempty (Fin n) := ⟨⟨0, hn⟩⟩
    exact ⟨avg_nonneg fun c => (ih c (hb c) tab).1, avg_le_one fun c => (ih c (hb c) tab).2⟩
  | hash m next ih =>
    rw [Probe.lazy]
    unfold oracle
    rcases tab.lookup m with _ | D
    · exact ⟨avg_nonneg fun D => (ih _ (hb _) _).1, avg_le_one fun D => (ih _ (hb _) _).2⟩
    · exact ih _ (hb _) _
  | stop v => exact hb

/-! ## The two games of HMAC -/

theorem keyPad_length {K : Bytes} (hK : K.length ≤ 128) (c : UInt8) : (keyPad c K).length = 128 := by
  unfold keyPad
  simp
  omega

theorem hmac_pads (sha : Bytes → Bytes) {K : Bytes} (hK : K.length ≤ 128) (m : Bytes) :
    hmac sha K m = sha (keyPad 0x5c K ++ sha (keyPad 0x36 K ++ m)) := by
  unfold hmac hmacKey keyPad
  rw [if_neg (by omega)]

theorem keyPad_inj {c : UInt8} {K K' : Bytes} (h : K.length = K'.length) (he : keyPad c K = keyPad c K') :
    K = K' := by
  unfold keyPad at he
  rw [h] at he
  have := List.map_injective_iff.2 (fun a b (hab : a ^^^ c = b ^^^ c) => (UInt8.xor_left_inj c).1 hab) he
  exact List.append_cancel_right this

theorem keyPad_ne {K : Bytes} (hK : K ≠ []) : keyPad 0x36 K ≠ keyPad 0x5c K := by
  rcases K with _ | ⟨a, K⟩
  · exact absurd rfl hK
  · intro h
    unfold keyPad at h
    simp only [List.cons_append, List.map_cons, List.cons.injEq] at h
    have h1 := congrArg (fun b => a ^^^ b) h.1
    simp only [← UInt8.xor_assoc, UInt8.xor_self, UInt8.zero_xor] at h1
    exact absurd h1 (by decide)

def Spec.Prober.keyedProbe (K : Bytes) : Prober → Probe
  | .toss k hk n => .toss k hk fun c => (n c).keyedProbe K
  | .hash m n => .hash m fun b => (n b).keyedProbe K
  | .ask m n => .hash (keyPad 0x36 K ++ m) fun e => .hash (keyPad 0x5c K ++ e) fun b =>
      (n b).keyedProbe K
  | .stop v => .stop v

def Spec.Prober.randomProbe : Prober → Table → Probe
  | .toss k hk n, tab => .toss k hk fun c => (n c).randomProbe tab
  | .hash m n, tab => .hash m fun b => (n b).randomProbe tab
  | .ask m n, tab =>
    match tab.lookup m with
    | some D => (n D.bytes).randomProbe tab
    | none => .toss (256 ^ 64) digests_pos fun D =>
        (n (Digest.bytes D)).randomProbe (tab ++ [(m, D)])
  | .stop v, _ => .stop v

theorem keyedProbe_eval (sha : Bytes → Bytes) {K : Bytes} (hK : K.length ≤ 128) (Q : Prober) :
    (Q.keyedProbe K).eval sha = (Q.using sha).keyed sha K := by
  induction Q with
  | toss n hn next ih => exact avg_congr fun c => ih c
  | hash m next ih => exact ih _
  | ask m next ih =>
    simp only [Prober.keyedProbe, Probe.eval, Prober.using, PrfPlayer.keyed, hmac_pads sha hK]
    exact ih _
  | stop v => rfl

theorem randomProbe_eval (sha : Bytes → Bytes) (Q : Prober) (tab : Table) :
    (Q.randomProbe tab).eval sha = (Q.using sha).random tab := by
  induction Q generalizing tab with
  | toss n hn next ih => exact avg_congr fun c => ih c tab
  | hash m next ih => exact ih _ tab
  | ask m next ih =>
    simp only [Prober.randomProbe, Prober.using, PrfPlayer.random]
    unfold oracle
    rcases tab.lookup m with _ | D
    · exact avg_congr fun D => ih _ _
    · exact ih _ _
  | stop v => rfl

theorem keyedProbe_short {B : Nat} (hB : 192 ≤ B) {K : Bytes} (hK : K.length ≤ 128) (Q : Prober)
    {q k : Nat} (hQ : Q.Within B q k) : (Q.keyedProbe K).Short B := by
  induction Q generalizing q k with
  | toss n hn next ih => exact fun c => ih c (hQ c)
  | hash m next ih => exact ⟨hQ.1, fun b hb => ih b (hQ.2.2 b hb)⟩
  | ask m next ih =>
    refine ⟨?_, fun e he => ⟨?_, fun b hb => ih b (hQ.2.2 b hb)⟩⟩
    · rw [List.length_append, keyPad_length hK]; exact hQ.1
    · rw [List.length_append, keyPad_length hK, he]; omega
  | stop v => trivial

theorem randomProbe_short {B : Nat} (Q : Prober) {q k : Nat} (hQ : Q.Within B q k) (tab : Table) :
    (Q.randomProbe tab).Short B := by
  induction Q generalizing q k tab with
  | toss n hn next ih => exact fun c => ih c (hQ c) tab
  | hash m next ih => exact ⟨hQ.1, fun b hb => ih b (hQ.2.2 b hb) tab⟩
  | ask m next ih =>
    rw [Prober.randomProbe]
    rcases tab.lookup m with _ | D
    · exact fun D => ih _ (hQ.2.2 _ (digest_length D)) _
    · exact ih _ (hQ.2.2 _ (digest_length D)) _
  | stop v => trivial

theorem keyedProbe_bounded {K : Bytes} (Q : Prober) (hQ : Q.Bounded) : (Q.keyedProbe K).Bounded := by
  induction Q with
  | toss n hn next ih => exact fun c => ih c (hQ c)
  | hash m next ih => exact fun b => ih b (hQ b)
  | ask m next ih => exact fun e b => ih b (hQ b)
  | stop v => exact hQ

theorem randomProbe_bounded (Q : Prober) (hQ : Q.Bounded) (tab : Table) :
    (Q.randomProbe tab).Bounded := by
  induction Q generalizing tab with
  | toss n hn next ih => exact fun c => ih c (hQ c) tab
  | hash m next ih => exact fun b => ih b (hQ b) tab
  | ask m next ih =>
    rw [Prober.randomProbe]
    rcases tab.lookup m with _ | D
    · exact fun D => ih _ (hQ _) _
    · exact ih _ (hQ _) _
  | stop v => exact hQ

/-! ## Alarms -/

/-- the string begins with the key -/
def Begins (K : Bytes) (m : Bytes) : Prop := m.take 128 = keyPad 0x36 K ∨ m.take 128 = keyPad 0x5c K

instance (K m : Bytes) : Decidable (Begins K m) := inferInstanceAs (Decidable (_ ∨ _))

/-- The game with a random function, and an alarm (the output is 1) when a string that begins with the
key is hashed or two inner values agree; `inner` has the inner values. -/
noncomputable def Spec.Prober.alarm (K : Bytes) : Prober → Table → Table → Table → ℚ
  | .toss _ _ n, tab, inner, vals => avg fun c => (n c).alarm K tab inner vals
  | .hash m n, tab, inner, vals =>
    if Begins K m then 1 else oracle tab m fun D tab' => (n D.bytes).alarm K tab' inner vals
  | .ask m n, tab, inner, vals =>
    match vals.lookup m with
    | some D => (n D.bytes).alarm K tab inner vals
    | none => avg fun e : Digest => if e ∈ inner.map Prod.snd then 1 else
        avg fun D : Digest => (n D.bytes).alarm K tab (inner ++ [(m, e)]) (vals ++ [(m, D)])
  | .stop v, _, _, _ => v

/-- how the tables of the two games belong together -/
structure Agree (K : Bytes) (all tab inner vals : Table) : Prop where
  other : ∀ m, ¬ Begins K m → all.lookup m = tab.lookup m
  first : ∀ m, all.lookup (keyPad 0x36 K ++ m) = inner.lookup m
  second : ∀ m e, inner.lookup m = some e → all.lookup (keyPad 0x5c K ++ e.bytes) = vals.lookup m
  fresh : ∀ e : Digest, e ∉ inner.map Prod.snd → all.lookup (keyPad 0x5c K ++ e.bytes) = none
  known : ∀ m, inner.lookup m = none ↔ vals.lookup m = none

theorem lookup_snd {l : Table} {m : Bytes} {e : Digest} (h : l.lookup m = some e) :
    e ∈ l.map Prod.snd := by
  induction l with
  | nil => cases h
  | cons p l ih =>
    rw [List.lookup_cons] at h
    rcases hb : m == p.1 with _ | _
    · rw [hb] at h
      exact List.mem_cons_of_mem _ (ih h)
    · rw [hb] at h
      cases h
      exact List.mem_cons_self

theorem Agree.start (K : Bytes) : Agree K [] [] [] [] :=
  { other := fun _ _ => rfl
    first := fun _ => rfl
    second := fun _ _ h => by simp at h
    fresh := fun _ _ => rfl
    known := fun _ => Iff.rfl }

theorem begins_first {K : Bytes} (hK : K.length = 64) (m : Bytes) : Begins K (keyPad 0x36 K ++ m) :=
  Or.inl (List.take_left' (keyPad_length (by omega) _))

theorem begins_second {K : Bytes} (hK : K.length = 64) (m : Bytes) : Begins K (keyPad 0x5c K ++ m) :=
  Or.inr (List.take_left' (keyPad_length (by omega) _))

theorem pads_apart {K : Bytes} (hK : K.length = 64) (m m' : Bytes) :
    keyPad 0x36 K ++ m ≠ keyPad 0x5c K ++ m' := by
  intro h
  refine keyPad_ne (K := K) (by rintro rfl; simp at hK) ?_
  exact (List.append_inj h (by rw [keyPad_length (by omega), keyPad_length (by omega)])).1

theorem lookup_snoc_ne {l : Table} {m m' : Bytes} {e : Digest} (h : m ≠ m') :
    (l ++ [(m', e)]).lookup m = l.lookup m := by
  rw [List.lookup_append, List.lookup_cons, beq_eq_false_iff_ne.2 h]
  simp

theorem lookup_snoc_self {l : Table} {m : Bytes} {e : Digest} (h : l.lookup m = none) :
    (l ++ [(m, e)]).lookup m = some e := by
  rw [List.lookup_append, h]
  simp

theorem Agree.hash {K : Bytes} (hK : K.length = 64) {all tab inner vals : Table}
    (h : Agree K all tab inner vals) {m : Bytes} (hm : ¬ Begins K m) (D : Digest) :
    Agree K (all ++ [(m, D)]) (tab ++ [(m, D)]) inner vals := by
  have h1 : ∀ m', keyPad 0x36 K ++ m' ≠ m := fun m' he => hm (he ▸ begins_first hK m')
  have h2 : ∀ m', keyPad 0x5c K ++ m' ≠ m := fun m' he => hm (he ▸ begins_second hK m')
  refine ⟨fun m' hm' => ?_, fun m' => ?_, fun m' e he => ?_, fun e he => ?_, h.known⟩
  · rw [List.lookup_append, List.lookup_append, h.other m' hm']
  · rw [lookup_snoc_ne (h1 m')]; exact h.first m'
  · rw [lookup_snoc_ne (h2 _)]; exact h.second m' e he
  · rw [lookup_snoc_ne (h2 _)]; exact h.fresh e he

theorem Agree.ask {K : Bytes} (hK : K.length = 64) {all tab inner vals : Table}
    (h : Agree K all tab inner vals) {m : Bytes} (hm : vals.lookup m = none) {e : Digest}
    (he : e ∉ inner.map Prod.snd) (D : Digest) :
    Agree K (all ++ [(keyPad 0x36 K ++ m, e)] ++ [(keyPad 0x5c K ++ e.bytes, D)]) tab
      (inner ++ [(m, e)]) (vals ++ [(m, D)]) := by
  have hi := (h.known m).2 hm
  refine ⟨fun m' hm' => ?_, fun m' => ?_, fun m' e' he' => ?_, fun e' he' => ?_, fun m' => ?_⟩
  · have h1 : m' ≠ keyPad 0x36 K ++ m := fun hc => hm' (hc ▸ begins_first hK _)
    have h2 : m' ≠ keyPad 0x5c K ++ e.bytes := fun hc => hm' (hc ▸ begins_second hK _)
    rw [lookup_snoc_ne h2, lookup_snoc_ne h1]
    exact h.other m' hm'
  · rw [lookup_snoc_ne (pads_apart hK _ _)]
    by_cases hc : m' = m
    · subst hc
      rw [lookup_snoc_self hi, lookup_snoc_self ((h.first m').trans hi)]
    · rw [lookup_snoc_ne hc, lookup_snoc_ne fun hs => hc (List.append_cancel_left hs)]
      exact h.first m'
  · by_cases hc : m' = m
    · subst hc
      rw [lookup_snoc_self hi] at he'
      cases he'
      rw [lookup_snoc_self hm, lookup_snoc_self]
      rw [lookup_snoc_ne (pads_apart hK _ _).symm]
      exact h.fresh e he
    · rw [lookup_snoc_ne hc] at he'
      have hne : e' ≠ e := fun hs => he (hs ▸ lookup_snd he')
      rw [lookup_snoc_ne hc, lookup_snoc_ne fun hs => hne (digest_inj (List.append_cancel_left hs)),
        lookup_snoc_ne (pads_apart hK _ _).symm]
      exact h.second m' e' he'
  · rw [List.map_append, List.mem_append, not_or] at he'
    have hne : e' ≠ e := fun hs => he'.2 (by simp [hs])
    rw [lookup_snoc_ne fun hs => hne (digest_inj (List.append_cancel_left hs)),
      lookup_snoc_ne (pads_apart hK _ _).symm]
    exact h.fresh e' he'.1
  · by_cases hc : m' = m
    · subst hc
      rw [lookup_snoc_self hi, lookup_snoc_self hm]
      simp
    · rw [lookup_snoc_ne hc, lookup_snoc_ne hc]
      exact h.known m'

theorem alarm_nonneg {K : Bytes} (Q : Prober) (hb : Q.Bounded) (tab inner vals : Table) :
    0 ≤ Q.alarm K tab inner vals := by
  induction Q generalizing tab inner vals with
  | toss n hn next ih => exact avg_nonneg fun c => ih c (hb c) _ _ _
  | hash m next ih =>
    rw [Prober.alarm]
    split_ifs
    · exact zero_le_one
    · unfold oracle
      rcases tab.lookup m with _ | D
      · exact avg_nonneg fun D => ih _ (hb _) _ _ _
      · exact ih _ (hb _) _ _ _
  | ask m next ih =>
    rw [Prober.alarm]
    rcases vals.lookup m with _ | D
    · refine avg_nonneg fun e => ?_
      split_ifs
      · exact zero_le_one
      · exact avg_nonneg fun D => ih _ (hb _) _ _ _
    · exact ih _ (hb _) _ _ _
  | stop v => exact hb.1

theorem keyed_le_alarm {K : Bytes} (hK : K.length = 64) (Q : Prober) (hb : Q.Bounded)
    {all tab inner vals : Table} (h : Agree K all tab inner vals) :
    (Q.keyedProbe K).lazy all ≤ Q.alarm K tab inner vals := by
  induction Q generalizing all tab inner vals with
  | toss n hn next ih => exact avg_mono fun c => ih c (hb c) h
  | hash m next ih =>
    have hle := ((Prober.hash m next).keyedProbe K).lazy_bounds (keyedProbe_bounded _ hb) all
    rw [Prober.alarm]
    split_ifs with hm
    · exact hle.2
    · rw [Prober.keyedProbe, Probe.lazy]
      unfold oracle
      rw [h.other m hm]
      rcases tab.lookup m with _ | D
      · exact avg_mono fun D => ih _ (hb _) (h.hash hK hm D)
      · exact ih _ (hb _) h
  | ask m next ih =>
    rw [Prober.alarm, Prober.keyedProbe, Probe.lazy]
    rcases hv : vals.lookup m with _ | D
    · have hi := (h.known m).2 hv
      simp only []
      rw [oracle, h.first m, hi]
      simp only []
      refine avg_mono fun e => ?_
      split_ifs with he
      · exact ((Probe.hash (keyPad 0x5c K ++ e.bytes) fun b => (next b).keyedProbe K).lazy_bounds
          (fun b => keyedProbe_bounded _ (hb b)) _).2
      · rw [Probe.lazy, oracle, lookup_snoc_ne (pads_apart hK _ _).symm, h.fresh e he]
        simp only []
        exact avg_mono fun D => ih _ (hb _) (h.ask hK hv he D)
    · rcases hi : inner.lookup m with _ | e
      · rw [(h.known m).1 hi] at hv; cases hv
      · simp only []
        rw [oracle, h.first m, hi]
        simp only []
        rw [Probe.lazy, oracle, h.second m e hi, hv]
        exact ih _ (hb _) h
  | stop v => exact le_rfl

/-! ## The chance of an alarm -/

theorem avg_at_most_one {α : Type} [Fintype α] {p : α → Prop} [DecidablePred p]
    (h : ∀ a b, p a → p b → a = b) : (avg fun a => if p a then (1 : ℚ) else 0) ≤ 1 / Fintype.card α := by
  unfold avg
  refine div_le_div_of_nonneg_right ?_ (Nat.cast_nonneg _)
  rw [Finset.sum_boole]
  have : (Finset.univ.filter p).card ≤ 1 := Finset.card_le_one.2 fun a ha b hb =>
    h a b (Finset.mem_filter.1 ha).2 (Finset.mem_filter.1 hb).2
  exact_mod_cast this

theorem avg_sub {α : Type} [Fintype α] (f f' : α → ℚ) :
    avg (fun a => f a - f' a) = avg f - avg f' := by
  unfold avg
  rw [Finset.sum_sub_distrib, sub_div]

theorem one_div_digests : (1 : ℚ) / (Fintype.card Digest : ℕ) = 1 / 2 ^ 512 := by
  have h : Fintype.card Digest = 256 ^ 64 := Fintype.card_fin _
  rw [h, Nat.cast_pow, show ((256 : ℕ) : ℚ) = 2 ^ 8 by norm_num, ← pow_mul]

theorem begins_chance (m : Bytes) :
    (avg fun K : Digest => if Begins K.bytes m then (1 : ℚ) else 0) ≤ 2 / 2 ^ 512 := by
  have h1 : ∀ c : UInt8, (avg fun K : Digest => if m.take 128 = keyPad c K.bytes then (1 : ℚ) else 0) ≤
      1 / 2 ^ 512 := fun c => by
    refine (avg_at_most_one fun K K' h h' => digest_inj (keyPad_inj (c := c) ?_ (h.symm.trans h'))).trans ?_
    · rw [digest_length, digest_length]
    · exact one_div_digests.le
  have h2 : ∀ K : Digest, (if Begins K.bytes m then (1 : ℚ) else 0) ≤
      (if m.take 128 = keyPad 0x36 K.bytes then 1 else 0) +
        (if m.take 128 = keyPad 0x5c K.bytes then 1 else 0) := fun K => by
    by_cases ha : m.take 128 = keyPad 0x36 K.bytes
    · rw [if_pos ha, if_pos (show Begins K.bytes m from Or.inl ha)]
      split_ifs <;> norm_num
    · by_cases hb : m.take 128 = keyPad 0x5c K.bytes
      · rw [if_neg ha, if_pos hb, if_pos (show Begins K.bytes m from Or.inr hb)]
        norm_num
      · rw [if_neg ha, if_neg hb, if_neg (show ¬ Begins K.bytes m from not_or.2 ⟨ha, hb⟩)]
        norm_num
  refine (avg_mono h2).trans ?_
  rw [avg_add]
  have ha := h1 0x36
  have hb := h1 0x5c
  have hc : (2 : ℚ) / 2 ^ 512 = 1 / 2 ^ 512 + 1 / 2 ^ 512 := by ring
  rw [hc]
  exact add_le_add ha hb

theorem member_chance (l : List Digest) :
    (avg fun e : Digest => if e ∈ l then (1 : ℚ) else 0) ≤ l.length * (1 / 2 ^ 512) := by
  induction l with
  | nil => simp [avg]
  | cons a l ih =>
    have h2 : ∀ e : Digest, (if e ∈ a :: l then (1 : ℚ) else 0) ≤
        (if e = a then 1 else 0) + (if e ∈ l then 1 else 0) := fun e => by
      by_cases ha : e = a
      · rw [if_pos ha, if_pos (by simp [ha])]
        split_ifs <;> norm_num
      · by_cases hb : e ∈ l
        · rw [if_neg ha, if_pos hb, if_pos (by simp [hb])]
          norm_num
        · rw [if_neg ha, if_neg hb, if_neg (by simp [ha, hb])]
          norm_num
    refine (avg_mono h2).trans ?_
    rw [avg_add, avg_single, one_div_digests, List.length_cons, Nat.cast_succ, add_mul, one_mul,
      add_comm]
    exact add_le_add ih le_rfl

theorem lookup_lt {q : Nat} (hq : 0 < q) : ((q : ℕ) : ℚ) = ((q - 1 : ℕ) : ℚ) + 1 := by
  obtain ⟨n, rfl⟩ : ∃ n, q = n + 1 := ⟨q - 1, by omega⟩
  simp

/-- what the alarms cost -/
def alarmLoss (δ : ℚ) (q k l : Nat) : ℚ := (2 * q + k * (k + l)) * δ

theorem alarmLoss_nonneg {δ : ℚ} (hδ : 0 ≤ δ) (q k l : Nat) : 0 ≤ alarmLoss δ q k l := by
  unfold alarmLoss
  positivity

theorem alarm_le {B : Nat} (Q : Prober) (hb : Q.Bounded) {q k : Nat} (hw : Q.Within B q k)
    (tab inner vals : Table) :
    (avg fun K : Digest => Q.alarm K.bytes tab inner vals) ≤
      (Q.randomProbe vals).lazy tab + alarmLoss (1 / 2 ^ 512) q k inner.length := by
  have hδ : (0 : ℚ) ≤ 1 / 2 ^ 512 := by positivity
  have hbc := begins_chance
  have hmc := member_chance
  rw [show (2 : ℚ) / 2 ^ 512 = 2 * (1 / 2 ^ 512) by ring] at hbc
  generalize (1 : ℚ) / 2 ^ 512 = δ at *
  induction Q generalizing tab inner vals q k with
  | toss n hn next ih =>
    have : Nonempty (Fin n) := ⟨⟨0, hn⟩⟩
    simp only [Prober.alarm, Prober.randomProbe, Probe.lazy]
    rw [avg_comm]
    refine (avg_mono fun c => ih c (hb c) (hw c) tab inner vals).trans (le_of_eq ?_)
    rw [avg_add, avg_const]
  | hash m next ih =>
    obtain ⟨_, hq0, hw⟩ := hw
    have h1 : ∀ K : Digest, (Prober.hash m next).alarm K.bytes tab inner vals ≤
        (if Begins K.bytes m then 1 else 0) +
          oracle tab m fun D tab' => (next D.bytes).alarm K.bytes tab' inner vals := fun K => by
      rw [Prober.alarm]
      split_ifs
      · have : 0 ≤ oracle tab m fun D tab' => (next D.bytes).alarm K.bytes tab' inner vals := by
          unfold oracle
          rcases tab.lookup m with _ | D
          · exact avg_nonneg fun D => alarm_nonneg _ (hb _) _ _ _
          · exact alarm_nonneg _ (hb _) _ _ _
        linarith
      · rw [zero_add]
    refine (avg_mono h1).trans ?_
    rw [avg_add]
    have h2 : (avg fun K : Digest => oracle tab m fun D tab' =>
        (next D.bytes).alarm K.bytes tab' inner vals) ≤
        ((Prober.hash m next).randomProbe vals).lazy tab + alarmLoss δ (q - 1) k inner.length := by
      rw [Prober.randomProbe, Probe.lazy]
      unfold oracle
      rcases tab.lookup m with _ | D
      · simp only []
        rw [avg_comm]
        refine (avg_mono fun D => ih _ (hb _) (hw _ (digest_length _)) _ inner vals).trans (le_of_eq ?_)
        rw [avg_add, avg_const]
      · exact ih _ (hb _) (hw _ (digest_length _)) _ inner vals
    have h3 := hbc m
    have h4 : alarmLoss δ q k inner.length = 2 * δ + alarmLoss δ (q - 1) k inner.length := by
      unfold alarmLoss
      rw [lookup_lt hq0]
      ring
    linarith
  | ask m next ih =>
    obtain ⟨_, hk0, hw⟩ := hw
    simp only [Prober.alarm, Prober.randomProbe]
    have hmono : alarmLoss δ q (k - 1) inner.length ≤ alarmLoss δ q k inner.length := by
      unfold alarmLoss
      refine mul_le_mul_of_nonneg_right ?_ hδ
      rw [lookup_lt hk0]
      have : (0 : ℚ) ≤ ((k - 1 : ℕ) : ℚ) := Nat.cast_nonneg _
      have : (0 : ℚ) ≤ (inner.length : ℚ) := Nat.cast_nonneg _
      nlinarith
    rcases hv : vals.lookup m with _ | D
    · simp only [Probe.lazy]
      rw [avg_comm]
      have h1 : ∀ e : Digest, (avg fun K : Digest => if e ∈ inner.map Prod.snd then (1 : ℚ) else
          avg fun D : Digest => (next D.bytes).alarm K.bytes tab (inner ++ [(m, e)])
            (vals ++ [(m, D)])) ≤
          (if e ∈ inner.map Prod.snd then 1 else 0) +
            ((avg fun D : Digest => ((next D.bytes).randomProbe (vals ++ [(m, D)])).lazy tab) +
              alarmLoss δ q (k - 1) (inner.length + 1)) := fun e => by
        split_ifs
        · rw [avg_const]
          have h2 : 0 ≤ avg fun D : Digest =>
              ((next D.bytes).randomProbe (vals ++ [(m, D)])).lazy tab :=
            avg_nonneg fun D => (Probe.lazy_bounds _ (randomProbe_bounded _ (hb _) _) _).1
          have h3 := alarmLoss_nonneg hδ q (k - 1) (inner.length + 1)
          linarith
        · rw [avg_comm, zero_add]
          refine (avg_mono fun D => ih _ (hb _) (hw _ (digest_length _)) tab (inner ++ [(m, e)])
            (vals ++ [(m, D)])).trans (le_of_eq ?_)
          rw [avg_add, avg_const, List.length_append]
          rfl
      refine (avg_mono h1).trans ?_
      rw [avg_add, avg_const]
      have h2 := hmc (inner.map Prod.snd)
      rw [List.length_map] at h2
      have h3 : inner.length * δ + alarmLoss δ q (k - 1) (inner.length + 1) ≤
          alarmLoss δ q k inner.length := by
        unfold alarmLoss
        rw [← add_mul]
        refine mul_le_mul_of_nonneg_right ?_ hδ
        rw [lookup_lt hk0]
        have : (0 : ℚ) ≤ ((k - 1 : ℕ) : ℚ) := Nat.cast_nonneg _
        push_cast
        nlinarith
      linarith
    · simp only []
      refine (ih _ (hb _) (hw _ (digest_length _)) tab inner vals).trans ?_
      linarith
  | stop v =>
    simp only [Prober.alarm, Prober.randomProbe, Probe.lazy]
    rw [avg_const]
    have := alarmLoss_nonneg hδ q k inner.length
    linarith

/-- with a random hash function nobody tells HMAC from a random function -/
theorem hmac_random {B : Nat} (hB : 192 ≤ B) (Q : Prober) (hb : Q.Bounded) {q k : Nat}
    (hw : Q.Within B q k) :
    (avg fun ω : HashFun B => prfGain ω.sha (Q.using ω.sha)) ≤ (2 * q + k ^ 2) / 2 ^ 512 := by
  have hl : ∀ D : Digest, D.bytes.length ≤ 128 := fun D => by rw [digest_length]; norm_num
  have h1 : ∀ ω : HashFun B, prfGain ω.sha (Q.using ω.sha) =
      (avg fun K : Digest => (Q.keyedProbe K.bytes).eval ω.sha) -
        (Q.randomProbe []).eval ω.sha := fun ω => by
    rw [randomProbe_eval, avg_congr fun K => keyedProbe_eval _ (hl K) Q]
    rfl
  rw [avg_congr h1, avg_sub, avg_comm, avg_eval _ (randomProbe_short Q hw [])]
  have h2 : (avg fun K : Digest => avg fun ω : HashFun B => (Q.keyedProbe K.bytes).eval ω.sha) ≤
      avg fun K : Digest => Q.alarm K.bytes [] [] [] := by
    refine avg_mono fun K => ?_
    rw [avg_eval _ (keyedProbe_short hB (hl K) Q hw)]
    exact keyed_le_alarm (digest_length K) Q hb (Agree.start _)
  have h3 := alarm_le Q hb hw [] [] []
  have h4 : alarmLoss (1 / 2 ^ 512) q k ([] : Table).length = (2 * q + k ^ 2) / 2 ^ 512 := by
    unfold alarmLoss
    simp only [List.length_nil, Nat.cast_zero, add_zero]
    ring
  rw [h4] at h3
  linarith

end Pixel
