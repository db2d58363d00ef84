import Verif.Spec.Vectors
import Verif.Props.Ffi
import Verif.Props.Schedule
import Mathlib.Data.Nat.Digits.Lemmas

/-! # Lemmas about the test-vector programs -/

namespace Pixel.Vectors

open Pixel Spec Props

set_option linter.unusedSectionVars false

/-! ### numbers in file names -/

/-- the number a string of digits stands for -/
def digitsVal (l : Bytes) : Nat := l.foldl (fun a b => 10 * a + (b.toNat - 48)) 0

theorem digit_toNat {k : Nat} (h : k < 10) : (UInt8.ofNat (48 + k)).toNat = 48 + k := by
  rw [UInt8.toNat_ofNat']
  exact Nat.mod_eq_of_lt (by omega)

theorem digitsVal_decimal (n : Nat) : digitsVal (decimal n) = n := by
  unfold decimal
  by_cases h : n = 0
  · rw [if_pos h, h]; rfl
  · rw [if_neg h]
    unfold digitsVal
    rw [List.map_reverse, List.foldl_reverse, List.foldr_map]
    have hd : ∀ k ∈ Nat.digits 10 n, k < 10 := fun k hk => Nat.digits_lt_base (by omega) hk
    have : ∀ l : List Nat, (∀ k ∈ l, k < 10) →
        l.foldr (fun k a => 10 * a + ((UInt8.ofNat (48 + k)).toNat - 48)) 0 = Nat.ofDigits 10 l := by
      intro l
      induction l with
      | nil => intro _; rfl
      | cons k l ih =>
        intro hl
        rw [List.foldr_cons, ih (fun j hj => hl j (List.mem_cons_of_mem _ hj)), Nat.ofDigits_cons,
          digit_toNat (hl k (by simp))]
        omega
    rw [this _ hd, Nat.ofDigits_digits]

theorem digitsVal_padded (w n : Nat) : digitsVal (padded w n) = n := by
  have hz : ∀ m, (List.replicate m (48 : UInt8)).foldl (fun a b => 10 * a + (b.toNat - 48)) 0 = 0 := by
    intro m
    induction m with
    | zero => rfl
    | succ m ih => rw [List.replicate_succ, List.foldl_cons]; exact ih
  unfold padded digitsVal
  rw [List.foldl_append, hz]
  exact digitsVal_decimal n

theorem padded_inj {w n m : Nat} (h : padded w n = padded w m) : n = m := by
  rw [← digitsVal_padded w n, h, digitsVal_padded]

theorem padded_digit {w n : Nat} {b : UInt8} (h : b ∈ padded w n) : b ≤ 57 := by
  unfold padded at h
  rcases List.mem_append.1 h with h | h
  · rw [List.eq_of_mem_replicate h]; decide
  · unfold decimal at h
    by_cases h0 : n = 0
    · rw [if_pos h0] at h
      rw [List.mem_singleton.1 h]; decide
    · rw [if_neg h0] at h
      obtain ⟨k, hk, rfl⟩ := List.mem_map.1 h
      have := Nat.digits_lt_base (b := 10) (by omega) (List.mem_reverse.1 hk)
      rw [UInt8.le_iff_toNat_le, digit_toNat this]
      have : (57 : UInt8).toNat = 57 := rfl
      omega

theorem decimal_ne_nil (n : Nat) : decimal n ≠ [] := by
  unfold decimal
  by_cases h0 : n = 0
  · rw [if_pos h0]; simp
  · rw [if_neg h0]
    simp [Nat.digits_ne_nil_iff_ne_zero.2 h0]

theorem padded_cons (w n : Nat) : ∃ b l, padded w n = b :: l ∧ b ≤ 57 := by
  cases h : padded w n with
  | nil =>
    exfalso
    unfold padded at h
    exact decimal_ne_nil n (List.append_eq_nil_iff.1 h).2
  | cons b l => exact ⟨b, l, rfl, padded_digit (by rw [h]; simp)⟩

theorem length_padded {n : Nat} (h : n < 100) : (padded 2 n).length = 2 := by
  have : ∀ n < 100, (padded 2 n).length = 2 := by decide +kernel
  exact this n h

/-- splitting at the last underscore -/
theorem after_underscore {a a' b b' t : Bytes} (h : a ++ [95] ++ b ++ t = a' ++ [95] ++ b' ++ t)
    (hb : ∀ c ∈ b, c ≠ 95) (hb' : ∀ c ∈ b', c ≠ 95) : b = b' := by
  have h1 := List.append_cancel_right h
  have key : ∀ a b : Bytes, (∀ c ∈ b, c ≠ 95) →
      ((a ++ [95] ++ b).reverse.takeWhile (fun c => decide (c ≠ 95))) = b.reverse := by
    intro a b hb
    rw [List.append_assoc, List.reverse_append, List.reverse_append, List.append_assoc,
      List.takeWhile_append_of_pos (by
        intro c hc
        exact decide_eq_true (hb c (List.mem_reverse.1 hc)))]
    simp
  have h2 := key a b hb
  rw [h1, key a' b' hb'] at h2
  exact (List.reverse_injective h2).symm

theorem padded_ne_underscore {w n : Nat} : ∀ c ∈ padded w n, c ≠ 95 := by
  intro c hc h
  have := padded_digit hc
  rw [h] at this
  exact absurd this (by decide)

/-! ### file names -/

theorem sk_str : ascii "sk_bin_" = [115, 107, 95, 98, 105, 110, 95] := rfl
theorem sig_str : ascii "sig_bin_" = [115, 105, 103, 95, 98, 105, 110, 95] := rfl
theorem skff_str : ascii "sk_bin_ff_" = [115, 107, 95, 98, 105, 110, 95, 102, 102, 95] := rfl
theorem sigff_str : ascii "sig_bin_ff_" = [115, 105, 103, 95, 98, 105, 110, 95, 102, 102, 95] := rfl
theorem pk_str : ascii "pk_bin.txt" = [112, 107, 95, 98, 105, 110, 46, 116, 120, 116] := rfl
theorem pop_str : ascii "pop_bin.txt" = [112, 111, 112, 95, 98, 105, 110, 46, 116, 120, 116] := rfl

theorem skFile_inj {dir : Bytes} {i j : Nat} (h : skFile dir i = skFile dir j) : i = j :=
  padded_inj (List.append_cancel_left (List.append_cancel_right (List.append_cancel_left h)))

theorem sigFile_inj {dir : Bytes} {i j : Nat} (h : sigFile dir i = sigFile dir j) : i = j :=
  padded_inj (List.append_cancel_left (List.append_cancel_right (List.append_cancel_left h)))

theorem skFileFF_inj {dir : Bytes} {c c' i j : Nat} (h : skFileFF dir c i = skFileFF dir c' j) :
    i = j :=
  padded_inj (after_underscore (List.append_cancel_left h) padded_ne_underscore
    padded_ne_underscore)

theorem sigFileFF_inj {dir : Bytes} {c c' i j : Nat} (h : sigFileFF dir c i = sigFileFF dir c' j) :
    i = j :=
  padded_inj (after_underscore (List.append_cancel_left h) padded_ne_underscore
    padded_ne_underscore)

theorem not57 : ¬ ((102 : UInt8) ≤ 57) := by decide

theorem sk_ne_sig (dir : Bytes) (i j : Nat) : skFile dir i ≠ sigFile dir j := by
  intro h
  have := List.append_cancel_left h
  simp [sk_str, sig_str] at this

theorem skFF_ne_sigFF (dir : Bytes) (c i c' j : Nat) : skFileFF dir c i ≠ sigFileFF dir c' j := by
  intro h
  have := List.append_cancel_left h
  simp [skff_str, sigff_str] at this

theorem sk_ne_skFF (dir : Bytes) (i c j : Nat) : skFile dir i ≠ skFileFF dir c j := by
  intro h
  have := List.append_cancel_left h
  obtain ⟨b, l, hb, hle⟩ := padded_cons 2 i
  simp [sk_str, skff_str, hb] at this
  rw [this.1] at hle
  exact not57 hle

theorem sig_ne_sigFF (dir : Bytes) (i c j : Nat) : sigFile dir i ≠ sigFileFF dir c j := by
  intro h
  have := List.append_cancel_left h
  obtain ⟨b, l, hb, hle⟩ := padded_cons 2 i
  simp [sig_str, sigff_str, hb] at this
  rw [this.1] at hle
  exact not57 hle

theorem sk_ne_sigFF (dir : Bytes) (i c j : Nat) : skFile dir i ≠ sigFileFF dir c j := by
  intro h
  have := List.append_cancel_left h
  simp [sk_str, sigff_str] at this

theorem sig_ne_skFF (dir : Bytes) (i c j : Nat) : sigFile dir i ≠ skFileFF dir c j := by
  intro h
  have := List.append_cancel_left h
  simp [sig_str, skff_str] at this

theorem pk_ne_pop (dir : Bytes) : pkFile dir ≠ popFile dir := by
  intro h
  have := List.append_cancel_left h
  simp [pk_str, pop_str] at this

/-- the file name starts with "p" -/
def StartsP (dir f : Bytes) : Prop := ∃ l, f = dir ++ (112 :: l)

theorem startsP_pk (dir : Bytes) : StartsP dir (pkFile dir) := ⟨_, rfl⟩
theorem startsP_pop (dir : Bytes) : StartsP dir (popFile dir) := ⟨_, rfl⟩

theorem StartsP.ne {dir f : Bytes} (h : StartsP dir f) (c i : Nat) :
    skFile dir i ≠ f ∧ sigFile dir i ≠ f ∧ skFileFF dir c i ≠ f ∧ sigFileFF dir c i ≠ f := by
  obtain ⟨l, rfl⟩ := h
  refine ⟨?_, ?_, ?_, ?_⟩ <;> intro h <;> have := List.append_cancel_left h <;>
    simp [sk_str, sig_str, skff_str, sigff_str] at this

/-! ### plans -/

/-- what distinguishes the files of one loop -/
structure PlanOk (P : Plan) : Prop where
  sk_inj : ∀ {dir c i c' j}, P.skName dir c i = P.skName dir c' j → i = j
  sig_inj : ∀ {dir c i c' j}, P.sigName dir c i = P.sigName dir c' j → i = j
  sk_ne_sig : ∀ dir c i c' j, P.skName dir c i ≠ P.sigName dir c' j
  sk_dir : ∀ dir c i, dir <+: P.skName dir c i
  sig_dir : ∀ dir c i, dir <+: P.sigName dir c i

theorem sequential_ok : PlanOk sequential where
  sk_inj h := skFile_inj h
  sig_inj h := sigFile_inj h
  sk_ne_sig dir _ i _ j := Vectors.sk_ne_sig dir i j
  sk_dir _ _ _ := List.prefix_append _ _
  sig_dir _ _ _ := List.prefix_append _ _

theorem fastForward_ok : PlanOk fastForward where
  sk_inj h := skFileFF_inj h
  sig_inj h := sigFileFF_inj h
  sk_ne_sig dir c i c' j := skFF_ne_sigFF dir c i c' j
  sk_dir _ _ _ := List.prefix_append _ _
  sig_dir _ _ _ := List.prefix_append _ _

/-- the pairs of current and target time a loop goes through -/
def trail (P : Plan) : Nat → List Nat → List (Nat × Nat)
  | _, [] => []
  | t, i :: is => (t, P.target t i) :: trail P (P.target t i) is

/-- all targets are in the future, up to the last time stamp -/
def Targets (P : Plan) : Nat → List Nat → Prop
  | _, [] => True
  | t, i :: is => t < P.target t i ∧ P.target t i ≤ 2 ^ 32 - 1 ∧ Targets P (P.target t i) is

theorem Targets.lt {P : Plan} {t : Nat} {is : List Nat} (h : Targets P t is) :
    ∀ q ∈ trail P t is, t < q.2 := by
  induction is generalizing t with
  | nil => intro q hq; cases hq
  | cons i is ih =>
    intro q hq
    rcases List.mem_cons.1 hq with rfl | hq
    · exact h.1
    · exact h.1.trans (ih h.2.2 q hq)

theorem trail_sequential (t : Nat) (is : List Nat) :
    (trail sequential t is).map Prod.snd = is := by
  induction is generalizing t with
  | nil => rfl
  | cons i is ih => rw [trail, List.map_cons, ih]; rfl

theorem tri_succ (i : Nat) : tri (i + 1) = tri i + (i + 1) := by
  unfold tri
  have : (i + 1) * (i + 1 + 1) = i * (i + 1) + 2 * (i + 1) := by ring
  rw [this, Nat.add_mul_div_left _ _ (by omega)]

theorem tri_le {i j : Nat} (h : i ≤ j) : tri i ≤ tri j :=
  Nat.div_le_div_right (Nat.mul_le_mul h (by omega))

theorem trail_fastForward (a m : Nat) :
    trail fastForward (tri a) (List.range' (a + 1) m) =
      (List.range' (a + 1) m).map (fun i => (tri (i - 1), tri i)) := by
  induction m generalizing a with
  | zero => rfl
  | succ m ih =>
    rw [List.range'_succ, trail, List.map_cons]
    have : fastForward.target (tri a) (a + 1) = tri (a + 1) := (tri_succ a).symm
    rw [this, ih, Nat.add_sub_cancel]

theorem targets_sequential {t a m : Nat} (h : t < a) (hm : a + m ≤ 2 ^ 32) :
    Targets sequential t (List.range' a m) := by
  induction m generalizing t a with
  | zero => exact trivial
  | succ m ih => exact ⟨h, by change a ≤ _; omega, ih (t := a) (by omega) (by omega)⟩

theorem targets_fastForward {a m : Nat} (h : tri (a + m) ≤ 2 ^ 32 - 1) :
    Targets fastForward (tri a) (List.range' (a + 1) m) := by
  induction m generalizing a with
  | zero => exact trivial
  | succ m ih =>
    have : fastForward.target (tri a) (a + 1) = tri (a + 1) := (tri_succ a).symm
    rw [List.range'_succ, Targets, this]
    refine ⟨by rw [tri_succ]; omega, (tri_le (by omega)).trans h, ih (a := a + 1) ?_⟩
    rw [show a + 1 + m = a + (m + 1) from by omega]; exact h

/-! ### disks -/

theorem read_cons_eq (d : Disk) (f b : Bytes) : Disk.read ((f, b) :: d) f = some b := by
  rw [Disk.read, if_pos rfl]

theorem read_cons_ne (d : Disk) {g f : Bytes} (b : Bytes) (h : g ≠ f) :
    Disk.read ((g, b) :: d) f = d.read f := by
  rw [Disk.read, if_neg h]

theorem createWith_ok (f : Bytes) (b : Bytes) (d : Disk) :
    createWith f (.ok b) d = (.ok (), (f, b) :: (f, []) :: d) := rfl

theorem assertM_true (d : Disk) : assertM true d = (.ok (), d) := rfl

variable {G1 G2 GT : Type} [AddCommGroup G1] [AddCommGroup G2] [CommGroup GT]

/-! ### runs -/

/-- what one round of a loop produces -/
structure Entry (G1 G2 : Type) where
  cur : Nat
  tar : Nat
  sk : SecretKey G1 G2
  sig : Signature G1 G2

/-- a run of a loop with the crate's own functions -/
inductive Run (E : Ext G1 G2 GT) (pf : Profile) (rngseed msg : Bytes) (P : Plan) :
    SecretKey G1 G2 → List Nat → List (Entry G1 G2) → Prop
  | nil (sk) : Run E pf rngseed msg P sk [] []
  | cons {sk sk' : SecretKey G1 G2} {i : Nat} {is : List Nat} {sig : Signature G1 G2}
      {es : List (Entry G1 G2)}
      (hu : SecretKey.update E.sha512 pf E.defaultParam (P.target sk.time i) rngseed sk = (.ok (), sk'))
      (hs : Signature.signPresent E.sha512 pf (P.target sk.time i) E.defaultParam msg sk' =
        (.ok sig, sk'))
      (hr : Run E pf rngseed msg P sk' is es) :
      Run E pf rngseed msg P sk (i :: is) (⟨sk.time, P.target sk.time i, sk', sig⟩ :: es)

/-- the disk after the Rust loop -/
def rustDisk (E : Ext G1 G2 GT) (P : Plan) : List (Entry G1 G2) → Disk → Disk
  | [], d => d
  | e :: es, d => rustDisk E P es
      ((P.sigName rustDir e.cur e.tar, sigLayout E true e.sig) ::
        (P.sigName rustDir e.cur e.tar, []) ::
        (P.skName rustDir e.cur e.tar, skLayout E true e.sk) ::
        (P.skName rustDir e.cur e.tar, []) :: d)

/-- an honest entry -/
structure Good [DecidableEq GT] (E : Ext G1 G2 GT) (x : Nat) (msg : Bytes) (e : Entry G1 G2) :
    Prop where
  key : KeyFor E.defaultParam (x • E.defaultParam.h) e.tar e.sk
  sig : SigValid E e.sig
  time : e.sig.time = e.tar
  ver : ∀ pk : PublicKey G2, pk.pk = x • E.defaultParam.g2 → ∀ pf',
    Signature.verifyBytes E pf' e.sig pk E.defaultParam msg = .ok true

theorem sign_honest [DecidableEq GT] {E : Ext G1 G2 GT} (H : HashLaws E) (L : GroupLaws E)
    (D : DefaultLaws E) (pf : Profile) {x t : Nat} {sk : SecretKey G1 G2}
    (h : KeyFor E.defaultParam (x • E.defaultParam.h) t sk) (msg : Bytes) :
    ∃ sig : Signature G1 G2, Signature.signPresent E.sha512 pf t E.defaultParam msg sk = (.ok sig, sk) ∧
      SigValid E sig ∧ sig.time = t ∧
      ∀ pk : PublicKey G2, pk.pk = x • E.defaultParam.g2 → ∀ pf',
        Signature.verifyBytes E pf' sig pk E.defaultParam msg = .ok true := by
  obtain ⟨sig, v, a, h1, h2, h3⟩ :=
    Signature.signBytes_keyFor H.sha_len pf D.wf.toParamShape D.suite h msg
  have hver : ∀ pk : PublicKey G2, pk.pk = x • E.defaultParam.g2 → ∀ pf',
        Signature.verifyBytes E pf' sig pk E.defaultParam msg = .ok true :=
    fun pk hpk pf' => SigFor.verifies H L D.wf pf' D.suite h2 hpk
  exact ⟨sig, by rw [Signature.signPresent_eq h.time, h1], C36_accepted_signature H D.wf.toParamShape
    (by rw [D.depth]) .debug (hver ⟨0, x • E.defaultParam.g2⟩ rfl .debug), h3, hver⟩

/-- all entries of a run that starts from an honest key are honest, and the times are as planned -/
theorem Run.good [DecidableEq GT] {E : Ext G1 G2 GT} (H : HashLaws E) (L : GroupLaws E)
    (D : DefaultLaws E) {pf : Profile} {rngseed msg : Bytes} {P : Plan} {sk : SecretKey G1 G2}
    {is : List Nat} {es : List (Entry G1 G2)} (h : Run E pf rngseed msg P sk is es) {x t : Nat}
    (hk : KeyFor E.defaultParam (x • E.defaultParam.h) t sk) (hT : Targets P t is) :
    (∀ e ∈ es, Good E x msg e) ∧ es.map (fun e => (e.cur, e.tar)) = trail P t is := by
  induction h generalizing t with
  | nil => exact ⟨by simp, rfl⟩
  | @cons sk sk' i is sig es hu hs hr ih =>
    have ht : sk.time = t := hk.time
    rw [ht] at hu hs ⊢
    have hk' : KeyFor E.defaultParam (x • E.defaultParam.h) (P.target t i) sk' := by
      rcases (C15_update_outcome H.sha_len pf D.wf.toParamShape hk (P.target t i) rngseed).2
        ⟨hT.1, by rw [D.depth]; exact hT.2.1⟩ with ⟨a, ha, hka⟩ | ⟨ha, _⟩
      · rw [hu] at ha
        rw [(Prod.mk.inj ha).2]; exact hka
      · rw [hu] at ha
        cases (Prod.mk.inj ha).1
    obtain ⟨ih1, ih2⟩ := ih hk' hT.2.2
    obtain ⟨sig', g1, g2, g3, g4⟩ := sign_honest H L D pf hk' msg
    rw [hs] at g1
    cases Res.ok.inj (Prod.mk.inj g1).1
    refine ⟨?_, by rw [List.map_cons, ih2]; rfl⟩
    intro e he
    rcases List.mem_cons.1 he with rfl | he
    · exact ⟨hk', g2, g3, g4⟩
    · exact ih1 e he

/-- the Rust loop: it runs through, or an update meets a cycle of the PRNG -/
theorem rustLoop_outcome [DecidableEq GT] {E : Ext G1 G2 GT} (H : HashLaws E) (L : GroupLaws E)
    (C : CodecLaws E) (D : DefaultLaws E) (pf : Profile) (rngseed msg : Bytes) (P : Plan)
    {x t : Nat} {pk : PublicKey G2} (hpk : pk.pk = x • E.defaultParam.g2) {sk : SecretKey G1 G2}
    (hk : KeyFor E.defaultParam (x • E.defaultParam.h) t sk) {is : List Nat} (hT : Targets P t is)
    (d : Disk) :
    (∃ es sk', Run E pf rngseed msg P sk is es ∧
      rustLoop E pf pk rngseed msg P is sk d = (.ok sk', rustDisk E P es d) ∧
      prngStream E.sha512 32 sk.prng t ((trail P t is).map (fun q => (q.2, rngseed))) =
        some sk'.prng) ∨
    ∃ d', rustLoop E pf pk rngseed msg P is sk d = (.panic .assertion, d') ∧
      prngStream E.sha512 32 sk.prng t ((trail P t is).map (fun q => (q.2, rngseed))) = none := by
  induction is generalizing t sk d with
  | nil => exact Or.inl ⟨[], sk, .nil sk, rfl, rfl⟩
  | cons i is ih =>
    have ht : sk.time = t := hk.time
    rw [rustLoop]
    simp only [ht]
    have hup := update_step H.sha_len pf D.wf.toParamShape hk hT.1
      (by rw [D.depth]; exact hT.2.1) rngseed
    rw [D.depth] at hup
    rw [trail, List.map_cons, prngStream]
    rcases hup with ⟨e0, ha⟩ | ⟨a, e0, ha, hka⟩
    swap
    · rw [e0]
      obtain ⟨sig, g1, g2, g3, g4⟩ := sign_honest H L D pf hka msg
      have e1 := D.serialize_sk L C hka
      have e2 := (C36_signature C g2 []).1
      simp only [SM.exec_ok ha, SM.exec_ok g1, Ffi.unwrap, SM.lift_ok_bind, g4 pk hpk pf, e1, e2]
      rw [SM.bind_run_ok (assertM_true d), SM.bind_run_ok (createWith_ok _ _ _),
        SM.bind_run_ok (createWith_ok _ _ _)]
      rcases ih hka hT.2.2 ((P.sigName rustDir t (P.target t i), sigLayout E true sig) ::
        (P.sigName rustDir t (P.target t i), []) ::
        (P.skName rustDir t (P.target t i), skLayout E true a) ::
        (P.skName rustDir t (P.target t i), []) :: d) with ⟨es, sk', r1, r2, r3⟩ | r
      · left
        refine ⟨⟨t, P.target t i, a, sig⟩ :: es, sk', ?_, r2, r3⟩
        have := Run.cons (P := P) (i := i) (sk := sk) (by rw [ht]; exact ha) (by rw [ht]; exact g1) r1
        rw [ht] at this
        exact this
      · exact Or.inr r
    · right
      rw [e0]
      refine ⟨d, ?_, rfl⟩
      simp only [SM.exec, ha, Ffi.unwrap, SM.lift_panic_bind]

/-! ### reading what was written -/

theorem rustDisk_frame {E : Ext G1 G2 GT} {P : Plan} {f : Bytes} {es : List (Entry G1 G2)}
    (h : ∀ e ∈ es, P.skName rustDir e.cur e.tar ≠ f ∧ P.sigName rustDir e.cur e.tar ≠ f) (d : Disk) :
    (rustDisk E P es d).read f = d.read f := by
  induction es generalizing d with
  | nil => rfl
  | cons e es ih =>
    obtain ⟨h1, h2⟩ := h e (by simp)
    rw [rustDisk, ih (fun e' he' => h e' (List.mem_cons_of_mem _ he')), read_cons_ne _ _ h2,
      read_cons_ne _ _ h2, read_cons_ne _ _ h1, read_cons_ne _ _ h1]

theorem rustDisk_read {E : Ext G1 G2 GT} {P : Plan} (hP : PlanOk P) {es : List (Entry G1 G2)}
    (hn : (es.map Entry.tar).Nodup) (d : Disk) :
    ∀ e ∈ es, (rustDisk E P es d).read (P.skName rustDir e.cur e.tar) = some (skLayout E true e.sk) ∧
      (rustDisk E P es d).read (P.sigName rustDir e.cur e.tar) = some (sigLayout E true e.sig) := by
  induction es generalizing d with
  | nil => simp
  | cons e0 es ih =>
    rw [List.map_cons, List.nodup_cons] at hn
    intro e he
    rcases List.mem_cons.1 he with rfl | he
    · have hne : ∀ e' ∈ es, e'.tar ≠ e.tar := fun e' he' h =>
        hn.1 (List.mem_map.2 ⟨e', he', h⟩)
      rw [rustDisk, rustDisk_frame, rustDisk_frame]
      · refine ⟨?_, read_cons_eq _ _ _⟩
        rw [read_cons_ne _ _ (fun h => hP.sk_ne_sig _ _ _ _ _ h.symm),
          read_cons_ne _ _ (fun h => hP.sk_ne_sig _ _ _ _ _ h.symm), read_cons_eq]
      · exact fun e' he' => ⟨hP.sk_ne_sig _ _ _ _ _, fun h => hne e' he' (hP.sig_inj h)⟩
      · exact fun e' he' => ⟨fun h => hne e' he' (hP.sk_inj h),
          fun h => hP.sk_ne_sig _ _ _ _ _ h.symm⟩
    · rw [rustDisk]
      exact ih hn.2 _ e he

theorem trail_nodup {P : Plan} {t : Nat} {is : List Nat} (h : Targets P t is) :
    ((trail P t is).map Prod.snd).Nodup := by
  induction is generalizing t with
  | nil => simp [trail]
  | cons i is ih =>
    rw [trail, List.map_cons, List.nodup_cons]
    refine ⟨?_, ih h.2.2⟩
    intro hm
    obtain ⟨q, hq, he⟩ := List.mem_map.1 hm
    have := h.2.2.lt q hq
    simp only at he
    omega

theorem tar_nodup {P : Plan} {t : Nat} {is : List Nat} (h : Targets P t is)
    {es : List (Entry G1 G2)} (he : es.map (fun e => (e.cur, e.tar)) = trail P t is) :
    (es.map Entry.tar).Nodup := by
  have : es.map Entry.tar = (trail P t is).map Prod.snd := by
    rw [← he, List.map_map]; rfl
  rw [this]
  exact trail_nodup h

/-! ### the Python program -/

/-- what the comparison lets pass -/
def Accepts (mtime : Bytes → Bytes → Bool) (d : Disk) (name : Bytes → Bytes) (b : Bytes) : Prop :=
  ∃ y, d.read (name rustDir) = some y ∧
    (y = b ∨ (b.length = y.length ∧ mtime (name pyDir) (name rustDir) = true))

theorem not_prefix_py {f : Bytes} (h : rustDir <+: f) : ¬ pyDir <+: f := by
  obtain ⟨l, rfl⟩ := h
  rintro ⟨l', h'⟩
  have h0 := congrArg List.head? h'
  have e1 : (pyDir ++ l').head? = some 112 := rfl
  have e2 : (rustDir ++ l).head? = some 116 := rfl
  rw [e1, e2] at h0
  exact absurd (Option.some.inj h0) (by decide)

theorem accepts_congr {mtime : Bytes → Bytes → Bool} {d d' : Disk} (h : SameOutside pyDir d d')
    {name : Bytes → Bytes} (hn : rustDir <+: name rustDir) (b : Bytes) :
    Accepts mtime d' name b ↔ Accepts mtime d name b := by
  unfold Accepts
  rw [h _ (not_prefix_py hn)]

theorem sameOutside_refl (dir : Bytes) (d : Disk) : SameOutside dir d d := fun _ _ => rfl

theorem sameOutside_trans {dir : Bytes} {d d' d'' : Disk} (h : SameOutside dir d d')
    (h' : SameOutside dir d' d'') : SameOutside dir d d'' := fun f hf => (h' f hf).trans (h f hf)

theorem sameOutside_cons {dir f : Bytes} (hf : dir <+: f) (b : Bytes) (d : Disk) :
    SameOutside dir d ((f, b) :: d) := fun _ hg =>
  read_cons_ne _ _ (fun h => hg (h ▸ hf))

theorem pyCheck_outcome (mtime : Bytes → Bytes → Bool) {name : Bytes → Bytes}
    (hr : rustDir <+: name rustDir) (hp : pyDir <+: name pyDir) (b : Bytes) (d : Disk) :
    ∃ d', SameOutside pyDir d d' ∧
      ((Accepts mtime d name b ∧ pyCheck mtime name b d = (.ok (), d')) ∨
       (¬ Accepts mtime d name b ∧ ∃ p, pyCheck mtime name b d = (.panic p, d'))) := by
  have hne : name pyDir ≠ name rustDir := fun h => not_prefix_py hr (h ▸ hp)
  refine ⟨(name pyDir, b) :: d, sameOutside_cons hp b d, ?_⟩
  have h0 : writeFile (name pyDir) b d = (.ok (), (name pyDir, b) :: d) := rfl
  unfold pyCheck
  rw [SM.bind_run_ok h0]
  have hf : fileCmp mtime (name pyDir) (name rustDir) ((name pyDir, b) :: d) =
      match d.read (name rustDir) with
      | some y => (.ok (if b.length = y.length ∧ mtime (name pyDir) (name rustDir) = true then true
          else decide (b = y)), (name pyDir, b) :: d)
      | none => (.panic .explicit, (name pyDir, b) :: d) := by
    unfold fileCmp
    simp only [read_cons_eq, read_cons_ne _ _ hne]
    cases d.read (name rustDir) <;> rfl
  cases hd : d.read (name rustDir) with
  | none =>
    rw [hd] at hf
    right
    refine ⟨?_, _, SM.bind_run_panic hf⟩
    rintro ⟨y, hy, _⟩
    rw [hd] at hy
    cases hy
  | some y =>
    rw [hd] at hf
    simp only at hf
    rw [SM.bind_run_ok hf]
    by_cases hc : y = b ∨ (b.length = y.length ∧ mtime (name pyDir) (name rustDir) = true)
    · left
      refine ⟨⟨y, hd, hc⟩, ?_⟩
      have : (if b.length = y.length ∧ mtime (name pyDir) (name rustDir) = true then true
          else decide (b = y)) = true := by
        by_cases h2 : b.length = y.length ∧ mtime (name pyDir) (name rustDir) = true
        · rw [if_pos h2]
        · rw [if_neg h2]
          exact decide_eq_true (hc.resolve_right h2).symm
      rw [this]
      rfl
    · right
      refine ⟨?_, .assertion, ?_⟩
      · rintro ⟨y', hy', h'⟩
        rw [hd] at hy'
        cases Option.some.inj hy'
        exact hc h'
      · have : (if b.length = y.length ∧ mtime (name pyDir) (name rustDir) = true then true
          else decide (b = y)) = false := by
          rw [if_neg (fun h => hc (Or.inr h))]
          exact decide_eq_false (fun h => hc (Or.inl h.symm))
        rw [this]
        rfl

/-- the names of the two files of an entry, as functions of the directory -/
def entryNames (P : Plan) (e : Entry G1 G2) : (Bytes → Bytes) × (Bytes → Bytes) :=
  (fun dir => P.skName dir e.cur e.tar, fun dir => P.sigName dir e.cur e.tar)

/-- one entry passes -/
def EntryAccepted (E : Ext G1 G2 GT) (mtime : Bytes → Bytes → Bool) (P : Plan) (d : Disk)
    (e : Entry G1 G2) : Prop :=
  Accepts mtime d (fun dir => P.skName dir e.cur e.tar) (skLayout E true e.sk) ∧
    Accepts mtime d (fun dir => P.sigName dir e.cur e.tar) (sigLayout E true e.sig)

theorem entryAccepted_congr {E : Ext G1 G2 GT} {mtime : Bytes → Bytes → Bool} {P : Plan}
    (hP : PlanOk P) {d d' : Disk} (h : SameOutside pyDir d d') (e : Entry G1 G2) :
    EntryAccepted E mtime P d' e ↔ EntryAccepted E mtime P d e := by
  unfold EntryAccepted
  rw [accepts_congr h (hP.sk_dir _ _ _), accepts_congr h (hP.sig_dir _ _ _)]

/-- serialization in Python, of an honest key and of a signature with it -/
theorem py_bytes [DecidableEq GT] {E : Ext G1 G2 GT} (H : HashLaws E) (L : GroupLaws E)
    (C : CodecLaws E) (D : DefaultLaws E) (hc : E.defaultParam.ciphersuite = 0) {pf : Profile}
    {x t : Nat} {sk : SecretKey G1 G2}
    (hk : KeyFor E.defaultParam (x • E.defaultParam.h) t sk) {k : Py.Key G1 G2} (hs : SameKey sk k)
    {msg : Bytes} {sig : Signature G1 G2}
    (hsig : Signature.signPresent E.sha512 pf t E.defaultParam msg sk = (.ok sig, sk)) :
    Py.serializeSk E k = .ok (skLayout E true sk) ∧
    ∃ s0, Py.signPresent E.sha512 k t E.defaultParam msg = .ok s0 ∧
      Py.serializeSig E s0 = .ok (sigLayout E true sig) := by
  have S := D.wf.toParamShape
  have hv := hk.valid
  have h32 : t < 2 ^ 32 := by have := hv.2; rw [D.depth] at this; omega
  obtain ⟨v, hnode, hh⟩ := keyFor_iff.1 hk
  have hsc : sk.ciphersuite = 0 := by rw [hk.suite, hc]
  have hfit : sk.ssk.length < 256 ∧
      ∀ s ∈ sk.ssk, s.time < 2 ^ 32 ∧ s.hvector.length < 256 := by
    have hd := D.depth
    refine ⟨?_, ?_⟩
    · have := gam_length_le hh.node
      have := hh.ssk.length_eq
      omega
    · intro s hs
      obtain ⟨_, _, rho, hr⟩ := forall₂_mem_right hh.ssk hs
      have hb := num_bounds hr.isNode
      rw [hd] at hb
      refine ⟨by rw [hr.time_eq, hd]; omega, ?_⟩
      rw [hr.hvector_length S]; omega
  obtain ⟨sig', g1, g2, g3, g4⟩ := C53_sign_agrees H.sha_len pf S hc hk hs h32 msg
  rw [hsig] at g1
  cases Res.ok.inj (Prod.mk.inj g1).1
  refine ⟨?_, _, g2, ?_⟩
  · rw [sameKey_iff] at hs
    rw [← hs, Py.serializeSk_eq E hsc hfit.1 hfit.2, D.serialize_sk L C hk]
  · have ht : sig.time < 2 ^ 32 := by rw [g3]; exact h32
    rw [Py.serializeSig_eq E g4 ht, Signature.serialize_eq,
      validCiphersuite_contains.2 (Or.inl g4), if_pos rfl, if_pos ht]

/-- the first sub key carries the time -/
theorem py_time {E : Ext G1 G2 GT} {alpha : G1} {t : Nat} {sk : SecretKey G1 G2}
    (hk : KeyFor E.defaultParam alpha t sk) {k : Py.Key G1 G2} (hs : SameKey sk k) :
    ∃ s, idx k.ssk 0 = .ok s ∧ s.time = t := by
  have h := (C15_no_past hk).2.1
  rw [sameKey_iff] at hs
  have h0 : k.ssk = sk.ssk := by rw [← hs]; rfl
  rw [h0]
  cases hl : sk.ssk with
  | nil => rw [hl] at h; cases h
  | cons s l =>
    rw [hl] at h
    exact ⟨s, rfl, Option.some.inj h⟩

theorem pyLoop_outcome [DecidableEq GT] {E : Ext G1 G2 GT} (H : HashLaws E) (L : GroupLaws E)
    (C : CodecLaws E) (D : DefaultLaws E) (hc : E.defaultParam.ciphersuite = 0)
    (mtime : Bytes → Bytes → Bool) {pf : Profile} {rngseed msg : Bytes} {P : Plan} (hP : PlanOk P)
    {x t : Nat} {sk : SecretKey G1 G2} {is : List Nat} {es : List (Entry G1 G2)}
    (hr : Run E pf rngseed msg P sk is es)
    (hk : KeyFor E.defaultParam (x • E.defaultParam.h) t sk) (hT : Targets P t is)
    {k : Py.Key G1 G2} (hs : SameKey sk k) (d : Disk) :
    ∃ d', SameOutside pyDir d d' ∧
      (((∀ e ∈ es, EntryAccepted E mtime P d e) ∧
          ∃ k', pyLoop E mtime rngseed msg P is k d = (.ok k', d')) ∨
       (¬ (∀ e ∈ es, EntryAccepted E mtime P d e) ∧
          ∃ p, pyLoop E mtime rngseed msg P is k d = (.panic p, d'))) := by
  have S := D.wf.toParamShape
  induction hr generalizing t k d with
  | nil sk => exact ⟨d, sameOutside_refl _ _, Or.inl ⟨by simp, k, rfl⟩⟩
  | @cons sk sk' i is sig es hu hsg hr ih =>
    have ht : sk.time = t := hk.time
    rw [ht] at hu hsg ⊢
    have hv := hk.valid
    have h32 : t < 2 ^ 32 := by have := hv.2; rw [D.depth] at this; omega
    obtain ⟨k', g1, g2⟩ := C53_update_agrees H.sha_len pf S hk hs h32 hT.1
      (by rw [D.depth]; exact hT.2.1) rngseed
    have hs' : SameKey sk' k' := by
      rcases g2 with ⟨a, ha, hsa⟩ | ha
      · rw [hu] at ha; rw [(Prod.mk.inj ha).2]; exact hsa
      · rw [hu] at ha; cases (Prod.mk.inj ha).1
    have hk' : KeyFor E.defaultParam (x • E.defaultParam.h) (P.target t i) sk' := by
      rcases (C15_update_outcome H.sha_len pf S hk (P.target t i) rngseed).2
        ⟨hT.1, by rw [D.depth]; exact hT.2.1⟩ with ⟨a, ha, hka⟩ | ⟨ha, _⟩
      · rw [hu] at ha
        rw [(Prod.mk.inj ha).2]; exact hka
      · rw [hu] at ha
        cases (Prod.mk.inj ha).1
    obtain ⟨b1, s0, b2, b3⟩ := py_bytes H L C D hc hk' hs' hsg
    obtain ⟨s, i1, i2⟩ := py_time hk hs
    rw [pyLoop]
    simp only [i1, SM.lift_ok_bind, i2, g1, b1, b2, b3]
    obtain ⟨d1, o1, c1⟩ := pyCheck_outcome mtime (name := fun dir => P.skName dir t (P.target t i))
      (hP.sk_dir _ _ _) (hP.sk_dir _ _ _) (skLayout E true sk') d
    rcases c1 with ⟨a1, c1⟩ | ⟨a1, p, c1⟩
    swap
    · exact ⟨d1, o1, Or.inr ⟨fun h => a1 (h _ List.mem_cons_self).1, p, SM.bind_run_panic c1⟩⟩
    rw [SM.bind_run_ok c1]
    obtain ⟨d2, o2, c2⟩ := pyCheck_outcome mtime (name := fun dir => P.sigName dir t (P.target t i))
      (hP.sig_dir _ _ _) (hP.sig_dir _ _ _) (sigLayout E true sig) d1
    rw [accepts_congr o1 (hP.sig_dir _ _ _)] at c2
    rcases c2 with ⟨a2, c2⟩ | ⟨a2, p, c2⟩
    swap
    · exact ⟨d2, sameOutside_trans o1 o2, Or.inr ⟨fun h => a2 (h _ List.mem_cons_self).2, p, SM.bind_run_panic c2⟩⟩
    rw [SM.bind_run_ok c2]
    obtain ⟨d3, o3, c3⟩ := ih hk' hT.2.2 hs' d2
    have o12 := sameOutside_trans o1 o2
    simp only [entryAccepted_congr hP o12] at c3
    refine ⟨d3, sameOutside_trans o12 o3, ?_⟩
    rcases c3 with ⟨a3, c3⟩ | ⟨a3, c3⟩
    · left
      refine ⟨?_, c3⟩
      intro e he
      rcases List.mem_cons.1 he with rfl | he
      · exact ⟨a1, a2⟩
      · exact a3 e he
    · right
      exact ⟨fun h => a3 fun e he => h e (List.mem_cons_of_mem _ he), c3⟩

/-! ### the C program -/

theorem cSkName_eq {i : Nat} (h : i < 100) : cSkName i = skFile cDir i := by
  unfold cSkName snprintf
  have hl := length_padded h
  rw [List.take_of_length_le]
  · unfold skFile
    rw [← List.append_assoc, ← List.append_assoc]
    rfl
  · simp only [List.length_append, hl]
    decide

theorem cSigName_eq {i : Nat} (h : i < 100) : cSigName i = sigFile cDir i := by
  unfold cSigName snprintf
  have hl := length_padded h
  rw [List.take_of_length_le]
  · unfold sigFile
    rw [← List.append_assoc, ← List.append_assoc]
    rfl
  · simp only [List.length_append, hl]
    decide

/-- the disk after the C loop -/
def cDisk (E : Ext G1 G2 GT) : List (Entry G1 G2) → Disk → Disk
  | [], d => d
  | e :: es, d => cDisk E es
      ((skFile cDir e.tar, skLayout E true e.sk) :: (sigFile cDir e.tar, sigLayout E true e.sig) :: d)

theorem cUpdate_run [DecidableEq GT] {E : Ext G1 G2 GT} (L : GroupLaws E) (C : CodecLaws E)
    (D : DefaultLaws E) {pf : Profile} {x t tar : Nat} {sk sk' : SecretKey G1 G2} {rngseed : Bytes}
    (hk : KeyFor E.defaultParam (x • E.defaultParam.h) t sk)
    (hk' : KeyFor E.defaultParam (x • E.defaultParam.h) tar sk')
    (hu : SecretKey.update E.sha512 pf E.defaultParam tar rngseed sk = (.ok (), sk')) :
    Ffi.cSkUpdate E pf (skLayout E true sk) rngseed tar = .ok (skLayout E true sk') := by
  have hp := Ffi.parse_sk C (D.skValid L hk) []
  rw [List.append_nil] at hp
  unfold Ffi.cSkUpdate
  simp only [hp, Res.ok_bind, SM.exec_ok hu, Ffi.unwrap, D.serialize_sk L C hk']

theorem cSign_run [DecidableEq GT] {E : Ext G1 G2 GT} (L : GroupLaws E) (C : CodecLaws E)
    (D : DefaultLaws E) {pf : Profile} {x t : Nat} {sk : SecretKey G1 G2} {msg : Bytes}
    (hk : KeyFor E.defaultParam (x • E.defaultParam.h) t sk) {sig : Signature G1 G2}
    (hv : SigValid E sig)
    (hs : Signature.signPresent E.sha512 pf t E.defaultParam msg sk = (.ok sig, sk)) :
    Ffi.cSignPresent E pf (skLayout E true sk) msg t = .ok (sigLayout E true sig) := by
  have hp := Ffi.parse_sk C (D.skValid L hk) []
  rw [List.append_nil] at hp
  have hser := (C36_signature C hv []).1
  have hlen : (sigLayout E true sig).length = 149 := (C37_fixed_sizes C).2.1 sig _ hser
  unfold Ffi.cSignPresent
  simp only [hp, Res.ok_bind, hs, Ffi.unwrap, hser, Ffi.toArray_ok hlen]

theorem cLoop_run [DecidableEq GT] {E : Ext G1 G2 GT} (H : HashLaws E) (L : GroupLaws E)
    (C : CodecLaws E) (D : DefaultLaws E) {pf : Profile} {rngseed msg : Bytes}
    {x t : Nat} {sk : SecretKey G1 G2} {is : List Nat} {es : List (Entry G1 G2)}
    (hr : Run E pf rngseed msg sequential sk is es)
    (hk : KeyFor E.defaultParam (x • E.defaultParam.h) t sk) (hT : Targets sequential t is)
    (h100 : ∀ i ∈ is, i < 100) (d : Disk) :
    cLoop E pf rngseed msg is (skLayout E true sk) d = (.ok (), cDisk E es d) := by
  induction hr generalizing t d with
  | nil sk => rfl
  | @cons sk sk' i is sig es hu hsg hr ih =>
    have ht : sk.time = t := hk.time
    have hti : sequential.target sk.time i = i := rfl
    rw [hti] at hu hsg ⊢
    obtain ⟨hT1, hT2, hT3⟩ := hT
    have hti' : sequential.target t i = i := rfl
    rw [hti'] at hT1 hT2 hT3
    have hk' : KeyFor E.defaultParam (x • E.defaultParam.h) i sk' := by
      rcases (C15_update_outcome H.sha_len pf D.wf.toParamShape hk i rngseed).2
        ⟨hT1, by rw [D.depth]; exact hT2⟩ with ⟨a, ha, hka⟩ | ⟨ha, _⟩
      · rw [hu] at ha
        rw [(Prod.mk.inj ha).2]; exact hka
      · rw [hu] at ha
        cases (Prod.mk.inj ha).1
    obtain ⟨sig', g1, g2, _, _⟩ := sign_honest H L D pf hk' msg
    rw [hsg] at g1
    cases Res.ok.inj (Prod.mk.inj g1).1
    rw [cLoop]
    simp only [cUpdate_run L C D hk hk' hu, cSign_run L C D hk' g2 hsg, SM.lift_ok_bind]
    have w1 : writeFile (cSigName i) (sigLayout E true sig) d =
      (.ok (), (cSigName i, sigLayout E true sig) :: d) := rfl
    have w2 : writeFile (cSkName i) (skLayout E true sk')
        ((cSigName i, sigLayout E true sig) :: d) =
      (.ok (), (cSkName i, skLayout E true sk') :: (cSigName i, sigLayout E true sig) :: d) := rfl
    rw [SM.bind_run_ok w1, SM.bind_run_ok w2, ih hk' hT3 fun j hj => h100 j (List.mem_cons_of_mem _ hj),
      cSkName_eq (h100 i (by simp)), cSigName_eq (h100 i (by simp))]
    rfl

theorem cDisk_frame {E : Ext G1 G2 GT} {f : Bytes} {es : List (Entry G1 G2)}
    (h : ∀ e ∈ es, skFile cDir e.tar ≠ f ∧ sigFile cDir e.tar ≠ f) (d : Disk) :
    (cDisk E es d).read f = d.read f := by
  induction es generalizing d with
  | nil => rfl
  | cons e es ih =>
    obtain ⟨h1, h2⟩ := h e (by simp)
    rw [cDisk, ih (fun e' he' => h e' (List.mem_cons_of_mem _ he')), read_cons_ne _ _ h1,
      read_cons_ne _ _ h2]

theorem cDisk_read {E : Ext G1 G2 GT} {es : List (Entry G1 G2)}
    (hn : (es.map Entry.tar).Nodup) (d : Disk) :
    ∀ e ∈ es, (cDisk E es d).read (skFile cDir e.tar) = some (skLayout E true e.sk) ∧
      (cDisk E es d).read (sigFile cDir e.tar) = some (sigLayout E true e.sig) := by
  induction es generalizing d with
  | nil => simp
  | cons e0 es ih =>
    rw [List.map_cons, List.nodup_cons] at hn
    intro e he
    rcases List.mem_cons.1 he with rfl | he
    · have hne : ∀ e' ∈ es, e'.tar ≠ e.tar := fun e' he' h =>
        hn.1 (List.mem_map.2 ⟨e', he', h⟩)
      rw [cDisk, cDisk_frame, cDisk_frame]
      · refine ⟨read_cons_eq _ _ _, ?_⟩
        rw [read_cons_ne _ _ (sk_ne_sig _ _ _), read_cons_eq]
      · exact fun e' he' => ⟨sk_ne_sig _ _ _, fun h => hne e' he' (sigFile_inj h)⟩
      · exact fun e' he' => ⟨fun h => hne e' he' (skFile_inj h), fun h => sk_ne_sig _ _ _ h.symm⟩
    · rw [cDisk]
      exact ih hn.2 _ e he

/-! ### the comparison of the C files -/

theorem fileCmp_same (mtime : Bytes → Bytes → Bool) {a b x : Bytes} {d : Disk}
    (ha : d.read a = some x) (hb : d.read b = some x) : fileCmp mtime a b d = (.ok true, d) := by
  unfold fileCmp
  simp only [ha, hb, decide_true, ite_self]

theorem compareLoop_ok (mtime : Bytes → Bytes → Bool) {is : List Nat} {d : Disk}
    (h : ∀ i ∈ is, (∃ x, d.read (skFile rustDir i) = some x ∧ d.read (skFile cDir i) = some x) ∧
      ∃ x, d.read (sigFile rustDir i) = some x ∧ d.read (sigFile cDir i) = some x) :
    compareLoop mtime is d = (.ok (), d) := by
  induction is with
  | nil => rfl
  | cons i is ih =>
    obtain ⟨⟨x, x1, x2⟩, y, y1, y2⟩ := h i (by simp)
    rw [compareLoop, SM.bind_run_ok (fileCmp_same mtime y1 y2), SM.bind_run_ok (assertM_true d),
      SM.bind_run_ok (fileCmp_same mtime x1 x2), SM.bind_run_ok (assertM_true d)]
    exact ih fun j hj => h j (List.mem_cons_of_mem _ hj)

/-! ### the Rust program as a whole -/

/-- what the Rust program has written before its loops -/
def baseDisk (E : Ext G1 G2 GT) (pk : PublicKey G2) (sk : SecretKey G1 G2)
    (pop : ProofOfPossession G1) (sig : Signature G1 G2) (d : Disk) : Disk :=
  (sigFile rustDir 1, sigLayout E true sig) :: (sigFile rustDir 1, []) ::
    (skFile rustDir 1, skLayout E true sk) :: (skFile rustDir 1, []) ::
    (popFile rustDir, popLayout E true pop) :: (popFile rustDir, []) ::
    (pkFile rustDir, pkLayout E true pk) :: (pkFile rustDir, []) :: d

/-- everything about a run of the Rust program -/
structure RustRun [DecidableEq GT] (E : Ext G1 G2 GT) (pf : Profile) (seed rngseed msg : Bytes)
    (n : Nat) (x : Nat) (pk : PublicKey G2) (sk : SecretKey G1 G2) (pop : ProofOfPossession G1)
    (sig : Signature G1 G2) (es fs : List (Entry G1 G2)) : Prop where
  keygen : keygen E seed E.defaultParam = .ok (pk, sk, pop)
  pk_eq : pk.pk = x • E.defaultParam.g2
  pk_valid : PkValid E pk
  pk_suite : pk.ciphersuite = E.defaultParam.ciphersuite
  pop_valid : PopValid E pop
  pop_ok : pk.validate E pop = true
  key : KeyFor E.defaultParam (x • E.defaultParam.h) 1 sk
  sign : Signature.signPresent E.sha512 pf 1 E.defaultParam msg sk = (.ok sig, sk)
  sig_valid : SigValid E sig
  sig_time : sig.time = 1
  sig_ver : ∀ pk : PublicKey G2, pk.pk = x • E.defaultParam.g2 → ∀ pf',
    Signature.verifyBytes E pf' sig pk E.defaultParam msg = .ok true
  seq : Run E pf rngseed msg sequential sk (List.range' 2 (n - 2)) es
  ff : Run E pf rngseed msg fastForward sk (List.range' 2 (n - 2)) fs

/-- the disk at the end -/
def finalDisk (E : Ext G1 G2 GT) (pk : PublicKey G2) (sk : SecretKey G1 G2)
    (pop : ProofOfPossession G1) (sig : Signature G1 G2) (es fs : List (Entry G1 G2)) (d : Disk) :
    Disk :=
  rustDisk E fastForward fs (rustDisk E sequential es (baseDisk E pk sk pop sig d))

theorem targets_seq {n : Nat} (hn : tri (n - 1) ≤ 2 ^ 32 - 1) :
    Targets sequential 1 (List.range' 2 (n - 2)) := by
  refine targets_sequential (by omega) ?_
  by_cases h : n ≤ 2
  · omega
  · have : n - 1 ≤ tri (n - 1) := by
      obtain ⟨m, rfl⟩ : ∃ m, n = m + 2 := ⟨n - 2, by omega⟩
      rw [show m + 2 - 1 = m + 1 from by omega, tri_succ]
      omega
    omega

theorem targets_ff {n : Nat} (hn : tri (n - 1) ≤ 2 ^ 32 - 1) :
    Targets fastForward 1 (List.range' 2 (n - 2)) := by
  have h1 : tri 1 = 1 := rfl
  have := targets_fastForward (a := 1) (m := n - 2) (by
    by_cases h : n ≤ 2
    · rw [show n - 2 = 0 from by omega, Nat.add_zero, h1]; omega
    · rw [show 1 + (n - 2) = n - 1 from by omega]; exact hn)
  rw [h1] at this
  exact this

theorem rustMain_outcome [DecidableEq GT] {E : Ext G1 G2 GT} (H : HashLaws E) (L : GroupLaws E)
    (C : CodecLaws E) (D : DefaultLaws E) (pf : Profile) {seed : Bytes} (hl : 32 ≤ seed.length)
    (rngseed msg : Bytes) {n : Nat} (hn : tri (n - 1) ≤ 2 ^ 32 - 1) (d : Disk) :
    (∃ x pk sk pop sig es fs, RustRun E pf seed rngseed msg n x pk sk pop sig es fs ∧
      rustMain E pf seed rngseed msg n d = (.ok (), finalDisk E pk sk pop sig es fs d) ∧
      StreamsDefined E.sha512 seed rngseed E.defaultParam.ciphersuite n) ∨
    ∃ d', rustMain E pf seed rngseed msg n d = (.panic .assertion, d') ∧
      ¬ StreamsDefined E.sha512 seed rngseed E.defaultParam.ciphersuite n := by
  obtain ⟨pk, sk, pop, h1, h2, h3, ⟨x, h4, h5⟩, _, _, h6⟩ :=
      (C12_keygen_outcome H L pf D.wf seed).2.2 hl D.suite
  obtain ⟨hpk, hpop⟩ := C36_keygen H L D.wf h1
  have e1 := (C36_public_key C true hpk []).1
  have e2 := D.serialize_sk L C h5
  have e3 := (C36_pop C true hpop []).1
  obtain ⟨sig, g1, g2, g3, g4⟩ := sign_honest H L D pf h5 msg
  have e4 := (C36_signature C g2 []).1
  unfold rustMain
  simp only [h1, Ffi.unwrap, SM.lift_ok_bind, e1, e2, e3]
  rw [SM.bind_run_ok (createWith_ok _ _ _), SM.bind_run_ok (createWith_ok _ _ _),
    SM.bind_run_ok (createWith_ok _ _ _)]
  simp only [SM.exec_ok g1, SM.lift_ok_bind, g4 pk h4 pf, e4]
  rw [SM.bind_run_ok (assertM_true _), SM.bind_run_ok (createWith_ok _ _ _)]
  have hf := C62_first_state H D.wf.toParamShape h1
  have es1 : (trail sequential 1 (List.range' 2 (n - 2))).map (fun q => (q.2, rngseed)) =
      sequentialUpdates n rngseed := by
    rw [sequentialUpdates, ← trail_sequential 1 (List.range' 2 (n - 2)), List.map_map]
    rw [trail_sequential]
    rfl
  have es2 : (trail fastForward 1 (List.range' 2 (n - 2))).map (fun q => (q.2, rngseed)) =
      fastForwardUpdates n rngseed := by
    have := trail_fastForward 1 (n - 2)
    rw [show tri 1 = 1 from rfl] at this
    rw [this, List.map_map]
    rfl
  unfold StreamsDefined
  rw [← hf, ← es1, ← es2]
  rcases rustLoop_outcome H L C D pf rngseed msg sequential h4 h5 (targets_seq hn)
    (baseDisk E pk sk pop sig d) with ⟨es, sk1, r1, r2, r3⟩ | ⟨d', r, r3⟩
  swap
  · exact Or.inr ⟨d', SM.bind_run_panic r, fun hh => by rw [r3] at hh; simp at hh⟩
  rw [baseDisk] at r2
  rw [SM.bind_run_ok r2]
  rcases rustLoop_outcome H L C D pf rngseed msg fastForward h4 h5 (targets_ff hn)
    (rustDisk E sequential es (baseDisk E pk sk pop sig d)) with
    ⟨fs, sk2, q1, q2, q3⟩ | ⟨d', r, q3⟩
  swap
  · exact Or.inr ⟨d', SM.bind_run_panic r, fun hh => by rw [q3] at hh; simp at hh⟩
  rw [baseDisk] at q2
  left
  refine ⟨x, pk, sk, pop, sig, es, fs,
    ⟨h1, h4, hpk, h2, hpop, h6, h5, g1, g2, g3, g4, r1, q1⟩, ?_, ?_⟩
  · rw [SM.bind_run_ok q2]
    rfl
  · rw [r3, q3]
    exact ⟨rfl, rfl⟩

/-! ### reading the final disk -/

section Final

variable [DecidableEq GT] {E : Ext G1 G2 GT} {pf : Profile} {seed rngseed msg : Bytes} {n x : Nat}
  {pk : PublicKey G2} {sk : SecretKey G1 G2} {pop : ProofOfPossession G1} {sig : Signature G1 G2}
  {es fs : List (Entry G1 G2)}

theorem RustRun.seq_good (H : HashLaws E) (L : GroupLaws E) (D : DefaultLaws E)
    (R : RustRun E pf seed rngseed msg n x pk sk pop sig es fs) (hn : tri (n - 1) ≤ 2 ^ 32 - 1) :
    (∀ e ∈ es, Good E x msg e) ∧
      es.map (fun e => (e.cur, e.tar)) = trail sequential 1 (List.range' 2 (n - 2)) :=
  R.seq.good H L D R.key (targets_seq hn)

theorem RustRun.ff_good (H : HashLaws E) (L : GroupLaws E) (D : DefaultLaws E)
    (R : RustRun E pf seed rngseed msg n x pk sk pop sig es fs) (hn : tri (n - 1) ≤ 2 ^ 32 - 1) :
    (∀ e ∈ fs, Good E x msg e) ∧
      fs.map (fun e => (e.cur, e.tar)) = trail fastForward 1 (List.range' 2 (n - 2)) :=
  R.ff.good H L D R.key (targets_ff hn)

theorem mem_seq {es : List (Entry G1 G2)}
    (h : es.map (fun e => (e.cur, e.tar)) = trail sequential 1 (List.range' 2 (n - 2))) (i : Nat) :
    (∃ e ∈ es, e.tar = i) ↔ 2 ≤ i ∧ i < n := by
  have h1 : es.map Entry.tar = List.range' 2 (n - 2) := by
    rw [← trail_sequential 1 (List.range' 2 (n - 2)), ← h, List.map_map]; rfl
  rw [← List.mem_map, h1, List.mem_range'_1]
  omega

theorem mem_ff {fs : List (Entry G1 G2)}
    (h : fs.map (fun e => (e.cur, e.tar)) = trail fastForward 1 (List.range' 2 (n - 2)))
    {q : Nat × Nat} :
    (∃ e ∈ fs, (e.cur, e.tar) = q) ↔ ∃ i, 2 ≤ i ∧ i < n ∧ q = (tri (i - 1), tri i) := by
  have h1 := trail_fastForward 1 (n - 2)
  rw [show tri 1 = 1 from rfl] at h1
  rw [h1] at h
  rw [← List.mem_map, h, List.mem_map]
  constructor
  · rintro ⟨i, hi, rfl⟩
    rw [List.mem_range'_1] at hi
    exact ⟨i, by omega, by omega, rfl⟩
  · rintro ⟨i, h1, h2, rfl⟩
    exact ⟨i, by rw [List.mem_range'_1]; omega, rfl⟩

theorem final_p {f : Bytes} (hf : StartsP rustDir f) (d : Disk) :
    (finalDisk E pk sk pop sig es fs d).read f = (baseDisk E pk sk pop sig d).read f := by
  unfold finalDisk
  rw [rustDisk_frame, rustDisk_frame]
  · exact fun e _ => ⟨(hf.ne 0 e.tar).1, (hf.ne 0 e.tar).2.1⟩
  · exact fun e _ => ⟨(hf.ne e.cur e.tar).2.2.1, (hf.ne e.cur e.tar).2.2.2⟩

theorem final_pk (d : Disk) : (finalDisk E pk sk pop sig es fs d).read (pkFile rustDir) =
    some (pkLayout E true pk) := by
  rw [final_p (startsP_pk _), baseDisk]
  obtain ⟨a, b, -, -⟩ := (startsP_pk rustDir).ne 0 1
  rw [read_cons_ne _ _ b, read_cons_ne _ _ b, read_cons_ne _ _ a, read_cons_ne _ _ a,
    read_cons_ne _ _ (pk_ne_pop _).symm, read_cons_ne _ _ (pk_ne_pop _).symm, read_cons_eq]

theorem final_pop (d : Disk) : (finalDisk E pk sk pop sig es fs d).read (popFile rustDir) =
    some (popLayout E true pop) := by
  rw [final_p (startsP_pop _), baseDisk]
  obtain ⟨a, b, -, -⟩ := (startsP_pop rustDir).ne 0 1
  rw [read_cons_ne _ _ b, read_cons_ne _ _ b, read_cons_ne _ _ a, read_cons_ne _ _ a, read_cons_eq]

theorem final_one (h : ∀ e ∈ es, e.tar ≠ 1) (d : Disk) :
    (finalDisk E pk sk pop sig es fs d).read (skFile rustDir 1) = some (skLayout E true sk) ∧
    (finalDisk E pk sk pop sig es fs d).read (sigFile rustDir 1) = some (sigLayout E true sig) := by
  unfold finalDisk
  rw [rustDisk_frame, rustDisk_frame, rustDisk_frame, rustDisk_frame]
  · rw [baseDisk]
    refine ⟨?_, read_cons_eq _ _ _⟩
    rw [read_cons_ne _ _ (Vectors.sk_ne_sig _ _ _).symm,
      read_cons_ne _ _ (Vectors.sk_ne_sig _ _ _).symm, read_cons_eq]
  · exact fun e he => ⟨sk_ne_sig _ _ _, fun hh => h e he (sigFile_inj hh)⟩
  · exact fun e he => ⟨fun hh => sig_ne_skFF _ _ _ _ hh.symm, fun hh => sig_ne_sigFF _ _ _ _ hh.symm⟩
  · exact fun e he => ⟨fun hh => h e he (skFile_inj hh), fun hh => sk_ne_sig _ _ _ hh.symm⟩
  · exact fun e he => ⟨fun hh => sk_ne_skFF _ _ _ _ hh.symm, fun hh => sk_ne_sigFF _ _ _ _ hh.symm⟩

theorem final_seq (hn : (es.map Entry.tar).Nodup) (d : Disk) : ∀ e ∈ es,
    (finalDisk E pk sk pop sig es fs d).read (skFile rustDir e.tar) = some (skLayout E true e.sk) ∧
    (finalDisk E pk sk pop sig es fs d).read (sigFile rustDir e.tar) =
      some (sigLayout E true e.sig) := by
  intro e he
  obtain ⟨h1, h2⟩ := rustDisk_read (E := E) sequential_ok hn (baseDisk E pk sk pop sig d) e he
  unfold finalDisk
  constructor
  · rw [rustDisk_frame fun e _ => ⟨fun hh => sk_ne_skFF _ _ _ _ hh.symm,
      fun hh => sk_ne_sigFF _ _ _ _ hh.symm⟩]
    exact h1
  · rw [rustDisk_frame fun e _ => ⟨fun hh => sig_ne_skFF _ _ _ _ hh.symm,
      fun hh => sig_ne_sigFF _ _ _ _ hh.symm⟩]
    exact h2

theorem final_ff (hn : (fs.map Entry.tar).Nodup) (d : Disk) : ∀ e ∈ fs,
    (finalDisk E pk sk pop sig es fs d).read (skFileFF rustDir e.cur e.tar) =
      some (skLayout E true e.sk) ∧
    (finalDisk E pk sk pop sig es fs d).read (sigFileFF rustDir e.cur e.tar) =
      some (sigLayout E true e.sig) :=
  rustDisk_read fastForward_ok hn _

theorem rustDisk_outside {P : Plan} (hP : PlanOk P) (es : List (Entry G1 G2)) (d : Disk) :
    SameOutside rustDir d (rustDisk E P es d) := by
  intro f hf
  refine rustDisk_frame (fun e _ => ⟨?_, ?_⟩) d <;> rintro rfl
  · exact hf (hP.sk_dir _ _ _)
  · exact hf (hP.sig_dir _ _ _)

theorem final_outside (d : Disk) :
    SameOutside rustDir d (finalDisk E pk sk pop sig es fs d) := by
  refine sameOutside_trans ?_ (sameOutside_trans (rustDisk_outside sequential_ok es _)
    (rustDisk_outside fastForward_ok fs _))
  have p : ∀ l : Bytes, rustDir <+: rustDir ++ l := fun l => List.prefix_append _ _
  unfold baseDisk
  exact sameOutside_trans (sameOutside_cons (p _) _ _) (sameOutside_trans (sameOutside_cons (p _) _ _)
    (sameOutside_trans (sameOutside_cons (p _) _ _) (sameOutside_trans (sameOutside_cons (p _) _ _)
    (sameOutside_trans (sameOutside_cons (p _) _ _) (sameOutside_trans (sameOutside_cons (p _) _ _)
    (sameOutside_trans (sameOutside_cons (p _) _ _) (sameOutside_cons (p _) _ _)))))))

/-- a successful run of the Rust program, taken apart -/
theorem rustMain_ok (H : HashLaws E) (L : GroupLaws E) (C : CodecLaws E) (D : DefaultLaws E)
    (hn : tri (n - 1) ≤ 2 ^ 32 - 1) {d0 d1 : Disk}
    (hr : rustMain E pf seed rngseed msg n d0 = (.ok (), d1)) :
    ∃ x pk sk pop sig es fs, RustRun E pf seed rngseed msg n x pk sk pop sig es fs ∧
      d1 = finalDisk E pk sk pop sig es fs d0 := by
  by_cases hl : 32 ≤ seed.length
  · rcases rustMain_outcome H L C D pf hl rngseed msg hn d0 with
      ⟨x, pk, sk, pop, sig, es, fs, R, h, _⟩ | ⟨d', h, _⟩
    · rw [hr] at h
      exact ⟨x, pk, sk, pop, sig, es, fs, R, (Prod.mk.inj h).2⟩
    · rw [hr] at h
      cases (Prod.mk.inj h).1
  · unfold rustMain at hr
    simp only [keygen_short (Nat.lt_of_not_le hl), Ffi.unwrap, SM.lift_panic_bind] at hr
    cases (Prod.mk.inj hr).1

/-! ### the Python program as a whole -/

theorem passes_iff {mtime : Bytes → Bytes → Bool} {d1 d : Disk} {name : Bytes → Bytes} {b : Bytes}
    (h : d1.read (name rustDir) = some b) : Passes mtime d1 d name ↔ Accepts mtime d name b := by
  unfold Passes Accepts
  constructor
  · rintro ⟨x, y, h1, h2⟩
    rw [h] at h1
    cases Option.some.inj h1
    exact ⟨y, h2⟩
  · rintro ⟨y, h2⟩
    exact ⟨b, y, h, h2⟩

/-- all checked files pass, in terms of the entries -/
theorem checked_iff (H : HashLaws E) (L : GroupLaws E) (D : DefaultLaws E)
    (R : RustRun E pf seed rngseed msg n x pk sk pop sig es fs) (hn : tri (n - 1) ≤ 2 ^ 32 - 1)
    (h2 : 2 ≤ n) (mtime : Bytes → Bytes → Bool) (d0 d : Disk) :
    (∀ name ∈ checkedFiles n, Passes mtime (finalDisk E pk sk pop sig es fs d0) d name) ↔
      Accepts mtime d pkFile (pkLayout E true pk) ∧
      Accepts mtime d (fun dir => skFile dir 1) (skLayout E true sk) ∧
      Accepts mtime d (fun dir => sigFile dir 1) (sigLayout E true sig) ∧
      (∀ e ∈ es, EntryAccepted E mtime sequential d e) ∧
      ∀ e ∈ fs, EntryAccepted E mtime fastForward d e := by
  obtain ⟨-, t1⟩ := R.seq_good H L D hn
  obtain ⟨-, t2⟩ := R.ff_good H L D hn
  have n1 := tar_nodup (targets_seq hn) t1
  have n2 := tar_nodup (targets_ff hn) t2
  have hone : ∀ e ∈ es, e.tar ≠ 1 := fun e he h => by
    have := (mem_seq t1 1).1 ⟨e, he, h⟩
    omega
  obtain ⟨o1, o2⟩ := final_one (E := E) (pk := pk) (sk := sk) (pop := pop) (sig := sig) (fs := fs)
    hone d0
  have s1 := final_seq (E := E) (pk := pk) (sk := sk) (pop := pop) (sig := sig) (fs := fs) n1 d0
  have s2 := final_ff (E := E) (pk := pk) (sk := sk) (pop := pop) (sig := sig) (es := es) n2 d0
  constructor
  · intro h
    have hi : ∀ i, 1 ≤ i → i < n →
        Passes mtime (finalDisk E pk sk pop sig es fs d0) d (fun dir => skFile dir i) ∧
        Passes mtime (finalDisk E pk sk pop sig es fs d0) d (fun dir => sigFile dir i) := by
      intro i a b
      refine ⟨h _ ?_, h _ ?_⟩ <;> unfold checkedFiles <;> refine List.mem_cons_of_mem _
        (List.mem_append_left _ (List.mem_flatMap.2 ⟨i, by rw [List.mem_range'_1]; omega, ?_⟩)) <;> simp
    have hj : ∀ i, 2 ≤ i → i < n →
        Passes mtime (finalDisk E pk sk pop sig es fs d0) d
          (fun dir => skFileFF dir (tri (i - 1)) (tri i)) ∧
        Passes mtime (finalDisk E pk sk pop sig es fs d0) d
          (fun dir => sigFileFF dir (tri (i - 1)) (tri i)) := by
      intro i a b
      refine ⟨h _ ?_, h _ ?_⟩ <;> unfold checkedFiles <;> refine List.mem_cons_of_mem _
        (List.mem_append_right _ (List.mem_flatMap.2 ⟨i, by rw [List.mem_range'_1]; omega, ?_⟩)) <;>
        simp
    refine ⟨(passes_iff (final_pk d0)).1 (h _ (by unfold checkedFiles; simp)),
      (passes_iff o1).1 (hi 1 (by omega) (by omega)).1,
      (passes_iff o2).1 (hi 1 (by omega) (by omega)).2, ?_, ?_⟩
    · intro e he
      obtain ⟨a, b⟩ := (mem_seq t1 e.tar).1 ⟨e, he, rfl⟩
      have := hi e.tar (by omega) b
      exact ⟨(passes_iff (s1 e he).1).1 this.1, (passes_iff (s1 e he).2).1 this.2⟩
    · intro e he
      obtain ⟨i, a, b, c⟩ := (mem_ff t2).1 ⟨e, he, rfl⟩
      have := hj i a b
      rw [← (Prod.mk.inj c).1, ← (Prod.mk.inj c).2] at this
      exact ⟨(passes_iff (s2 e he).1).1 this.1, (passes_iff (s2 e he).2).1 this.2⟩
  · rintro ⟨a1, a2, a3, a4, a5⟩ name hname
    unfold checkedFiles at hname
    rcases List.mem_cons.1 hname with rfl | hname
    · exact (passes_iff (final_pk d0)).2 a1
    rcases List.mem_append.1 hname with hname | hname
    · obtain ⟨i, hi, hname⟩ := List.mem_flatMap.1 hname
      rw [List.mem_range'_1] at hi
      by_cases h1 : i = 1
      · subst h1
        rcases List.mem_cons.1 hname with rfl | hname
        · exact (passes_iff o1).2 a2
        · rw [List.mem_singleton.1 hname]
          exact (passes_iff o2).2 a3
      · obtain ⟨e, he, rfl⟩ := (mem_seq t1 i).2 (by omega)
        rcases List.mem_cons.1 hname with rfl | hname
        · exact (passes_iff (s1 e he).1).2 (a4 e he).1
        · rw [List.mem_singleton.1 hname]
          exact (passes_iff (s1 e he).2).2 (a4 e he).2
    · obtain ⟨i, hi, hname⟩ := List.mem_flatMap.1 hname
      rw [List.mem_range'_1] at hi
      obtain ⟨e, he, hq⟩ := (mem_ff t2).2 ⟨i, by omega, by omega, rfl⟩
      rw [← (Prod.mk.inj hq).1, ← (Prod.mk.inj hq).2] at hname
      rcases List.mem_cons.1 hname with rfl | hname
      · exact (passes_iff (s2 e he).1).2 (a5 e he).1
      · rw [List.mem_singleton.1 hname]
        exact (passes_iff (s2 e he).2).2 (a5 e he).2

theorem pyMain_outcome (H : HashLaws E) (L : GroupLaws E) (C : CodecLaws E) (D : DefaultLaws E)
    (hc : E.defaultParam.ciphersuite = 0)
    (R : RustRun E pf seed rngseed msg n x pk sk pop sig es fs) (hn : tri (n - 1) ≤ 2 ^ 32 - 1)
    (mtime : Bytes → Bytes → Bool) (d : Disk) (A : Prop)
    (hA : A ↔ Accepts mtime d pkFile (pkLayout E true pk) ∧
      Accepts mtime d (fun dir => skFile dir 1) (skLayout E true sk) ∧
      Accepts mtime d (fun dir => sigFile dir 1) (sigLayout E true sig) ∧
      (∀ e ∈ es, EntryAccepted E mtime sequential d e) ∧
      ∀ e ∈ fs, EntryAccepted E mtime fastForward d e) :
    ∃ d', SameOutside pyDir d d' ∧
      ((A ∧ pyMain E mtime seed rngseed msg n d = (.ok (), d')) ∨
       (¬ A ∧ ∃ p, pyMain E mtime seed rngseed msg n d = (.panic p, d'))) := by
  have hl : 32 ≤ seed.length := by
    by_contra hl
    have := R.keygen
    rw [keygen_short (by omega)] at this
    cases this
  obtain ⟨pk1, sk1, pop1, k, q1, q2, q3⟩ := C53_keygen_agrees H D.wf.toParamShape hc hl
  rw [R.keygen] at q1
  obtain ⟨rfl, q1'⟩ := Prod.mk.inj (Res.ok.inj q1)
  obtain ⟨rfl, rfl⟩ := Prod.mk.inj q1'
  obtain ⟨b1, s0, b2, b3⟩ := py_bytes H L C D hc R.key q3 R.sign
  have hpkb : Py.serializePk E pk.pk = pkLayout E true pk := by
    rw [Py.serializePk, pkLayout, R.pk_suite, hc]; rfl
  have p : ∀ dir l : Bytes, dir <+: dir ++ l := fun dir l => List.prefix_append _ _
  unfold pyMain
  simp only [q2, SM.lift_ok_bind, b1, b2, b3, hpkb]
  obtain ⟨d1, o1, c1⟩ := pyCheck_outcome mtime (name := pkFile) (p _ _) (p _ _)
    (pkLayout E true pk) d
  rcases c1 with ⟨a1, c1⟩ | ⟨a1, w, c1⟩
  swap
  · exact ⟨d1, o1, Or.inr ⟨fun h => a1 (hA.1 h).1, w, SM.bind_run_panic c1⟩⟩
  rw [SM.bind_run_ok c1]
  obtain ⟨d2, o2, c2⟩ := pyCheck_outcome mtime (name := fun dir => skFile dir 1) (p _ _) (p _ _)
    (skLayout E true sk) d1
  rw [accepts_congr (name := fun dir => skFile dir 1) o1 (p _ _)] at c2
  have o2 := sameOutside_trans o1 o2
  rcases c2 with ⟨a2, c2⟩ | ⟨a2, w, c2⟩
  swap
  · exact ⟨d2, o2, Or.inr ⟨fun h => a2 (hA.1 h).2.1, w, SM.bind_run_panic c2⟩⟩
  rw [SM.bind_run_ok c2]
  obtain ⟨d3, o3, c3⟩ := pyCheck_outcome mtime (name := fun dir => sigFile dir 1) (p _ _) (p _ _)
    (sigLayout E true sig) d2
  rw [accepts_congr (name := fun dir => sigFile dir 1) o2 (p _ _)] at c3
  have o3 := sameOutside_trans o2 o3
  rcases c3 with ⟨a3, c3⟩ | ⟨a3, w, c3⟩
  swap
  · exact ⟨d3, o3, Or.inr ⟨fun h => a3 (hA.1 h).2.2.1, w, SM.bind_run_panic c3⟩⟩
  rw [SM.bind_run_ok c3]
  obtain ⟨d4, o4, c4⟩ := pyLoop_outcome H L C D hc mtime sequential_ok R.seq R.key (targets_seq hn)
    q3 d3
  simp only [entryAccepted_congr sequential_ok o3] at c4
  have o4 := sameOutside_trans o3 o4
  rcases c4 with ⟨a4, k4, c4⟩ | ⟨a4, w, c4⟩
  swap
  · exact ⟨d4, o4, Or.inr ⟨fun h => a4 (hA.1 h).2.2.2.1, w, SM.bind_run_panic c4⟩⟩
  rw [SM.bind_run_ok c4]
  obtain ⟨d5, o5, c5⟩ := pyLoop_outcome H L C D hc mtime fastForward_ok R.ff R.key (targets_ff hn)
    q3 d4
  simp only [entryAccepted_congr fastForward_ok o4] at c5
  have o5 := sameOutside_trans o4 o5
  rcases c5 with ⟨a5, k5, c5⟩ | ⟨a5, w, c5⟩
  swap
  · exact ⟨d5, o5, Or.inr ⟨fun h => a5 (hA.1 h).2.2.2.2, w, SM.bind_run_panic c5⟩⟩
  refine ⟨d5, o5, Or.inl ⟨hA.2 ⟨a1, a2, a3, a4, a5⟩, ?_⟩⟩
  rw [SM.bind_run_ok c5]
  rfl

/-! ### the C program as a whole -/

theorem cTestLoop_ok (H : HashLaws E) (L : GroupLaws E) (C : CodecLaws E) (D : DefaultLaws E)
    (pf : Profile) (seed msg : Bytes) (is : List Nat) (hl : ∀ i ∈ is, 32 + i ≤ seed.length) :
    ∃ l, cTestLoop E pf seed msg is = .ok l ∧ l.length = is.length ∧ ∀ p ∈ l,
      p.1.head? = some E.defaultParam.ciphersuite ∧ beNat ((p.2.drop 1).take 4) = 1 ∧
      Ffi.cVerify E pf p.1 msg p.2 = .ok true := by
  induction is with
  | nil => exact ⟨[], rfl, rfl, by simp⟩
  | cons i is ih =>
    obtain ⟨l, l1, l2, l3⟩ := ih fun j hj => hl j (List.mem_cons_of_mem _ hj)
    have h0 := hl i (by simp)
    obtain ⟨keys, x, h1, _, _, _, h5, _, _⟩ := (C46_keygen H L C D pf (seed.take (32 + i))).2
      (by rw [List.length_take]; omega)
    obtain ⟨⟨sg, s1, s2, s3, s4⟩, _, _⟩ := C46_end_to_end H L C D pf h1 (us := []) rfl msg
    have ht : lastTime 1 [] = 1 := rfl
    rw [ht] at s1 s3
    refine ⟨(keys.pk, sg) :: l, ?_, by simp [l2], ?_⟩
    · rw [cTestLoop]
      simp only [h1, Res.ok_bind, s1, s4, l1, decide_true, assertRes_true]
    · intro p hp
      rcases List.mem_cons.1 hp with rfl | hp
      · refine ⟨by rw [h5]; rfl, ?_, s4⟩
        rw [s3]
        exact beNat_be32_lt (by omega)
      · exact l3 p hp

theorem cTest_ok (H : HashLaws E) (L : GroupLaws E) (C : CodecLaws E) (D : DefaultLaws E)
    (pf : Profile) {seed rngseed msg : Bytes} (hl : 36 ≤ seed.length) {keys : Ffi.Keys}
    (hg : Ffi.cKeygen E seed = .ok keys) {b : Bytes}
    (hu : Ffi.cSkUpdate E pf keys.sk rngseed 2 = .ok b) :
    cTest E pf seed rngseed msg = .ok () := by
  obtain ⟨keys', x, h1, _, _, _, _, _, hp⟩ := (C46_keygen H L C D pf seed).2 (by omega)
  rw [hg] at h1
  cases Res.ok.inj h1
  obtain ⟨⟨s1, a1, _, _, a2⟩, _⟩ := C46_end_to_end H L C D pf hg (us := []) rfl msg
  obtain ⟨⟨s2, b1, _, _, b2⟩, _⟩ := C46_end_to_end H L C D pf hg (us := [(2, rngseed)]) (blob := b)
    (by rw [cUpdates, hu]; rfl) msg
  have e1 : lastTime 1 [] = 1 := rfl
  have e2 : lastTime 1 [(2, rngseed)] = 2 := rfl
  rw [e1] at a1
  rw [e2] at b1
  obtain ⟨l, l1, l2, l3⟩ := cTestLoop_ok H L C D pf seed msg (List.range 5) (by
    intro i hi
    rw [List.mem_range] at hi
    omega)
  have hne : l ≠ [] := by
    rintro rfl
    rw [List.length_range] at l2
    cases l2
  obtain ⟨agg, g1, _, g3⟩ := C46_aggregate H L C D pf msg 1 l hne (fun p hp => (l3 p hp).1)
    (fun p hp => (l3 p hp).2.1) (fun p hp => (l3 p hp).2.2)
  unfold cTest
  simp only [hg, hp, Res.ok_bind, a1, a2, hu, b1, b2, l1, g1, g3, decide_true, assertRes_true]

theorem cMain_run (H : HashLaws E) (L : GroupLaws E) (C : CodecLaws E) (D : DefaultLaws E)
    (R : RustRun E pf seed rngseed msg n x pk sk pop sig es fs) (hl : 36 ≤ seed.length)
    (h3 : 3 ≤ n) (h100 : n ≤ 100) (hn : tri (n - 1) ≤ 2 ^ 32 - 1) (d : Disk) :
    cMain E pf seed rngseed msg n d = (.ok (), cDisk E es ((skFile cDir 1, skLayout E true sk) ::
      (sigFile cDir 1, sigLayout E true sig) :: d)) := by
  have e1 := (C36_public_key C true R.pk_valid []).1
  have e2 := D.serialize_sk L C R.key
  have e3 := (C36_pop C true R.pop_valid []).1
  have l1 := ((C37_fixed_sizes C).1 _ _ e1).1
  have l3 := (C37_fixed_sizes C).2.2 _ _ e3
  have hg : Ffi.cKeygen E seed = .ok ⟨pkLayout E true pk, skLayout E true sk, popLayout E true pop⟩ := by
    unfold Ffi.cKeygen
    simp only [R.keygen, Ffi.unwrap, Res.ok_bind, e1, e2, e3, Ffi.toArray_ok l1, Ffi.toArray_ok l3]
  have hp : Ffi.cVerifyPop E (pkLayout E true pk) (popLayout E true pop) = .ok true := by
    have p1 := Ffi.parse_pk C R.pk_valid []
    have p2 := Ffi.parse_pop C R.pop_valid []
    rw [List.append_nil] at p1 p2
    unfold Ffi.cVerifyPop
    simp only [p1, p2, Res.ok_bind, R.pop_ok]
  have hs := cSign_run L C D R.key R.sig_valid R.sign
  have hup : ∃ b, Ffi.cSkUpdate E pf (skLayout E true sk) rngseed 2 = .ok b := by
    have hr := R.seq
    obtain ⟨m, hm⟩ : ∃ m, n - 2 = m + 1 := ⟨n - 3, by omega⟩
    have hT := targets_seq hn
    rw [hm, List.range'_succ] at hr hT
    cases hr with
    | @cons _ sk' _ _ _ _ hu _ _ =>
      have ht : sequential.target sk.time 2 = 2 := rfl
      rw [ht] at hu
      rcases (C15_update_outcome H.sha_len pf D.wf.toParamShape R.key 2 rngseed).2
        ⟨by omega, by rw [D.depth]; omega⟩ with ⟨a, ha, hka⟩ | ⟨ha, _⟩
      · rw [hu] at ha
        rw [← (Prod.mk.inj ha).2] at hka
        exact ⟨_, cUpdate_run L C D R.key hka hu⟩
      · rw [hu] at ha
        cases (Prod.mk.inj ha).1
  obtain ⟨b, hb⟩ := hup
  unfold cMain
  rw [cTest_ok H L C D pf hl hg hb, SM.lift_ok_bind]
  unfold cTestVector
  simp only [hg, SM.lift_ok_bind, hs, hp]
  have w1 : ∀ (f b : Bytes) (d : Disk), writeFile f b d = (.ok (), (f, b) :: d) := fun _ _ _ => rfl
  rw [SM.bind_run_ok (assertM_true d), SM.bind_run_ok (w1 _ _ _), SM.bind_run_ok (w1 _ _ _),
    cLoop_run H L C D R.seq R.key (targets_seq hn) (by
      intro i hi
      rw [List.mem_range'_1] at hi
      omega), cSkName_eq (by omega), cSigName_eq (by omega)]

theorem cDisk_outside (es : List (Entry G1 G2)) (d : Disk) : SameOutside cDir d (cDisk E es d) := by
  intro f hf
  refine cDisk_frame (fun e _ => ⟨?_, ?_⟩) d <;> rintro rfl
  · exact hf (List.prefix_append _ _)
  · exact hf (List.prefix_append _ _)

end Final

theorem not_prefix_c {f : Bytes} (h : rustDir <+: f) : ¬ cDir <+: f := by
  obtain ⟨l, rfl⟩ := h
  rintro ⟨l', h'⟩
  have h0 := congrArg (fun l => l[4]?) h'
  have e1 : (cDir ++ l')[4]? = some 95 := rfl
  have e2 : (rustDir ++ l)[4]? = some 95 := rfl
  have h1 := congrArg (fun l => l[5]?) h'
  have e3 : (cDir ++ l')[5]? = some 98 := rfl
  have e4 : (rustDir ++ l)[5]? = some 118 := rfl
  simp only [e3, e4] at h1
  exact absurd (Option.some.inj h1) (by decide)

theorem pop_not_checked {n : Nat} {name : Bytes → Bytes} (h : name ∈ checkedFiles n) :
    popFile rustDir ≠ name rustDir := by
  have hp := startsP_pop rustDir
  rcases List.mem_cons.1 h with rfl | h
  · exact (pk_ne_pop _).symm
  · rcases List.mem_append.1 h with h | h
    · obtain ⟨i, _, h⟩ := List.mem_flatMap.1 h
      obtain ⟨a, b, -, -⟩ := hp.ne 0 i
      rcases List.mem_cons.1 h with rfl | h
      · exact a.symm
      · rw [List.mem_singleton.1 h]; exact b.symm
    · obtain ⟨i, _, h⟩ := List.mem_flatMap.1 h
      obtain ⟨-, -, a, b⟩ := hp.ne (tri (i - 1)) (tri i)
      rcases List.mem_cons.1 h with rfl | h
      · exact a.symm
      · rw [List.mem_singleton.1 h]; exact b.symm

theorem checked_form {n : Nat} {name : Bytes → Bytes} (h : name ∈ checkedFiles n) :
    ∃ s, ∀ dir, name dir = dir ++ s := by
  rcases List.mem_cons.1 h with rfl | h
  · exact ⟨_, fun _ => rfl⟩
  · rcases List.mem_append.1 h with h | h
    · obtain ⟨i, _, h⟩ := List.mem_flatMap.1 h
      rcases List.mem_cons.1 h with rfl | h
      · exact ⟨_, fun _ => rfl⟩
      · rw [List.mem_singleton.1 h]; exact ⟨_, fun _ => rfl⟩
    · obtain ⟨i, _, h⟩ := List.mem_flatMap.1 h
      rcases List.mem_cons.1 h with rfl | h
      · exact ⟨_, fun _ => rfl⟩
      · rw [List.mem_singleton.1 h]; exact ⟨_, fun _ => rfl⟩

end Pixel.Vectors
