import Verif.Spec.Io
import Verif.Proof.Serdes

/-!
# Lemmas about arbitrary readers and writers
-/

namespace Pixel

open Spec

set_option linter.unusedSectionVars false

variable {G1 G2 GT : Type} [AddCommGroup G1] [AddCommGroup G2] [CommGroup GT]

/-! ### what readers deliver -/

theorem delivered_data {b : Bytes} (h : b ≠ []) (r : Reader) :
    delivered (.data b :: r) = b ++ delivered r := by
  cases b with
  | nil => exact absurd rfl h
  | cons b bs => rfl

/-- the loop of `read_exact`, one call of `read` at a time -/
theorem readExactR_step (n : Nat) (r : Reader) :
    readExactR (n + 1) r = match Reader.read (n + 1) r with
      | (.ok b, r') =>
        if b = [] then (.err .eof, r')
        else match readExactR (n + 1 - b.length) r' with
          | (.ok b', r'') => (.ok (b ++ b'), r'')
          | (.err e, r'') => (.err e, r'')
          | (.panic p, r'') => (.panic p, r'')
      | (.interrupted, r') => readExactR (n + 1) r'
      | (.failed, r') => (.err .io, r') := by
  cases r with
  | nil => rfl
  | cons s r =>
    cases s with
    | data b =>
      by_cases hb : b = []
      · subst hb; rfl
      · simp only [readExactR, readExactR.loop, Reader.read, if_neg hb]
        have hb' : b.take (n + 1) ≠ [] := by
          cases b with
          | nil => exact absurd rfl hb
          | cons x xs => simp
        rw [if_neg hb']
        by_cases hl : n + 1 < b.length
        · have e1 : (b.take (n + 1)).length = n + 1 := by simp; omega
          rw [if_pos hl, if_neg (by omega), e1, Nat.sub_self]
          simp [readExactR.loop]
        · rw [if_neg hl, if_pos (by omega), List.take_of_length_le (by omega)]
          rcases readExactR.loop (n + 1 - b.length) r with ⟨x, y⟩
          cases x <;> rfl
    | interrupted => rfl
    | fail => rfl

/-- closure of a class of readers under reading -/
def Closed (Q : ReadStep → Prop) : Prop := ∀ b : Bytes, b ≠ [] → Q (.data b)

/-- both directions, keeping track of the class of the reader -/
def SoundOn {α : Type} (Q : ReadStep → Prop) (p : SM Reader α) (q : SM Bytes α) : Prop :=
  ∀ r, (∀ s ∈ r, Q s) → ∀ a r', p r = (.ok a, r') →
    (∀ s ∈ r', Q s) ∧ q (delivered r) = (.ok a, delivered r')

/-- see `SoundOn` -/
def CompleteOn {α : Type} (Q : ReadStep → Prop) (p : SM Reader α) (q : SM Bytes α) : Prop :=
  ∀ r, (∀ s ∈ r, Q s) → ∀ a rest, q (delivered r) = (.ok a, rest) →
    ∃ r', p r = (.ok a, r') ∧ (∀ s ∈ r', Q s) ∧ delivered r' = rest

variable {Q : ReadStep → Prop}

theorem SoundOn.pure {α : Type} (a : α) : SoundOn Q (pure a) (pure a) := by
  intro r hr a' r' h
  obtain ⟨h1, h2⟩ := Prod.mk.inj h
  have h1 := Res.ok.inj h1
  subst h1 h2
  exact ⟨hr, rfl⟩

theorem CompleteOn.pure {α : Type} (a : α) : CompleteOn Q (pure a) (pure a) := by
  intro r hr a' rest h
  obtain ⟨h1, h2⟩ := Prod.mk.inj h
  have h1 := Res.ok.inj h1
  subst h1 h2
  exact ⟨r, rfl, hr, rfl⟩

theorem SoundOn.err {α : Type} (e : Err) (q : SM Bytes α) : SoundOn Q (SM.err e) q := by
  intro r _ a r' h
  cases (Prod.mk.inj h).1

theorem CompleteOn.err {α : Type} (e : Err) (p : SM Reader α) : CompleteOn Q p (SM.err e) := by
  intro r _ a r' h
  cases (Prod.mk.inj h).1

theorem SoundOn.lift {α : Type} (x : Res α) : SoundOn Q (SM.lift x) (SM.lift x) := by
  intro r hr a' r' h
  obtain ⟨h1, h2⟩ := Prod.mk.inj h
  subst h1 h2
  exact ⟨hr, rfl⟩

theorem CompleteOn.lift {α : Type} (x : Res α) : CompleteOn Q (SM.lift x) (SM.lift x) := by
  intro r hr a' rest h
  obtain ⟨h1, h2⟩ := Prod.mk.inj h
  subst h1 h2
  exact ⟨r, rfl, hr, rfl⟩

theorem SoundOn.bind {α β : Type} {p : SM Reader α} {q : SM Bytes α} {f : α → SM Reader β}
    {g : α → SM Bytes β} (h : SoundOn Q p q) (hf : ∀ a, SoundOn Q (f a) (g a)) :
    SoundOn Q (p >>= f) (q >>= g) := by
  intro r hr b r'' hb
  obtain ⟨a, r', h1, h2⟩ := SM.bind_eq_ok.1 hb
  obtain ⟨hr', h3⟩ := h r hr a r' h1
  obtain ⟨hr'', h4⟩ := hf a r' hr' b r'' h2
  exact ⟨hr'', SM.bind_eq_ok.2 ⟨a, _, h3, h4⟩⟩

theorem CompleteOn.bind {α β : Type} {p : SM Reader α} {q : SM Bytes α} {f : α → SM Reader β}
    {g : α → SM Bytes β} (h : CompleteOn Q p q) (hf : ∀ a, CompleteOn Q (f a) (g a)) :
    CompleteOn Q (p >>= f) (q >>= g) := by
  intro r hr b rest hb
  obtain ⟨a, s', h1, h2⟩ := SM.bind_eq_ok.1 hb
  obtain ⟨r', h3, hr', rfl⟩ := h r hr a s' h1
  obtain ⟨r'', h4, hr'', h5⟩ := hf a r' hr' b rest h2
  exact ⟨r'', SM.bind_eq_ok.2 ⟨a, _, h3, h4⟩, hr'', h5⟩

theorem SoundOn.ite {α : Type} {c : Prop} [Decidable c] {p p' : SM Reader α} {q q' : SM Bytes α}
    (h : SoundOn Q p q) (h' : SoundOn Q p' q') :
    SoundOn Q (if c then p else p') (if c then q else q') := by
  by_cases hc : c
  · rw [if_pos hc, if_pos hc]; exact h
  · rw [if_neg hc, if_neg hc]; exact h'

theorem CompleteOn.ite {α : Type} {c : Prop} [Decidable c] {p p' : SM Reader α}
    {q q' : SM Bytes α} (h : CompleteOn Q p q) (h' : CompleteOn Q p' q') :
    CompleteOn Q (if c then p else p') (if c then q else q') := by
  by_cases hc : c
  · rw [if_pos hc, if_pos hc]; exact h
  · rw [if_neg hc, if_neg hc]; exact h'

/-! ### `read_exact` -/

theorem readExactR_zero (r : Reader) : readExactR 0 r = (.ok [], r) := by
  simp [readExactR, readExactR.loop]

theorem readExactR_interrupted (n : Nat) (r : Reader) :
    readExactR (n + 1) (.interrupted :: r) = readExactR (n + 1) r := rfl

theorem readExactR_data {n : Nat} {b : Bytes} (hb : b ≠ []) (r : Reader) :
    readExactR (n + 1) (.data b :: r) =
      if n + 1 < b.length then (.ok (b.take (n + 1)), .data (b.drop (n + 1)) :: r)
      else match readExactR (n + 1 - b.length) r with
        | (.ok b', r') => (.ok (b ++ b'), r')
        | (.err e, r') => (.err e, r')
        | (.panic p, r') => (.panic p, r') := by
  simp only [readExactR, readExactR.loop, if_neg hb]
  rcases readExactR.loop (n + 1 - b.length) r with ⟨x, y⟩
  cases x <;> rfl

theorem readExactR_ok (hQ : Closed Q) : ∀ (r : Reader) (n : Nat), (∀ s ∈ r, Q s) → ∀ b r',
    readExactR n r = (.ok b, r') →
      (∀ s ∈ r', Q s) ∧ b.length = n ∧ delivered r = b ++ delivered r' := by
  intro r
  induction r with
  | nil =>
    intro n _ b r' h
    cases n with
    | zero =>
      rw [readExactR_zero] at h
      obtain ⟨h1, h2⟩ := Prod.mk.inj h
      have h1 := Res.ok.inj h1
      subst h1 h2
      exact ⟨by simp, rfl, rfl⟩
    | succ n => cases (Prod.mk.inj h).1
  | cons s r ih =>
    intro n hs b r' h
    cases n with
    | zero =>
      rw [readExactR_zero] at h
      obtain ⟨h1, h2⟩ := Prod.mk.inj h
      have h1 := Res.ok.inj h1
      subst h1 h2
      exact ⟨hs, rfl, rfl⟩
    | succ n =>
      have hr : ∀ s ∈ r, Q s := fun s' h' => hs s' (List.mem_cons_of_mem _ h')
      cases s with
      | interrupted => exact ih (n + 1) hr b r' h
      | fail => cases (Prod.mk.inj h).1
      | data d =>
        by_cases hd : d = []
        · subst hd; cases (Prod.mk.inj h).1
        · rw [readExactR_data hd] at h
          rw [delivered_data hd]
          by_cases hl : n + 1 < d.length
          · rw [if_pos hl] at h
            obtain ⟨h1, h2⟩ := Prod.mk.inj h
            have h1 := Res.ok.inj h1
            subst h1 h2
            have hne : d.drop (n + 1) ≠ [] := by
              intro h0
              have := congrArg List.length h0
              simp at this
              omega
            refine ⟨?_, by simp; omega, ?_⟩
            · intro s' h'
              rcases List.mem_cons.1 h' with rfl | h'
              · exact hQ _ hne
              · exact hr _ h'
            · rw [delivered_data hne, ← List.append_assoc, List.take_append_drop]
          · rw [if_neg hl] at h
            rcases h0 : readExactR (n + 1 - d.length) r with ⟨x, y⟩
            rw [h0] at h
            cases x with
            | ok b' =>
              obtain ⟨h1, h2⟩ := Prod.mk.inj h
              have h1 := Res.ok.inj h1
              subst h1 h2
              obtain ⟨i1, i2, i3⟩ := ih _ hr _ _ h0
              exact ⟨i1, by simp; omega, by rw [i3, List.append_assoc]⟩
            | err e => cases (Prod.mk.inj h).1
            | panic p => cases (Prod.mk.inj h).1

theorem readExactR_complete (hQ : Closed Q) : ∀ (r : Reader) (n : Nat), (∀ s ∈ r, Q s) →
    n ≤ (delivered r).length → ∃ r', readExactR n r = (.ok ((delivered r).take n), r') ∧
      (∀ s ∈ r', Q s) ∧ delivered r' = (delivered r).drop n := by
  intro r
  induction r with
  | nil =>
    intro n _ h
    have h0 : n = 0 := by simpa [delivered] using h
    subst h0
    exact ⟨[], rfl, by simp, rfl⟩
  | cons s r ih =>
    intro n hs h
    cases n with
    | zero => exact ⟨s :: r, readExactR_zero _, hs, rfl⟩
    | succ n =>
      have hr : ∀ s ∈ r, Q s := fun s' h' => hs s' (List.mem_cons_of_mem _ h')
      cases s with
      | interrupted => exact ih (n + 1) hr h
      | fail => simp [delivered] at h
      | data d =>
        by_cases hd : d = []
        · subst hd; simp [delivered] at h
        · rw [delivered_data hd] at h ⊢
          rw [readExactR_data hd]
          rw [List.length_append] at h
          by_cases hl : n + 1 < d.length
          · have hne : d.drop (n + 1) ≠ [] := by
              intro h0
              have := congrArg List.length h0
              simp at this
              omega
            rw [if_pos hl, List.take_append_of_le_length (by omega),
              List.drop_append_of_le_length (by omega)]
            refine ⟨_, rfl, ?_, delivered_data hne r⟩
            intro s' h'
            rcases List.mem_cons.1 h' with rfl | h'
            · exact hQ _ hne
            · exact hr _ h'
          · obtain ⟨r', h1, h2, h3⟩ := ih (n + 1 - d.length) hr (by omega)
            rw [if_neg hl, h1]
            refine ⟨r', ?_, h2, ?_⟩
            · rw [List.take_append, List.take_of_length_le (i := n + 1) (l := d) (by omega)]
            · rw [h3, List.drop_append, List.drop_of_length_le (l := d) (by omega), List.nil_append]

theorem readExactR_sound (hQ : Closed Q) (n : Nat) : SoundOn Q (readExactR n) (readExact n) := by
  intro r hr b r' h
  obtain ⟨h1, h2, h3⟩ := readExactR_ok hQ r n hr b r' h
  refine ⟨h1, ?_⟩
  rw [h3]
  exact readExact_eq h2

theorem readExactR_completeOn (hQ : Closed Q) (n : Nat) :
    CompleteOn Q (readExactR n) (readExact n) := by
  intro r hr b rest h
  obtain ⟨h1, h2⟩ := readExact_ok.1 h
  obtain ⟨r', h3, h4, h5⟩ := readExactR_complete hQ r n hr (by rw [h2]; simp; omega)
  rw [h2, List.take_left' h1] at h3
  rw [h2, List.drop_left' h1] at h5
  exact ⟨r', h3, h4, h5⟩

/-! ### point decoders -/

theorem decR_sound (hQ : Closed Q) {α : Type} {len : Nat} {dec : SM Bytes α} {enc : α → Bytes}
    {P : α → Prop} (hlen : ∀ a, (enc a).length = len)
    (hcan : ∀ inp a rest, dec inp = (.ok a, rest) → inp = enc a ++ rest ∧ P a)
    (henc : ∀ a rest, P a → dec (enc a ++ rest) = (.ok a, rest)) :
    SoundOn Q (decR len dec) dec := by
  intro r hr a r' h
  unfold decR at h
  obtain ⟨b, r1, h1, h2⟩ := SM.bind_eq_ok.1 h
  obtain ⟨h3, h4⟩ := Prod.mk.inj h2
  obtain ⟨i1, i2, i3⟩ := readExactR_ok hQ r len hr b r1 h1
  subst h4
  rcases h5 : dec b with ⟨x, rest⟩
  rw [h5] at h3
  simp only at h3
  subst h3
  obtain ⟨h6, h7⟩ := hcan _ _ _ h5
  have h8 : rest = [] := by
    have := congrArg List.length h6
    rw [List.length_append, hlen, i2] at this
    exact List.length_eq_zero_iff.1 (by omega)
  rw [h8, List.append_nil] at h6
  exact ⟨i1, by rw [i3, h6, henc a _ h7]⟩

theorem decR_complete (hQ : Closed Q) {α : Type} {len : Nat} {dec : SM Bytes α} {enc : α → Bytes}
    {P : α → Prop} (hlen : ∀ a, (enc a).length = len)
    (hcan : ∀ inp a rest, dec inp = (.ok a, rest) → inp = enc a ++ rest ∧ P a)
    (henc : ∀ a rest, P a → dec (enc a ++ rest) = (.ok a, rest)) :
    CompleteOn Q (decR len dec) dec := by
  intro r hr a rest h
  obtain ⟨h1, h2⟩ := hcan _ _ _ h
  obtain ⟨r', h3, h4, h5⟩ := readExactR_complete hQ r len hr (by rw [h1]; simp [hlen])
  rw [h1, List.take_left' (hlen a)] at h3
  rw [h1, List.drop_left' (hlen a)] at h5
  refine ⟨r', ?_, h4, h5⟩
  unfold decR
  rw [SM.bind_run_ok h3]
  have := henc a [] h2
  rw [List.append_nil] at this
  simp [this]

theorem decR1_sound (hQ : Closed Q) {E : Ext G1 G2 GT} (C : CodecLaws E) (c : Bool) :
    SoundOn Q (decR1 E c) (E.decG1 c) :=
  decR_sound hQ (enc := E.encG1 c) (C.enc1_len c) (C.dec1_canon c) (fun a rest => C.dec1_enc c a rest)

theorem decR2_sound (hQ : Closed Q) {E : Ext G1 G2 GT} (C : CodecLaws E) (c : Bool) :
    SoundOn Q (decR2 E c) (E.decG2 c) :=
  decR_sound hQ (enc := E.encG2 c) (C.enc2_len c) (C.dec2_canon c) (fun a rest => C.dec2_enc c a rest)

theorem decR1_complete (hQ : Closed Q) {E : Ext G1 G2 GT} (C : CodecLaws E) (c : Bool) :
    CompleteOn Q (decR1 E c) (E.decG1 c) :=
  decR_complete hQ (enc := E.encG1 c) (C.enc1_len c) (C.dec1_canon c)
    (fun a rest => C.dec1_enc c a rest)

theorem decR2_complete (hQ : Closed Q) {E : Ext G1 G2 GT} (C : CodecLaws E) (c : Bool) :
    CompleteOn Q (decR2 E c) (E.decG2 c) :=
  decR_complete hQ (enc := E.encG2 c) (C.enc2_len c) (C.dec2_canon c)
    (fun a rest => C.dec2_enc c a rest)

theorem readManyR_sound {α : Type} {p : SM Reader α} {q : SM Bytes α} (h : SoundOn Q p q)
    (n : Nat) : SoundOn Q (readManyR p n) (readMany q n) := by
  induction n with
  | zero => exact .pure _
  | succ n ih => exact h.bind fun _ => ih.bind fun _ => .pure _

theorem readManyR_complete {α : Type} {p : SM Reader α} {q : SM Bytes α} (h : CompleteOn Q p q)
    (n : Nat) : CompleteOn Q (readManyR p n) (readMany q n) := by
  induction n with
  | zero => exact .pure _
  | succ n ih => exact h.bind fun _ => ih.bind fun _ => .pure _

/-! ### public objects -/

theorem PublicKey.deserializeR_sound (hQ : Closed Q) {E : Ext G1 G2 GT} (C : CodecLaws E)
    (c : Bool) : SoundOn Q (PublicKey.deserializeR E c) (PublicKey.deserialize E c) :=
  (readExactR_sound hQ 1).bind fun _ => (SoundOn.lift _).bind fun _ =>
    .ite (.err _ _) ((decR2_sound hQ C c).bind fun _ => .pure _)

theorem PublicKey.deserializeR_complete (hQ : Closed Q) {E : Ext G1 G2 GT} (C : CodecLaws E)
    (c : Bool) : CompleteOn Q (PublicKey.deserializeR E c) (PublicKey.deserialize E c) :=
  (readExactR_completeOn hQ 1).bind fun _ => (CompleteOn.lift _).bind fun _ =>
    .ite (.err _ _) ((decR2_complete hQ C c).bind fun _ => .pure _)

theorem ProofOfPossession.deserializeR_sound (hQ : Closed Q) {E : Ext G1 G2 GT} (C : CodecLaws E)
    (c : Bool) :
    SoundOn Q (ProofOfPossession.deserializeR E c) (ProofOfPossession.deserialize E c) :=
  (readExactR_sound hQ 1).bind fun _ => (SoundOn.lift _).bind fun _ =>
    .ite (.err _ _) ((decR1_sound hQ C c).bind fun _ => .pure _)

theorem ProofOfPossession.deserializeR_complete (hQ : Closed Q) {E : Ext G1 G2 GT}
    (C : CodecLaws E) (c : Bool) :
    CompleteOn Q (ProofOfPossession.deserializeR E c) (ProofOfPossession.deserialize E c) :=
  (readExactR_completeOn hQ 1).bind fun _ => (CompleteOn.lift _).bind fun _ =>
    .ite (.err _ _) ((decR1_complete hQ C c).bind fun _ => .pure _)

theorem Signature.deserializeR_sound (hQ : Closed Q) {E : Ext G1 G2 GT} (C : CodecLaws E)
    (c : Bool) : SoundOn Q (Signature.deserializeR E c) (Signature.deserialize E c) :=
  (readExactR_sound hQ 1).bind fun _ => (readExactR_sound hQ 4).bind fun _ =>
    .ite (.err _ _) ((SoundOn.lift _).bind fun _ =>
      .ite (.err _ _) ((decR2_sound hQ C c).bind fun _ =>
        .ite (.err _ _) ((decR1_sound hQ C c).bind fun _ => .ite (.err _ _) (.pure _))))

theorem Signature.deserializeR_complete (hQ : Closed Q) {E : Ext G1 G2 GT} (C : CodecLaws E)
    (c : Bool) : CompleteOn Q (Signature.deserializeR E c) (Signature.deserialize E c) :=
  (readExactR_completeOn hQ 1).bind fun _ => (readExactR_completeOn hQ 4).bind fun _ =>
    .ite (.err _ _) ((CompleteOn.lift _).bind fun _ =>
      .ite (.err _ _) ((decR2_complete hQ C c).bind fun _ =>
        .ite (.err _ _) ((decR1_complete hQ C c).bind fun _ => .ite (.err _ _) (.pure _))))

/-! ### keys -/

/-- steps other than `Ok(0)` -/
def notEmpty (s : ReadStep) : Prop := s ≠ .data []

/-- steps other than `Ok(0)` and interruptions -/
def smooth (s : ReadStep) : Prop := s ≠ .data [] ∧ s ≠ .interrupted

theorem notEmpty_closed : Closed notEmpty := fun b hb h => hb (by injection h)

theorem smooth_closed : Closed smooth := fun b hb => ⟨fun h => hb (by injection h), nofun⟩

theorem readByteLaxR_sound (hQ : Closed Q) (hne : ∀ s, Q s → s ≠ .data []) :
    SoundOn Q readByteLaxR readByteLax := by
  intro r hr a r' h
  cases r with
  | nil =>
    obtain ⟨h1, h2⟩ := Prod.mk.inj h
    have h1 := Res.ok.inj h1
    subst h1 h2
    exact ⟨hr, rfl⟩
  | cons s r =>
    have hr' : ∀ s ∈ r, Q s := fun s' h' => hr s' (List.mem_cons_of_mem _ h')
    cases s with
    | interrupted => cases (Prod.mk.inj h).1
    | fail => cases (Prod.mk.inj h).1
    | data d =>
      cases d with
      | nil => exact absurd rfl (hne _ (hr _ (List.mem_cons_self ..)))
      | cons x xs =>
        obtain ⟨h1, h2⟩ := Prod.mk.inj h
        have h1 := Res.ok.inj h1
        cases xs with
        | nil =>
          simp at h1 h2
          subst h1 h2
          exact ⟨hr', rfl⟩
        | cons y ys =>
          simp at h1 h2
          subst h1 h2
          refine ⟨?_, rfl⟩
          intro s' h'
          rcases List.mem_cons.1 h' with rfl | h'
          · exact hQ _ (by simp)
          · exact hr' _ h'

theorem readByteLaxR_complete (hQ : Closed Q) (hs : ∀ s, Q s → smooth s) {β : Type}
    {f : UInt8 → SM Reader β} {g : UInt8 → SM Bytes β} (hf : ∀ a, CompleteOn Q (f a) (g a))
    (hg : ∀ a b rest, g a [] ≠ (.ok b, rest)) :
    CompleteOn Q (readByteLaxR >>= f) (readByteLax >>= g) := by
  intro r hr b rest h
  obtain ⟨a, s', h1, h2⟩ := SM.bind_eq_ok.1 h
  cases r with
  | nil =>
    obtain ⟨_, rfl⟩ := Prod.mk.inj h1
    exact absurd h2 (hg _ _ _)
  | cons s r =>
    have hr' : ∀ s ∈ r, Q s := fun s' h' => hr s' (List.mem_cons_of_mem _ h')
    have hsm := hs _ (hr s (List.mem_cons_self ..))
    cases s with
    | interrupted => exact absurd rfl hsm.2
    | fail =>
      obtain ⟨_, rfl⟩ := Prod.mk.inj h1
      exact absurd h2 (hg _ _ _)
    | data d =>
      cases d with
      | nil => exact absurd rfl hsm.1
      | cons x xs =>
        obtain ⟨h3, rfl⟩ := Prod.mk.inj h1
        have h3 := Res.ok.inj h3
        subst h3
        have hrun : ∃ r1, readByteLaxR (.data (x :: xs) :: r) = (.ok x, r1) ∧ (∀ s ∈ r1, Q s) ∧
            delivered r1 = xs ++ delivered r := by
          cases xs with
          | nil => exact ⟨r, rfl, hr', rfl⟩
          | cons y ys =>
            refine ⟨.data (y :: ys) :: r, by simp [readByteLaxR, Reader.read], ?_, rfl⟩
            intro s' h'
            rcases List.mem_cons.1 h' with rfl | h'
            · exact hQ _ (by simp)
            · exact hr' _ h'
        obtain ⟨r1, k1, k2, k3⟩ := hrun
        obtain ⟨r2, k4, k5, k6⟩ := hf x r1 k2 b rest (by rw [k3]; exact h2)
        exact ⟨r2, by rw [SM.bind_run_ok k1]; exact k4, k5, k6⟩

theorem SubSecretKey.deserializeR_sound (hQ : Closed Q) (hne : ∀ s, Q s → s ≠ .data [])
    {E : Ext G1 G2 GT} (C : CodecLaws E) (c : Bool) :
    SoundOn Q (SubSecretKey.deserializeR E c) (SubSecretKey.deserialize E c) :=
  (readExactR_sound hQ 4).bind fun _ => .ite (.err _ _)
    ((readByteLaxR_sound hQ hne).bind fun _ => (decR2_sound hQ C c).bind fun _ =>
      (decR1_sound hQ C c).bind fun _ =>
        (readManyR_sound (decR1_sound hQ C c) _).bind fun _ => .pure _)

theorem dec2_nil {E : Ext G1 G2 GT} (C : CodecLaws E) (c : Bool) (a : G2) (rest : Bytes) :
    E.decG2 c [] ≠ (.ok a, rest) := by
  intro h
  have h1 := congrArg List.length (C.dec2_canon _ _ _ _ h).1
  rw [List.length_append, C.enc2_len] at h1
  cases c <;> simp at h1 <;> omega

theorem SubSecretKey.deserializeR_complete (hQ : Closed Q) (hs : ∀ s, Q s → smooth s)
    {E : Ext G1 G2 GT} (C : CodecLaws E) (c : Bool) :
    CompleteOn Q (SubSecretKey.deserializeR E c) (SubSecretKey.deserialize E c) := by
  refine (readExactR_completeOn hQ 4).bind fun _ => .ite (.err _ _)
    (readByteLaxR_complete hQ hs (fun _ => (decR2_complete hQ C c).bind fun _ =>
      (decR1_complete hQ C c).bind fun _ =>
        (readManyR_complete (decR1_complete hQ C c) _).bind fun _ => .pure _) ?_)
  intro a b rest h
  obtain ⟨x, s', h1, _⟩ := SM.bind_eq_ok.1 h
  exact dec2_nil C c _ _ h1

theorem SecretKey.deserializeR_sound (hQ : Closed Q) (hne : ∀ s, Q s → s ≠ .data [])
    {E : Ext G1 G2 GT} (C : CodecLaws E) (c : Bool) :
    SoundOn Q (SecretKey.deserializeR E c) (SecretKey.deserialize E c) :=
  (readExactR_sound hQ 2).bind fun _ => (readExactR_sound hQ 64).bind fun _ =>
    (SoundOn.lift _).bind fun _ => .ite (.err _ _) ((SoundOn.lift _).bind fun _ =>
      .ite (.err _ _) ((SubSecretKey.deserializeR_sound hQ hne C c).bind fun _ =>
        (readManyR_sound (SubSecretKey.deserializeR_sound hQ hne C c) _).bind fun _ =>
          (SoundOn.lift _).bind fun _ => .pure _))

theorem SecretKey.deserializeR_complete (hQ : Closed Q) (hs : ∀ s, Q s → smooth s)
    {E : Ext G1 G2 GT} (C : CodecLaws E) (c : Bool) :
    CompleteOn Q (SecretKey.deserializeR E c) (SecretKey.deserialize E c) :=
  (readExactR_completeOn hQ 2).bind fun _ => (readExactR_completeOn hQ 64).bind fun _ =>
    (CompleteOn.lift _).bind fun _ => .ite (.err _ _) ((CompleteOn.lift _).bind fun _ =>
      .ite (.err _ _) ((SubSecretKey.deserializeR_complete hQ hs C c).bind fun _ =>
        (readManyR_complete (SubSecretKey.deserializeR_complete hQ hs C c) _).bind fun _ =>
          (CompleteOn.lift _).bind fun _ => .pure _))

/-! ### where an interruption matters -/

theorem readExactR_quiet : ∀ (r : Reader) (n : Nat), (∀ s ∈ r, notEmpty s) →
    n ≤ (delivered r).length → ∃ r', readExactR n r = (.ok ((delivered r).take n), r') ∧
      (∀ s ∈ r', notEmpty s) ∧ delivered r' = (delivered r).drop n ∧
      (QuietAt n r ↔ ∀ t, r' ≠ .interrupted :: t) := by
  intro r
  induction r with
  | nil =>
    intro n _ h
    have h0 : n = 0 := by simpa [delivered] using h
    subst h0
    exact ⟨[], rfl, by simp, rfl, by simp [QuietAt]⟩
  | cons s r ih =>
    intro n hs h
    have hr : ∀ s ∈ r, notEmpty s := fun s' h' => hs s' (List.mem_cons_of_mem _ h')
    cases n with
    | zero =>
      refine ⟨s :: r, readExactR_zero _, hs, rfl, ?_⟩
      cases s with
      | interrupted => simp [QuietAt]
      | fail => simp [QuietAt]
      | data d =>
        have hd : d ≠ [] := fun h0 => hs _ (List.mem_cons_self ..) (by rw [h0])
        simp [QuietAt, List.length_pos_iff.2 hd]
    | succ n =>
      cases s with
      | interrupted =>
        obtain ⟨r', h1, h2, h3, h4⟩ := ih (n + 1) hr h
        exact ⟨r', h1, h2, h3, by simpa [QuietAt] using h4⟩
      | fail => simp [delivered] at h
      | data d =>
        have hd : d ≠ [] := fun h0 => hs _ (List.mem_cons_self ..) (by rw [h0])
        rw [delivered_data hd] at h ⊢
        rw [readExactR_data hd]
        rw [List.length_append] at h
        by_cases hl : n + 1 < d.length
        · have hne : d.drop (n + 1) ≠ [] := by
            intro h0
            have := congrArg List.length h0
            simp at this
            omega
          rw [if_pos hl, List.take_append_of_le_length (by omega),
            List.drop_append_of_le_length (by omega)]
          refine ⟨_, rfl, ?_, delivered_data hne r, ?_⟩
          · intro s' h'
            rcases List.mem_cons.1 h' with rfl | h'
            · exact notEmpty_closed _ hne
            · exact hr _ h'
          · simp [QuietAt, hl]
        · obtain ⟨r', h1, h2, h3, h4⟩ := ih (n + 1 - d.length) hr (by omega)
          rw [if_neg hl, h1]
          refine ⟨r', ?_, h2, ?_, ?_⟩
          · rw [List.take_append, List.take_of_length_le (i := n + 1) (l := d) (by omega)]
          · rw [h3, List.drop_append, List.drop_of_length_le (l := d) (by omega), List.nil_append]
          · rw [← h4]
            simp [QuietAt, hl]

theorem readByteLaxR_head {r : Reader} (hr : ∀ s ∈ r, notEmpty s) {x : UInt8} {rest : Bytes}
    (hd : delivered r = x :: rest) (hq : ∀ t, r ≠ .interrupted :: t) :
    ∃ r', readByteLaxR r = (.ok x, r') ∧ (∀ s ∈ r', notEmpty s) ∧ delivered r' = rest := by
  cases r with
  | nil => cases hd
  | cons s r =>
    have hr' : ∀ s ∈ r, notEmpty s := fun s' h' => hr s' (List.mem_cons_of_mem _ h')
    cases s with
    | interrupted => exact absurd rfl (hq r)
    | fail => cases hd
    | data d =>
      cases d with
      | nil => exact absurd rfl (hr _ (List.mem_cons_self ..))
      | cons y ys =>
        obtain ⟨rfl, rfl⟩ := List.cons.inj hd
        cases ys with
        | nil => exact ⟨r, rfl, hr', rfl⟩
        | cons z zs =>
          refine ⟨.data (z :: zs) :: r, by simp [readByteLaxR, Reader.read], ?_, rfl⟩
          intro s' h'
          rcases List.mem_cons.1 h' with rfl | h'
          · exact notEmpty_closed _ (by simp)
          · exact hr' _ h'

theorem SubSecretKey.deserializeR_quiet {E : Ext G1 G2 GT} (C : CodecLaws E) (c : Bool)
    {r : Reader} (hr : ∀ s ∈ r, notEmpty s) {s : SubSecretKey G1 G2} {rest : Bytes}
    (h : SubSecretKey.deserialize E c (delivered r) = (.ok s, rest)) :
    (QuietAt 4 r → ∃ r', SubSecretKey.deserializeR E c r = (.ok s, r') ∧ (∀ s ∈ r', notEmpty s) ∧
      delivered r' = rest) ∧
    (¬ QuietAt 4 r → (SubSecretKey.deserializeR E c r).1 = .err .deserial) := by
  unfold SubSecretKey.deserialize at h
  obtain ⟨tb, s1, h1, h2⟩ := SM.bind_eq_ok.1 h
  obtain ⟨hl, hd⟩ := readExact_ok.1 h1
  obtain ⟨r1, e1, n1, d1, q1⟩ := readExactR_quiet r 4 hr (by rw [hd]; simp; omega)
  rw [hd, List.take_left' hl] at e1
  rw [hd, List.drop_left' hl] at d1
  by_cases ht : beNat tb = 0
  · simp only [if_pos ht] at h2
    cases (Prod.mk.inj h2).1
  simp only [if_neg ht] at h2
  obtain ⟨hv, s2, h3, h4⟩ := SM.bind_eq_ok.1 h2
  unfold SubSecretKey.deserializeR
  rw [SM.bind_run_ok e1]
  simp only [if_neg ht]
  constructor
  · intro hq
    have hs1 : s1 = hv :: s2 := by
      cases s1 with
      | nil =>
        obtain ⟨_, rfl⟩ := Prod.mk.inj h3
        obtain ⟨x, s', h5, _⟩ := SM.bind_eq_ok.1 h4
        exact absurd h5 (dec2_nil C c _ _)
      | cons y ys =>
        obtain ⟨h5, rfl⟩ := Prod.mk.inj h3
        rw [Res.ok.inj h5]
    obtain ⟨r2, e2, n2, d2⟩ := readByteLaxR_head n1 (d1.trans hs1) (q1.1 hq)
    rw [SM.bind_run_ok e2]
    have hf : CompleteOn notEmpty _ _ := (decR2_complete notEmpty_closed C c).bind fun g2r =>
      (decR1_complete notEmpty_closed C c).bind fun hpoly =>
        (readManyR_complete (decR1_complete notEmpty_closed C c) hv.toNat).bind fun l =>
          .pure (SubSecretKey.mk (beNat tb) g2r hpoly l)
    exact hf r2 n2 s rest (by rw [d2]; exact h4)
  · intro hq
    have : ∃ t, r1 = .interrupted :: t := by
      by_contra h0
      exact hq (q1.2 fun t ht => h0 ⟨t, ht⟩)
    obtain ⟨t, rfl⟩ := this
    rfl

/-! ### plain readers followed by something -/

theorem delivered_plain {r : Reader} (h : Plain r) : delivered r = allBytes r := by
  induction r with
  | nil => rfl
  | cons s r ih =>
    obtain ⟨b, hb, rfl⟩ := h s (List.mem_cons_self ..)
    rw [delivered_data hb, ih fun s' h' => h s' (List.mem_cons_of_mem _ h')]
    rfl

/-- `read_exact` takes what it needs from a plain beginning and leaves the rest. -/
theorem readExactR_plain : ∀ (r : Reader), Plain r → ∀ (n : Nat), n ≤ (delivered r).length →
    ∃ r', Plain r' ∧ delivered r' = (delivered r).drop n ∧
      ∀ t, readExactR n (r ++ t) = (.ok ((delivered r).take n), r' ++ t) := by
  intro r
  induction r with
  | nil =>
    intro _ n h
    have h0 : n = 0 := by simpa [delivered] using h
    subst h0
    exact ⟨[], by simp [Plain], rfl, fun t => readExactR_zero t⟩
  | cons s r ih =>
    intro hp n h
    have hr : Plain r := fun s' h' => hp s' (List.mem_cons_of_mem _ h')
    cases n with
    | zero => exact ⟨s :: r, hp, rfl, fun t => readExactR_zero _⟩
    | succ n =>
      obtain ⟨d, hd, rfl⟩ := hp s (List.mem_cons_self ..)
      rw [delivered_data hd] at h ⊢
      rw [List.length_append] at h
      by_cases hl : n + 1 < d.length
      · have hne : d.drop (n + 1) ≠ [] := by
          intro h0
          have := congrArg List.length h0
          simp at this
          omega
        refine ⟨.data (d.drop (n + 1)) :: r, ?_, ?_, fun t => ?_⟩
        · intro s' h'
          rcases List.mem_cons.1 h' with rfl | h'
          · exact ⟨_, hne, rfl⟩
          · exact hr _ h'
        · rw [delivered_data hne, List.drop_append_of_le_length (by omega)]
        · rw [List.cons_append, readExactR_data hd, if_pos hl,
            List.take_append_of_le_length (by omega)]
          rfl
      · obtain ⟨r', h1, h2, h3⟩ := ih hr (n + 1 - d.length) (by omega)
        refine ⟨r', h1, ?_, fun t => ?_⟩
        · rw [h2, List.drop_append, List.drop_of_length_le (l := d) (by omega), List.nil_append]
        · rw [List.cons_append, readExactR_data hd, if_neg hl, h3 t, List.take_append,
            List.take_of_length_le (i := n + 1) (l := d) (by omega)]

/-- all of a plain beginning -/
theorem readExactR_all {r : Reader} (hp : Plain r) {n : Nat} (h : (delivered r).length = n)
    (t : Reader) : readExactR n (r ++ t) = (.ok (delivered r), t) := by
  obtain ⟨r', h1, h2, h3⟩ := readExactR_plain r hp n (by omega)
  rw [List.drop_of_length_le (by omega)] at h2
  have h0 : r' = [] := by
    cases r' with
    | nil => rfl
    | cons s l =>
      obtain ⟨b, hb, rfl⟩ := h1 s (List.mem_cons_self ..)
      rw [delivered_data hb] at h2
      exact absurd (List.append_eq_nil_iff.1 h2).1 hb
  rw [h3 t, h0, List.take_of_length_le (by omega)]
  rfl

/-! ### no panics -/

/-- reading never panics -/
def Calm {α : Type} (p : SM Reader α) : Prop := ∀ r, (p r).1.isPanic = false

theorem Calm.bind {α β : Type} {x : SM Reader α} {f : α → SM Reader β} (hx : Calm x)
    (hf : ∀ a, (∃ r r', x r = (.ok a, r')) → Calm (f a)) : Calm (x >>= f) := by
  intro s
  have h1 := hx s
  rw [SM.bind_run]
  rcases h : x s with ⟨r, s'⟩
  rw [h] at h1
  cases r with
  | ok a => exact hf a ⟨s, s', h⟩ s'
  | err e => rfl
  | panic p => exact h1

theorem Calm.pure {α : Type} (a : α) : Calm (pure a) := fun _ => rfl

theorem Calm.err {α : Type} (e : Err) : Calm (SM.err e : SM Reader α) := fun _ => rfl

theorem Calm.lift {α : Type} {x : Res α} (h : x.isPanic = false) : Calm (SM.lift x) := fun _ => h

theorem Calm.ite {α : Type} {c : Prop} [Decidable c] {x y : SM Reader α} (hx : Calm x)
    (hy : c ∨ Calm y) : Calm (if c then x else y) := by
  by_cases h : c
  · rw [if_pos h]; exact hx
  · rw [if_neg h]; exact hy.resolve_left h

theorem readExactR_calm (n : Nat) : Calm (readExactR n) := by
  intro r
  induction r generalizing n with
  | nil => cases n <;> rfl
  | cons s r ih =>
    cases n with
    | zero => rw [readExactR_zero]; rfl
    | succ n =>
      cases s with
      | interrupted => exact ih (n + 1)
      | fail => rfl
      | data d =>
        by_cases hd : d = []
        · subst hd; rfl
        · rw [readExactR_data hd]
          by_cases hl : n + 1 < d.length
          · rw [if_pos hl]; rfl
          · rw [if_neg hl]
            have := ih (n + 1 - d.length)
            rcases h0 : readExactR (n + 1 - d.length) r with ⟨x, y⟩
            rw [h0] at this
            cases x with
            | ok b => rfl
            | err e => rfl
            | panic p => cases this

theorem readExactR_length {n : Nat} {r r' : Reader} {b : Bytes}
    (h : readExactR n r = (.ok b, r')) : b.length = n :=
  (readExactR_ok (Q := fun _ => True) (fun _ _ => trivial) r n (fun _ _ => trivial) b r' h).2.1

theorem readByteLaxR_calm : Calm readByteLaxR := by
  intro r
  cases r with
  | nil => rfl
  | cons s r => cases s <;> rfl

theorem readManyR_calm {α : Type} {p : SM Reader α} (h : Calm p) (n : Nat) :
    Calm (readManyR p n) := by
  induction n with
  | zero => exact .pure _
  | succ n ih => exact h.bind fun _ _ => ih.bind fun _ _ => .pure _

theorem decR1_calm {E : Ext G1 G2 GT} (C : CodecLaws E) (c : Bool) : Calm (decR1 E c) :=
  (readExactR_calm _).bind fun _ _ => .lift (C.dec1_total c _)

theorem decR2_calm {E : Ext G1 G2 GT} (C : CodecLaws E) (c : Bool) : Calm (decR2 E c) :=
  (readExactR_calm _).bind fun _ _ => .lift (C.dec2_total c _)

theorem idx_calm {α : Type} {l : List α} {i : Nat} (h : i < l.length) :
    (idx l i).isPanic = false := by
  rw [idx_lt h]; rfl

theorem PublicKey.deserializeR_calm {E : Ext G1 G2 GT} (C : CodecLaws E) (c : Bool) :
    Calm (PublicKey.deserializeR E c) := by
  refine (readExactR_calm 1).bind fun b hb => ?_
  obtain ⟨_, _, hb⟩ := hb
  have hl := readExactR_length hb
  exact (Calm.lift (idx_calm (by omega))).bind fun _ _ => .ite (.err _)
    (.inr ((decR2_calm C c).bind fun _ _ => .pure _))

theorem ProofOfPossession.deserializeR_calm {E : Ext G1 G2 GT} (C : CodecLaws E) (c : Bool) :
    Calm (ProofOfPossession.deserializeR E c) := by
  refine (readExactR_calm 1).bind fun b hb => ?_
  obtain ⟨_, _, hb⟩ := hb
  have hl := readExactR_length hb
  exact (Calm.lift (idx_calm (by omega))).bind fun _ _ => .ite (.err _)
    (.inr ((decR1_calm C c).bind fun _ _ => .pure _))

theorem Signature.deserializeR_calm {E : Ext G1 G2 GT} (C : CodecLaws E) (c : Bool) :
    Calm (Signature.deserializeR E c) := by
  refine (readExactR_calm 1).bind fun b hb => ?_
  obtain ⟨_, _, hb⟩ := hb
  have hl := readExactR_length hb
  exact (readExactR_calm 4).bind fun _ _ => .ite (.err _)
    (.inr ((Calm.lift (idx_calm (by omega))).bind fun _ _ => .ite (.err _)
      (.inr ((decR2_calm C c).bind fun _ _ => .ite (.err _)
        (.inr ((decR1_calm C c).bind fun _ _ => .ite (.err _) (.inr (.pure _))))))))

theorem SubSecretKey.deserializeR_calm {E : Ext G1 G2 GT} (C : CodecLaws E) (c : Bool) :
    Calm (SubSecretKey.deserializeR E c) :=
  (readExactR_calm 4).bind fun _ _ => .ite (.err _)
    (.inr (readByteLaxR_calm.bind fun _ _ => (decR2_calm C c).bind fun _ _ =>
      (decR1_calm C c).bind fun _ _ => (readManyR_calm (decR1_calm C c) _).bind fun _ _ => .pure _))

theorem SecretKey.deserializeR_calm {E : Ext G1 G2 GT} (C : CodecLaws E) (c : Bool) :
    Calm (SecretKey.deserializeR E c) := by
  refine (readExactR_calm 2).bind fun b hb => ?_
  obtain ⟨_, _, hb⟩ := hb
  have hl := readExactR_length hb
  exact (readExactR_calm 64).bind fun _ _ => (Calm.lift (idx_calm (by omega))).bind fun _ _ =>
    .ite (.err _) (.inr ((Calm.lift (idx_calm (by omega))).bind fun _ _ => .ite (.err _)
      (.inr ((SubSecretKey.deserializeR_calm C c).bind fun _ _ =>
        (readManyR_calm (SubSecretKey.deserializeR_calm C c) _).bind fun _ _ =>
          (Calm.lift (idx_calm (by simp))).bind fun _ _ => .pure _))))

/-! ### writers -/

theorem writeAll_spec : ∀ (s : List WriteStep) (buf out : Bytes),
    (∃ s', writeAll buf ⟨s, out⟩ = (.ok (), ⟨s', out ++ buf⟩)) ∨
    ((∃ x ∈ s, x = .fail ∨ x = .take 0) ∧ ∃ s' k, k < buf.length ∧
      writeAll buf ⟨s, out⟩ = (.err .io, ⟨s', out ++ buf.take k⟩)) := by
  intro s
  induction s with
  | nil =>
    intro buf out
    left
    cases buf with
    | nil => exact ⟨[], by simp [writeAll, writeAll.loop]⟩
    | cons b buf => exact ⟨[], rfl⟩
  | cons x s ih =>
    intro buf out
    cases buf with
    | nil => exact .inl ⟨x :: s, by simp [writeAll, writeAll.loop]⟩
    | cons b buf =>
      cases x with
      | fail => exact .inr ⟨⟨_, List.mem_cons_self .., .inl rfl⟩, s, 0, by simp,
          by simp [writeAll, writeAll.loop]⟩
      | interrupted =>
        have h1 : writeAll (b :: buf) ⟨.interrupted :: s, out⟩ = writeAll (b :: buf) ⟨s, out⟩ := rfl
        rw [h1]
        rcases ih (b :: buf) out with h | ⟨⟨y, hy, hy'⟩, h⟩
        · exact .inl h
        · exact .inr ⟨⟨y, List.mem_cons_of_mem _ hy, hy'⟩, h⟩
      | take n =>
        by_cases hn : n = 0
        · subst hn
          exact .inr ⟨⟨_, List.mem_cons_self .., .inr rfl⟩, s, 0, by simp,
            by simp [writeAll, writeAll.loop]⟩
        · have h1 : writeAll (b :: buf) ⟨.take n :: s, out⟩ =
              writeAll ((b :: buf).drop n) ⟨s, out ++ (b :: buf).take n⟩ := by
            simp only [writeAll, writeAll.loop, if_neg hn]
          rw [h1]
          rcases ih ((b :: buf).drop n) (out ++ (b :: buf).take n) with
            ⟨s', h⟩ | ⟨⟨y, hy, hy'⟩, s', k, hk, h⟩
          · left
            refine ⟨s', ?_⟩
            rw [h, List.append_assoc, List.take_append_drop]
          · refine .inr ⟨⟨y, List.mem_cons_of_mem _ hy, hy'⟩, s', n + k, ?_, ?_⟩
            · rw [List.length_drop] at hk
              omega
            · rw [h, List.append_assoc, ← List.take_add]

end Pixel
