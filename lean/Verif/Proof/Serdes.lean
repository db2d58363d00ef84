import Verif.Proof.Verify
import Verif.Proof.History
import Verif.Model.Serdes
import Verif.Spec.Wire

/-! # Lemmas on serialisation -/

namespace Pixel

open Spec

set_option linter.unusedSectionVars false

variable {G1 G2 GT : Type} [AddCommGroup G1] [AddCommGroup G2] [CommGroup GT]

/-! ### readers -/

theorem SM.bind_eq_ok {σ α β : Type} {x : SM σ α} {f : α → SM σ β} {s s'' : σ} {b : β} :
    (x >>= f) s = (.ok b, s'') ↔ ∃ a s', x s = (.ok a, s') ∧ f a s' = (.ok b, s'') := by
  rw [SM.bind_run]
  rcases h : x s with ⟨r, s'⟩
  cases r with
  | ok a =>
    constructor
    · exact fun h' => ⟨a, s', rfl, h'⟩
    · rintro ⟨a', s1, h1, h2⟩
      cases h1
      exact h2
  | err e => simp
  | panic p => simp

/-- a reader that never panics -/
def NoPanic {α : Type} (p : SM Bytes α) : Prop := ∀ inp, (p inp).1.isPanic = false

theorem NoPanic.bind {α β : Type} {x : SM Bytes α} {f : α → SM Bytes β} (hx : NoPanic x)
    (hf : ∀ a, (∃ s s', x s = (.ok a, s')) → NoPanic (f a)) : NoPanic (x >>= f) := by
  intro s
  have h1 := hx s
  rw [SM.bind_run]
  rcases h : x s with ⟨r, s'⟩
  rw [h] at h1
  cases r with
  | ok a => exact hf a ⟨s, s', h⟩ s'
  | err e => rfl
  | panic p => exact h1

theorem NoPanic.pure {α : Type} (a : α) : NoPanic (pure a : SM Bytes α) := fun _ => rfl

theorem NoPanic.err {α : Type} (e : Err) : NoPanic (SM.err e : SM Bytes α) := fun _ => rfl

theorem NoPanic.lift {α : Type} {x : Res α} (h : x.isPanic = false) :
    NoPanic (SM.lift x : SM Bytes α) := fun _ => h

theorem NoPanic.ite {α : Type} {c : Prop} [Decidable c] {x y : SM Bytes α} (hx : c → NoPanic x)
    (hy : ¬ c → NoPanic y) : NoPanic (if c then x else y) := by
  by_cases h : c
  · rw [if_pos h]; exact hx h
  · rw [if_neg h]; exact hy h

theorem readExact_eq {n : Nat} {b rest : Bytes} (h : b.length = n) :
    readExact n (b ++ rest) = (.ok b, rest) := by
  simp only [readExact]
  rw [if_pos (by simp [h]), List.take_left' h, List.drop_left' h]

theorem readExact_ok {n : Nat} {s b s' : Bytes} :
    readExact n s = (.ok b, s') ↔ b.length = n ∧ s = b ++ s' := by
  constructor
  · intro h
    simp only [readExact] at h
    by_cases hn : n ≤ s.length
    · rw [if_pos hn] at h
      obtain ⟨h1, h2⟩ := Prod.mk.inj h
      have h1 := Res.ok.inj h1
      rw [← h1, ← h2]
      simp [hn]
    · rw [if_neg hn] at h
      cases (Prod.mk.inj h).1
  · rintro ⟨h1, rfl⟩
    exact readExact_eq h1

theorem readExact_noPanic (n : Nat) : NoPanic (readExact n) := by
  intro s
  simp only [readExact]
  split <;> rfl

theorem readByteLax_noPanic : NoPanic readByteLax := by
  intro s
  cases s <;> rfl

theorem readMany_eq {α : Type} {p : SM Bytes α} {enc : α → Bytes} (xs : List α)
    (h : ∀ x ∈ xs, ∀ rest, p (enc x ++ rest) = (.ok x, rest)) (rest : Bytes) :
    readMany p xs.length ((xs.map enc).flatten ++ rest) = (.ok xs, rest) := by
  induction xs with
  | nil => rfl
  | cons x xs ih =>
    rw [List.map_cons, List.flatten_cons, List.append_assoc, List.length_cons, readMany]
    rw [SM.bind_run_ok (h x (by simp) _)]
    rw [SM.bind_run_ok (ih (fun y hy => h y (by simp [hy])))]
    rfl

theorem readMany_ok {α : Type} {p : SM Bytes α} {enc : α → Bytes} {P : α → Prop}
    (h : ∀ inp x rest, p inp = (.ok x, rest) → inp = enc x ++ rest ∧ P x) (n : Nat) :
    ∀ {inp : Bytes} {xs : List α} {rest : Bytes}, readMany p n inp = (.ok xs, rest) →
      xs.length = n ∧ inp = (xs.map enc).flatten ++ rest ∧ ∀ x ∈ xs, P x := by
  induction n with
  | zero =>
    intro inp xs rest h'
    obtain ⟨h1, h2⟩ := Prod.mk.inj h'
    have h1 := Res.ok.inj h1
    subst h1 h2
    simp
  | succ n ih =>
    intro inp xs rest h'
    rw [readMany] at h'
    obtain ⟨x, s1, h1, h2⟩ := SM.bind_eq_ok.1 h'
    obtain ⟨ys, s2, h3, h4⟩ := SM.bind_eq_ok.1 h2
    obtain ⟨h5, h6⟩ := Prod.mk.inj h4
    have h5 := Res.ok.inj h5
    subst h5 h6
    obtain ⟨e1, p1⟩ := h _ _ _ h1
    obtain ⟨l2, e2, p2⟩ := ih h3
    refine ⟨by simp [l2], ?_, ?_⟩
    · rw [e1, e2]; simp
    · intro y hy
      rcases List.mem_cons.1 hy with rfl | hy
      · exact p1
      · exact p2 y hy

theorem readMany_noPanic {α : Type} {p : SM Bytes α} (h : NoPanic p) (n : Nat) :
    NoPanic (readMany p n) := by
  induction n with
  | zero => exact .pure _
  | succ n ih =>
    rw [readMany]
    exact h.bind fun _ _ => ih.bind fun _ _ => .pure _

/-! ### the formats -/

theorem beNat_be32_lt {t : Nat} (h : t < 2 ^ 32) : beNat (be32 t) = t := by
  rw [beNat_be32, Nat.mod_eq_of_lt h]

/-- four bytes are the encoding of their value -/
theorem be32_beNat {b : Bytes} (h : b.length = 4) : be32 (beNat b) = b := by
  obtain ⟨w, x, y, z, rfl⟩ : ∃ w x y z, b = [w, x, y, z] := by
    match b, h with
    | [w, x, y, z], _ => exact ⟨w, x, y, z, rfl⟩
  have hw := w.toNat_lt
  have hx := x.toNat_lt
  have hy := y.toNat_lt
  have hz := z.toNat_lt
  simp only [be32, beNat, List.foldl_cons, List.foldl_nil]
  congr 1
  · apply UInt8.toNat_inj.1; simp only [UInt8.toNat_ofNat']; omega
  · congr 1
    · apply UInt8.toNat_inj.1; simp only [UInt8.toNat_ofNat']; omega
    · congr 1
      · apply UInt8.toNat_inj.1; simp only [UInt8.toNat_ofNat']; omega
      · congr 1
        apply UInt8.toNat_inj.1; simp only [UInt8.toNat_ofNat']; omega

theorem beNat_lt4 {b : Bytes} (h : b.length = 4) : beNat b < 2 ^ 32 := by
  have := beNat_lt b
  rw [h] at this
  exact this

theorem ofNat_toNat (x : UInt8) : UInt8.ofNat x.toNat = x := by simp

theorem toNat_ofNat_lt {n : Nat} (h : n < 256) : (UInt8.ofNat n).toNat = n := by
  rw [UInt8.toNat_ofNat']; exact Nat.mod_eq_of_lt h

theorem not_supported {c : UInt8} (h : ¬ Supported c) : validCiphersuite.contains c = false := by
  rw [← Bool.not_eq_true, validCiphersuite_contains]; exact h

namespace PublicKey

theorem serialize_eq (E : Ext G1 G2 GT) (c : Bool) (k : PublicKey G2) :
    k.serialize E c = if validCiphersuite.contains k.ciphersuite then .ok (pkLayout E c k)
      else .err .ciphersuite := by
  unfold serialize
  cases validCiphersuite.contains k.ciphersuite <;> rfl

theorem deserialize_layout {E : Ext G1 G2 GT} (C : CodecLaws E) (c : Bool) {k : PublicKey G2}
    (h : PkValid E k) (rest : Bytes) :
    deserialize E c (pkLayout E c k ++ rest) = (.ok k, rest) := by
  have hi : readExact 1 (pkLayout E c k ++ rest) = (.ok [k.ciphersuite], E.encG2 c k.pk ++ rest) :=
    readExact_eq (b := [k.ciphersuite]) rfl
  unfold deserialize
  rw [SM.bind_run_ok hi]
  simp only [idx_zero_cons, SM.lift_ok_bind, validCiphersuite_contains.2 h.suite, Bool.not_true,
    Bool.false_eq_true, if_false]
  rw [SM.bind_run_ok (C.dec2_enc c k.pk rest h.sub)]
  rfl

theorem deserialize_ok {E : Ext G1 G2 GT} (C : CodecLaws E) {c : Bool} {inp : Bytes}
    {k : PublicKey G2} {rest : Bytes} (h : deserialize E c inp = (.ok k, rest)) :
    inp = pkLayout E c k ++ rest ∧ PkValid E k := by
  unfold deserialize at h
  obtain ⟨b, s1, h1, h2⟩ := SM.bind_eq_ok.1 h
  obtain ⟨hl, rfl⟩ := readExact_ok.1 h1
  obtain ⟨c0, rfl⟩ := List.length_eq_one_iff.1 hl
  simp only [idx_zero_cons, SM.lift_ok_bind] at h2
  by_cases hc : Supported c0
  · simp only [validCiphersuite_contains.2 hc, Bool.not_true, Bool.false_eq_true, if_false] at h2
    obtain ⟨a, s2, h3, h4⟩ := SM.bind_eq_ok.1 h2
    obtain ⟨h5, h6⟩ := Prod.mk.inj h4
    have h5 := Res.ok.inj h5
    subst h5 h6
    obtain ⟨rfl, h7⟩ := C.dec2_canon _ _ _ _ h3
    exact ⟨rfl, hc, h7⟩
  · simp only [not_supported hc, Bool.not_false, if_true] at h2
    cases (Prod.mk.inj h2).1

theorem deserialize_noPanic {E : Ext G1 G2 GT} (C : CodecLaws E) (c : Bool) :
    NoPanic (deserialize E c : SM Bytes (PublicKey G2)) := by
  unfold deserialize
  refine (readExact_noPanic 1).bind fun b hb => ?_
  obtain ⟨s, s', hb⟩ := hb
  obtain ⟨c0, rfl⟩ := List.length_eq_one_iff.1 (readExact_ok.1 hb).1
  simp only [idx_zero_cons, SM.lift_ok_bind]
  exact .ite (fun _ => .err _) fun _ => NoPanic.bind (C.dec2_total c) fun _ _ => .pure _

end PublicKey

namespace ProofOfPossession

theorem serialize_eq (E : Ext G1 G2 GT) (c : Bool) (k : ProofOfPossession G1) :
    k.serialize E c = if validCiphersuite.contains k.ciphersuite then .ok (popLayout E c k)
      else .err .ciphersuite := by
  unfold serialize
  cases validCiphersuite.contains k.ciphersuite <;> rfl

theorem deserialize_layout {E : Ext G1 G2 GT} (C : CodecLaws E) (c : Bool)
    {k : ProofOfPossession G1} (h : PopValid E k) (rest : Bytes) :
    deserialize E c (popLayout E c k ++ rest) = (.ok k, rest) := by
  have hi : readExact 1 (popLayout E c k ++ rest) =
      (.ok [k.ciphersuite], E.encG1 c k.pop ++ rest) := readExact_eq (b := [k.ciphersuite]) rfl
  unfold deserialize
  rw [SM.bind_run_ok hi]
  simp only [idx_zero_cons, SM.lift_ok_bind, validCiphersuite_contains.2 h.suite, Bool.not_true,
    Bool.false_eq_true, if_false]
  rw [SM.bind_run_ok (C.dec1_enc c k.pop rest h.sub)]
  rfl

theorem deserialize_ok {E : Ext G1 G2 GT} (C : CodecLaws E) {c : Bool} {inp : Bytes}
    {k : ProofOfPossession G1} {rest : Bytes} (h : deserialize E c inp = (.ok k, rest)) :
    inp = popLayout E c k ++ rest ∧ PopValid E k := by
  unfold deserialize at h
  obtain ⟨b, s1, h1, h2⟩ := SM.bind_eq_ok.1 h
  obtain ⟨hl, rfl⟩ := readExact_ok.1 h1
  obtain ⟨c0, rfl⟩ := List.length_eq_one_iff.1 hl
  simp only [idx_zero_cons, SM.lift_ok_bind] at h2
  by_cases hc : Supported c0
  · simp only [validCiphersuite_contains.2 hc, Bool.not_true, Bool.false_eq_true, if_false] at h2
    obtain ⟨a, s2, h3, h4⟩ := SM.bind_eq_ok.1 h2
    obtain ⟨h5, h6⟩ := Prod.mk.inj h4
    have h5 := Res.ok.inj h5
    subst h5 h6
    obtain ⟨rfl, h7⟩ := C.dec1_canon _ _ _ _ h3
    exact ⟨rfl, hc, h7⟩
  · simp only [not_supported hc, Bool.not_false, if_true] at h2
    cases (Prod.mk.inj h2).1

theorem deserialize_noPanic {E : Ext G1 G2 GT} (C : CodecLaws E) (c : Bool) :
    NoPanic (deserialize E c : SM Bytes (ProofOfPossession G1)) := by
  unfold deserialize
  refine (readExact_noPanic 1).bind fun b hb => ?_
  obtain ⟨s, s', hb⟩ := hb
  obtain ⟨c0, rfl⟩ := List.length_eq_one_iff.1 (readExact_ok.1 hb).1
  simp only [idx_zero_cons, SM.lift_ok_bind]
  exact .ite (fun _ => .err _) fun _ => NoPanic.bind (C.dec1_total c) fun _ _ => .pure _

end ProofOfPossession

namespace Signature

theorem serialize_eq (E : Ext G1 G2 GT) (c : Bool) (s : Signature G1 G2) :
    s.serialize E c = if validCiphersuite.contains s.ciphersuite then
      (if s.time < 2 ^ 32 then .ok (sigLayout E c s) else .err .serial)
      else .err .ciphersuite := by
  unfold serialize
  cases hc : validCiphersuite.contains s.ciphersuite with
  | false => rfl
  | true =>
    simp only [Bool.not_true, Bool.false_eq_true, if_false, if_true]
    by_cases ht : s.time < 2 ^ 32
    · rw [if_neg (by omega), if_pos ht, timeBytes_eq, sigLayout]
      simp
    · rw [if_pos (by omega), if_neg ht]

theorem deserialize_layout {E : Ext G1 G2 GT} (C : CodecLaws E) {s : Signature G1 G2}
    (h : SigValid E s) (rest : Bytes) :
    deserialize E true (sigLayout E true s ++ rest) = (.ok s, rest) := by
  have hi : readExact 1 (sigLayout E true s ++ rest) = (.ok [s.ciphersuite],
      be32 s.time ++ (E.encG2 true s.sigma1 ++ (E.encG1 true s.sigma2 ++ rest))) := by
    rw [sigLayout]
    have := readExact_eq (b := [s.ciphersuite]) (n := 1)
      (rest := be32 s.time ++ (E.encG2 true s.sigma1 ++ (E.encG1 true s.sigma2 ++ rest))) rfl
    simpa using this
  unfold deserialize
  rw [SM.bind_run_ok hi, SM.bind_run_ok (readExact_eq (be32_length _))]
  have h0 := h.time_pos
  simp only [beNat_be32_lt h.time_lt]
  rw [if_neg (by omega)]
  simp only [idx_zero_cons, SM.lift_ok_bind, validCiphersuite_contains.2 h.suite, Bool.not_true,
    Bool.false_eq_true, if_false]
  rw [SM.bind_run_ok (C.dec2_enc true s.sigma1 _ h.sub1),
    SM.bind_run_ok (C.dec1_enc true s.sigma2 _ h.sub2)]
  rfl

theorem deserialize_ok {E : Ext G1 G2 GT} (C : CodecLaws E) {c : Bool} {inp : Bytes}
    {s : Signature G1 G2} {rest : Bytes} (h : deserialize E c inp = (.ok s, rest)) :
    c = true ∧ inp = sigLayout E c s ++ rest ∧ SigValid E s := by
  unfold deserialize at h
  obtain ⟨b, s1, h1, h2⟩ := SM.bind_eq_ok.1 h
  obtain ⟨hl, rfl⟩ := readExact_ok.1 h1
  obtain ⟨c0, rfl⟩ := List.length_eq_one_iff.1 hl
  obtain ⟨tb, s2, h3, h4⟩ := SM.bind_eq_ok.1 h2
  obtain ⟨htl, rfl⟩ := readExact_ok.1 h3
  by_cases h0 : beNat tb = 0
  · simp only [h0, if_true] at h4
    cases (Prod.mk.inj h4).1
  · simp only [h0, if_false, idx_zero_cons, SM.lift_ok_bind] at h4
    by_cases hc : Supported c0
    · simp only [validCiphersuite_contains.2 hc, Bool.not_true, Bool.false_eq_true, if_false] at h4
      obtain ⟨a1, s3, h5, h6⟩ := SM.bind_eq_ok.1 h4
      cases c with
      | false =>
        simp only [Bool.not_false, if_true] at h6
        cases (Prod.mk.inj h6).1
      | true =>
        simp only [Bool.not_true, Bool.false_eq_true, if_false] at h6
        obtain ⟨a2, s4, h7, h8⟩ := SM.bind_eq_ok.1 h6
        obtain ⟨h9, h10⟩ := Prod.mk.inj h8
        have h9 := Res.ok.inj h9
        subst h9 h10
        obtain ⟨rfl, e1⟩ := C.dec2_canon _ _ _ _ h5
        obtain ⟨rfl, e2⟩ := C.dec1_canon _ _ _ _ h7
        refine ⟨rfl, ?_, hc, by simp only []; omega, beNat_lt4 htl, e1, e2⟩
        simp [sigLayout, be32_beNat htl]
    · simp only [not_supported hc, Bool.not_false, if_true] at h4
      cases (Prod.mk.inj h4).1

theorem deserialize_noPanic {E : Ext G1 G2 GT} (C : CodecLaws E) (c : Bool) :
    NoPanic (deserialize E c : SM Bytes (Signature G1 G2)) := by
  unfold deserialize
  refine (readExact_noPanic 1).bind fun b hb => ?_
  obtain ⟨s, s', hb⟩ := hb
  obtain ⟨c0, rfl⟩ := List.length_eq_one_iff.1 (readExact_ok.1 hb).1
  refine (readExact_noPanic 4).bind fun tb _ => ?_
  simp only [idx_zero_cons, SM.lift_ok_bind]
  refine .ite (fun _ => .err _) fun _ => .ite (fun _ => .err _) fun _ =>
    NoPanic.bind (C.dec2_total c) fun _ _ => .ite (fun _ => .err _) fun _ =>
    NoPanic.bind (C.dec1_total c) fun _ _ => .ite (fun _ => .err _) fun _ => .pure _

end Signature

namespace SubSecretKey

theorem serialize_eq (E : Ext G1 G2 GT) (c : Bool) (s : SubSecretKey G1 G2) :
    s.serialize E c = if s.time ≤ 2 ^ 32 then .ok (subLayout E c s) else .err .serial := by
  unfold serialize
  by_cases ht : s.time ≤ 2 ^ 32
  · rw [if_neg (by omega), if_pos ht, timeBytes_eq, subLayout]
    simp
  · rw [if_pos (by omega), if_neg ht]

theorem deserialize_layout {E : Ext G1 G2 GT} (C : CodecLaws E) (c : Bool)
    {s : SubSecretKey G1 G2} (h : SubValid E s) (rest : Bytes) :
    deserialize E c (subLayout E c s ++ rest) = (.ok s, rest) := by
  have hi : readExact 4 (subLayout E c s ++ rest) = (.ok (be32 s.time),
      UInt8.ofNat s.hvector.length :: (E.encG2 c s.g2r ++ (E.encG1 c s.hpoly ++
        ((s.hvector.map (E.encG1 c)).flatten ++ rest)))) := by
    rw [subLayout]
    have := readExact_eq (b := be32 s.time) (n := 4)
      (rest := UInt8.ofNat s.hvector.length :: (E.encG2 c s.g2r ++ (E.encG1 c s.hpoly ++
        ((s.hvector.map (E.encG1 c)).flatten ++ rest)))) rfl
    simpa using this
  unfold deserialize
  rw [SM.bind_run_ok hi]
  have h0 := h.time_pos
  simp only [beNat_be32_lt h.time_lt]
  rw [if_neg (by omega), SM.bind_run_ok (x := readByteLax) rfl,
    SM.bind_run_ok (C.dec2_enc c s.g2r _ h.g2r), SM.bind_run_ok (C.dec1_enc c s.hpoly _ h.hpoly),
    toNat_ofNat_lt h.len,
    SM.bind_run_ok (readMany_eq s.hvector (fun x hx rest => C.dec1_enc c x rest (h.hvector x hx))
      rest)]
  rfl

theorem deserialize_ok {E : Ext G1 G2 GT} (C : CodecLaws E) {c : Bool} {inp : Bytes}
    {s : SubSecretKey G1 G2} {rest : Bytes} (h : deserialize E c inp = (.ok s, rest)) :
    inp = subLayout E c s ++ rest ∧ SubValid E s := by
  unfold deserialize at h
  obtain ⟨tb, s1, h1, h2⟩ := SM.bind_eq_ok.1 h
  obtain ⟨htl, rfl⟩ := readExact_ok.1 h1
  by_cases h0 : beNat tb = 0
  · simp only [h0, if_true] at h2
    cases (Prod.mk.inj h2).1
  · simp only [h0, if_false] at h2
    obtain ⟨hv, s2, h3, h4⟩ := SM.bind_eq_ok.1 h2
    obtain ⟨a1, s3, h5, h6⟩ := SM.bind_eq_ok.1 h4
    obtain ⟨a2, s4, h7, h8⟩ := SM.bind_eq_ok.1 h6
    obtain ⟨l, s5, h9, h10⟩ := SM.bind_eq_ok.1 h8
    obtain ⟨h11, h12⟩ := Prod.mk.inj h10
    have h11 := Res.ok.inj h11
    subst h11 h12
    obtain ⟨rfl, e1⟩ := C.dec2_canon _ _ _ _ h5
    obtain ⟨rfl, e2⟩ := C.dec1_canon _ _ _ _ h7
    obtain ⟨el, e3, e4⟩ := readMany_ok (enc := E.encG1 c) (P := fun x => E.inSub1 x = true)
      (fun inp x rest hx => C.dec1_canon _ _ _ _ hx) _ h9
    subst e3
    -- the lax read did read a byte, because something follows it
    have h3' : s1 = hv :: (E.encG2 c a1 ++ (E.encG1 c a2 ++ ((l.map (E.encG1 c)).flatten ++ s5))) := by
      cases s1 with
      | nil =>
        have := (Prod.mk.inj h3).2
        have hlen := congrArg List.length this
        rw [List.length_append, C.enc2_len] at hlen
        have hl0 : ([] : Bytes).length = 0 := rfl
        cases c <;> simp only [Bool.false_eq_true, if_false, if_true] at hlen <;> omega
      | cons x s1 =>
        obtain ⟨p1, p2⟩ := Prod.mk.inj h3
        rw [Res.ok.inj p1, p2]
    subst h3'
    refine ⟨?_, ?_, beNat_lt4 htl, ?_, e1, e2, e4⟩
    · simp [subLayout, be32_beNat htl, el]
    · simp only []; omega
    · simp only [el]; exact hv.toNat_lt

theorem deserialize_noPanic {E : Ext G1 G2 GT} (C : CodecLaws E) (c : Bool) :
    NoPanic (deserialize E c : SM Bytes (SubSecretKey G1 G2)) := by
  unfold deserialize
  refine (readExact_noPanic 4).bind fun tb _ => .ite (fun _ => .err _) fun _ =>
    readByteLax_noPanic.bind fun hv _ => NoPanic.bind (C.dec2_total c) fun _ _ =>
    NoPanic.bind (C.dec1_total c) fun _ _ =>
    (readMany_noPanic (C.dec1_total c) _).bind fun _ _ => .pure _

end SubSecretKey

namespace SecretKey

theorem serializeSsks_eq (E : Ext G1 G2 GT) (c : Bool) (l : List (SubSecretKey G1 G2))
    (buf : Bytes) :
    serializeSsks E c l buf = if ∀ s ∈ l, s.time ≤ 2 ^ 32 then
      .ok (buf ++ (l.map (subLayout E c)).flatten) else .err .serial := by
  induction l generalizing buf with
  | nil => simp [serializeSsks]
  | cons s l ih =>
    rw [serializeSsks, SubSecretKey.serialize_eq]
    by_cases hs : s.time ≤ 2 ^ 32
    · rw [if_pos hs, Res.ok_bind, ih]
      by_cases hl : ∀ s ∈ l, s.time ≤ 2 ^ 32
      · rw [if_pos hl, if_pos (by
          intro x hx
          rcases List.mem_cons.1 hx with rfl | hx
          · exact hs
          · exact hl x hx)]
        simp
      · rw [if_neg hl, if_neg (fun h => hl (List.forall_mem_cons.1 h).2)]
    · rw [if_neg hs, if_neg (by
        intro h
        exact hs (h s (by simp)))]
      rfl

theorem serialize_eq (E : Ext G1 G2 GT) (c : Bool) (k : SecretKey G1 G2) :
    k.serialize E c = if validCiphersuite.contains k.ciphersuite then
      (if ∀ s ∈ k.ssk, s.time ≤ 2 ^ 32 then .ok (skLayout E c k) else .err .serial)
      else .err .ciphersuite := by
  unfold serialize
  cases hc : validCiphersuite.contains k.ciphersuite with
  | false => rfl
  | true =>
    simp only [Bool.not_true, Bool.false_eq_true, if_false, if_true]
    rw [serializeSsks_eq]
    have : [k.ciphersuite] ++ [UInt8.ofNat k.ssk.length] ++ k.prng.seed ++
        (k.ssk.map (subLayout E c)).flatten = skLayout E c k := by simp [skLayout]
    rw [this]

theorem deserialize_layout {E : Ext G1 G2 GT} (C : CodecLaws E) (c : Bool)
    {k : SecretKey G1 G2} (h : SkValid E k) (rest : Bytes) :
    deserialize E c (skLayout E c k ++ rest) = (.ok k, rest) := by
  have hi : readExact 2 (skLayout E c k ++ rest) =
      (.ok [k.ciphersuite, UInt8.ofNat k.ssk.length],
        k.prng.seed ++ ((k.ssk.map (subLayout E c)).flatten ++ rest)) := by
    rw [skLayout]
    have := readExact_eq (b := [k.ciphersuite, UInt8.ofNat k.ssk.length]) (n := 2)
      (rest := k.prng.seed ++ ((k.ssk.map (subLayout E c)).flatten ++ rest)) rfl
    simpa using this
  have hn : (UInt8.ofNat k.ssk.length).toNat = k.ssk.length := toNat_ofNat_lt h.len
  have hpos := h.len_pos
  have hc1 : UInt8.ofNat k.ssk.length ≠ 0 := by
    intro h0
    rw [h0] at hn
    have : (0 : UInt8).toNat = 0 := rfl
    omega
  unfold deserialize
  rw [SM.bind_run_ok hi, SM.bind_run_ok (readExact_eq h.seed)]
  simp only [idx_zero_cons, idx_succ_cons, SM.lift_ok_bind, validCiphersuite_contains.2 h.suite,
    Bool.not_true, Bool.false_eq_true, if_false]
  rw [if_neg hc1, hn]
  obtain ⟨cs, t, ssk, prng⟩ := k
  cases ssk with
  | nil => exact absurd hpos (by simp)
  | cons s0 l =>
    have ht := h.time
    simp only [List.head?_cons, Option.map_some, Option.some_inj] at ht
    have hs0 : SubValid E s0 := h.ssk s0 (by simp)
    simp only [List.map_cons, List.flatten_cons, List.append_assoc, List.length_cons,
      Nat.add_sub_cancel]
    rw [SM.bind_run_ok (SubSecretKey.deserialize_layout C c hs0 _),
      SM.bind_run_ok (readMany_eq l (fun x hx rest =>
        SubSecretKey.deserialize_layout C c (h.ssk x (by simp [hx])) rest) rest)]
    simp only [ht]
    rfl

theorem deserialize_ok {E : Ext G1 G2 GT} (C : CodecLaws E) {c : Bool} {inp : Bytes}
    {k : SecretKey G1 G2} {rest : Bytes} (h : deserialize E c inp = (.ok k, rest)) :
    inp = skLayout E c k ++ rest ∧ SkValid E k := by
  unfold deserialize at h
  obtain ⟨b, s1, h1, h2⟩ := SM.bind_eq_ok.1 h
  obtain ⟨hl, rfl⟩ := readExact_ok.1 h1
  obtain ⟨c0, c1, rfl⟩ : ∃ x y, b = [x, y] := List.length_eq_two.1 hl
  obtain ⟨sd, s2, h3, h4⟩ := SM.bind_eq_ok.1 h2
  obtain ⟨hsl, rfl⟩ := readExact_ok.1 h3
  simp only [idx_zero_cons, idx_succ_cons, SM.lift_ok_bind] at h4
  by_cases hc : Supported c0
  · simp only [validCiphersuite_contains.2 hc, Bool.not_true, Bool.false_eq_true, if_false] at h4
    by_cases hc1 : c1 = 0
    · rw [if_pos hc1] at h4
      cases (Prod.mk.inj h4).1
    · rw [if_neg hc1] at h4
      have hpos : c1.toNat ≠ 0 := fun h0 => hc1 (UInt8.toNat_inj.1 h0)
      obtain ⟨s0, s3, h5, h6⟩ := SM.bind_eq_ok.1 h4
      obtain ⟨l, s4, h7, h8⟩ := SM.bind_eq_ok.1 h6
      obtain ⟨h9, h10⟩ := Prod.mk.inj h8
      have h9 := Res.ok.inj h9
      subst h9 h10
      obtain ⟨rfl, e1⟩ := SubSecretKey.deserialize_ok C h5
      obtain ⟨el, rfl, e4⟩ := readMany_ok (enc := subLayout E c) (P := SubValid E)
        (fun inp x rest hx => SubSecretKey.deserialize_ok C hx) _ h7
      have hlen : (s0 :: l).length = c1.toNat := by rw [List.length_cons, el]; omega
      have hlt := c1.toNat_lt
      refine ⟨?_, hc, hsl, by simp, by simp only [hlen]; omega, rfl, ?_⟩
      · simp only [skLayout, hlen, ofNat_toNat]
        simp
      · intro s hs
        rcases List.mem_cons.1 hs with rfl | hs
        · exact e1
        · exact e4 s hs
  · simp only [not_supported hc, Bool.not_false, if_true] at h4
    cases (Prod.mk.inj h4).1

theorem deserialize_noPanic {E : Ext G1 G2 GT} (C : CodecLaws E) (c : Bool) :
    NoPanic (deserialize E c : SM Bytes (SecretKey G1 G2)) := by
  unfold deserialize
  refine (readExact_noPanic 2).bind fun b hb => ?_
  obtain ⟨s, s', hb⟩ := hb
  obtain ⟨c0, c1, rfl⟩ : ∃ x y, b = [x, y] := List.length_eq_two.1 (readExact_ok.1 hb).1
  simp only [idx_zero_cons, idx_succ_cons, SM.lift_ok_bind]
  refine (readExact_noPanic 64).bind fun tb _ => .ite (fun _ => .err _) fun _ =>
    .ite (fun _ => .err _) fun _ => (SubSecretKey.deserialize_noPanic C c).bind fun _ _ =>
    (readMany_noPanic (SubSecretKey.deserialize_noPanic C c) _).bind fun _ _ => .pure _

end SecretKey

/-! ### lengths -/

theorem flatten_enc_length {E : Ext G1 G2 GT} (C : CodecLaws E) (l : List G1) :
    (l.map (E.encG1 true)).flatten.length = l.length * 96 := by
  induction l with
  | nil => rfl
  | cons a l ih =>
    rw [List.map_cons, List.flatten_cons, List.length_append, ih, C.enc1_len, List.length_cons]
    simp only [if_true]
    omega

theorem subLayout_length {E : Ext G1 G2 GT} (C : CodecLaws E) (s : SubSecretKey G1 G2) :
    (subLayout E true s).length = s.size := by
  simp only [subLayout, List.length_append, List.length_cons, be32_length, C.enc1_len, C.enc2_len,
    flatten_enc_length C, SubSecretKey.size, if_true]
  omega

theorem SecretKey.size_eq (k : SecretKey G1 G2) : k.size = 66 + (k.ssk.map (·.size)).sum := by
  have : ∀ (l : List (SubSecretKey G1 G2)) (n : Nat),
      l.foldl (fun len e => len + e.size) n = n + (l.map (·.size)).sum := by
    intro l
    induction l with
    | nil => intro n; simp
    | cons a l ih => intro n; rw [List.foldl_cons, ih, List.map_cons, List.sum_cons]; omega
  exact this _ _

theorem skLayout_length {E : Ext G1 G2 GT} (C : CodecLaws E) {k : SecretKey G1 G2}
    (h : k.prng.seed.length = 64) : (skLayout E true k).length = k.size := by
  rw [SecretKey.size_eq]
  have : ∀ l : List (SubSecretKey G1 G2),
      (l.map (subLayout E true)).flatten.length = (l.map (·.size)).sum := by
    intro l
    induction l with
    | nil => rfl
    | cons a l ih =>
      rw [List.map_cons, List.flatten_cons, List.length_append, ih, subLayout_length C]
      simp
  simp only [skLayout, List.length_cons, List.length_append, this, h]
  omega

/-! ### honest keys -/

theorem gam_length_le {d : Nat} {v : List Nat} (h : IsNode d v) : (gam v).length ≤ d := by
  have h1 := sibs_length_le v
  have h2 := h.1
  simp only [gam, List.length_cons]
  omega

theorem SubKeyFor.hvector_length {pp : PubParam G1 G2} (S : ParamShape pp) {alpha : G1}
    {v : List Nat} {rho : Nat} {s : SubSecretKey G1 G2} (h : SubKeyFor pp alpha v rho s) :
    s.hvector.length = pp.depth - v.length := by
  rw [h.hvector, List.length_map, List.length_drop, S.hlist_len]
  omega

theorem KeyFor.skValid {E : Ext G1 G2 GT} (L : GroupLaws E) {pp : PubParam G1 G2}
    (W : ParamWF E pp) (hd : pp.depth ≤ 32) (hsup : Supported pp.ciphersuite) {alpha : G1}
    (ha : E.inSub1 alpha = true) {t : Nat} {sk : SecretKey G1 G2} (h : KeyFor pp alpha t sk) :
    SkValid E sk := by
  obtain ⟨v, hv, hk⟩ := keyFor_iff.1 h
  have hlen := hk.ssk.length_eq
  have hle := gam_length_le hk.node
  have hpos : 0 < (gam v).length := by simp [gam]
  refine ⟨by rw [hk.suite]; exact hsup, hk.prng, by omega, by omega, ?_, ?_⟩
  · have hs := hk.ssk
    rw [hk.time]
    cases hs' : sk.ssk with
    | nil => rw [hs'] at hlen; simp [gam] at hlen
    | cons s l =>
      rw [hs', gam] at hs
      cases hs with
      | cons h1 _ => simp only [List.head?_cons, Option.map_some, h1.time_eq]
  · intro s hs
    obtain ⟨g, hg, rho, hr⟩ := forall₂_mem_right hk.ssk hs
    have hgn := gam_isNode hk.node hg
    have hval := valid_num hgn
    have hpow : 2 ^ pp.depth ≤ 2 ^ 32 := Nat.pow_le_pow_right (by omega) hd
    have ht := hr.time_eq
    refine ⟨by have := hval.1; omega, by have := hval.2; omega, ?_, ?_, ?_, ?_⟩
    · rw [SubKeyFor.hvector_length W.toParamShape hr]; omega
    · rw [hr.g2r, W.g2_gen]; exact L.sub2_nsmul L.gen2_sub _
    · rw [hr.hpoly]
      exact L.sub1_add _ _ ha (L.sub1_nsmul (L.sub1_nodePoint W _) _)
    · intro a ha'
      rw [hr.hvector] at ha'
      obtain ⟨b, hb, rfl⟩ := List.mem_map.1 ha'
      exact L.sub1_nsmul (W.hlist_sub b (List.mem_of_mem_drop hb)) _

theorem estimateSize_fold {pf : Profile} {d : Nat} (hd : d ≤ 63) (gs : List (List Nat))
    (h : ∀ g ∈ gs, IsNode d g) (n : Nat) :
    (gs.map (tvOf d)).foldlM (fun res (e : TimeVec) => do
      let k ← sub64 pf d e.vec.length
      Res.ok (res + 149 + k * 96)) n =
    .ok (n + (gs.map (fun g => 149 + (d - g.length) * 96)).sum) := by
  induction gs generalizing n with
  | nil => simp
  | cons g gs ih =>
    have hg := (h g (by simp)).1
    have hs : sub64 pf d (tvOf d g).vec.length = .ok (d - g.length) :=
      sub64_le (by simp only [tvOf]; omega) (by omega)
    simp only [List.map_cons, List.foldlM_cons, hs, Res.ok_bind]
    rw [ih (fun g hg => h g (by simp [hg]))]
    simp only [List.sum_cons]
    congr 1
    omega

theorem KeyFor.estimateSize {pp : PubParam G1 G2} (S : ParamShape pp) (pf : Profile) {alpha : G1}
    {t : Nat} {sk : SecretKey G1 G2} (h : KeyFor pp alpha t sk) :
    SecretKey.estimateSize pf t pp.depth = .ok sk.size := by
  obtain ⟨v, hv, hk⟩ := keyFor_iff.1 h
  have hsize : ∀ {gs : List (List Nat)} {l : List (SubSecretKey G1 G2)},
      List.Forall₂ (SubAt pp alpha) gs l →
      (gs.map (fun g => 149 + (pp.depth - g.length) * 96)).sum = (l.map (·.size)).sum := by
    intro gs l hl
    induction hl with
    | nil => rfl
    | cons h1 _ ih =>
      obtain ⟨rho, h1⟩ := h1
      simp only [List.map_cons, List.sum_cons, ih, SubSecretKey.size,
        SubKeyFor.hvector_length S h1]
  rw [SecretKey.size_eq, ← hsize hk.ssk, ← nodeAt_num_eq hv]
  unfold SecretKey.estimateSize
  rw [init_num S.depth_le hk.node, Res.ok_bind, gammaList_eq S.depth_le hk.node, Res.ok_bind]
  exact estimateSize_fold S.depth_le _ (fun g hg => gam_isNode hk.node hg) 66

/-- beyond depth 32, some sub key of an updated key has a time that does not fit -/
theorem KeyFor.time_too_large {pp : PubParam G1 G2} (hd : 33 ≤ pp.depth) {alpha : G1} {t : Nat}
    {sk : SecretKey G1 G2} (h : KeyFor pp alpha t sk) (ht : 1 < t) :
    ∃ s ∈ sk.ssk, 2 ^ 32 < s.time := by
  obtain ⟨v, hv, hk⟩ := keyFor_iff.1 h
  obtain ⟨e, he⟩ : ∃ e, pp.depth = e + 1 := ⟨pp.depth - 1, by omega⟩
  have hpow : 2 ^ 32 ≤ 2 ^ e := Nat.pow_le_pow_right (by omega) (by omega)
  have hnum := nodeAt_num_eq hv
  have hnode := hk.node
  cases v with
  | nil => rw [num_nil] at hnum; omega
  | cons x w =>
    rcases hnode.2 x (by simp) with rfl | rfl
    · have hg : [2] ∈ gam (1 :: w) := by simp [gam]
      obtain ⟨s, hs, hss⟩ := forall₂_mem_left hk.ssk hg
      refine ⟨s, hs, ?_⟩
      rw [hss.time_eq, he, num_two, num_nil]
      omega
    · have hg : (2 :: w) ∈ gam (2 :: w) := by simp [gam]
      obtain ⟨s, hs, hss⟩ := forall₂_mem_left hk.ssk hg
      refine ⟨s, hs, ?_⟩
      rw [he] at hnode
      have hw : IsNode e w := ⟨by have := hnode.1; simp at this; omega,
        fun y hy => hnode.2 y (by simp [hy])⟩
      have := (valid_num hw).1
      rw [hss.time_eq, he, num_two]
      omega

end Pixel
