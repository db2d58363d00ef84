import Verif.Proof.Domain
import Verif.Toy
import Mathlib.Data.Nat.Digits.Defs

/-! # Properties C42–C44: the PRNG -/

namespace Pixel.Props

open Pixel Pixel.Spec

/-! ## C42 -/

theorem beNat_eq_ofDigits (b : Bytes) : beNat b = Nat.ofDigits 256 (b.map UInt8.toNat).reverse := by
  induction b using List.reverseRecOn with
  | nil => rfl
  | append_singleton b x ih =>
    rw [beNat_append, ih]
    simp [Nat.ofDigits_cons]
    ring

/-- C42: for at most 64 octets, `os2ip_mod_p` never fails or panics and returns the big-endian
value modulo the group order; the representative is the remainder. -/
theorem C42_os2ip (b : Bytes) (h : b.length ≤ 64) :
    ∃ x : Fr, os2ipModP b = .ok x ∧
      x.val = Nat.ofDigits 256 (b.map UInt8.toNat).reverse % rOrder := by
  refine ⟨_, os2ipModP_eq h, ?_⟩
  rw [ZMod.val_natCast, beNat_eq_ofDigits]

/-- C42: longer inputs hit the length assertion of the big-integer type. -/
theorem C42_os2ip_long (b : Bytes) (h : 64 < b.length) : os2ipModP b = .panic .assertion := by
  unfold os2ipModP
  rw [show decide (b.length ≤ 64) = false from decide_eq_false (by omega)]
  rfl

/-- a value above the group order: the 32 bytes `FF…FF` -/
example : (List.replicate 32 (255 : UInt8)).length ≤ 64 ∧
    rOrder < Nat.ofDigits 256 ((List.replicate 32 (255 : UInt8)).map UInt8.toNat).reverse := by
  refine ⟨by decide, by decide +kernel⟩

/-! ## C43 -/

/-- C43: `sample` returns what `sample_then_update` would, without changing the state; neither
fails or panics. -/
theorem C43_sample_agrees {sha : Bytes → Bytes} (h : ∀ m, (sha m).length = 64) (info : Bytes)
    (p : Prng) :
    ∃ x p', Prng.sample sha info p = (.ok x, p) ∧
      Prng.sampleThenUpdate sha info p = (.ok x, p') ∧ p'.seed.length = 64 :=
  ⟨_, _, sample_eq h info p, sampleThenUpdate_eq h info p, drawNext_wf h p info⟩

/-- an operation on the PRNG -/
inductive PrngOp where
  | sample (info : Bytes)
  | sampleThenUpdate (info : Bytes)
  | rerandomize (seed info : Bytes)

/-- perform an operation: did it return `Ok`, and the state afterwards -/
def PrngOp.run (sha : Bytes → Bytes) (o : PrngOp) (p : Prng) : Bool × Prng :=
  match o with
  | .sample info => ((Prng.sample sha info p).1.isOk, (Prng.sample sha info p).2)
  | .sampleThenUpdate info =>
    ((Prng.sampleThenUpdate sha info p).1.isOk, (Prng.sampleThenUpdate sha info p).2)
  | .rerandomize seed info =>
    ((Prng.rerandomize sha seed info p).1.isOk, (Prng.rerandomize sha seed info p).2)

/-- the outcomes and the final state of a sequence of operations -/
def PrngOp.runAll (sha : Bytes → Bytes) : List PrngOp → Prng → List Bool × Prng
  | [], p => ([], p)
  | o :: os, p =>
    let (b, p) := o.run sha p
    let (bs, p) := runAll sha os p
    (b :: bs, p)

/-- C43: from initialisation on, under any sequence of operations, every call succeeds and the
state has 64 bytes. -/
theorem C43_total {sha : Bytes → Bytes} (h : ∀ m, (sha m).length = 64) (seed salt : Bytes)
    (os : List PrngOp) :
    ∃ p, Prng.init sha seed salt = .ok p ∧ p.seed.length = 64 ∧
      (∀ b ∈ (PrngOp.runAll sha os p).1, b = true) ∧
      (PrngOp.runAll sha os p).2.seed.length = 64 := by
  refine ⟨_, init_prng_eq h seed salt, hmac_length h _ _, ?_⟩
  have hp : (⟨hmac sha salt seed⟩ : Prng).seed.length = 64 := hmac_length h _ _
  revert hp
  generalize (⟨hmac sha salt seed⟩ : Prng) = p
  induction os generalizing p with
  | nil => intro hp; exact ⟨fun b hb => (by cases hb), hp⟩
  | cons o os ih =>
    intro hp
    have h1 : (o.run sha p).1 = true ∧ (o.run sha p).2.seed.length = 64 := by
      cases o with
      | sample info =>
        simp only [PrngOp.run, sample_eq h]
        exact ⟨rfl, hp⟩
      | sampleThenUpdate info =>
        simp only [PrngOp.run, sampleThenUpdate_eq h]
        exact ⟨rfl, drawNext_wf h p info⟩
      | rerandomize seed info =>
        simp only [PrngOp.run, rerandomize_eq h]
        exact ⟨rfl, mixed_wf h p seed info⟩
    obtain ⟨h2, h3⟩ := ih _ h1.2
    simp only [PrngOp.runAll]
    refine ⟨?_, h3⟩
    intro b hb
    rcases List.mem_cons.1 hb with rfl | hb
    · exact h1.1
    · exact h2 b hb

/-- the hash hypothesis is met -/
example : ∃ sha : Bytes → Bytes, (∀ m, (sha m).length = 64) ∧ sha [] ≠ sha [1] :=
  ⟨Toy.sha0, Toy.hashLaws.sha_len, by decide +kernel⟩

/-! ## C44 -/

/-- C44: derivation strings of different purposes are never a prefix of one another (in particular
they differ), whatever the message and the times are. -/
theorem C44_prefix_free {p q : Purpose} {a b : Bytes} (ha : InfoFor p a) (hb : InfoFor q b)
    (h : a <+: b) : p = q := by
  obtain ⟨c, hc⟩ := h
  have h1 := tag_prefix hc.symm (infoFor_tag ha)
  rw [infoFor_tag hb] at h1
  exact (tag_inj h1).symm

/-- C44: the same for the strings the code computes: the signing string for any message and time
differs from every string used for another purpose. -/
theorem C44_sign_separated (msg : Bytes) (t u : Nat) :
    signInfo msg t ≠ ascii "key initialization" ∧
    signInfo msg t ≠ DOM_SEP_SK_INIT ++ [0, 0, 0, 1] ∧
    signInfo msg t ≠ DOM_SEP_SK_UPDATE ∧
    signInfo msg t ≠ DOM_SEP_SK_RERANDOMIZE_INFO ++ timeBytes u := by
  refine ⟨fun h => ?_, fun h => ?_, fun h => ?_, fun h => ?_⟩
  · exact absurd (C44_prefix_free (signInfo_for msg t) master_for ⟨[], by rw [h]; simp⟩) (by simp)
  · exact absurd (C44_prefix_free (signInfo_for msg t) init_for ⟨[], by rw [h]; simp⟩) (by simp)
  · exact absurd (C44_prefix_free (signInfo_for msg t) update_for ⟨[], by rw [h]; simp⟩) (by simp)
  · exact absurd (C44_prefix_free (signInfo_for msg t) (reseed_for u) ⟨[], by rw [h]; simp⟩)
      (by simp)

/-- The labels of `/repo/src/domain_sep.rs`, in order, and the string used at
`/repo/src/key_pair.rs` for key generation. -/
def labels : List Bytes :=
  [DOM_SEP_HASH_TO_MSG, DOM_SEP_SIG, DOM_SEP_MASTER_KEY, DOM_SEP_SK_INIT, DOM_SEP_SK_UPDATE,
    DOM_SEP_SK_RERANDOMIZE_INFO, DOM_SEP_POP, ascii "key initialization"]

/-- C44: no two of the labels, the one for proofs of possession included, can begin the same
string: a string made of a label and anything after it determines the label. -/
theorem C44_labels_separated {i j : Nat} {l m : Bytes} (hl : labels[i]? = some l)
    (hm : labels[j]? = some m) {a b : Bytes} (h : l ++ a = m ++ b) : i = j := by
  have hi : i < 8 := (List.getElem?_eq_some_iff.1 hl).1
  have hj : j < 8 := (List.getElem?_eq_some_iff.1 hm).1
  have key : ∀ i < 8, ∀ j < 8, i ≠ j →
      ¬ (labels.getD i []) <+: (labels.getD j []) := by decide +kernel
  have gi : labels.getD i [] = l := by simp [List.getD, hl]
  have gj : labels.getD j [] = m := by simp [List.getD, hm]
  by_contra hne
  rcases List.prefix_or_prefix_of_prefix (l₃ := l ++ a) (List.prefix_append l a)
    (h ▸ List.prefix_append m b) with h1 | h1
  · exact key i hi j hj hne (by rw [gi, gj]; exact h1)
  · exact key j hj i hi (Ne.symm hne) (by rw [gi, gj]; exact h1)

/-- the hypotheses are met by the label of proofs of possession -/
example : labels[6]? = some (text "Pixel public key POP") := by decide +kernel

/-- C44: the message hash feeds SHA-512 with a string that determines both the ciphersuite and the
message (for every hash function: so this is about the string, not about collisions). -/
theorem C44_message_hash_input :
    ∃ enc : UInt8 → Bytes → Bytes,
      (∀ c m c' m', enc c m = enc c' m' → c = c' ∧ m = m') ∧
      ∀ (sha : Bytes → Bytes) (m : Bytes) (c : UInt8),
        hashMsgIntoFr sha m c = os2ipModP (sha (enc c m)) := by
  refine ⟨fun c m => DOM_SEP_HASH_TO_MSG ++ [c] ++ m, ?_, fun _ _ _ => rfl⟩
  intro c m c' m' h
  simp only at h
  rw [List.append_assoc, List.append_assoc, List.append_cancel_left_eq] at h
  simpa using h

end Pixel.Props
