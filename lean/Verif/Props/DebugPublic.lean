import Verif.Proof.DebugPublic
import Verif.Props.CHeap
import Verif.Props.Serdes

/-!
# C96: the text of public values, and of the structures of the C interface
-/

namespace Pixel.Props

open Pixel Pixel.Spec Pixel.CHeap

set_option linter.unusedSectionVars false

variable {G1 G2 GT : Type} [AddCommGroup G1] [AddCommGroup G2] [CommGroup GT]

/-! ## C96 -/

/-- A way to write values that can be read: a text is of one value only, and one sees where it ends.
A value may have several texts. -/
def Readably {α : Type} (w : α → Bytes → Prop) : Prop :=
  ∀ a b s t r r', w a s → w b t → s ++ r = t ++ r' → a = b ∧ r = r'

/-- C96: the text of a public key, proof of possession or signature of the C interface shows its octets,
all of them: it can be read. -/
theorem C96_octets_shown : Readably fun b s => s = Debug.cBytes b := by
  rintro a b s t r r' rfl rfl h
  exact Debug.cBytes_read h

/-- C96: the text of `pixel_keys` tells the public key, the proof of possession, and of the secret key the
address and the length; nothing else. -/
theorem C96_keys_text (addr : Option Ptr → Nat) (k k' : CHeap.Keys) :
    Debug.cKeys addr k = Debug.cKeys addr k' ↔
      k.pk = k'.pk ∧ k.pop = k'.pop ∧ addr k.sk.data = addr k'.sk.data ∧ k.sk.len = k'.sk.len := by
  constructor
  · intro h
    unfold Debug.cKeys at h
    simp only [List.append_assoc] at h
    obtain ⟨e1, h1⟩ := Debug.cBytes_read (List.append_cancel_left h)
    obtain ⟨e2, e3, h2⟩ := Debug.cSk_read (List.append_cancel_left h1)
    obtain ⟨e4, -⟩ := Debug.cBytes_read (List.append_cancel_left h2)
    exact ⟨e1, e4, e2, e3⟩
  · rintro ⟨e1, e2, e3, e4⟩
    unfold Debug.cKeys Debug.cSk
    rw [e1, e2, e3, e4]

theorem blob_length {E : Ext G1 G2 GT} (C : CodecLaws E) (D : DefaultLaws E) {a a' : G1} {t : Nat}
    {b b' : Bytes} (h : BlobFor E a t b) (h' : BlobFor E a' t b') : b.length = b'.length := by
  obtain ⟨sk, hk, rfl⟩ := h
  obtain ⟨sk', hk', rfl⟩ := h'
  rw [skLayout_length C hk.prng, skLayout_length C hk'.prng]
  have e1 := C37_estimate_exact D.wf.toParamShape .debug hk
  have e2 := C37_estimate_exact D.wf.toParamShape .debug hk'
  rw [e1] at e2
  exact Res.ok.inj e2

/-- the keys of a program that keeps updating lie one after the other -/
theorem follows_places {E : Ext G1 G2 GT} {pf : Profile} {h h' : Heap} {k : Sk}
    {us : List (Nat × Option Ptr × Nat)} {ks : List Sk} (hf : Follows E pf h k us ks h') :
    ∃ l, ks = k :: l ∧ l.map Sk.data = (List.range us.length).map fun i =>
      some ⟨h.blocks.length + i, 0⟩ := by
  induction hf with
  | done h k => exact ⟨[], rfl, rfl⟩
  | @update h h₁ h₂ k k' u n p us ks h1 h2 ih =>
    obtain ⟨seed, blob, c, -, -, -, -, -, rfl, rfl⟩ := cSkUpdate_ret h1
    obtain ⟨l, rfl, hl⟩ := ih
    refine ⟨_, rfl, ?_⟩
    rw [List.map_cons, hl, List.length_cons, List.range_succ_eq_map, List.map_cons, List.map_map]
    congr 1
    refine List.map_congr_left fun i _ => ?_
    simp only [List.length_append, List.length_singleton, Function.comp, Nat.succ_eq_add_one]
    congr 2
    omega

/-- C96: a C program may print its handles: key generation and updates to the same times, from whatever
seeds, give handles with the same texts, when there are as many blocks in the heap.  They tell nothing of
the secret. -/
theorem C96_handles_text [DecidableEq GT] {E : Ext G1 G2 GT} (H : HashLaws E) (L : GroupLaws E)
    (C : CodecLaws E) (D : DefaultLaws E) {pf : Profile} (addr : Option Ptr → Nat)
    {h₀ h₁ h₂ g₀ g₁ g₂ : Heap} (h : h₀.blocks.length = g₀.blocks.length) {p q : Option Ptr} {m n : Nat}
    {keys keys' : CHeap.Keys} (hk : CHeap.cKeygen E p m h₀ = (.ret keys, h₁))
    (gk : CHeap.cKeygen E q n g₀ = (.ret keys', g₁)) {us vs : List (Nat × Option Ptr × Nat)}
    (huv : us.map Prod.fst = vs.map Prod.fst) {ks ls : List Sk}
    (hf : Follows E pf h₁ keys.sk us ks h₂) (gf : Follows E pf g₁ keys'.sk vs ls g₂) :
    ks.map (Debug.cSk addr) = ls.map (Debug.cSk addr) := by
  have blobs : ∀ {h₀ h₁ h₂ : Heap} {p : Option Ptr} {m : Nat} {keys : CHeap.Keys}
      {us : List (Nat × Option Ptr × Nat)} {ks : List Sk},
      CHeap.cKeygen E p m h₀ = (.ret keys, h₁) → Follows E pf h₁ keys.sk us ks h₂ →
      ∃ x : Nat, List.Forall₂ (fun k t => ∃ b, k.len = b.length ∧
        BlobFor E (x • E.defaultParam.h) t b) ks (1 :: us.map Prod.fst) := by
    intro h₀ h₁ h₂ p m keys us ks hk hf
    obtain ⟨seed, bk, _, _, e1, rfl, rfl⟩ := cKeygen_ret hk
    have hl : 32 ≤ seed.length := by
      by_contra hc
      rw [(C46_keygen H L C D pf seed).1 (by omega)] at e1
      cases e1
    obtain ⟨bk', x, h1, _, _, _, _, h6, _⟩ := (C46_keygen H L C D pf seed).2 hl
    rw [e1] at h1
    cases Res.ok.inj h1
    obtain ⟨_, hall⟩ := follows_keys H L C D hf (Region.last h₀ bk.sk) rfl h6
    refine ⟨x, hall.imp ?_⟩
    rintro k t ⟨b, _, hlen, hb⟩
    exact ⟨b, hlen, hb⟩
  obtain ⟨x, hx⟩ := blobs hk hf
  obtain ⟨y, hy⟩ := blobs gk gf
  rw [huv] at hx
  have hlens : ks.map Sk.len = ls.map Sk.len := by
    clear hf gf
    generalize 1 :: vs.map Prod.fst = ts at hx hy
    induction hx generalizing ls with
    | nil => cases hy; rfl
    | cons a _ ih =>
      cases hy with
      | cons b hy =>
        obtain ⟨_, a1, a2⟩ := a
        obtain ⟨_, b1, b2⟩ := b
        rw [List.map_cons, List.map_cons, ih hy, a1, b1, blob_length C D a2 b2]
  have hdata : ks.map Sk.data = ls.map Sk.data := by
    obtain ⟨l, rfl, hl⟩ := follows_places hf
    obtain ⟨l', rfl, hl'⟩ := follows_places gf
    obtain ⟨_, _, _, _, _, rfl, rfl⟩ := cKeygen_ret hk
    obtain ⟨_, _, _, _, _, rfl, rfl⟩ := cKeygen_ret gk
    have hn : us.length = vs.length := by simpa using congrArg List.length huv
    rw [List.map_cons, List.map_cons, hl, hl', hn]
    simp only [List.length_append, List.length_singleton, h]
  have : ks = ls := by
    apply List.ext_getElem (by simpa using congrArg List.length hlens)
    intro i h1 h2
    have e1 : (ks.map Sk.len)[i]'(by simpa using h1) = (ls.map Sk.len)[i]'(by simpa using h2) := by
      simp only [hlens]
    have e2 : (ks.map Sk.data)[i]'(by simpa using h1) = (ls.map Sk.data)[i]'(by simpa using h2) := by
      simp only [hdata]
    rw [List.getElem_map, List.getElem_map] at e1 e2
    cases hk : ks[i]
    cases hl : ls[i]
    rw [hk, hl] at e1 e2
    simp only at e1 e2
    rw [e1, e2]
  rw [this]

/-- C96: signatures have the same text iff `==` takes them to be equal: time and ciphersuite are in
neither. -/
theorem C96_signature_text [DecidableEq G1] [DecidableEq G2] {show1 : G1 → Bytes} {show2 : G2 → Bytes}
    (h1 : Readably fun a s => s = show1 a) (h2 : Readably fun a s => s = show2 a)
    (a b : Signature G1 G2) :
    Debug.signature show1 show2 a = Debug.signature show1 show2 b ↔ a.eq b = true := by
  unfold Signature.eq
  rw [Bool.and_eq_true, decide_eq_true_iff, decide_eq_true_iff]
  constructor
  · intro h
    unfold Debug.signature at h
    simp only [List.append_assoc] at h
    obtain ⟨e1, h3⟩ := h2 _ _ _ _ _ _ rfl rfl (List.append_cancel_left h)
    obtain ⟨e2, -⟩ := h1 _ _ _ _ _ _ rfl rfl (List.append_cancel_left h3)
    exact ⟨e1, e2⟩
  · rintro ⟨e1, e2⟩
    unfold Debug.signature
    rw [e1, e2]

/-- C96: the text of a public key tells its ciphersuite and its point, if points can be read. -/
theorem C96_public_key_text {w : G2 → Bytes → Prop} (hw : Readably w) {a b : PublicKey G2} {s t : Bytes}
    (hs : w a.pk s) (ht : w b.pk t) (h : Debug.publicKey s a = Debug.publicKey t b) : a = b := by
  unfold Debug.publicKey at h
  simp only [List.append_assoc] at h
  have h1 := List.append_cancel_left h
  rw [show ascii ", pk: " = 44 :: ascii " pk: " by decide +kernel, List.cons_append,
    List.cons_append] at h1
  obtain ⟨e1, h2⟩ := Debug.decimal_read (by decide) (by decide) h1
  simp only [List.cons.injEq, true_and] at h2
  obtain ⟨e2, -⟩ := hw _ _ _ _ _ _ hs ht (List.append_cancel_left h2)
  cases a
  cases b
  simp only at e1 e2
  rw [UInt8.toNat_inj.1 e1, e2]

/-- C96: the same for a proof of possession. -/
theorem C96_pop_text {w : G1 → Bytes → Prop} (hw : Readably w) {a b : ProofOfPossession G1}
    {s t : Bytes} (hs : w a.pop s) (ht : w b.pop t) (h : Debug.pop s a = Debug.pop t b) : a = b := by
  unfold Debug.pop at h
  simp only [List.append_assoc] at h
  have h1 := List.append_cancel_left h
  rw [show ascii ", pop: " = 44 :: ascii " pop: " by decide +kernel, List.cons_append,
    List.cons_append] at h1
  obtain ⟨e1, h2⟩ := Debug.decimal_read (by decide) (by decide) h1
  simp only [List.cons.injEq, true_and] at h2
  obtain ⟨e2, -⟩ := hw _ _ _ _ _ _ hs ht (List.append_cancel_left h2)
  cases a
  cases b
  simp only at e1 e2
  rw [UInt8.toNat_inj.1 e1, e2]

/-- C96: time vectors with the same text are equal. -/
theorem C96_time_vec_text {a b : TimeVec} (h : Debug.timeVec a = Debug.timeVec b) : a = b := by
  unfold Debug.timeVec at h
  simp only [List.append_assoc] at h
  have h1 := List.append_cancel_left h
  rw [show ascii ", vec: [" = 44 :: ascii " vec: [" by decide +kernel, List.cons_append,
    List.cons_append] at h1
  obtain ⟨e1, h2⟩ := Debug.decimal_read (by decide) (by decide) h1
  simp only [List.cons.injEq, true_and] at h2
  obtain ⟨e2, -⟩ := Debug.items_read (List.append_cancel_left h2)
  cases a
  cases b
  simp only at e1 e2
  rw [e1, e2]

/-! ### Concrete cases -/

section Examples
open Pixel.Toy

/-- texts -/
example : Debug.cBytes [0, 171, 16] = ascii "00, ab, 10, \n" ∧
    Debug.cSk (fun _ => 0x7f00a0) ⟨some ⟨3, 0⟩, 1250⟩ = ascii "pixel_sk { data: 0x7f00a0, len: 1250 }" ∧
    Debug.timeVec ⟨7, [1, 2]⟩ = ascii "TimeVec { time: 7, vec: [1, 2] }" ∧
    Debug.timeVec ⟨1, []⟩ = ascii "TimeVec { time: 1, vec: [] }" ∧
    Debug.publicKey (G2 := G) (ascii "P") ⟨1, (0, 0)⟩ = ascii "PublicKey { ciphersuite: 1, pk: P }" ∧
    Debug.pop (G1 := G) (ascii "P") ⟨0, (0, 0)⟩ = ascii "ProofOfPossession { ciphersuite: 0, pop: P }" := by
  decide +kernel

/-- points can be written readably, in several ways -/
example : Readably (α := Nat) fun a s => s = ascii "x" ++ Debug.decimal a ++ ascii ";" ∨
    s = ascii "y" ++ Debug.decimal a ++ ascii ";" := by
  have c1 : ascii "x" = [120] := by decide +kernel
  have c2 : ascii "y" = [121] := by decide +kernel
  have c3 : ascii ";" = [59] := by decide +kernel
  rintro a b s t r r' (rfl | rfl) (rfl | rfl) h <;>
    simp only [c1, c2, c3, List.append_assoc, List.cons_append, List.nil_append, List.cons.injEq,
      true_and] at h
  · obtain ⟨e1, e2⟩ := Debug.decimal_read (by decide) (by decide) h
    exact ⟨e1, (List.cons.inj e2).2⟩
  · exact absurd h.1 (by decide)
  · exact absurd h.1 (by decide)
  · obtain ⟨e1, e2⟩ := Debug.decimal_read (by decide) (by decide) h
    exact ⟨e1, (List.cons.inj e2).2⟩

/-- two programs as in `C96_handles_text` -/
example : ∃ keys h₁ k' h₂,
    CHeap.cKeygen (ext sha0) (some ⟨0, 0⟩) 32 ⟨[some (List.replicate 32 7), some []]⟩ =
      (.ret keys, h₁) ∧
    Follows (ext sha0) .debug h₁ keys.sk [(9, some ⟨1, 0⟩, 0)] [keys.sk, k'] h₂ := by
  obtain ⟨keys, h₁, k', h₂, e1, e2, _⟩ := toy_heap_run (tar := 9) (by omega) (by omega)
  exact ⟨keys, h₁, k', h₂, e1, e2⟩

/-- two programs with different seeds, of different lengths -/
example : ∃ keys keys' h₁ g₁,
    CHeap.cKeygen (ext sha0) (some ⟨0, 0⟩) 32 ⟨[some (List.replicate 32 7)]⟩ = (.ret keys, h₁) ∧
    CHeap.cKeygen (ext sha0) (some ⟨0, 0⟩) 33 ⟨[some (List.replicate 33 8)]⟩ = (.ret keys', g₁) ∧
    ∀ addr, Debug.cSk addr keys.sk = Debug.cSk addr keys'.sk := by
  have key : ∀ (n : Nat) (v : UInt8), 32 ≤ n → ∃ keys h₁,
      CHeap.cKeygen (ext sha0) (some ⟨0, 0⟩) n ⟨[some (List.replicate n v)]⟩ = (.ret keys, h₁) := by
    intro n v hn
    obtain ⟨keys, x, e1, -⟩ := (C46_keygen hashLaws (groupLaws sha0) (codecLaws sha0) (defaultLaws sha0)
      .debug (List.replicate n v)).2 (by simpa using hn)
    have r0 : Region ⟨[some (List.replicate n v)]⟩ (some ⟨0, 0⟩) (List.replicate n v) :=
      ⟨⟨0, 0⟩, [], [], rfl, rfl, by simp⟩
    have g := (C57_same_as_bytes (ext sha0) .debug r0).2.2 keys e1
    rw [List.length_replicate] at g
    exact ⟨_, _, g⟩
  obtain ⟨keys, h₁, e1⟩ := key 32 7 (by omega)
  obtain ⟨keys', g₁, e2⟩ := key 33 8 (by omega)
  refine ⟨keys, keys', h₁, g₁, e1, e2, fun addr => ?_⟩
  have := C96_handles_text hashLaws (groupLaws sha0) (codecLaws sha0) (defaultLaws sha0) (pf := .debug) addr
    (h₀ := ⟨[some (List.replicate 32 7)]⟩) (g₀ := ⟨[some (List.replicate 33 8)]⟩) (us := []) (vs := [])
    (by simp only [List.length_singleton]) e1 e2 rfl (Follows.done _ _) (Follows.done _ _)
  exact (List.cons.inj this).1

end Examples

end Pixel.Props
