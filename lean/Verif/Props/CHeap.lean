import Verif.Proof.CHeap
import Verif.Props.FfiExact

/-!
# Property C57: the C interface with pointers

When is a call defined, what does it do to the memory of the program, and what becomes of the secret
keys it hands out.
-/

namespace Pixel.Props

open Pixel Pixel.Spec Pixel.CHeap

set_option linter.unusedSectionVars false

variable {G1 G2 GT : Type} [AddCommGroup G1] [AddCommGroup G2] [CommGroup GT]

theorem outOf_ne_ub {α : Type} (r : Res α) : outOf r ≠ .ub := by cases r <;> simp [outOf]

/-- C57: a call has undefined behaviour exactly when one of the ranges it is given may not be read.
Only `c_verify_agg` looks at the message after decoding the keys, so that a key that does not
decode aborts first. -/
theorem C57_undefined_exactly [DecidableEq GT] (E : Ext G1 G2 GT) (pf : Profile) (h : Heap) :
    (∀ p n, (CHeap.cKeygen E p n h).1 = .ub ↔ ¬ Readable h p n) ∧
    (∀ k m n t, (CHeap.cSignPresent E pf k m n t h).1 = .ub ↔
      ¬ Readable h m n ∨ ¬ Readable h k.data k.len) ∧
    (∀ pk m n s, (CHeap.cVerify E pf pk m n s h).1 = .ub ↔ ¬ Readable h m n) ∧
    (∀ k p n t, (CHeap.cSkUpdate E pf k p n t h).1 = .ub ↔
      ¬ Readable h p n ∨ ¬ Readable h k.data k.len) ∧
    (∀ p n, (CHeap.cAggregation E p n h).1 = .ub ↔ ¬ Readable h p (n * 149)) ∧
    (∀ p n m l s, (CHeap.cVerifyAgg E pf p n m l s h).1 = .ub ↔ ¬ Readable h p (n * 49) ∨
      ¬ Readable h m l ∧ ∀ bs, bs.length = n * 49 → Region h p bs → ∀ i < n,
        (PublicKey.deserialize E true ((bs.drop (i * 49)).take 49)).1.isOk = true) := by
  refine ⟨fun p n => ?_, fun k m n t => ?_, fun pk m n s => ?_, fun k p n t => ?_, fun p n => ?_,
    fun p n m l s => ?_⟩
  · unfold CHeap.cKeygen
    rcases fromRawParts_cases h p n with ⟨s, h1, h2, h3⟩ | ⟨h1, h3⟩
    · rw [CM.bind_ret h3]
      have hr : Readable h p n := ⟨s, h1, h2⟩
      refine ⟨fun he => ?_, fun he => absurd hr he⟩
      by_cases h4 : ∃ v, Ffi.cKeygen E s = .ok v
      · obtain ⟨v, h4⟩ := h4
        rw [lift_bind_ok h4] at he
        cases he
      · obtain ⟨q, h7⟩ := lift_bind_fail (f := fun keys : Ffi.Keys => do
          let skPtr ← forget keys.sk
          pure ({ pk := keys.pk, sk := { data := some skPtr, len := keys.sk.length },
                  pop := keys.pop } : CHeap.Keys)) h (fun a ha => h4 ⟨a, ha⟩)
        rw [h7] at he
        cases he
    · rw [CM.bind_ub h3]
      exact ⟨fun _ => h1, fun _ => rfl⟩
  · unfold CHeap.cSignPresent
    rcases fromRawParts_cases h m n with ⟨s, h1, h2, h3⟩ | ⟨h1, h3⟩
    · rw [CM.bind_ret h3]
      have hr : Readable h m n := ⟨s, h1, h2⟩
      rcases fromRawParts_cases h k.data k.len with ⟨b, h4, h5, h6⟩ | ⟨h4, h6⟩
      · rw [CM.bind_ret h6, lift_eq]
        have hr' : Readable h k.data k.len := ⟨b, h4, h5⟩
        exact ⟨fun he => absurd he (outOf_ne_ub _), fun he => by
          rcases he with he | he
          · exact absurd hr he
          · exact absurd hr' he⟩
      · rw [CM.bind_ub h6]
        exact ⟨fun _ => Or.inr h4, fun _ => rfl⟩
    · rw [CM.bind_ub h3]
      exact ⟨fun _ => Or.inl h1, fun _ => rfl⟩
  · unfold CHeap.cVerify
    rcases fromRawParts_cases h m n with ⟨b, h1, h2, h3⟩ | ⟨h1, h3⟩
    · rw [CM.bind_ret h3, lift_eq]
      exact ⟨fun he => absurd he (outOf_ne_ub _), fun he => absurd ⟨b, h1, h2⟩ he⟩
    · rw [CM.bind_ub h3]
      exact ⟨fun _ => h1, fun _ => rfl⟩
  · unfold CHeap.cSkUpdate
    rcases fromRawParts_cases h p n with ⟨s, h1, h2, h3⟩ | ⟨h1, h3⟩
    · rw [CM.bind_ret h3]
      have hr : Readable h p n := ⟨s, h1, h2⟩
      rcases fromRawParts_cases h k.data k.len with ⟨b, h4, h5, h6⟩ | ⟨h4, h6⟩
      · rw [CM.bind_ret h6]
        have hr' : Readable h k.data k.len := ⟨b, h4, h5⟩
        refine ⟨fun he => ?_, fun he => by
          rcases he with he | he
          · exact absurd hr he
          · exact absurd hr' he⟩
        by_cases h4 : ∃ v, Ffi.cSkUpdate E pf b s t = .ok v
        · obtain ⟨v, h4⟩ := h4
          rw [lift_bind_ok h4] at he
          cases he
        · obtain ⟨q, h7⟩ := lift_bind_fail (f := fun kBuf : Bytes => do
            let skPtr ← forget kBuf
            pure ({ data := some skPtr, len := kBuf.length } : Sk)) h (fun a ha => h4 ⟨a, ha⟩)
          rw [h7] at he
          cases he
      · rw [CM.bind_ub h6]
        exact ⟨fun _ => Or.inr h4, fun _ => rfl⟩
    · rw [CM.bind_ub h3]
      exact ⟨fun _ => Or.inl h1, fun _ => rfl⟩
  · unfold CHeap.cAggregation
    rcases fromRawPartsOf_cases 149 h p n with ⟨b, h1, h2, h3⟩ | ⟨h1, h3⟩
    · rw [CM.bind_ret h3, lift_eq]
      exact ⟨fun he => absurd he (outOf_ne_ub _), fun he => absurd ⟨b, h1, h2⟩ he⟩
    · rw [CM.bind_ub h3]
      exact ⟨fun _ => h1, fun _ => rfl⟩
  · unfold CHeap.cVerifyAgg
    rcases fromRawPartsOf_cases 49 h p n with ⟨bs, h1, h2, h3⟩ | ⟨h1, h3⟩
    · rw [CM.bind_ret h3]
      have hr : Readable h p (n * 49) := ⟨bs, h1, h2⟩
      have uniq : ∀ bs', bs'.length = n * 49 → Region h p bs' → bs' = bs := fun bs' l' r' => by
        have e1 := read_iff.2 ⟨h1, h2⟩
        rw [read_iff.2 ⟨l', r'⟩] at e1
        exact Option.some.inj e1
      by_cases h4 : ∃ v, Ffi.parseAll (PublicKey.deserialize E true)
          ((List.range n).map (fun i => (bs.drop (i * 49)).take 49)) = .ok v
      · obtain ⟨v, h4⟩ := h4
        have hall : ∀ i < n,
            (PublicKey.deserialize E true ((bs.drop (i * 49)).take 49)).1.isOk = true := by
          intro i hi
          have hf := parseAll_forall₂ h4
          rw [List.forall₂_iff_get] at hf
          have hl : v.length = n := by rw [← hf.1]; simp
          have h5 := hf.2 i (by simpa using hi) (by omega)
          simp only [List.get_eq_getElem, List.getElem_map, List.getElem_range] at h5
          obtain ⟨r, h5⟩ := parse_eq_ok h5
          rw [h5]; rfl
        rw [lift_bind_ok h4]
        rcases fromRawParts_cases h m l with ⟨b, h5, h6, h7⟩ | ⟨h5, h7⟩
        · rw [CM.bind_ret h7]
          refine ⟨fun he => ?_, fun he => ?_⟩
          · by_cases h8 : ∃ g, Ffi.parse (Signature.deserialize E true) s = .ok g
            · obtain ⟨g, h8⟩ := h8
              rw [lift_bind_ok h8, lift_eq] at he
              exact absurd he (outOf_ne_ub _)
            · obtain ⟨q, h9⟩ := lift_bind_fail (f := fun sig =>
                lift (Signature.verifyBytesAggregated E pf sig v E.defaultParam b)) h
                (fun a ha => h8 ⟨a, ha⟩)
              rw [h9] at he
              cases he
          · rcases he with he | he
            · exact absurd hr he
            · exact absurd ⟨b, h5, h6⟩ he.1
        · rw [CM.bind_ub h7]
          refine ⟨fun _ => Or.inr ⟨h5, fun bs' l' r' => ?_⟩, fun _ => rfl⟩
          rw [uniq bs' l' r']
          exact hall
      · obtain ⟨q, h9⟩ := lift_bind_fail (f := fun pkVec => do
          let m ← fromRawParts m l
          let sig ← lift (Ffi.parse (Signature.deserialize E true) s)
          lift (Signature.verifyBytesAggregated E pf sig pkVec E.defaultParam m)) h
          (fun a ha => h4 ⟨a, ha⟩)
        rw [h9]
        refine ⟨fun he => (by cases he), fun he => ?_⟩
        rcases he with he | he
        · exact absurd hr he
        · exfalso
          apply h4
          have hall := he.2 bs h1 h2
          have key : ∀ l : List Bytes, (∀ b ∈ l, (PublicKey.deserialize E true b).1.isOk = true) →
              ∃ v, Ffi.parseAll (PublicKey.deserialize E true) l = .ok v := by
            intro l
            induction l with
            | nil => intro _; exact ⟨[], rfl⟩
            | cons b l ih =>
              intro hl
              obtain ⟨v, hv⟩ := ih (fun c hc => hl c (List.mem_cons_of_mem _ hc))
              obtain ⟨a, ha⟩ := Res.isOk_iff.1 (hl b List.mem_cons_self)
              refine ⟨a :: v, ?_⟩
              simp only [Ffi.parseAll, Ffi.parse, ha, Ffi.unwrap, Res.ok_bind, hv]
          apply key
          intro b hb
          obtain ⟨i, hi, rfl⟩ := List.mem_map.1 hb
          exact hall i (List.mem_range.1 hi)
    · rw [CM.bind_ub h3]
      exact ⟨fun _ => Or.inl h1, fun _ => rfl⟩

/-- C57: a null pointer is not accepted even for an empty seed or message, although the library
works with empty ones. -/
theorem C57_null_undefined [DecidableEq GT] (E : Ext G1 G2 GT) (pf : Profile) (h : Heap) (k : Sk)
    (pk s : Bytes) (t n : Nat) :
    (CHeap.cSkUpdate E pf k none n t h).1 = .ub ∧ (CHeap.cSignPresent E pf k none n t h).1 = .ub ∧
    (CHeap.cVerify E pf pk none n s h).1 = .ub ∧ (CHeap.cKeygen E none n h).1 = .ub ∧
    (CHeap.cAggregation E none n h).1 = .ub := by
  have hn : ∀ n, ¬ Readable h none n := by
    rintro n ⟨bs, _, q, pre, post, hq, _⟩
    cases hq
  obtain ⟨h1, h2, h3, h4, h5, _⟩ := C57_undefined_exactly E pf h
  exact ⟨(h4 _ _ _ _).2 (Or.inl (hn _)), (h2 _ _ _ _).2 (Or.inl (hn _)), (h3 _ _ _ _).2 (hn _),
    (h1 _ _).2 (hn _), (h5 _ _).2 (hn _)⟩

/-- C57: a call into the library changes nothing that was there; it either leaves the heap as it is
and hands out no key, or adds one block, which holds exactly the key it hands out. -/
theorem C57_only_adds [DecidableEq GT] (E : Ext G1 G2 GT) (pf : Profile) {s : Step} (hs : IsCall s)
    (h : Heap) :
    ((s.exec E pf h).2 = h ∧ ∀ r, (s.exec E pf h).1 = .ret r → issued r = none) ∨
    ∃ r b, s.exec E pf h = (.ret r, ⟨h.blocks ++ [some b]⟩) ∧
      issued r = some ⟨some ⟨h.blocks.length, 0⟩, b.length⟩ := by
  have keep : ∀ {α : Type} (x : CM α) (f : α → Reply), (x h).2 = h → (∀ a, issued (f a) = none) →
      ((x >>= fun a => pure (f a)) h).2 = h ∧
      ∀ r, ((x >>= fun a => pure (f a)) h).1 = .ret r → issued r = none := by
    intro α x f hx hf
    rcases hxh : x h with ⟨o, h'⟩
    rw [hxh] at hx
    cases hx
    cases o with
    | ret a =>
      rw [CM.bind_ret hxh]
      exact ⟨rfl, fun r hr => by cases hr; exact hf a⟩
    | abort p =>
      rw [CM.bind_abort hxh]
      exact ⟨rfl, fun r hr => by cases hr⟩
    | ub =>
      rw [CM.bind_ub hxh]
      exact ⟨rfl, fun r hr => by cases hr⟩
  cases s with
  | keygen p n =>
    have key : (∃ k h', CHeap.cKeygen E p n h = (.ret k, h')) ∨
        ((CHeap.cKeygen E p n h).2 = h ∧ ∀ k, (CHeap.cKeygen E p n h).1 ≠ .ret k) := by
      unfold CHeap.cKeygen
      rcases fromRawParts_cases h p n with ⟨s, h1, h2, h3⟩ | ⟨h1, h3⟩
      · rw [CM.bind_ret h3]
        by_cases h4 : ∃ v, Ffi.cKeygen E s = .ok v
        · obtain ⟨v, h4⟩ := h4
          rw [lift_bind_ok h4]
          exact Or.inl ⟨_, _, rfl⟩
        · obtain ⟨q, h7⟩ := lift_bind_fail (f := fun keys : Ffi.Keys => do
            let skPtr ← forget keys.sk
            pure ({ pk := keys.pk, sk := { data := some skPtr, len := keys.sk.length },
                    pop := keys.pop } : CHeap.Keys)) h (fun a ha => h4 ⟨a, ha⟩)
          rw [h7]
          exact Or.inr ⟨rfl, fun k hk => by cases hk⟩
      · rw [CM.bind_ub h3]
        exact Or.inr ⟨rfl, fun k hk => by cases hk⟩
    rcases key with ⟨k, h', hk⟩ | ⟨h1, h2⟩
    · obtain ⟨_, keys, _, _, _, rfl, rfl⟩ := cKeygen_ret hk
      exact Or.inr ⟨Reply.keys _, keys.sk, CM.bind_ret hk, rfl⟩
    · left
      show ((CHeap.cKeygen E p n >>= fun a => pure (Reply.keys a)) h).2 = h ∧ _
      rcases hx : CHeap.cKeygen E p n h with ⟨o, h'⟩
      rw [hx] at h1 h2
      cases h1
      cases o with
      | ret a => exact absurd rfl (h2 a)
      | abort q =>
        refine ⟨by rw [CM.bind_abort hx], fun r hr => ?_⟩
        change ((CHeap.cKeygen E p n >>= fun a => pure (Reply.keys a)) h').1 = _ at hr
        rw [CM.bind_abort hx] at hr
        cases hr
      | ub =>
        refine ⟨by rw [CM.bind_ub hx], fun r hr => ?_⟩
        change ((CHeap.cKeygen E p n >>= fun a => pure (Reply.keys a)) h').1 = _ at hr
        rw [CM.bind_ub hx] at hr
        cases hr
  | update k p n t =>
    have key : (∃ k' h', CHeap.cSkUpdate E pf k p n t h = (.ret k', h')) ∨
        ((CHeap.cSkUpdate E pf k p n t h).2 = h ∧
          ∀ k', (CHeap.cSkUpdate E pf k p n t h).1 ≠ .ret k') := by
      unfold CHeap.cSkUpdate
      rcases fromRawParts_cases h p n with ⟨s, h1, h2, h3⟩ | ⟨h1, h3⟩
      · rw [CM.bind_ret h3]
        rcases fromRawParts_cases h k.data k.len with ⟨b, h4, h5, h6⟩ | ⟨h4, h6⟩
        · rw [CM.bind_ret h6]
          by_cases h4 : ∃ v, Ffi.cSkUpdate E pf b s t = .ok v
          · obtain ⟨v, h4⟩ := h4
            rw [lift_bind_ok h4]
            exact Or.inl ⟨_, _, rfl⟩
          · obtain ⟨q, h7⟩ := lift_bind_fail (f := fun kBuf : Bytes => do
              let skPtr ← forget kBuf
              pure ({ data := some skPtr, len := kBuf.length } : Sk)) h (fun a ha => h4 ⟨a, ha⟩)
            rw [h7]
            exact Or.inr ⟨rfl, fun k hk => by cases hk⟩
        · rw [CM.bind_ub h6]
          exact Or.inr ⟨rfl, fun k hk => by cases hk⟩
      · rw [CM.bind_ub h3]
        exact Or.inr ⟨rfl, fun k hk => by cases hk⟩
    rcases key with ⟨k', h', hk⟩ | ⟨h1, h2⟩
    · obtain ⟨_, _, b, _, _, _, _, _, rfl, rfl⟩ := cSkUpdate_ret hk
      exact Or.inr ⟨Reply.sk _, b, CM.bind_ret hk, rfl⟩
    · left
      show ((CHeap.cSkUpdate E pf k p n t >>= fun a => pure (Reply.sk a)) h).2 = h ∧ _
      rcases hx : CHeap.cSkUpdate E pf k p n t h with ⟨o, h'⟩
      rw [hx] at h1 h2
      cases h1
      cases o with
      | ret a => exact absurd rfl (h2 a)
      | abort q =>
        refine ⟨by rw [CM.bind_abort hx], fun r hr => ?_⟩
        change ((CHeap.cSkUpdate E pf k p n t >>= fun a => pure (Reply.sk a)) h').1 = _ at hr
        rw [CM.bind_abort hx] at hr
        cases hr
      | ub =>
        refine ⟨by rw [CM.bind_ub hx], fun r hr => ?_⟩
        change ((CHeap.cSkUpdate E pf k p n t >>= fun a => pure (Reply.sk a)) h').1 = _ at hr
        rw [CM.bind_ub hx] at hr
        cases hr
  | sign k m n t =>
    exact Or.inl (keep _ Reply.sig (cSignPresent_heap E pf k m n t h) (fun _ => rfl))
  | verify pk m n s => exact Or.inl (keep _ Reply.bool (cVerify_heap E pf pk m n s h) (fun _ => rfl))
  | aggregate p n => exact Or.inl (keep _ Reply.sig (cAggregation_heap E p n h) (fun _ => rfl))
  | verifyAgg p n m l s =>
    exact Or.inl (keep _ Reply.bool (cVerifyAgg_heap E pf p n m l s h) (fun _ => rfl))
  | malloc b => exact absurd hs id
  | write p b => exact absurd hs id
  | free p => exact absurd hs id

/-- one step of a program leaves a block alone that the program does not touch itself -/
theorem step_keeps [DecidableEq GT] (E : Ext G1 G2 GT) (pf : Profile) (s : Step) (h : Heap) {n : Nat}
    (hn : n < h.blocks.length) (ht : ¬ Touches n s) :
    (s.exec E pf h).2.blocks[n]? = h.blocks[n]? ∧ n < (s.exec E pf h).2.blocks.length := by
  by_cases hc : IsCall s
  · rcases C57_only_adds E pf hc h with ⟨h1, _⟩ | ⟨r, b, h1, _⟩
    · rw [h1]; exact ⟨rfl, hn⟩
    · rw [h1]
      exact ⟨List.getElem?_append_left hn, by simp; omega⟩
  · cases s with
    | malloc b =>
      exact ⟨List.getElem?_append_left hn, by
        show n < (h.blocks ++ [some b]).length
        simp; omega⟩
    | write p b =>
      have hp : p.block ≠ n := fun e => ht e
      have hcw : (clientWrite p b h).2.blocks[n]? = h.blocks[n]? ∧
          n < (clientWrite p b h).2.blocks.length := by
        show (match h.blocks[p.block]? with
          | some (some c) => if p.off + b.length ≤ c.length then
              (COut.ret (), Heap.mk (h.blocks.set p.block
                (some (c.take p.off ++ b ++ c.drop (p.off + b.length)))))
            else (.ub, h)
          | _ => (.ub, h)).2.blocks[n]? = _ ∧ n < (match h.blocks[p.block]? with
          | some (some c) => if p.off + b.length ≤ c.length then
              (COut.ret (), Heap.mk (h.blocks.set p.block
                (some (c.take p.off ++ b ++ c.drop (p.off + b.length)))))
            else (.ub, h)
          | _ => (.ub, h)).2.blocks.length
        split
        · split
          · exact ⟨by rw [List.getElem?_set_ne hp], by simpa using hn⟩
          · exact ⟨rfl, hn⟩
        · exact ⟨rfl, hn⟩
      have he : (Step.exec E pf (.write p b) h).2 = (clientWrite p b h).2 := by
        show ((clientWrite p b >>= fun _ => pure Reply.unit) h).2 = _
        rcases hx : clientWrite p b h with ⟨o, h'⟩
        cases o with
        | ret a => rw [CM.bind_ret hx]; rfl
        | abort q => rw [CM.bind_abort hx]
        | ub => rw [CM.bind_ub hx]
      rw [he]; exact hcw
    | free p =>
      have hp : p.block ≠ n := fun e => ht e
      have hcw : (clientFree p h).2.blocks[n]? = h.blocks[n]? ∧
          n < (clientFree p h).2.blocks.length := by
        show (match h.blocks[p.block]? with
          | some (some _) => if p.off = 0 then
              (COut.ret (), Heap.mk (h.blocks.set p.block none)) else (.ub, h)
          | _ => (.ub, h)).2.blocks[n]? = _ ∧ n < (match h.blocks[p.block]? with
          | some (some _) => if p.off = 0 then
              (COut.ret (), Heap.mk (h.blocks.set p.block none)) else (.ub, h)
          | _ => (.ub, h)).2.blocks.length
        split
        · split
          · exact ⟨by rw [List.getElem?_set_ne hp], by simpa using hn⟩
          · exact ⟨rfl, hn⟩
        · exact ⟨rfl, hn⟩
      have he : (Step.exec E pf (.free p) h).2 = (clientFree p h).2 := by
        show ((clientFree p >>= fun _ => pure Reply.unit) h).2 = _
        rcases hx : clientFree p h with ⟨o, h'⟩
        cases o with
        | ret a => rw [CM.bind_ret hx]; rfl
        | abort q => rw [CM.bind_abort hx]
        | ub => rw [CM.bind_ub hx]
      rw [he]; exact hcw
    | _ => exact absurd trivial hc

/-- C57: the library never releases or changes a key it has handed out (nor anything else): in every
run of every program, memory that the program itself does not write to or free holds the same bytes
in the end. -/
theorem C57_keys_stay [DecidableEq GT] (E : Ext G1 G2 GT) (pf : Profile) (ss : List Step) (h : Heap)
    {q : Ptr} {bs : Bytes} (hr : Region h (some q) bs) (ht : ∀ s ∈ ss, ¬ Touches q.block s) :
    Region (run E pf ss h).2 (some q) bs := by
  induction ss generalizing h with
  | nil => exact hr
  | cons s ss ih =>
    have hq : q.block < h.blocks.length := by
      obtain ⟨_, _, _, hq, _, hb⟩ := hr
      cases hq
      exact (List.getElem?_eq_some_iff.1 hb).1
    have hk := step_keeps E pf s h hq (ht s List.mem_cons_self)
    have hr' : Region (s.exec E pf h).2 (some q) bs :=
      hr.mono (fun q' e => by cases e; exact hk.1)
    unfold run
    rcases hx : s.exec E pf h with ⟨o, h'⟩
    rw [hx] at hr'
    cases o with
    | ret r => exact ih h' hr' (fun s hs => ht s (List.mem_cons_of_mem _ hs))
    | abort p => exact hr'
    | ub => exact hr'

/-- C57: on memory it may read, a call does what the function on byte lists does. -/
theorem C57_same_as_bytes [DecidableEq GT] (E : Ext G1 G2 GT) (pf : Profile) {h : Heap}
    {p : Option Ptr} {m : Bytes} (hm : Region h p m) :
    (∀ (k : Sk) (b : Bytes) (t : Nat), Region h k.data b → k.len = b.length →
      (∀ sig, Ffi.cSignPresent E pf b m t = .ok sig →
        CHeap.cSignPresent E pf k p m.length t h = (.ret sig, h)) ∧
      (∀ c, Ffi.cSkUpdate E pf b m t = .ok c → CHeap.cSkUpdate E pf k p m.length t h =
        (.ret ⟨some ⟨h.blocks.length, 0⟩, c.length⟩, ⟨h.blocks ++ [some c]⟩)) ∧
      (∀ q, Ffi.cSignPresent E pf b m t = .panic q →
        CHeap.cSignPresent E pf k p m.length t h = (.abort q, h)) ∧
      (∀ q, Ffi.cSkUpdate E pf b m t = .panic q →
        CHeap.cSkUpdate E pf k p m.length t h = (.abort q, h))) ∧
    (∀ pk sig r, Ffi.cVerify E pf pk m sig = .ok r →
      CHeap.cVerify E pf pk p m.length sig h = (.ret r, h)) ∧
    (∀ keys, Ffi.cKeygen E m = .ok keys → CHeap.cKeygen E p m.length h =
      (.ret ⟨keys.pk, ⟨some ⟨h.blocks.length, 0⟩, keys.sk.length⟩, keys.pop⟩,
        ⟨h.blocks ++ [some keys.sk]⟩)) := by
  have h3 := fromRawParts_eq hm
  refine ⟨fun k b t hb hl => ⟨fun sig hs => ?_, fun c hc => ?_, fun q hs => ?_, fun q hc => ?_⟩,
    fun pk sig r hv => ?_, fun keys hk => ?_⟩
  · unfold CHeap.cSignPresent
    rw [CM.bind_ret h3, hl, CM.bind_ret (fromRawParts_eq hb), lift_eq, hs]
    rfl
  · unfold CHeap.cSkUpdate
    rw [CM.bind_ret h3, hl, CM.bind_ret (fromRawParts_eq hb), lift_bind_ok hc]
    rfl
  · unfold CHeap.cSignPresent
    rw [CM.bind_ret h3, hl, CM.bind_ret (fromRawParts_eq hb), lift_eq, hs]
    rfl
  · unfold CHeap.cSkUpdate
    rw [CM.bind_ret h3, hl, CM.bind_ret (fromRawParts_eq hb)]
    exact CM.bind_abort (by rw [lift_eq, hc]; rfl)
  · unfold CHeap.cVerify
    rw [CM.bind_ret h3, lift_eq, hv]
    rfl
  · unfold CHeap.cKeygen
    rw [CM.bind_ret h3, lift_bind_ok hk]
    rfl

/-- a program that keeps updating: its keys are honest, and stay where they are -/
theorem follows_keys {E : Ext G1 G2 GT} (H : HashLaws E) (L : GroupLaws E) (C : CodecLaws E)
    (D : DefaultLaws E) {pf : Profile} {x : Nat} {h h' : Heap} {k : Sk}
    {us : List (Nat × Option Ptr × Nat)} {ks : List Sk} (hf : Follows E pf h k us ks h') :
    ∀ {t : Nat} {b : Bytes}, Region h k.data b → k.len = b.length →
      BlobFor E (x • E.defaultParam.h) t b →
      (∃ new, h'.blocks = h.blocks ++ new) ∧
      List.Forall₂ (fun k t => ∃ b, Region h' k.data b ∧ k.len = b.length ∧
        BlobFor E (x • E.defaultParam.h) t b) ks (t :: us.map Prod.fst) := by
  induction hf with
  | done h k =>
    intro t b hr hl hb
    exact ⟨⟨[], by simp⟩, List.Forall₂.cons ⟨b, hr, hl, hb⟩ List.Forall₂.nil⟩
  | @update h h₁ h₂ k k' u n p us ks h1 h2 ih =>
    intro t b hr hl hb
    obtain ⟨seed, blob, c, e1, e2, e3, e4, e5, rfl, rfl⟩ := cSkUpdate_ret h1
    have heq : blob = b := by
      have a1 := read_iff.2 ⟨e3, e4⟩
      rw [read_iff.2 ⟨hl.symm, hr⟩] at a1
      exact (Option.some.inj a1).symm
    subst heq
    have hc : BlobFor E (x • E.defaultParam.h) u c :=
      (cUpdates_blobFor H L C D pf hb (us := [(u, seed)]) (b' := c) (by
        rw [cUpdates, e5]; rfl)).1
    obtain ⟨⟨new, hnew⟩, hall⟩ := ih (Region.last h c) rfl hc
    refine ⟨⟨some c :: new, by rw [hnew]; simp⟩, List.Forall₂.cons ⟨blob, ?_, hl, hb⟩ hall⟩
    have := (e4.append [some c]).append new
    rw [show h₂ = ⟨h₂.blocks⟩ from rfl, hnew]
    exact this

/-- C57: without wiping there is no forward security: after key generation and any updates through
the C interface, everything is still in the heap: each key seen on the way signs for its time, and
the signatures are accepted. -/
theorem C57_forward_security_left_to_caller [DecidableEq GT] {E : Ext G1 G2 GT} (H : HashLaws E)
    (L : GroupLaws E) (C : CodecLaws E) (D : DefaultLaws E) {pf : Profile} {h₀ h₁ h₂ : Heap}
    {p : Option Ptr} {n : Nat} {keys : CHeap.Keys} (hg : CHeap.cKeygen E p n h₀ = (.ret keys, h₁))
    {us : List (Nat × Option Ptr × Nat)} {ks : List Sk} (hf : Follows E pf h₁ keys.sk us ks h₂)
    {m : Option Ptr} {msg : Bytes} (hm : Region h₂ m msg) :
    List.Forall₂ (fun k t => ∃ sig,
      CHeap.cSignPresent E pf k m msg.length t h₂ = (.ret sig, h₂) ∧
      CHeap.cVerify E pf keys.pk m msg.length sig h₂ = (.ret true, h₂))
      ks (1 :: us.map Prod.fst) := by
  obtain ⟨seed, bk, _, _, e1, rfl, rfl⟩ := cKeygen_ret hg
  have hl : 32 ≤ seed.length := by
    by_contra hc
    rw [(C46_keygen H L C D pf seed).1 (by omega)] at e1
    cases e1
  obtain ⟨bk', x, h1, _, _, _, h5, h6, _⟩ := (C46_keygen H L C D pf seed).2 hl
  rw [e1] at h1
  cases Res.ok.inj h1
  obtain ⟨_, hall⟩ := follows_keys H L C D hf (Region.last h₀ bk.sk) rfl h6
  refine hall.imp ?_
  rintro k t ⟨b, hr, hlen, sk, hk, rfl⟩
  obtain ⟨sig, hv, _, hs, hver⟩ := Ffi.cSignPresent_honest H L C D pf hk msg []
  rw [List.append_nil] at hs
  obtain ⟨r1, r2, _⟩ := C57_same_as_bytes E pf hm
  refine ⟨_, (r1 k _ t hr hlen).1 _ hs, r2 _ _ _ ?_⟩
  have p1 := Ffi.parse_pk C (k := { ciphersuite := E.defaultParam.ciphersuite
                                    pk := x • E.defaultParam.g2 })
    ⟨D.suite, by rw [D.wf.g2_gen]; exact L.sub2_nsmul L.gen2_sub x⟩ []
  have p2 := Ffi.parse_sig C hv []
  rw [List.append_nil] at p1 p2
  unfold Ffi.cVerify
  have p3 := hver { ciphersuite := E.defaultParam.ciphersuite, pk := x • E.defaultParam.g2 } rfl pf
  simp only [h5, p1, p2, Res.ok_bind, p3]

theorem clientWrite_ret {q : Ptr} {b : Bytes} {h h' : Heap}
    (hw : clientWrite q b h = (.ret (), h')) :
    ∃ c, h.blocks[q.block]? = some (some c) ∧ q.off + b.length ≤ c.length ∧
      h' = ⟨h.blocks.set q.block (some (c.take q.off ++ b ++ c.drop (q.off + b.length)))⟩ := by
  change (match h.blocks[q.block]? with
    | some (some c) => if q.off + b.length ≤ c.length then
        (COut.ret (), Heap.mk (h.blocks.set q.block
          (some (c.take q.off ++ b ++ c.drop (q.off + b.length)))))
      else (.ub, h)
    | _ => (.ub, h)) = _ at hw
  split at hw
  · rename_i c hc
    split at hw
    · rename_i hl
      cases hw
      exact ⟨c, hc, hl, rfl⟩
    · cases hw
  · cases hw

/-- the keys of a caller that overwrites each old key after the update -/
theorem wiping_keys {E : Ext G1 G2 GT} (H : HashLaws E) (L : GroupLaws E) (C : CodecLaws E)
    (D : DefaultLaws E) {pf : Profile} {x : Nat} {h h' : Heap} {k : Sk}
    {us : List (Nat × Option Ptr × Nat)} {ks : List Sk} (hf : FollowsWiping E pf h k us ks h') :
    ∀ {t : Nat} {b : Bytes} {q : Ptr}, k.data = some q → q.off = 0 →
      h.blocks[q.block]? = some (some b) → k.len = b.length →
      BlobFor E (x • E.defaultParam.h) t b →
      (∀ n < h.blocks.length, n ≠ q.block → h'.blocks[n]? = h.blocks[n]?) ∧
      ∃ old last, ks = old ++ [last] ∧
        (∀ o ∈ old, ∃ q, o.data = some q ∧ q.off = 0 ∧
          h'.blocks[q.block]? = some (some (List.replicate o.len 0))) ∧
        ∃ q b, last.data = some q ∧ q.off = 0 ∧ h'.blocks[q.block]? = some (some b) ∧
          last.len = b.length ∧
          BlobFor E (x • E.defaultParam.h) ((t :: us.map Prod.fst).getLast (by simp)) b := by
  induction hf with
  | done h k =>
    intro t b q hd ho hb hl hB
    exact ⟨fun _ _ _ => rfl, [], k, rfl, fun o ho => (by cases ho), q, b, hd, ho, hb, hl, hB⟩
  | @update h h₁ h₂ h₃ k k' q' u n p us ks h1 hq h2 h3 ih =>
    intro t b q hd ho hb hl hB
    rw [hd] at hq
    obtain rfl : q = q' := Option.some.inj hq
    obtain ⟨seed, blob, c, e1, e2, e3, e4, e5, rfl, rfl⟩ := cSkUpdate_ret h1
    have hqlt : q.block < h.blocks.length := (List.getElem?_eq_some_iff.1 hb).1
    have hreg : Region h k.data b := ⟨q, [], [], hd, by simpa using ho.symm, by simpa using hb⟩
    have heq : blob = b := by
      have a1 := read_iff.2 ⟨e3, e4⟩
      rw [read_iff.2 ⟨hl.symm, hreg⟩] at a1
      exact (Option.some.inj a1).symm
    subst heq
    have hc : BlobFor E (x • E.defaultParam.h) u c :=
      (cUpdates_blobFor H L C D pf hB (us := [(u, seed)]) (b' := c) (by
        rw [cUpdates, e5]; rfl)).1
    obtain ⟨d, hd1, hd2, rfl⟩ := clientWrite_ret h2
    simp only at hd1
    rw [List.getElem?_append_left hqlt, hb] at hd1
    cases hd1
    have hset : (blob.take q.off ++ List.replicate k.len 0 ++
        blob.drop (q.off + (List.replicate k.len (0 : UInt8)).length)) =
        List.replicate k.len (0 : UInt8) := by
      rw [ho, hl]; simp
    simp only [hset] at ih ⊢
    have hne : h.blocks.length ≠ q.block := by omega
    obtain ⟨ih1, old, last, ih2, ih3, ih4⟩ := ih (t := u) (b := c) (q := ⟨h.blocks.length, 0⟩)
      rfl rfl (by rw [List.getElem?_set_ne hne.symm]; simp) rfl hc
    have hlen : ((h.blocks ++ [some c]).set q.block
        (some (List.replicate k.len (0 : UInt8)))).length = h.blocks.length + 1 := by simp
    refine ⟨?_, k :: old, last, by rw [ih2]; rfl, ?_, ?_⟩
    · intro n hn hnq
      rw [ih1 n (by rw [hlen]; omega) (by simp only; omega), List.getElem?_set_ne hnq.symm,
        List.getElem?_append_left hn]
    · intro o hmem
      rcases List.mem_cons.1 hmem with rfl | hmem
      · refine ⟨q, hd, ho, ?_⟩
        rw [ih1 q.block (by rw [hlen]; omega) (by simp only; omega),
          List.getElem?_set_self (by simp; omega)]
      · exact ih3 o hmem
    · simpa using ih4

/-- C57: a caller that overwrites each old key after the update has, in the end, zeros in place of
all keys but the last one, and in place of the last one an honest key for the last time. -/
theorem C57_wiping_caller [DecidableEq GT] {E : Ext G1 G2 GT} (H : HashLaws E)
    (L : GroupLaws E) (C : CodecLaws E) (D : DefaultLaws E) {pf : Profile} {h₀ h₁ h₂ : Heap}
    {p : Option Ptr} {n : Nat} {keys : CHeap.Keys} (hg : CHeap.cKeygen E p n h₀ = (.ret keys, h₁))
    {us : List (Nat × Option Ptr × Nat)} {ks : List Sk}
    (hf : FollowsWiping E pf h₁ keys.sk us ks h₂) :
    ∃ (x : Nat) (old : List Sk) (last : Sk), ks = old ++ [last] ∧
      keys.pk = pkLayout E true
        { ciphersuite := E.defaultParam.ciphersuite, pk := x • E.defaultParam.g2 } ∧
      (∀ o ∈ old, ∃ q : Ptr, o.data = some q ∧
        h₂.blocks[q.block]? = some (some (List.replicate o.len 0))) ∧
      ∃ (q : Ptr) (b : Bytes), last.data = some q ∧ h₂.blocks[q.block]? = some (some b) ∧
        last.len = b.length ∧
        BlobFor E (x • E.defaultParam.h) ((1 :: us.map Prod.fst).getLast (by simp)) b := by
  obtain ⟨seed, bk, _, _, e1, rfl, rfl⟩ := cKeygen_ret hg
  have hl : 32 ≤ seed.length := by
    by_contra hc
    rw [(C46_keygen H L C D pf seed).1 (by omega)] at e1
    cases e1
  obtain ⟨bk', x, h1, _, _, _, h5, h6, _⟩ := (C46_keygen H L C D pf seed).2 hl
  rw [e1] at h1
  cases Res.ok.inj h1
  obtain ⟨_, old, last, a1, a2, q, b, a3, _, a4, a5, a6⟩ :=
    wiping_keys H L C D hf (q := ⟨h₀.blocks.length, 0⟩) rfl rfl (by simp) rfl h6
  exact ⟨x, old, last, a1, h5, fun o ho => by
    obtain ⟨q, b1, _, b2⟩ := a2 o ho
    exact ⟨q, b1, b2⟩, q, b, a3, a4, a5, a6⟩

/-- C57: a wrong length in `pixel_sk`: too short aborts, beyond the end of the block is
undefined. -/
theorem C57_wrong_length [DecidableEq GT] {E : Ext G1 G2 GT} (L : GroupLaws E) (C : CodecLaws E)
    (D : DefaultLaws E) (pf : Profile) {x t : Nat} {b : Bytes}
    (hB : BlobFor E (x • E.defaultParam.h) t b) {h : Heap} {n : Nat}
    (hb : h.blocks[n]? = some (some b)) {m : Option Ptr} {msg : Bytes} (hm : Region h m msg)
    (len u : Nat) :
    (len < b.length →
      CHeap.cSignPresent E pf ⟨some ⟨n, 0⟩, len⟩ m msg.length u h = (.abort .explicit, h) ∧
      CHeap.cSkUpdate E pf ⟨some ⟨n, 0⟩, len⟩ m msg.length u h = (.abort .explicit, h)) ∧
    (b.length < len →
      (CHeap.cSignPresent E pf ⟨some ⟨n, 0⟩, len⟩ m msg.length u h).1 = .ub ∧
      (CHeap.cSkUpdate E pf ⟨some ⟨n, 0⟩, len⟩ m msg.length u h).1 = .ub) := by
  constructor
  · intro hlt
    obtain ⟨sk, hk, rfl⟩ := hB
    set b := skLayout E true sk with hbdef
    have hreg : Region h (some ⟨n, 0⟩) (b.take len) :=
      ⟨⟨n, 0⟩, [], b.drop len, rfl, rfl, by simpa using hb⟩
    have hlen : len = (b.take len).length := by rw [List.length_take]; omega
    have herr := (C39_truncated C true (b.take len) (b.drop len) (by
      intro h0
      have := congrArg List.length h0
      simp at this
      omega)).2.2.2 sk (D.skValid L hk) (by rw [List.take_append_drop])
    have hp := Ffi.parse_err (p := SecretKey.deserialize E true) herr
    obtain ⟨r1, _⟩ := C57_same_as_bytes E pf hm
    obtain ⟨_, _, r2, r3⟩ := r1 ⟨some ⟨n, 0⟩, len⟩ (b.take len) u hreg hlen
    refine ⟨r2 _ ?_, r3 _ ?_⟩
    · unfold Ffi.cSignPresent
      simp only [hp, Res.panic_bind]
    · unfold Ffi.cSkUpdate
      simp only [hp, Res.panic_bind]
  · intro hlt
    have hn : ¬ Readable h (some ⟨n, 0⟩) len := by
      rintro ⟨bs, h1, q, pre, post, h2, h3, h4⟩
      cases h2
      rw [hb] at h4
      have := congrArg List.length (Option.some.inj (Option.some.inj h4))
      simp at this
      omega
    obtain ⟨_, h2, _, h4, _⟩ := C57_undefined_exactly E pf h
    exact ⟨(h2 _ _ _ _).2 (Or.inr hn), (h4 _ _ _ _).2 (Or.inr hn)⟩

/-! ### Concrete cases -/

section Examples
open Pixel.Toy

/-- C57: a C program with a seed in one block and an empty string in another generates keys and
updates to any later time; the key for time 1 is still in the heap then. -/
theorem toy_heap_run {tar : Nat} (h1 : 1 < tar) (h2 : tar ≤ 2 ^ 32 - 1) :
    ∃ keys h₁ k' h₂,
      CHeap.cKeygen (ext sha0) (some ⟨0, 0⟩) 32 ⟨[some (List.replicate 32 7), some []]⟩ =
        (.ret keys, h₁) ∧
      Follows (ext sha0) .debug h₁ keys.sk [(tar, some ⟨1, 0⟩, 0)] [keys.sk, k'] h₂ ∧
      Region h₂ (some ⟨0, 0⟩) (List.replicate 32 7) := by
  obtain ⟨keys, blob, e1, e2⟩ := toy_c_run h1 h2
  rw [cUpdates] at e2
  cases e3 : Ffi.cSkUpdate (ext sha0) .debug keys.sk [] tar with
  | err e => rw [e3] at e2; cases e2
  | panic p => rw [e3] at e2; cases e2
  | ok c =>
    have r0 : Region ⟨[some (List.replicate 32 7), some []]⟩ (some ⟨0, 0⟩)
        (List.replicate 32 (7 : UInt8)) := ⟨⟨0, 0⟩, [], [], rfl, rfl, by simp⟩
    have g := (C57_same_as_bytes (ext sha0) .debug r0).2.2 keys e1
    rw [List.length_replicate] at g
    have r1 : Region ⟨[some (List.replicate 32 7), some []] ++ [some keys.sk]⟩ (some ⟨1, 0⟩) [] :=
      ⟨⟨1, 0⟩, [], [], rfl, rfl, by simp⟩
    have u := ((C57_same_as_bytes (ext sha0) .debug r1).1 ⟨some ⟨2, 0⟩, keys.sk.length⟩ keys.sk tar
      (Region.last ⟨[some (List.replicate 32 7), some []]⟩ keys.sk) rfl).2.1 c e3
    exact ⟨_, _, _, _, g, Follows.update u (Follows.done _ _), (r0.append _).append _⟩

/-- so the hypotheses of `C57_forward_security_left_to_caller` are met, with two keys -/
example : ∃ keys h₁ ks h₂,
    CHeap.cKeygen (ext sha0) (some ⟨0, 0⟩) 32 ⟨[some (List.replicate 32 7), some []]⟩ =
      (.ret keys, h₁) ∧
    Follows (ext sha0) .debug h₁ keys.sk [(9, some ⟨1, 0⟩, 0)] ks h₂ ∧ ks.length = 2 ∧
    ∃ k ∈ ks, ∃ sig, CHeap.cSignPresent (ext sha0) .debug k (some ⟨0, 0⟩) 32 1 h₂ =
      (.ret sig, h₂) := by
  obtain ⟨keys, h₁, k', h₂, e1, e2, e3⟩ := toy_heap_run (tar := 9) (by omega) (by omega)
  have hall := C57_forward_security_left_to_caller hashLaws (groupLaws sha0) (codecLaws sha0)
    (defaultLaws sha0) e1 e2 e3
  cases hall with
  | cons a _ =>
    obtain ⟨sig, a1, _⟩ := a
    rw [List.length_replicate] at a1
    exact ⟨keys, h₁, _, h₂, e1, e2, rfl, _, List.mem_cons_self, sig, a1⟩

/-- C57: the caller of `toy_heap_run` can also wipe the old key -/
example : ∃ keys h₁ k' h₃,
    CHeap.cKeygen (ext sha0) (some ⟨0, 0⟩) 32 ⟨[some (List.replicate 32 7), some []]⟩ =
      (.ret keys, h₁) ∧
    FollowsWiping (ext sha0) .debug h₁ keys.sk [(9, some ⟨1, 0⟩, 0)] [keys.sk, k'] h₃ := by
  obtain ⟨keys, h₁, k', h₂, e1, e2, _⟩ := toy_heap_run (tar := 9) (by omega) (by omega)
  cases e2 with
  | update u d =>
    cases d
    obtain ⟨_, bk, _, _, _, rfl, rfl⟩ := cKeygen_ret e1
    obtain ⟨_, _, c, _, _, _, _, _, rfl, rfl⟩ := cSkUpdate_ret u
    refine ⟨_, _, _, ⟨[some (List.replicate 32 7), some [],
      some (List.replicate bk.sk.length 0), some c]⟩, e1,
      FollowsWiping.update u rfl ?_ (FollowsWiping.done _ _)⟩
    · show (if 0 + (List.replicate bk.sk.length (0 : UInt8)).length ≤ bk.sk.length then _ else _) = _
      rw [if_pos (by simp)]
      simp

end Examples

end Pixel.Props
