import Verif.Spec.CHeap
import Verif.Props.Ffi

/-! # Lemmas on the heap shared with C programs -/

namespace Pixel

open Pixel.Spec

set_option linter.unusedSectionVars false

variable {G1 G2 GT : Type} [AddCommGroup G1] [AddCommGroup G2] [CommGroup GT]

namespace CHeap

theorem CM.bind_ret {α β : Type} {x : CM α} {f : α → CM β} {h h' : Heap} {a : α}
    (hx : x h = (.ret a, h')) : (x >>= f) h = f a h' := by
  show (match x h with
    | (.ret a, h') => f a h'
    | (.abort p, h') => (.abort p, h')
    | (.ub, h') => (.ub, h')) = _
  rw [hx]

theorem CM.bind_abort {α β : Type} {x : CM α} {f : α → CM β} {h h' : Heap} {p : Panic}
    (hx : x h = (.abort p, h')) : (x >>= f) h = (.abort p, h') := by
  show (match x h with
    | (.ret a, h') => f a h'
    | (.abort p, h') => (.abort p, h')
    | (.ub, h') => (.ub, h')) = _
  rw [hx]

theorem CM.bind_ub {α β : Type} {x : CM α} {f : α → CM β} {h h' : Heap}
    (hx : x h = (.ub, h')) : (x >>= f) h = (.ub, h') := by
  show (match x h with
    | (.ret a, h') => f a h'
    | (.abort p, h') => (.abort p, h')
    | (.ub, h') => (.ub, h')) = _
  rw [hx]

@[simp] theorem CM.pure_run {α : Type} (a : α) (h : Heap) : (pure a : CM α) h = (.ret a, h) := rfl

theorem read_iff {h : Heap} {p : Option Ptr} {n : Nat} {bs : Bytes} :
    h.read p n = some bs ↔ bs.length = n ∧ Region h p bs := by
  unfold Heap.read Region
  cases p with
  | none => simp
  | some q =>
    simp only
    constructor
    · intro hr
      cases hb : h.blocks[q.block]? with
      | none => rw [hb] at hr; cases hr
      | some o =>
        cases o with
        | none => rw [hb] at hr; cases hr
        | some b =>
          rw [hb] at hr
          simp only at hr
          by_cases hl : q.off + n ≤ b.length
          · rw [if_pos hl] at hr
            cases hr
            refine ⟨by simp; omega, q, b.take q.off, (b.drop q.off).drop n, rfl, ?_, ?_⟩
            · rw [List.length_take]; omega
            · rw [List.append_assoc, List.take_append_drop, List.take_append_drop]
              exact hb
          · rw [if_neg hl] at hr; cases hr
    · rintro ⟨hn, q', pre, post, hq, hp, hb⟩
      cases hq
      rw [hb]
      simp only
      rw [if_pos (by simp; omega), List.append_assoc, List.drop_left' hp, List.take_left' hn]

theorem fromRawParts_eq {h : Heap} {p : Option Ptr} {bs : Bytes} (hr : Region h p bs) :
    fromRawParts p bs.length h = (.ret bs, h) := by
  show (match h.read p bs.length with
    | some b => (COut.ret b, h)
    | none => (.ub, h)) = _
  rw [read_iff.2 ⟨rfl, hr⟩]

theorem fromRawParts_ub {h : Heap} {p : Option Ptr} {n : Nat} (hr : ¬ Readable h p n) :
    fromRawParts p n h = (.ub, h) := by
  show (match h.read p n with
    | some b => (COut.ret b, h)
    | none => (.ub, h)) = _
  cases hd : h.read p n with
  | none => rfl
  | some b => exact absurd ⟨b, read_iff.1 hd⟩ hr

theorem fromRawParts_cases (h : Heap) (p : Option Ptr) (n : Nat) :
    (∃ bs, bs.length = n ∧ Region h p bs ∧ fromRawParts p n h = (.ret bs, h)) ∨
    (¬ Readable h p n ∧ fromRawParts p n h = (.ub, h)) := by
  by_cases hr : Readable h p n
  · obtain ⟨bs, rfl, h2⟩ := hr
    exact Or.inl ⟨bs, rfl, h2, fromRawParts_eq h2⟩
  · exact Or.inr ⟨hr, fromRawParts_ub hr⟩

theorem fromRawPartsOf_cases (k : Nat) (h : Heap) (p : Option Ptr) (n : Nat) :
    (∃ bs, bs.length = n * k ∧ Region h p bs ∧ fromRawPartsOf k p n h =
      (.ret ((List.range n).map (fun i => (bs.drop (i * k)).take k)), h)) ∨
    (¬ Readable h p (n * k) ∧ fromRawPartsOf k p n h = (.ub, h)) := by
  unfold fromRawPartsOf
  rcases fromRawParts_cases h p (n * k) with ⟨bs, h1, h2, h3⟩ | ⟨h1, h2⟩
  · exact Or.inl ⟨bs, h1, h2, by rw [CM.bind_ret h3]; rfl⟩
  · exact Or.inr ⟨h1, CM.bind_ub h2⟩

/-- the outcome of code that leaves the heap alone -/
def outOf {α : Type} : Res α → COut α
  | .ok a => .ret a
  | .err _ => .abort .explicit
  | .panic p => .abort p

theorem lift_eq {α : Type} (r : Res α) (h : Heap) : lift r h = (outOf r, h) := by
  cases r <;> rfl

theorem lift_bind_ok {α β : Type} {r : Res α} {a : α} (hr : r = .ok a) (f : α → CM β) (h : Heap) :
    (lift r >>= f) h = f a h := CM.bind_ret (by rw [lift_eq, hr]; rfl)

/-- regions in blocks that stay -/
theorem _root_.Pixel.Spec.Region.mono {h h' : Heap} {p : Option Ptr} {bs : Bytes} (hr : Region h p bs)
    (hb : ∀ q, p = some q → h'.blocks[q.block]? = h.blocks[q.block]?) : Region h' p bs := by
  obtain ⟨q, pre, post, h1, h2, h3⟩ := hr
  exact ⟨q, pre, post, h1, h2, by rw [hb q h1, h3]⟩

theorem _root_.Pixel.Spec.Region.append {h : Heap} {p : Option Ptr} {bs : Bytes} (hr : Region h p bs)
    (new : List (Option Bytes)) : Region ⟨h.blocks ++ new⟩ p bs := by
  obtain ⟨q, pre, post, h1, h2, h3⟩ := hr
  exact ⟨q, pre, post, h1, h2, List.getElem?_append_left (List.getElem?_eq_some_iff.1 h3).1 ▸ h3⟩

theorem _root_.Pixel.Spec.Region.last (h : Heap) (b : Bytes) :
    Region ⟨h.blocks ++ [some b]⟩ (some ⟨h.blocks.length, 0⟩) b :=
  ⟨_, [], [], rfl, rfl, by simp⟩

theorem cSkUpdate_ret {E : Ext G1 G2 GT} {pf : Profile} {h h' : Heap} {k k' : Sk}
    {p : Option Ptr} {n t : Nat} (he : cSkUpdate E pf k p n t h = (.ret k', h')) :
    ∃ seed blob b, seed.length = n ∧ Region h p seed ∧ blob.length = k.len ∧ Region h k.data blob ∧
      Ffi.cSkUpdate E pf blob seed t = .ok b ∧ h' = ⟨h.blocks ++ [some b]⟩ ∧
      k' = ⟨some ⟨h.blocks.length, 0⟩, b.length⟩ := by
  unfold cSkUpdate at he
  rcases fromRawParts_cases h p n with ⟨seed, h1, h2, h3⟩ | ⟨_, h3⟩
  · rw [CM.bind_ret h3] at he
    rcases fromRawParts_cases h k.data k.len with ⟨blob, h4, h5, h6⟩ | ⟨_, h6⟩
    · rw [CM.bind_ret h6] at he
      cases hu : Ffi.cSkUpdate E pf blob seed t with
      | ok b =>
        rw [lift_bind_ok hu] at he
        cases he
        exact ⟨seed, blob, b, h1, h2, h4, h5, hu, rfl, rfl⟩
      | err e => rw [CM.bind_abort (p := .explicit) (by rw [lift_eq, hu]; rfl)] at he; cases he
      | panic q => rw [CM.bind_abort (p := q) (by rw [lift_eq, hu]; rfl)] at he; cases he
    · rw [CM.bind_ub h6] at he; cases he
  · rw [CM.bind_ub h3] at he; cases he

theorem cKeygen_ret {E : Ext G1 G2 GT} {h h' : Heap} {k : Keys} {p : Option Ptr} {n : Nat}
    (he : cKeygen E p n h = (.ret k, h')) :
    ∃ (seed : Bytes) (keys : Ffi.Keys), seed.length = n ∧ Region h p seed ∧
      Ffi.cKeygen E seed = .ok keys ∧ h' = ⟨h.blocks ++ [some keys.sk]⟩ ∧
      k = ⟨keys.pk, ⟨some ⟨h.blocks.length, 0⟩, keys.sk.length⟩, keys.pop⟩ := by
  unfold cKeygen at he
  rcases fromRawParts_cases h p n with ⟨seed, h1, h2, h3⟩ | ⟨_, h3⟩
  · rw [CM.bind_ret h3] at he
    cases hu : Ffi.cKeygen E seed with
    | ok b =>
      rw [lift_bind_ok hu] at he
      cases he
      exact ⟨seed, b, h1, h2, hu, rfl, rfl⟩
    | err e => rw [CM.bind_abort (p := .explicit) (by rw [lift_eq, hu]; rfl)] at he; cases he
    | panic q => rw [CM.bind_abort (p := q) (by rw [lift_eq, hu]; rfl)] at he; cases he
  · rw [CM.bind_ub h3] at he; cases he

/-- reading functions leave the heap alone -/
theorem cSignPresent_heap (E : Ext G1 G2 GT) (pf : Profile) (k : Sk) (m : Option Ptr) (n t : Nat)
    (h : Heap) : (cSignPresent E pf k m n t h).2 = h := by
  unfold cSignPresent
  rcases fromRawParts_cases h m n with ⟨_, _, _, h3⟩ | ⟨_, h3⟩
  · rw [CM.bind_ret h3]
    rcases fromRawParts_cases h k.data k.len with ⟨_, _, _, h6⟩ | ⟨_, h6⟩
    · rw [CM.bind_ret h6, lift_eq]
    · rw [CM.bind_ub h6]
  · rw [CM.bind_ub h3]

theorem cVerify_heap [DecidableEq GT] (E : Ext G1 G2 GT) (pf : Profile) (pk : Bytes)
    (m : Option Ptr) (n : Nat) (s : Bytes) (h : Heap) : (cVerify E pf pk m n s h).2 = h := by
  unfold cVerify
  rcases fromRawParts_cases h m n with ⟨_, _, _, h3⟩ | ⟨_, h3⟩
  · rw [CM.bind_ret h3, lift_eq]
  · rw [CM.bind_ub h3]

theorem cAggregation_heap (E : Ext G1 G2 GT) (p : Option Ptr) (n : Nat) (h : Heap) :
    (cAggregation E p n h).2 = h := by
  unfold cAggregation
  rcases fromRawPartsOf_cases 149 h p n with ⟨_, _, _, h3⟩ | ⟨_, h3⟩
  · rw [CM.bind_ret h3, lift_eq]
  · rw [CM.bind_ub h3]

theorem lift_bind_fail {α β : Type} {r : Res α} (f : α → CM β) (h : Heap)
    (hr : ∀ a, r ≠ .ok a) : ∃ p, (lift r >>= f) h = (.abort p, h) := by
  cases r with
  | ok a => exact absurd rfl (hr a)
  | err e => exact ⟨.explicit, CM.bind_abort (by rw [lift_eq]; rfl)⟩
  | panic p => exact ⟨p, CM.bind_abort (by rw [lift_eq]; rfl)⟩

theorem cVerifyAgg_heap [DecidableEq GT] (E : Ext G1 G2 GT) (pf : Profile) (p : Option Ptr)
    (n : Nat) (m : Option Ptr) (l : Nat) (s : Bytes) (h : Heap) :
    (cVerifyAgg E pf p n m l s h).2 = h := by
  unfold cVerifyAgg
  rcases fromRawPartsOf_cases 49 h p n with ⟨bs, _, _, h3⟩ | ⟨_, h3⟩
  · rw [CM.bind_ret h3]
    by_cases h4 : ∃ v, Ffi.parseAll (PublicKey.deserialize E true)
        ((List.range n).map (fun i => (bs.drop (i * 49)).take 49)) = .ok v
    · obtain ⟨v, h4⟩ := h4
      rw [lift_bind_ok h4]
      rcases fromRawParts_cases h m l with ⟨_, _, _, h5⟩ | ⟨_, h5⟩
      · rw [CM.bind_ret h5]
        by_cases h6 : ∃ g, Ffi.parse (Signature.deserialize E true) s = .ok g
        · obtain ⟨g, h6⟩ := h6
          rw [lift_bind_ok h6, lift_eq]
        · obtain ⟨q, h7⟩ := lift_bind_fail (f := fun sig =>
            lift (Signature.verifyBytesAggregated E pf sig v E.defaultParam _)) h
            (fun a ha => h6 ⟨a, ha⟩)
          rw [h7]
      · rw [CM.bind_ub h5]
    · obtain ⟨q, h7⟩ := lift_bind_fail (f := fun pkVec => do
        let m ← fromRawParts m l
        let sig ← lift (Ffi.parse (Signature.deserialize E true) s)
        lift (Signature.verifyBytesAggregated E pf sig pkVec E.defaultParam m)) h
        (fun a ha => h4 ⟨a, ha⟩)
      rw [h7]
  · rw [CM.bind_ub h3]

end CHeap

end Pixel
