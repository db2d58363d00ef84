import Verif.Spec.CTest
import Verif.Proof.CHeap
import Verif.Proof.Debug
import Verif.Proof.Vectors

/-! # Lemmas on the C program with memory and output -/

namespace Pixel.CTest

open Pixel Pixel.Spec Pixel.CHeap Pixel.Vectors

set_option linter.unusedSectionVars false

variable {G1 G2 GT : Type} [AddCommGroup G1] [AddCommGroup G2] [CommGroup GT]

theorem PM.bind_ret {α β : Type} {x : PM α} {f : α → PM β} {w w' : World} {a : α}
    (hx : x w = (.ret a, w')) : (x >>= f) w = f a w' := by
  show (match x w with
    | (.ret a, w') => f a w'
    | (.abort p, w') => (.abort p, w')
    | (.ub, w') => (.ub, w')) = _
  rw [hx]

theorem PM.bind_abort {α β : Type} {x : PM α} {f : α → PM β} {w w' : World} {p : Panic}
    (hx : x w = (.abort p, w')) : (x >>= f) w = (.abort p, w') := by
  show (match x w with
    | (.ret a, w') => f a w'
    | (.abort p, w') => (.abort p, w')
    | (.ub, w') => (.ub, w')) = _
  rw [hx]

theorem PM.bind_ub {α β : Type} {x : PM α} {f : α → PM β} {w w' : World}
    (hx : x w = (.ub, w')) : (x >>= f) w = (.ub, w') := by
  show (match x w with
    | (.ret a, w') => f a w'
    | (.abort p, w') => (.abort p, w')
    | (.ub, w') => (.ub, w')) = _
  rw [hx]

theorem PM.ext {α : Type} {x y : PM α} (h : ∀ w, x w = y w) : x = y := by
  cases x; cases y; congr; exact funext h

theorem PM.bind_assoc {α β γ : Type} (x : PM α) (f : α → PM β) (g : β → PM γ) :
    x >>= f >>= g = x >>= fun a => f a >>= g := by
  refine PM.ext fun w => ?_
  rcases hx : x w with ⟨_ | _ | _, w'⟩
  · rw [PM.bind_ret hx]
    rcases hf : f _ w' with ⟨_ | _ | _, w''⟩
    · rw [PM.bind_ret hf, PM.bind_ret (by rw [PM.bind_ret hx]; exact hf)]
    · rw [PM.bind_abort hf, PM.bind_abort (by rw [PM.bind_ret hx]; exact hf)]
    · rw [PM.bind_ub hf, PM.bind_ub (by rw [PM.bind_ret hx]; exact hf)]
  · rw [PM.bind_abort hx, PM.bind_abort (by rw [PM.bind_abort hx])]
  · rw [PM.bind_ub hx, PM.bind_ub (by rw [PM.bind_ub hx])]

theorem mem_eq {α : Type} {x : CM α} {w : World} {o : COut α} {h : Heap} (hx : x w.heap = (o, h)) :
    mem x w = (o, { w with heap := h }) := by
  show (match x w.heap with | (o, h) => (o, ({ w with heap := h } : World))) = _
  rw [hx]

theorem print_eq (b : Bytes) (w : World) : print b w = (.ret (), { w with out := w.out ++ b }) := rfl

theorem array_eq (b : Bytes) (w : World) : array b w =
    (.ret ⟨w.heap.blocks.length, 0⟩, { w with heap := ⟨w.heap.blocks ++ [some b]⟩ }) := rfl

/-! ### one block among others -/

theorem block_at (B t : List (Option Bytes)) (b : Option Bytes) :
    (B ++ b :: t)[B.length]? = some b := by simp

theorem set_at (B t : List (Option Bytes)) (b c : Option Bytes) :
    (B ++ b :: t).set B.length c = B ++ c :: t := by simp

theorem clientWrite_at {B t : List (Option Bytes)} {b d : Bytes} {i : Nat}
    (hi : i + d.length ≤ b.length) :
    clientWrite ⟨B.length, i⟩ d ⟨B ++ some b :: t⟩ =
      (.ret (), ⟨B ++ some (b.take i ++ d ++ b.drop (i + d.length)) :: t⟩) := by
  show (match (B ++ some b :: t)[B.length]? with
    | some (some c) => if i + d.length ≤ c.length then
      (COut.ret (), (⟨(B ++ some b :: t).set B.length
        (some (c.take i ++ d ++ c.drop (i + d.length)))⟩ : Heap))
      else (.ub, _)
    | _ => (.ub, _)) = _
  rw [block_at]
  simp only [if_pos hi, set_at]

theorem clientFree_at {B t : List (Option Bytes)} {b : Bytes} :
    clientFree ⟨B.length, 0⟩ ⟨B ++ some b :: t⟩ = (.ret (), ⟨B ++ none :: t⟩) := by
  show (match (B ++ some b :: t)[B.length]? with
    | some (some _) => if (0 : Nat) = 0 then
      (COut.ret (), (⟨(B ++ some b :: t).set B.length none⟩ : Heap)) else (.ub, _)
    | _ => (.ub, _)) = _
  rw [block_at]
  simp only [if_true, set_at]

theorem store_at {B t : List (Option Bytes)} {b d : Bytes} {i : Nat} {w : World}
    (hw : w.heap.blocks = B ++ some b :: t) (hi : i + d.length ≤ b.length) :
    store ⟨B.length, 0⟩ i d w =
      (.ret (), { w with heap := ⟨B ++ some (b.take i ++ d ++ b.drop (i + d.length)) :: t⟩ }) := by
  have e : w.heap = ⟨B ++ some b :: t⟩ := by rw [← hw]
  refine mem_eq ?_
  rw [e]
  simpa using clientWrite_at hi

theorem release_at {B t : List (Option Bytes)} {b : Bytes} {w : World}
    (hw : w.heap.blocks = B ++ some b :: t) :
    release ⟨B.length, 0⟩ w = (.ret (), { w with heap := ⟨B ++ none :: t⟩ }) := by
  have e : w.heap = ⟨B ++ some b :: t⟩ := by rw [← hw]
  refine mem_eq ?_
  rw [e]
  exact clientFree_at

theorem cString_at {B t : List (Option Bytes)} {s post : Bytes} {w : World}
    (hw : w.heap.blocks = B ++ some (s ++ 0 :: post) :: t) (hs : ∀ c ∈ s, c ≠ 0) :
    cString ⟨B.length, 0⟩ w = (.ret s, w) := by
  show (match w.heap.blocks[B.length]? with
    | some (some b) =>
      if 0 ∈ b.drop 0 then (COut.ret ((b.drop 0).takeWhile (· ≠ 0)), w) else (.ub, w)
    | _ => (.ub, w)) = _
  rw [hw, block_at]
  simp only [List.drop_zero]
  rw [if_pos (by simp)]
  have : (s ++ 0 :: post).takeWhile (· ≠ 0) = s := by
    rw [List.takeWhile_append_of_pos (by simpa using hs)]
    simp
  rw [this]

theorem printBuff_at {B t : List (Option Bytes)} {s post : Bytes} {w : World}
    (hw : w.heap.blocks = B ++ some (s ++ 0 :: post) :: t) (hs : ∀ c ∈ s, c ≠ 0) :
    printBuff ⟨B.length, 0⟩ w = (.ret (), { w with out := w.out ++ (ascii "  " ++ s ++ [10]) }) :=
  (PM.bind_ret (cString_at hw hs)).trans (print_eq _ _)

/-! ### the dump -/

theorem shown_eq (c : UInt8) : shown c = printable c := by
  unfold shown printable
  have h1 : c < 0x20 ↔ c.toNat < 32 := UInt8.lt_iff_toNat_lt
  have h2 : c > 0x7e ↔ 126 < c.toNat := UInt8.lt_iff_toNat_lt
  by_cases h : 32 ≤ c.toNat ∧ c.toNat ≤ 126
  · rw [if_pos h, if_neg (by rw [h1, h2]; omega)]
  · rw [if_neg h, if_pos (by rw [h1, h2]; omega)]

theorem printable_ne_zero (c : UInt8) : printable c ≠ 0 := by
  unfold printable
  split
  · rintro rfl
    simp at *
  · decide

theorem load_byte {h : Heap} {addr : Option Ptr} {bs : Bytes} (hr : Region h addr bs) {i : Nat}
    (hi : i < bs.length) {w : World} (hw : ∃ t, w.heap.blocks = h.blocks ++ t) :
    load addr i 1 w = (.ret [bs[i]], w) := by
  obtain ⟨q, pre, post, rfl, h2, h3⟩ := hr
  obtain ⟨t, hw⟩ := hw
  have hreg : Region w.heap (some { q with off := q.off + i }) [bs[i]] := by
    refine ⟨_, pre ++ bs.take i, bs.drop (i + 1) ++ post, rfl, by simp; omega, ?_⟩
    rw [hw, List.getElem?_append_left (List.getElem?_eq_some_iff.1 h3).1, h3]
    have : bs = bs.take i ++ ([bs[i]] ++ bs.drop (i + 1)) := by
      simp
    congr 2
    conv_lhs => rw [this]
    simp only [List.append_assoc]
  have := mem_eq (w := w) (fromRawParts_eq hreg)
  exact this

/-- the text in front of byte `i` -/
def before (i : Nat) (s : Bytes) : Bytes :=
  if i % 16 = 0 then (if i ≠ 0 then ascii "  " ++ s ++ [10] else []) ++
    (ascii "  " ++ hex4 i ++ ascii " ") else []

theorem dumpByte_eq {B : List (Option Bytes)} {addr : Option Ptr} {bs : Bytes}
    (hr : Region ⟨B⟩ addr bs) {i : Nat} (hi : i < bs.length) {w : World} {b s : Bytes}
    (hw : w.heap.blocks = B ++ [some b]) (hb : b.length = 17)
    (hs : i % 16 = 0 → i ≠ 0 → (∀ c ∈ s, c ≠ 0) ∧ ∃ post, b = s ++ 0 :: post) :
    dumpByte ⟨B.length, 0⟩ addr i w = (.ret (), { w with
      heap := ⟨B ++ [some (b.take (i % 16) ++ printable bs[i] :: 0 :: b.drop (i % 16 + 2))]⟩
      out := w.out ++ (before i s ++ (ascii " " ++ Debug.hex2 bs[i])) }) := by
  have hm : i % 16 < 16 := Nat.mod_lt _ (by omega)
  -- what comes after the head of the line
  have rest : ∀ w' : World, w'.heap.blocks = B ++ [some b] → (do
      let c ← load addr i 1
      print (ascii " " ++ c.flatMap Debug.hex2)
      store ⟨B.length, 0⟩ (i % 16) (c.map shown)
      store ⟨B.length, 0⟩ (i % 16 + 1) [0]) w' = (.ret (), { w' with
        heap := ⟨B ++ [some (b.take (i % 16) ++ printable bs[i] :: 0 :: b.drop (i % 16 + 2))]⟩
        out := w'.out ++ (ascii " " ++ Debug.hex2 bs[i]) }) := by
    intro w' hw'
    refine (PM.bind_ret (load_byte hr hi ⟨_, hw'⟩)).trans ((PM.bind_ret (print_eq _ _)).trans ?_)
    refine (PM.bind_ret (store_at (b := b) (t := []) (by exact hw')
      (by rw [hb]; show i % 16 + 1 ≤ 17; omega))).trans ?_
    refine (store_at (B := B) (t := []) rfl ?_).trans ?_
    · simp only [List.length_append, List.length_take, List.length_map, List.length_cons,
        List.length_nil, List.length_drop]
      omega
    simp only [List.map_cons, List.map_nil, List.length_cons, List.length_nil, shown_eq,
      List.flatMap_cons, List.flatMap_nil, List.append_nil]
    have e1 : (b.take (i % 16) ++ [printable bs[i]]).length = i % 16 + 1 := by simp; omega
    have e3 : List.take (i % 16 + 1) (b.take (i % 16) ++ [printable bs[i]] ++
        b.drop (i % 16 + (0 + 1))) = b.take (i % 16) ++ [printable bs[i]] := List.take_left' e1
    have e4 : List.drop (i % 16 + 1 + (0 + 1)) (b.take (i % 16) ++ [printable bs[i]] ++
        b.drop (i % 16 + (0 + 1))) = b.drop (i % 16 + 2) := by
      rw [← List.drop_drop, List.drop_left' e1, List.drop_drop]
    rw [e3, e4]
    simp
  unfold dumpByte before
  by_cases h16 : i % 16 = 0
  · by_cases h0 : i = 0
    · subst h0
      simp only [Nat.zero_mod, if_true, ne_eq, not_true, if_false, List.nil_append]
      exact (PM.bind_ret (print_eq _ _)).trans ((rest _ (by exact hw)).trans (by simp))
    · obtain ⟨c1, post, rfl⟩ := hs h16 h0
      rw [if_pos h16, if_pos h0, if_pos h16, if_pos h0, h16]
      rw [h16] at rest
      refine (PM.bind_ret (printBuff_at (t := []) hw c1)).trans
        ((PM.bind_ret (print_eq _ _)).trans ?_)
      rw [rest _ (by exact hw)]
      simp
  · rw [if_neg h16, if_neg h16]
    exact (rest w hw).trans (by simp)

theorem dumpPad_eq (i : Nat) (w : World) : dumpPad i w =
    (.ret (), { w with out := w.out ++ List.replicate (3 * ((16 - i % 16) % 16)) 32 }) := by
  induction hn : (16 - i % 16) % 16 generalizing i w with
  | zero =>
    rw [dumpPad, if_neg (by omega)]
    show (COut.ret (), w) = _
    simp
  | succ n ih =>
    rw [dumpPad, if_pos (by omega)]
    refine (PM.bind_ret (print_eq _ _)).trans ?_
    rw [ih (i + 1) _ (by omega)]
    have : ascii "   " = List.replicate 3 32 := by decide
    simp only [List.append_assoc, this, List.replicate_append_replicate]
    congr 4
    omega

/-- what is printed from byte `i` on, `s` being the characters of the line so far -/
def tail (i : Nat) (s : Bytes) : Bytes → Bytes
  | [] => List.replicate (3 * ((16 - i % 16) % 16)) 32 ++ (ascii "  " ++ s ++ [10])
  | c :: cs => before i s ++ (ascii " " ++ Debug.hex2 c) ++
    tail (i + 1) (s.take (i % 16) ++ [printable c]) cs

theorem dumpBytes_eq {B : List (Option Bytes)} {addr : Option Ptr} {bs : Bytes}
    (hr : Region ⟨B⟩ addr bs) (k : Nat) : ∀ {i : Nat} {w : World} {b s : Bytes},
    i + k ≤ bs.length → 0 < i + k → w.heap.blocks = B ++ [some b] → b.length = 17 →
    (i ≠ 0 → (∀ c ∈ s, c ≠ 0) ∧ s.length = (i - 1) % 16 + 1 ∧ ∃ post, b = s ++ 0 :: post) →
    ∃ b', (do
      dumpBytes ⟨B.length, 0⟩ addr i k
      dumpPad (i + k)
      printBuff ⟨B.length, 0⟩) w = (.ret (), { w with
        heap := ⟨B ++ [some b']⟩, out := w.out ++ tail i s ((bs.drop i).take k) }) := by
  induction k with
  | zero =>
    intro i w b s hi h0 hw hb hs
    obtain ⟨c1, c2, post, rfl⟩ := hs (by omega)
    refine ⟨s ++ 0 :: post, ?_⟩
    refine (PM.bind_ret (a := ()) (w' := w) rfl).trans ((PM.bind_ret (dumpPad_eq _ _)).trans ?_)
    refine (printBuff_at (t := []) (by exact hw) c1).trans ?_
    rw [← hw]
    simp [tail]
  | succ k ih =>
    intro i w b s hi h0 hw hb hs
    have hlt : i < bs.length := by omega
    have h1 := dumpByte_eq hr hlt hw hb (s := s) (fun _ h => ⟨(hs h).1, (hs h).2.2⟩)
    have hm : i % 16 < 16 := Nat.mod_lt _ (by omega)
    have htk : b.take (i % 16) = s.take (i % 16) := by
      by_cases h : i = 0
      · subst h; simp
      · obtain ⟨-, c2, post, rfl⟩ := hs h
        rw [List.take_append_of_le_length (by omega)]
    have hsl : (s.take (i % 16)).length = i % 16 := by
      by_cases h : i = 0
      · subst h; simp
      · rw [List.length_take, (hs h).2.1]; omega
    obtain ⟨b', hb'⟩ := ih (i := i + 1) (s := s.take (i % 16) ++ [printable bs[i]]) (w := { w with
        heap := ⟨B ++ [some (b.take (i % 16) ++ printable bs[i] :: 0 :: b.drop (i % 16 + 2))]⟩
        out := w.out ++ (before i s ++ (ascii " " ++ Debug.hex2 bs[i])) }) (by omega) (by omega) rfl
      (by
        simp only [List.length_append, List.length_cons, List.length_take, List.length_drop]
        omega)
      (fun _ => by
        refine ⟨?_, by rw [List.length_append, hsl]; simp, ?_⟩
        · intro c hc
          rcases List.mem_append.1 hc with hc | hc
          · by_cases h : i = 0
            · subst h; simp at hc
            · exact (hs h).1 c (List.mem_of_mem_take hc)
          · obtain rfl := List.mem_singleton.1 hc
            exact printable_ne_zero _
        · exact ⟨b.drop (i % 16 + 2), by rw [htk]; simp⟩)
    refine ⟨b', ?_⟩
    have e : (bs.drop i).take (k + 1) = bs[i] :: (bs.drop (i + 1)).take k := by
      rw [List.drop_eq_getElem_cons hlt, List.take_succ_cons]
    rw [e, tail]
    have h2 : (dumpBytes ⟨B.length, 0⟩ addr i (k + 1) >>= fun _ =>
        dumpPad (i + (k + 1)) >>= fun _ => printBuff ⟨B.length, 0⟩) =
        dumpByte ⟨B.length, 0⟩ addr i >>= fun _ => dumpBytes ⟨B.length, 0⟩ addr (i + 1) k >>= fun _ =>
          dumpPad (i + 1 + k) >>= fun _ => printBuff ⟨B.length, 0⟩ := by
      rw [show i + (k + 1) = i + 1 + k by omega]
      exact PM.bind_assoc _ _ _
    refine (congrArg (fun x : PM Unit => x w) h2).trans ((PM.bind_ret h1).trans (hb'.trans ?_))
    simp

/-- the head of a line and its first column -/
def start (i : Nat) : Bytes → Bytes
  | [] => []
  | c :: cs => (ascii "  " ++ hex4 i ++ ascii " ") ++ (ascii " " ++ Debug.hex2 c) ++
    tail (i + 1) [printable c] cs

theorem tail_last (cs : Bytes) : ∀ {i : Nat} {s : Bytes}, 0 < s.length →
    i % 16 = s.length % 16 → s.length + cs.length ≤ 16 →
    tail i s cs = cs.flatMap (fun b => ascii " " ++ Debug.hex2 b) ++
      List.replicate (3 * (16 - (s.length + cs.length))) 32 ++ ascii "  " ++ (s ++ cs.map printable) ++
        [10] := by
  induction cs with
  | nil =>
    intro i s h0 h1 h2
    have : 3 * ((16 - i % 16) % 16) = 3 * (16 - (s.length + 0)) := by simp at h2; omega
    simp [tail, this]
  | cons c cs ih =>
    intro i s h0 h1 h2
    simp only [List.length_cons] at h2
    have h3 : s.take (i % 16) = s := List.take_of_length_le (by omega)
    rw [tail, h3, ih (by simp) (by simp; omega) (by simp; omega), before, if_neg (by omega)]
    have : s.length + (cs.length + 1) = s.length + 1 + cs.length := by omega
    simp [this]

theorem tail_more (cs : Bytes) {ds : Bytes} (hd : ds ≠ []) : ∀ {i : Nat} {s : Bytes}, 0 < i →
    0 < s.length → i % 16 = s.length % 16 → s.length + cs.length = 16 →
    tail i s (cs ++ ds) = cs.flatMap (fun b => ascii " " ++ Debug.hex2 b) ++ ascii "  " ++
      (s ++ cs.map printable) ++ [10] ++ start (i + cs.length) ds := by
  induction cs with
  | nil =>
    intro i s hi h0 h1 h2
    cases ds with
    | nil => exact absurd rfl hd
    | cons d ds =>
      have h16 : i % 16 = 0 := by simp at h2; omega
      have : i ≠ 0 := by omega
      simp [tail, before, h16, start, this]
  | cons c cs ih =>
    intro i s hi h0 h1 h2
    simp only [List.length_cons] at h2
    have h3 : s.take (i % 16) = s := List.take_of_length_le (by omega)
    rw [List.cons_append, tail, h3, ih (by omega) (by simp) (by simp; omega) (by simp; omega), before,
      if_neg (by omega)]
    have : i + (cs.length + 1) = i + 1 + cs.length := by omega
    simp [this]

theorem start_eq : ∀ (n : Nat) {i : Nat} {bs : Bytes}, bs.length ≤ n → bs ≠ [] → i % 16 = 0 →
    start i bs = dumpLines i bs := by
  intro n
  induction n with
  | zero => intro i bs h h0 _; exact absurd (List.length_eq_zero_iff.1 (by omega)) h0
  | succ n ih =>
    intro i bs h h0 h16
    obtain ⟨c, cs, rfl⟩ := List.exists_cons_of_ne_nil h0
    simp only [List.length_cons] at h
    rw [start, dumpLines]
    by_cases hl : cs.length + 1 ≤ 16
    · rw [if_pos (by simpa using hl),
        tail_last cs (by simp) (by simp; omega) (by simp; omega), dumpLine]
      have : 1 + cs.length = cs.length + 1 := by omega
      simp [this]
    · rw [if_neg (by simpa using hl)]
      have e : cs = cs.take 15 ++ cs.drop 15 := (List.take_append_drop 15 cs).symm
      have hlen : (cs.take 15).length = 15 := by simp; omega
      have hd : cs.drop 15 ≠ [] := by
        intro h
        have := congrArg List.length h
        simp at this
        omega
      conv_lhs => rw [e, tail_more _ hd (by omega) (by simp) (by simp; omega) (by simp; omega)]
      rw [hlen, ih (by simp; omega) hd (by omega), dumpLine]
      simp [show min 15 cs.length + 1 = 16 by omega]

theorem hexDump_eq {B : List (Option Bytes)} {stack desc : Bytes} {addr : Option Ptr} {v : Int}
    {bs : Bytes} (hr : Region ⟨B⟩ addr bs) (hv : v.toNat ≤ bs.length) (hs : 17 ≤ stack.length)
    {w : World} (hw : w.heap.blocks = B) :
    hexDump stack desc addr v w = (.ret (), { w with
      heap := ⟨B ++ [none]⟩, out := w.out ++ dumpText desc v bs }) := by
  subst hw
  unfold hexDump dumpText
  refine (PM.bind_ret (array_eq _ _)).trans ((PM.bind_ret (print_eq _ _)).trans ?_)
  by_cases h0 : v = 0
  · rw [if_pos h0, if_pos h0]
    refine (PM.bind_ret (print_eq _ _)).trans ?_
    refine (release_at (t := []) rfl).trans ?_
    simp
  by_cases hn : v < 0
  · rw [if_neg h0, if_pos hn, if_neg h0, if_pos hn]
    refine (PM.bind_ret (print_eq _ _)).trans ?_
    refine (release_at (t := []) rfl).trans ?_
    simp
  · rw [if_neg h0, if_neg hn, if_neg h0, if_neg hn]
    obtain ⟨b', hb'⟩ := dumpBytes_eq hr v.toNat (i := 0) (b := stack.take 17) (s := []) (w := { w with
        heap := ⟨w.heap.blocks ++ [some (stack.take 17)]⟩
        out := w.out ++ (desc ++ ascii ":" ++ [10]) }) (by omega) (by omega) rfl (by simp; omega)
      (fun h => absurd rfl h)
    have ha : ∀ x y z t : PM Unit, (x >>= fun _ => y >>= fun _ => z >>= fun _ => t) =
        (x >>= fun _ => y >>= fun _ => z) >>= fun _ => t := fun x y z t => by
      rw [PM.bind_assoc]; congr; funext _; rw [PM.bind_assoc]
    refine (congrArg (fun x : PM Unit => x _) (ha _ _ _ _)).trans ?_
    rw [Nat.zero_add] at hb'
    refine (PM.bind_ret hb').trans ?_
    refine (release_at (t := []) rfl).trans ?_
    have e : tail 0 [] ((bs.drop 0).take v.toNat) = dumpLines 0 (bs.take v.toNat) := by
      rw [List.drop_zero]
      have hne : bs.take v.toNat ≠ [] := by
        intro h
        have := congrArg List.length h
        simp at this
        rcases this with h | rfl
        · omega
        · simp at hv; omega
      rw [← start_eq _ le_rfl hne (by omega)]
      obtain ⟨c, cs, h⟩ := List.exists_cons_of_ne_nil hne
      rw [h, tail, start, before]
      simp
    rw [e]
    simp

theorem dumpValue_eq {stack desc b : Bytes} (hs : 17 ≤ stack.length) (w : World) :
    dumpValue stack desc b w = (.ret (), { w with
      heap := ⟨w.heap.blocks ++ [none, none]⟩, out := w.out ++ dumpText desc b.length b }) := by
  unfold dumpValue
  refine (PM.bind_ret (array_eq _ _)).trans ?_
  refine (PM.bind_ret (hexDump_eq (bs := b) ?_ (by simp) hs rfl)).trans ?_
  · exact ⟨_, [], [], rfl, rfl, by simp⟩
  refine (release_at (B := w.heap.blocks) (t := [none]) (b := b) (by simp)).trans ?_
  simp

/-! ### the program and its version on byte lists -/

/-- `x` does to memory and files what `y` does to the files; they end in the same way -/
def Ref {α β : Type} (x : PM α) (w : World) (y : SM Disk β) (Q : α → β → World → Prop) : Prop :=
  match y w.disk with
  | (.ok b, d) => ∃ a w', x w = (.ret a, w') ∧ w'.disk = d ∧ Q a b w'
  | (.err _, d) => ∃ w', x w = (.abort .explicit, w') ∧ w'.disk = d
  | (.panic p, d) => ∃ w', x w = (.abort p, w') ∧ w'.disk = d

section Ref

variable {α β γ δ : Type} {x : PM α} {w : World} {y : SM Disk β} {Q : α → β → World → Prop}

theorem Ref.bind {f : α → PM γ} {g : β → SM Disk δ} {R : γ → δ → World → Prop}
    (hx : Ref x w y Q) (hf : ∀ a b w', Q a b w' → Ref (f a) w' (g b) R) :
    Ref (x >>= f) w (y >>= g) R := by
  unfold Ref at hx ⊢
  rcases hy : y w.disk with ⟨b | e | p, d⟩
  · rw [hy] at hx
    obtain ⟨a, w', h1, h2, h3⟩ := hx
    have h4 := hf a b w' h3
    unfold Ref at h4
    rw [SM.bind_run_ok hy, ← h2]
    rw [PM.bind_ret h1]
    exact h4
  · rw [hy] at hx
    obtain ⟨w', h1, h2⟩ := hx
    rw [SM.bind_run_err hy]
    exact ⟨w', PM.bind_abort h1, h2⟩
  · rw [hy] at hx
    obtain ⟨w', h1, h2⟩ := hx
    rw [SM.bind_run_panic hy]
    exact ⟨w', PM.bind_abort h1, h2⟩

theorem Ref.bindR {r : Res β} {f : α → PM γ} {g : β → Res δ} {R : γ → δ → World → Prop}
    (hx : Ref x w (SM.lift r) Q) (hf : ∀ a b w', Q a b w' → Ref (f a) w' (SM.lift (g b)) R) :
    Ref (x >>= f) w (SM.lift (r >>= g)) R := by
  have : (SM.lift (r >>= g) : SM Disk δ) = SM.lift r >>= fun b => SM.lift (g b) := by
    cases r <;> rfl
  rw [this]
  exact hx.bind hf

theorem Ref.step {a : α} {w' : World} {f : α → PM γ} {y : SM Disk δ} {R : γ → δ → World → Prop}
    (hx : x w = (.ret a, w')) (hd : w'.disk = w.disk) (hf : Ref (f a) w' y R) :
    Ref (x >>= f) w y R := by
  unfold Ref at hf ⊢
  rw [hd] at hf
  rw [PM.bind_ret hx]
  exact hf

theorem Ref.done {a : α} {b : β} {w' : World} (hx : x w = (.ret a, w')) (hd : w'.disk = w.disk)
    (hQ : Q a b w') : Ref x w (pure b) Q := ⟨a, w', hx, hd, hQ⟩

theorem Ref.doneR {a : α} {b : β} {w' : World} (hx : x w = (.ret a, w')) (hd : w'.disk = w.disk)
    (hQ : Q a b w') : Ref x w (SM.lift (.ok b)) Q := ⟨a, w', hx, hd, hQ⟩

theorem Ref.mono {R : α → β → World → Prop} (hx : Ref x w y Q) (h : ∀ a b w', Q a b w' → R a b w') :
    Ref x w y R := by
  unfold Ref at hx ⊢
  rcases hy : y w.disk with ⟨b | e | p, d⟩ <;> rw [hy] at hx <;> simp only at hx ⊢
  · obtain ⟨a, w', h1, h2, h3⟩ := hx
    exact ⟨a, w', h1, h2, h _ _ _ h3⟩
  · exact hx
  · exact hx

/-- a call that leaves memory alone -/
theorem Ref.lift (r : Res α) {x : CM α} (hx : x w.heap = (outOf r, w.heap)) :
    Ref (mem x) w (SM.lift r) (fun a b w' => a = b ∧ r = .ok b ∧ w' = w) := by
  have h := mem_eq hx
  cases r
  · exact ⟨_, _, h, rfl, rfl, rfl, rfl⟩
  · exact ⟨_, h, rfl⟩
  · exact ⟨_, h, rfl⟩

theorem Ref.assertC (b : Bool) : Ref (CTest.assertC b) w (SM.lift (assertRes b))
    (fun _ _ w' => b = true ∧ w' = w) := by
  cases b
  · exact ⟨_, rfl, rfl⟩
  · exact ⟨_, _, rfl, rfl, rfl, rfl⟩

theorem Ref.assertM (b : Bool) : Ref (CTest.assertC b) w (Vectors.assertM b)
    (fun _ _ w' => b = true ∧ w' = w) := by
  cases b
  · exact ⟨_, rfl, rfl⟩
  · exact ⟨_, _, rfl, rfl, rfl, rfl⟩

theorem Ref.mapR {r : Res β} {g : β → δ} {R : α → δ → World → Prop} (hx : Ref x w (SM.lift r) Q)
    (h : ∀ a b w', Q a b w' → R a (g b) w') : Ref x w (SM.lift (r >>= fun b => .ok (g b))) R := by
  cases r
  · obtain ⟨a, w', h1, h2, h3⟩ := hx
    exact ⟨a, w', h1, h2, h _ _ _ h3⟩
  · exact hx
  · exact hx

end Ref

/-! #### the frame of a function: the arrays it holds -/

/-- memory: what was there before, the arrays of the function, and what came after -/
abbrev W (H fr t : List (Option Bytes)) (d : Disk) (o : Bytes) : World := ⟨⟨H ++ fr ++ t⟩, d, o⟩

section Frame

variable {H fr t : List (Option Bytes)} {d : Disk} {o : Bytes}

theorem block_fr {j : Nat} {b : Bytes} (hj : fr[j]? = some (some b)) :
    (H ++ fr ++ t)[H.length + j]? = some (some b) := by
  have : j < fr.length := (List.getElem?_eq_some_iff.1 hj).1
  rw [List.getElem?_append_left (by simp; omega), List.getElem?_append_right (by omega)]
  simpa using hj

theorem region_fr {j n : Nat} {b : Bytes} (hj : fr[j]? = some (some b)) :
    Region ⟨H ++ fr ++ t⟩ (some ⟨H.length + j, 0⟩) (b.take n) :=
  ⟨_, [], b.drop n, rfl, rfl, by rw [List.nil_append, List.take_append_drop]; exact block_fr hj⟩

theorem region_t {F i : Nat} {b : Bytes} (hF : fr.length = F) (hi : t[i]? = some (some b)) :
    Region ⟨H ++ fr ++ t⟩ (some ⟨H.length + F + i, 0⟩) b :=
  ⟨_, [], [], rfl, rfl, by
    rw [List.nil_append, List.append_nil, List.getElem?_append_right (by simp; omega), ← hi]
    congr 1
    simp
    omega⟩

theorem set_fr {j : Nat} {c : Option Bytes} (hj : j < fr.length) :
    (H ++ fr ++ t).set (H.length + j) c = H ++ fr.set j c ++ t := by
  rw [List.set_append_left _ _ (by simp; omega), List.set_append_right _ _ (by omega)]
  simp

theorem store_fr {j i : Nat} {b c : Bytes} (hj : fr[j]? = some (some b))
    (hi : i + c.length ≤ b.length) : store ⟨H.length + j, 0⟩ i c (W H fr t d o) =
      (.ret (), W H (fr.set j (some (b.take i ++ c ++ b.drop (i + c.length)))) t d o) := by
  refine mem_eq (h := ⟨_⟩) ?_
  show (match (H ++ fr ++ t)[H.length + j]? with
    | some (some e) => if 0 + i + c.length ≤ e.length then
      (COut.ret (), (⟨(H ++ fr ++ t).set (H.length + j)
        (some (e.take (0 + i) ++ c ++ e.drop (0 + i + c.length)))⟩ : Heap))
      else (.ub, _)
    | _ => (.ub, _)) = _
  rw [block_fr hj]
  simp only [Nat.zero_add, if_pos hi, set_fr (List.getElem?_eq_some_iff.1 hj).1]

theorem release_fr {j : Nat} {b : Bytes} (hj : fr[j]? = some (some b)) :
    release ⟨H.length + j, 0⟩ (W H fr t d o) = (.ret (), W H (fr.set j none) t d o) := by
  refine mem_eq (h := ⟨_⟩) ?_
  show (match (H ++ fr ++ t)[H.length + j]? with
    | some (some _) => if (0 : Nat) = 0 then
      (COut.ret (), (⟨(H ++ fr ++ t).set (H.length + j) none⟩ : Heap)) else (.ub, _)
    | _ => (.ub, _)) = _
  rw [block_fr hj]
  simp only [if_true, set_fr (List.getElem?_eq_some_iff.1 hj).1]

theorem array_fr {F : Nat} {b : Bytes} {fr' : List (Option Bytes)} (hF : fr.length = F)
    (hb : fr ++ [some b] = fr') : array b (W H fr [] d o) =
    (.ret ⟨H.length + F, 0⟩, W H fr' [] d o) := by
  rw [array_eq, ← hb, ← hF]
  simp [W]

theorem print_W (b : Bytes) : print b (W H fr t d o) = (.ret (), W H fr t d (o ++ b)) := rfl

theorem dumpValue_W {stack : Bytes} (hs : 17 ≤ stack.length) (desc b : Bytes) :
    dumpValue stack desc b (W H fr t d o) = (.ret (),
      W H fr (t ++ [none, none]) d (o ++ dumpText desc b.length b)) := by
  rw [dumpValue_eq hs]
  simp [W]

theorem toInt_le (n : Nat) : (toInt n).toNat ≤ n := by
  unfold toInt
  omega

theorem dumpSk_W {stack : Bytes} (hs : 17 ≤ stack.length) (desc : Bytes) {b : Bytes} {F i : Nat}
    (hF : fr.length = F) (hi : t[i]? = some (some b)) :
    hexDump stack desc (some ⟨H.length + F + i, 0⟩) (toInt b.length) (W H fr t d o) = (.ret (),
      W H fr (t ++ [none]) d (o ++ dumpText desc (toInt b.length) b)) := by
  rw [hexDump_eq (region_t hF hi) (toInt_le _) hs rfl]
  simp [W]

end Frame

/-! #### the calls -/

section Calls

variable {H fr t : List (Option Bytes)} {d : Disk} {o : Bytes} {E : Ext G1 G2 GT} {pf : Profile}

theorem ref_keygen {F j n : Nat} {b s : Bytes} (hF : fr.length = F) (hj : fr[j]? = some (some b))
    (hn : n ≤ b.length) (hs : b.take n = s) {T : Nat} (hT : t.length = T) :
    Ref (mem (CHeap.cKeygen E (some ⟨H.length + j, 0⟩) n)) (W H fr t d o)
      (SM.lift (Ffi.cKeygen E s)) (fun a k w' => Ffi.cKeygen E s = .ok k ∧
        a = ⟨k.pk, ⟨some ⟨H.length + F + T, 0⟩, k.sk.length⟩, k.pop⟩ ∧
        w' = W H fr (t ++ [some k.sk]) d o) := by
  have h1 := fromRawParts_eq (region_fr (H := H) (t := t) (n := n) hj)
  rw [List.length_take_of_le hn, hs] at h1
  rcases hk : Ffi.cKeygen E s with k | e | p
  · refine ⟨_, _, mem_eq (o := .ret _) (h := ⟨H ++ fr ++ t ++ [some k.sk]⟩) ?_, rfl, rfl, rfl, ?_⟩
    · unfold CHeap.cKeygen
      refine (CM.bind_ret h1).trans ((lift_bind_ok hk _ _).trans ?_)
      rw [← hF, ← hT, ← List.length_append, ← List.length_append]
      rfl
    · simp [W]
  · exact ⟨_, mem_eq ((CM.bind_ret h1).trans (CM.bind_abort (by rw [lift_eq, hk]; rfl))), rfl⟩
  · exact ⟨_, mem_eq ((CM.bind_ret h1).trans (CM.bind_abort (by rw [lift_eq, hk]; rfl))), rfl⟩

theorem ref_update {F j n i : Nat} {b s k : Bytes} {tm : Nat} (hF : fr.length = F)
    (hj : fr[j]? = some (some b)) (hn : n ≤ b.length) (hs : b.take n = s)
    (hi : t[i]? = some (some k)) {T : Nat} (hT : t.length = T) :
    Ref (mem (CHeap.cSkUpdate E pf ⟨some ⟨H.length + F + i, 0⟩, k.length⟩
        (some ⟨H.length + j, 0⟩) n tm)) (W H fr t d o)
      (SM.lift (Ffi.cSkUpdate E pf k s tm)) (fun a k' w' =>
        Ffi.cSkUpdate E pf k s tm = .ok k' ∧
        a = ⟨some ⟨H.length + F + T, 0⟩, k'.length⟩ ∧
        w' = W H fr (t ++ [some k']) d o) := by
  have h1 := fromRawParts_eq (region_fr (H := H) (t := t) (n := n) hj)
  have h2 := fromRawParts_eq (region_t (H := H) hF hi)
  rw [List.length_take_of_le hn, hs] at h1
  rcases hk : Ffi.cSkUpdate E pf k s tm with k' | e | p
  · refine ⟨_, _, mem_eq (o := .ret _) (h := ⟨H ++ fr ++ t ++ [some k']⟩) ?_, rfl, rfl, rfl, ?_⟩
    · unfold CHeap.cSkUpdate
      refine (CM.bind_ret h1).trans ((CM.bind_ret h2).trans ((lift_bind_ok hk _ _).trans ?_))
      rw [← hF, ← hT, ← List.length_append, ← List.length_append]
      rfl
    · simp [W]
  · exact ⟨_, mem_eq ((CM.bind_ret h1).trans ((CM.bind_ret h2).trans
      (CM.bind_abort (by rw [lift_eq, hk]; rfl)))), rfl⟩
  · exact ⟨_, mem_eq ((CM.bind_ret h1).trans ((CM.bind_ret h2).trans
      (CM.bind_abort (by rw [lift_eq, hk]; rfl)))), rfl⟩

theorem ref_sign {F j n i : Nat} {b m k : Bytes} {tm : Nat} (hF : fr.length = F)
    (hj : fr[j]? = some (some b)) (hn : n ≤ b.length) (hs : b.take n = m)
    (hi : t[i]? = some (some k)) :
    Ref (mem (CHeap.cSignPresent E pf ⟨some ⟨H.length + F + i, 0⟩, k.length⟩
        (some ⟨H.length + j, 0⟩) n tm)) (W H fr t d o)
      (SM.lift (Ffi.cSignPresent E pf k m tm)) (fun a s w' => a = s ∧
        Ffi.cSignPresent E pf k m tm = .ok s ∧ w' = W H fr t d o) := by
  have h1 := fromRawParts_eq (region_fr (H := H) (t := t) (n := n) hj)
  have h2 := fromRawParts_eq (region_t (H := H) hF hi)
  rw [List.length_take_of_le hn, hs] at h1
  exact Ref.lift _ ((CM.bind_ret h1).trans ((CM.bind_ret h2).trans (lift_eq _ _)))

theorem ref_verify [DecidableEq GT] {j n : Nat} {b m pk s : Bytes} (hj : fr[j]? = some (some b))
    (hn : n ≤ b.length) (hs : b.take n = m) :
    Ref (mem (CHeap.cVerify E pf pk (some ⟨H.length + j, 0⟩) n s)) (W H fr t d o)
      (SM.lift (Ffi.cVerify E pf pk m s)) (fun a r w' => a = r ∧
        Ffi.cVerify E pf pk m s = .ok r ∧ w' = W H fr t d o) := by
  have h1 := fromRawParts_eq (region_fr (H := H) (t := t) (n := n) hj)
  rw [List.length_take_of_le hn, hs] at h1
  exact Ref.lift _ ((CM.bind_ret h1).trans (lift_eq _ _))

theorem ref_verifyPop [DecidableEq GT] {pk pop : Bytes} :
    Ref (mem (CHeap.lift (Ffi.cVerifyPop E pk pop))) (W H fr t d o)
      (SM.lift (Ffi.cVerifyPop E pk pop)) (fun a r w' => a = r ∧
        Ffi.cVerifyPop E pk pop = .ok r ∧ w' = W H fr t d o) :=
  Ref.lift _ (lift_eq _ _)

theorem chunks {k : Nat} {l : List Bytes} (hl : ∀ b ∈ l, b.length = k) :
    (List.range l.length).map (fun i => (l.flatten.drop (i * k)).take k) = l := by
  induction l with
  | nil => rfl
  | cons b l ih =>
    have hb : b.length = k := hl b (by simp)
    rw [List.length_cons, List.range_succ_eq_map, List.map_cons, List.map_map, List.flatten_cons]
    congr 1
    · simp [← hb]
    · conv_rhs => rw [← ih (fun c hc => hl c (by simp [hc]))]
      refine List.map_congr_left fun i _ => ?_
      show ((b ++ l.flatten).drop ((i + 1) * k)).take k = _
      rw [show (i + 1) * k = b.length + i * k by rw [hb]; ring, List.drop_length_add_append]

theorem flatten_length {k : Nat} {l : List Bytes} (hl : ∀ b ∈ l, b.length = k) :
    l.flatten.length = l.length * k := by
  induction l with
  | nil => simp
  | cons b l ih =>
    rw [List.flatten_cons, List.length_append, ih (fun c hc => hl c (by simp [hc])),
      hl b (by simp), List.length_cons]
    ring

theorem ref_aggregation {j N : Nat} {l : List Bytes} (hl : ∀ b ∈ l, b.length = 149)
    (hN : l.length = N) (hj : fr[j]? = some (some l.flatten)) :
    Ref (mem (CHeap.cAggregation E (some ⟨H.length + j, 0⟩) N)) (W H fr t d o)
      (SM.lift (Ffi.cAggregation E l)) (fun a s w' => a = s ∧
        Ffi.cAggregation E l = .ok s ∧ w' = W H fr t d o) := by
  subst hN
  have h1 := fromRawParts_eq (region_fr (H := H) (t := t) (n := l.length * 149) hj)
  rw [List.take_of_length_le (by rw [flatten_length hl]), flatten_length hl] at h1
  refine Ref.lift _ ((CM.bind_ret ((CM.bind_ret h1).trans rfl)).trans ((lift_eq _ _).trans ?_))
  rw [chunks hl]

theorem ref_verifyAgg [DecidableEq GT] {j j' n N : Nat} {l : List Bytes} {b m s : Bytes}
    (hl : ∀ b ∈ l, b.length = 49) (hN : l.length = N) (hj : fr[j]? = some (some l.flatten))
    (hj' : fr[j']? = some (some b)) (hn : n ≤ b.length) (hs : b.take n = m) :
    Ref (mem (CHeap.cVerifyAgg E pf (some ⟨H.length + j, 0⟩) N (some ⟨H.length + j', 0⟩) n s))
      (W H fr t d o) (SM.lift (Ffi.cVerifyAgg E pf l m s)) (fun a r w' => a = r ∧
        Ffi.cVerifyAgg E pf l m s = .ok r ∧ w' = W H fr t d o) := by
  subst hN
  have h1 := fromRawParts_eq (region_fr (H := H) (t := t) (n := l.length * 49) hj)
  rw [List.take_of_length_le (by rw [flatten_length hl]), flatten_length hl] at h1
  have h2 := fromRawParts_eq (region_fr (H := H) (t := t) (n := n) hj')
  rw [List.length_take_of_le hn, hs] at h2
  refine Ref.lift _ ((CM.bind_ret ((CM.bind_ret h1).trans rfl)).trans ?_)
  rw [chunks hl]
  unfold Ffi.cVerifyAgg
  rcases h3 : Ffi.parseAll (PublicKey.deserialize E true) l with v | e | p
  · refine (lift_bind_ok rfl _ _).trans ((CM.bind_ret h2).trans ?_)
    rcases h4 : Ffi.parse (Signature.deserialize E true) s with g | e | p
    · exact (lift_bind_ok rfl _ _).trans (lift_eq _ _)
    · exact CM.bind_abort (by rw [lift_eq]; rfl)
    · exact CM.bind_abort (by rw [lift_eq]; rfl)
  · exact CM.bind_abort (by rw [lift_eq]; rfl)
  · exact CM.bind_abort (by rw [lift_eq]; rfl)

end Calls

/-! #### the first part -/

section Test

variable {H : List (Option Bytes)} {E : Ext G1 G2 GT} {pf : Profile} {stack seed msg : Bytes}

theorem toArray_length {n : Nat} {b c : Bytes} (h : Ffi.toArray n b = .ok c) : c.length = n := by
  unfold Ffi.toArray at h
  split at h
  · cases h; assumption
  · cases h

theorem keygen_pk_length {s : Bytes} {k : Ffi.Keys} (h : Ffi.cKeygen E s = .ok k) :
    k.pk.length = 49 := by
  unfold Ffi.cKeygen at h
  obtain ⟨⟨pk, sk, pop⟩, -, h⟩ := Res.bind_eq_ok.1 h
  obtain ⟨_, -, h⟩ := Res.bind_eq_ok.1 h
  obtain ⟨_, -, h⟩ := Res.bind_eq_ok.1 h
  obtain ⟨_, -, h⟩ := Res.bind_eq_ok.1 h
  obtain ⟨a, ha, h⟩ := Res.bind_eq_ok.1 h
  obtain ⟨b, -, h⟩ := Res.bind_eq_ok.1 h
  cases h
  exact toArray_length ha

theorem sign_length {k m s : Bytes} {t : Nat} (h : Ffi.cSignPresent E pf k m t = .ok s) :
    s.length = 149 := by
  unfold Ffi.cSignPresent at h
  obtain ⟨_, -, h⟩ := Res.bind_eq_ok.1 h
  obtain ⟨_, -, h⟩ := Res.bind_eq_ok.1 h
  obtain ⟨_, -, h⟩ := Res.bind_eq_ok.1 h
  exact toArray_length h

theorem aggregation_length {l : List Bytes} {s : Bytes} (h : Ffi.cAggregation E l = .ok s) :
    s.length = 149 := by
  unfold Ffi.cAggregation at h
  obtain ⟨_, -, h⟩ := Res.bind_eq_ok.1 h
  obtain ⟨_, -, h⟩ := Res.bind_eq_ok.1 h
  obtain ⟨_, -, h⟩ := Res.bind_eq_ok.1 h
  exact toArray_length h

theorem take_store {b c : Bytes} {i m : Nat} (hm : c.length = m) (hi : i * m + m ≤ b.length) :
    (b.take (i * m) ++ c ++ b.drop (i * m + c.length)).take ((i + 1) * m) = b.take (i * m) ++ c ∧
    (b.take (i * m) ++ c ++ b.drop (i * m + c.length)).length = b.length := by
  have h1 : (b.take (i * m) ++ c).length = (i + 1) * m := by
    rw [List.length_append, List.length_take, hm, Nat.min_eq_left (by omega)]; ring
  refine ⟨List.take_left' h1, ?_⟩
  rw [List.length_append, h1, List.length_drop, hm]
  have : (i + 1) * m = i * m + m := by ring
  omega

theorem ref_rounds [DecidableEq GT] (hst : 17 ≤ stack.length) (hseed : 36 ≤ seed.length) (r : Bytes)
    {d : Disk} (k : Nat) : ∀ {i : Nat} {t : List (Option Bytes)} {o sl pl : Bytes} {ss ps : List Bytes},
    i + k = 5 → sl.length = 745 → pl.length = 245 → sl.take (i * 149) = ss.flatten →
    pl.take (i * 49) = ps.flatten →
    Ref (testRounds E pf stack ⟨H.length + 0, 0⟩ ⟨H.length + 2, 0⟩ ⟨H.length + 4, 0⟩
        ⟨H.length + 3, 0⟩ msg.length i k)
      (W H [some (seed ++ [0]), some r, some (msg ++ [0]), some sl, some pl] t d o)
      (SM.lift (cTestLoop E pf seed msg (List.range' i k)))
      (fun _ l w' => ∃ (rs : List (Ffi.Keys × Bytes)) (sl' pl' : Bytes) (t' : List (Option Bytes)),
        Rounds E pf seed msg i rs ∧ rs.length = k ∧ l = rs.map (fun a => (a.1.pk, a.2)) ∧
        sl'.length = 745 ∧ pl'.length = 245 ∧
        sl'.take ((i + k) * 149) = (ss ++ rs.map (·.2)).flatten ∧
        pl'.take ((i + k) * 49) = (ps ++ rs.map (·.1.pk)).flatten ∧
        t'.filterMap id = t.filterMap id ++ rs.map (·.1.sk) ∧
        w' = W H [some (seed ++ [0]), some r, some (msg ++ [0]), some sl', some pl'] t' d
          (o ++ numbered roundText i rs)) := by
  induction k with
  | zero =>
    intro i t o sl pl ss ps hk h1 h2 h3 h4
    refine Ref.doneR (a := ()) (w' := W H _ t d o) rfl rfl ⟨[], sl, pl, t, .nil _, rfl, rfl, h1, h2,
      ?_, ?_, ?_, ?_⟩
    · simpa using h3
    · simpa using h4
    · simp
    · simp [numbered]
  | succ k ih =>
    intro i t o sl pl ss ps hk h1 h2 h3 h4
    rw [List.range'_succ, cTestLoop, testRounds, testRound]
    simp only [PM.bind_assoc]
    refine Ref.step (print_W _) rfl ?_
    refine Ref.bindR (ref_keygen (F := 5) (j := 0) rfl rfl (by simp; omega)
      (List.take_append_of_le_length (by omega)) rfl) ?_
    rintro _ key _ ⟨c1, rfl, rfl⟩
    have l1 := keygen_pk_length c1
    dsimp only
    refine Ref.step (store_fr (j := 4) (i := i * 49) rfl (by rw [l1]; omega)) rfl ?_
    refine Ref.step (dumpValue_W hst _ _) rfl ?_
    simp only [List.set_cons_succ, List.set_cons_zero]
    refine Ref.bindR (ref_sign (F := 5) (j := 2) (i := t.length) rfl rfl (by simp) List.take_left
      (by simp)) ?_
    rintro sig _ _ ⟨rfl, c2, rfl⟩
    have l2 := sign_length c2
    refine Ref.step (store_fr (j := 3) (i := i * 149) rfl (by rw [l2]; omega)) rfl ?_
    refine Ref.step (dumpValue_W hst _ _) rfl ?_
    simp only [List.set_cons_succ, List.set_cons_zero]
    refine Ref.bindR (ref_verify (j := 2) rfl (by simp) List.take_left) ?_
    rintro v _ _ ⟨rfl, c3, rfl⟩
    refine Ref.bindR (Ref.assertC _) ?_
    rintro _ _ _ ⟨hv, rfl⟩
    obtain rfl := of_decide_eq_true hv
    obtain ⟨e1, e2⟩ := take_store l1 (b := pl) (i := i) (by omega)
    obtain ⟨e3, e4⟩ := take_store l2 (b := sl) (i := i) (by omega)
    refine Ref.mapR (ih (ss := ss ++ [sig]) (ps := ps ++ [key.pk]) (by omega) (by rw [e4]; exact h1)
      (by rw [e2]; exact h2) (by rw [e3, h3]; simp) (by rw [e1, h4]; simp)) ?_
    rintro _ l _ ⟨rs, sl', pl', t', g1, rfl, rfl, g4, g5, g6, g7, g8, rfl⟩
    refine ⟨(key, sig) :: rs, sl', pl', t', .cons c1 c2 c3 g1, rfl, rfl, g4, g5, ?_, ?_, ?_, ?_⟩
    · rw [show i + (rs.length + 1) = i + 1 + rs.length by omega, g6]; simp
    · rw [show i + (rs.length + 1) = i + 1 + rs.length by omega, g7]; simp
    · rw [g8]; simp
    · simp [numbered, roundText, l1, l2]

theorem rounds_lengths [DecidableEq GT] {i : Nat} {rs : List (Ffi.Keys × Bytes)}
    (h : Rounds E pf seed msg i rs) :
    (∀ b ∈ rs.map (·.2), b.length = 149) ∧ ∀ b ∈ rs.map (·.1.pk), b.length = 49 := by
  induction h with
  | nil => simp
  | cons h1 h2 h3 _ ih =>
    simp only [List.map_cons, List.mem_cons, forall_eq_or_imp]
    exact ⟨⟨sign_length h2, ih.1⟩, keygen_pk_length h1, ih.2⟩

theorem ref_test [DecidableEq GT] {rngseed : Bytes} {d : Disk} {o : Bytes}
    (hst : 745 ≤ stack.length) (hseed : 36 ≤ seed.length) :
    Ref (test E pf stack seed rngseed msg) ⟨⟨H⟩, d, o⟩ (SM.lift (cTest E pf seed rngseed msg))
      (fun _ _ w' => ∃ (v : Values) (t : List (Option Bytes)), v.Of E pf seed rngseed msg ∧
        t.filterMap id = v.sks ∧ w' = ⟨⟨H ++ t⟩, d, o ++ v.text msg⟩) := by
  have hst17 : 17 ≤ stack.length := by omega
  rw [show (⟨⟨H⟩, d, o⟩ : World) = W H [] [] d o by simp [W]]
  unfold test cTest
  refine Ref.step (array_fr (F := 0) rfl rfl) rfl ?_
  refine Ref.step (array_fr (F := 1) rfl rfl) rfl ?_
  refine Ref.step (array_fr (F := 2) rfl rfl) rfl ?_
  refine Ref.step (array_fr (F := 3) rfl rfl) rfl ?_
  refine Ref.step (array_fr (F := 4) rfl rfl) rfl ?_
  refine Ref.step (print_W _) rfl ?_
  refine Ref.bindR (ref_keygen (F := 5) (j := 0) (T := 0) rfl rfl (by simp) List.take_left rfl) ?_
  rintro a key _ ⟨c1, ha, rfl⟩
  have a1 : a.pk = key.pk := by rw [ha]
  have a2 : a.sk.data = some ⟨H.length + 5 + 0, 0⟩ := by rw [ha]
  have a3 : a.sk.len = key.sk.length := by rw [ha]
  have a4 : a.sk = ⟨some ⟨H.length + 5 + 0, 0⟩, key.sk.length⟩ := by rw [ha]
  have a5 : a.pop = key.pop := by rw [ha]
  rw [a1, a2, a3, a4, a5]
  refine Ref.step (dumpValue_W hst17 _ _) rfl ?_
  refine Ref.step (dumpSk_W hst17 _ (F := 5) (i := 0) (b := key.sk) rfl rfl) rfl ?_
  refine Ref.bindR ref_verifyPop ?_
  rintro v _ _ ⟨rfl, c2, rfl⟩
  refine Ref.bindR (Ref.assertC _) ?_
  rintro _ _ _ ⟨hv, rfl⟩
  obtain rfl := of_decide_eq_true hv
  refine Ref.step (print_W _) rfl ?_
  refine Ref.bindR (ref_sign (F := 5) (j := 2) (i := 0) rfl rfl (by simp) List.take_left rfl) ?_
  rintro sig1 _ _ ⟨rfl, c3, rfl⟩
  refine Ref.step (dumpValue_W hst17 _ _) rfl ?_
  refine Ref.bindR (ref_verify (j := 2) rfl (by simp) List.take_left) ?_
  rintro v _ _ ⟨rfl, c4, rfl⟩
  refine Ref.bindR (Ref.assertC _) ?_
  rintro _ _ _ ⟨hv, rfl⟩
  obtain rfl := of_decide_eq_true hv
  refine Ref.step (print_W _) rfl ?_
  refine Ref.bindR (ref_update (F := 5) (j := 1) (i := 0) (T := 6) rfl rfl (by simp) List.take_left rfl rfl) ?_
  rintro _ sk2 _ ⟨c5, rfl, rfl⟩
  refine Ref.bindR (ref_sign (F := 5) (j := 2) rfl rfl (by simp) List.take_left (by simp)) ?_
  rintro sig2 _ _ ⟨rfl, c6, rfl⟩
  refine Ref.step (dumpValue_W hst17 _ _) rfl ?_
  refine Ref.bindR (ref_verify (j := 2) rfl (by simp) List.take_left) ?_
  rintro v _ _ ⟨rfl, c7, rfl⟩
  refine Ref.bindR (Ref.assertC _) ?_
  rintro _ _ _ ⟨hv, rfl⟩
  obtain rfl := of_decide_eq_true hv
  rw [List.range_eq_range']
  refine Ref.bindR (ref_rounds hst17 hseed _ 5 (ss := []) (ps := []) rfl (by simp; omega)
    (by simp; omega) rfl rfl) ?_
  rintro _ l _ ⟨rs, sl, pl, t, g1, g2, hl, g4, g5, g6, g7, g8, rfl⟩
  obtain ⟨q1, q2⟩ := rounds_lengths g1
  have e1 : l.map (·.2) = rs.map (·.2) := by rw [hl]; simp
  have e2 : l.map (·.1) = rs.map (·.1.pk) := by rw [hl]; simp
  rw [List.take_of_length_le (by omega), List.nil_append] at g6 g7
  rw [e1, e2]
  refine Ref.bindR (ref_aggregation (j := 3) q1 (by simp [g2]) (by rw [← g6]; rfl)) ?_
  rintro agg _ _ ⟨rfl, c8, rfl⟩
  refine Ref.step (dumpValue_W hst17 _ _) rfl ?_
  refine Ref.bindR (ref_verifyAgg (j := 4) (j' := 2) q2 (by simp [g2]) (by rw [← g7]; rfl) rfl (by simp)
    List.take_left) ?_
  rintro v _ _ ⟨rfl, c9, rfl⟩
  have ha : (assertRes (decide (v = true))) = (assertRes (decide (v = true)) >>= fun _ => .ok ()) := by
    cases v <;> rfl
  rw [ha]
  refine Ref.bindR (Ref.assertC _) ?_
  rintro _ _ _ ⟨hv, rfl⟩
  obtain rfl := of_decide_eq_true hv
  refine Ref.step (release_fr (j := 0) rfl) rfl ?_
  refine Ref.step (release_fr (j := 1) rfl) rfl ?_
  refine Ref.step (release_fr (j := 2) rfl) rfl ?_
  refine Ref.step (release_fr (j := 3) rfl) rfl ?_
  refine Ref.doneR (release_fr (j := 4) rfl) rfl ?_
  have l1 := keygen_pk_length c1
  have l3 := sign_length c3
  have l6 := sign_length c6
  have l8 := aggregation_length c8
  rw [l1, l3, l6, l8]
  refine ⟨⟨key, sig1, sk2, sig2, rs, agg⟩, [none, none, none, none, none] ++ (t ++ [none, none]),
    ⟨c1, c2, c3, c4, c5, c6, c7, g2, g1, c8, c9⟩, ?_, ?_⟩
  · simp only [List.filterMap_append, g8]
    simp [Values.sks]
  · unfold W Values.text
    rw [List.append_assoc H]
    simp only [List.append_assoc, List.set_cons_succ, List.set_cons_zero, Nat.cast_ofNat]

end Test

/-! #### the second part -/

section Vector

variable {H : List (Option Bytes)} {E : Ext G1 G2 GT} {pf : Profile} {seed rngseed msg : Bytes}

theorem Ref.write {w : World} (name b : Bytes) : Ref (CTest.write name b) w (writeFile name b)
    (fun _ _ w' => w' = { w with disk := (name, b) :: w.disk }) := ⟨_, _, rfl, rfl, rfl⟩

theorem load_sk {fr t : List (Option Bytes)} {d : Disk} {o b : Bytes} {F i : Nat}
    (hF : fr.length = F) (hi : t[i]? = some (some b)) :
    load (some ⟨H.length + F + i, 0⟩) 0 b.length (W H fr t d o) = (.ret b, W H fr t d o) :=
  mem_eq (fromRawParts_eq (region_t hF hi))

theorem ref_vectorRounds (s0 : Bytes) (ts : List Nat) : ∀ {t : List (Option Bytes)} {d : Disk}
    {o b : Bytes} {i : Nat}, t[i]? = some (some b) →
    Ref (vectorRounds E pf ⟨H.length + 1, 0⟩ ⟨H.length + 2, 0⟩ rngseed.length msg.length ts
        ⟨some ⟨H.length + 3 + i, 0⟩, b.length⟩)
      (W H [some s0, some (rngseed ++ [0]), some (msg ++ [0])] t d o)
      (cLoop E pf rngseed msg ts b)
      (fun _ _ w' => ∃ (bs : List Bytes) (t' : List (Option Bytes)) (d' : Disk),
        UpdatedKeys E pf rngseed b ts bs ∧ t'.filterMap id = t.filterMap id ++ bs ∧
        w' = W H [some s0, some (rngseed ++ [0]), some (msg ++ [0])] t' d' (o ++ vectorText ts)) := by
  induction ts with
  | nil =>
    intro t d o b i hi
    exact Ref.done (a := ()) (w' := W H _ t d o) rfl rfl
      ⟨[], t, d, .nil _, by simp, by simp [vectorText]⟩
  | cons tm ts ih =>
    intro t d o b i hi
    rw [vectorRounds, cLoop]
    refine Ref.step (print_W _) rfl ?_
    refine Ref.bind (ref_update (F := 3) (j := 1) rfl rfl (by simp) List.take_left hi rfl) ?_
    rintro _ k _ ⟨c1, rfl, rfl⟩
    refine Ref.bind (ref_sign (F := 3) (j := 2) (i := t.length) rfl rfl (by simp) List.take_left
      (by simp)) ?_
    rintro sig _ _ ⟨rfl, c2, rfl⟩
    refine Ref.bind (Ref.write _ _) ?_
    rintro _ _ _ rfl
    refine Ref.step (load_sk (fr := [some s0, some (rngseed ++ [0]), some (msg ++ [0])])
      (t := t ++ [some k]) (i := t.length) rfl (by simp)) rfl ?_
    refine Ref.bind (Ref.write _ _) ?_
    rintro _ _ _ rfl
    refine (ih (t := t ++ [some k]) (i := t.length) (by simp)).mono ?_
    rintro _ _ _ ⟨bs, t', d', g1, g2, rfl⟩
    exact ⟨k :: bs, t', d', .cons c1 g1, by rw [g2]; simp, by simp [vectorText]⟩

theorem ref_testVector [DecidableEq GT] {d : Disk} {o : Bytes} {n : Nat} :
    Ref (testVector E pf seed rngseed msg n) ⟨⟨H⟩, d, o⟩ (cTestVector E pf seed rngseed msg n)
      (fun _ _ w' => ∃ (k : Ffi.Keys) (bs : List Bytes) (t : List (Option Bytes)) (d' : Disk),
        Ffi.cKeygen E seed = .ok k ∧ UpdatedKeys E pf rngseed k.sk (List.range' 2 (n - 2)) bs ∧
        t.filterMap id = k.sk :: bs ∧
        w' = ⟨⟨H ++ t⟩, d', o ++ vectorText (List.range' 2 (n - 2))⟩) := by
  rw [show (⟨⟨H⟩, d, o⟩ : World) = W H [] [] d o by simp [W]]
  unfold testVector cTestVector
  refine Ref.step (array_fr (F := 0) rfl rfl) rfl ?_
  refine Ref.step (array_fr (F := 1) rfl rfl) rfl ?_
  refine Ref.step (array_fr (F := 2) rfl rfl) rfl ?_
  refine Ref.bind (ref_keygen (F := 3) (j := 0) (T := 0) rfl rfl (by simp) List.take_left rfl) ?_
  rintro _ key _ ⟨c1, rfl, rfl⟩
  refine Ref.bind (ref_sign (F := 3) (j := 2) (i := 0) rfl rfl (by simp) List.take_left rfl) ?_
  rintro sig1 _ _ ⟨rfl, c2, rfl⟩
  refine Ref.bind ref_verifyPop ?_
  rintro v _ _ ⟨rfl, c3, rfl⟩
  refine Ref.bind (Ref.assertM _) ?_
  rintro _ _ _ ⟨rfl, rfl⟩
  refine Ref.bind (Ref.write _ _) ?_
  rintro _ _ _ rfl
  refine Ref.step (load_sk (fr := [some (seed ++ [0]), some (rngseed ++ [0]), some (msg ++ [0])])
    (t := [some key.sk]) (i := 0) rfl rfl) rfl ?_
  refine Ref.bind (Ref.write _ _) ?_
  rintro _ _ _ rfl
  have hb : cLoop E pf rngseed msg (List.range' 2 (n - 2)) key.sk =
      cLoop E pf rngseed msg (List.range' 2 (n - 2)) key.sk >>= pure := (bind_pure _).symm
  rw [hb]
  refine Ref.bind (ref_vectorRounds _ _ (t := [some key.sk]) (i := 0) rfl) ?_
  rintro _ _ _ ⟨bs, t, d', g1, g2, rfl⟩
  refine Ref.step (release_fr (j := 0) rfl) rfl ?_
  refine Ref.step (release_fr (j := 1) rfl) rfl ?_
  refine Ref.done (release_fr (j := 2) rfl) rfl ?_
  refine ⟨key, bs, [none, none, none] ++ t, d', c1, g1, ?_, ?_⟩
  · simp only [List.filterMap_append, g2]
    simp
  · unfold W
    rw [List.append_assoc H]
    rfl

theorem ref_main [DecidableEq GT] {stack : Bytes} (w : World) {n : Nat} (hst : 745 ≤ stack.length)
    (hseed : 36 ≤ seed.length) :
    Ref (main E pf stack seed rngseed msg n) w (cMain E pf seed rngseed msg n)
      (fun _ _ w' => ∃ (v : Values) (bs : List Bytes), v.Of E pf seed rngseed msg ∧
        UpdatedKeys E pf rngseed v.key.sk (List.range' 2 (n - 2)) bs ∧
        live w'.heap = live w.heap ++ v.sks ++ v.key.sk :: bs ∧
        w'.out = w.out ++ v.text msg ++ vectorText (List.range' 2 (n - 2)) ++
          (ascii "Hello Algorand" ++ [10])) := by
  obtain ⟨⟨H⟩, d, o⟩ := w
  unfold main cMain
  refine Ref.bind (ref_test hst hseed) ?_
  rintro _ _ _ ⟨v, t, g1, g2, rfl⟩
  have hb : cTestVector E pf seed rngseed msg n = cTestVector E pf seed rngseed msg n >>= pure :=
    (bind_pure _).symm
  rw [hb]
  refine Ref.bind ref_testVector ?_
  rintro _ _ _ ⟨k, bs, t', d', q1, q2, q3, rfl⟩
  obtain rfl : v.key = k := by
    have := g1.key.symm.trans q1
    cases this
    rfl
  refine Ref.done (print_eq _ _) rfl ⟨v, bs, g1, q2, ?_, ?_⟩
  · simp only [live, List.filterMap_append, g2, q3]
  · simp only [List.append_assoc]

end Vector

/-! ### reading a dump back -/

theorem hexDigit_ne_blank {n : Nat} (h : n < 16) : Debug.hexDigit n ≠ 32 := by
  revert n
  decide

/-- the columns of a line -/
def columns (bs : Bytes) : Bytes := bs.flatMap (fun b => ascii " " ++ Debug.hex2 b) ++
  List.replicate (3 * (16 - bs.length)) 32

theorem columns_length {bs : Bytes} (h : bs.length ≤ 16) : (columns bs).length = 48 := by
  have : ∀ l : Bytes, (l.flatMap (fun b => ascii " " ++ Debug.hex2 b)).length = 3 * l.length := by
    intro l
    induction l with
    | nil => rfl
    | cons b l ih => rw [List.flatMap_cons, List.length_append, ih]; simp [ascii, Debug.hex2]; omega
  rw [columns, List.length_append, this, List.length_replicate]
  omega

theorem blank_col : ascii " " = [32] := by decide

theorem columns_inj {a b : Bytes} (h : columns a = columns b) : a = b := by
  have key : ∀ (a b : Bytes) (n m : Nat),
      a.flatMap (fun b => ascii " " ++ Debug.hex2 b) ++ List.replicate n 32 =
        b.flatMap (fun b => ascii " " ++ Debug.hex2 b) ++ List.replicate m 32 → a = b := by
    intro a
    induction a with
    | nil =>
      intro b n m h
      cases b with
      | nil => rfl
      | cons c b =>
        rw [List.flatMap_nil, List.nil_append, List.flatMap_cons, blank_col] at h
        have h1 : Debug.hexDigit (c.toNat / 16) ∈ List.replicate n (32 : UInt8) := by
          rw [h]; simp [Debug.hex2]
        exact absurd (List.eq_of_mem_replicate h1)
          (hexDigit_ne_blank (by have := c.toNat_lt; omega))
    | cons c a ih =>
      intro b n m h
      cases b with
      | nil =>
        rw [List.flatMap_nil, List.nil_append, List.flatMap_cons, blank_col] at h
        have h1 : Debug.hexDigit (c.toNat / 16) ∈ List.replicate m (32 : UInt8) := by
          rw [← h]; simp [Debug.hex2]
        exact absurd (List.eq_of_mem_replicate h1)
          (hexDigit_ne_blank (by have := c.toNat_lt; omega))
      | cons e b =>
        rw [List.flatMap_cons, List.flatMap_cons, List.append_assoc (ascii " " ++ Debug.hex2 c),
          List.append_assoc (ascii " " ++ Debug.hex2 e)] at h
        obtain ⟨h1, h2⟩ := List.append_inj h (by simp [Debug.hex2])
        rw [Debug.hex2_inj (List.append_cancel_left h1), ih b n m h2]
  exact key a b _ _ h

theorem dumpLine_inj {i : Nat} {a b x y : Bytes} (ha : a.length ≤ 16) (hb : b.length ≤ 16)
    (h : dumpLine i a ++ x = dumpLine i b ++ y) : a = b ∧ x = y := by
  have e : ∀ l z : Bytes, dumpLine i l ++ z = (ascii "  " ++ hex4 i ++ ascii " ") ++ (columns l ++
      (ascii "  " ++ l.map printable ++ [10] ++ z)) := fun l z => by
    simp [dumpLine, columns]
  rw [e, e] at h
  have h1 := List.append_cancel_left h
  obtain ⟨h2, h3⟩ := List.append_inj h1 (by rw [columns_length ha, columns_length hb])
  obtain rfl := columns_inj h2
  exact ⟨rfl, List.append_cancel_left h3⟩

theorem dumpLines_head (i : Nat) (bs x : Bytes) : (dumpLines i bs ++ x).head? = some 32 := by
  have e : ∀ l z : Bytes, dumpLine i l ++ z = 32 :: 32 :: (hex4 i ++ ascii " " ++ (columns l ++
      (ascii "  " ++ l.map printable ++ [10] ++ z))) := fun l z => by
    have : ascii "  " = [32, 32] := by decide
    simp [dumpLine, columns, this]
  rw [dumpLines]
  split
  · rw [e]; rfl
  · rw [List.append_assoc, e]; rfl

theorem dumpLines_inj : ∀ (n : Nat) {i : Nat} {a b x y : Bytes}, a.length ≤ n →
    x.head? ≠ some 32 → y.head? ≠ some 32 → dumpLines i a ++ x = dumpLines i b ++ y →
    a = b ∧ x = y := by
  intro n
  induction n using Nat.strong_induction_on with
  | _ n ih =>
    intro i a b x y hn hx hy h
    rw [dumpLines, dumpLines.eq_1 i b] at h
    by_cases ha : a.length ≤ 16 <;> by_cases hb : b.length ≤ 16
    · rw [if_pos ha, if_pos hb] at h
      exact dumpLine_inj ha hb h
    · rw [if_pos ha, if_neg hb, List.append_assoc] at h
      obtain ⟨-, rfl⟩ := dumpLine_inj ha (by simp) h
      exact absurd (dumpLines_head _ _ _) hx
    · rw [if_neg ha, if_pos hb, List.append_assoc] at h
      obtain ⟨-, rfl⟩ := dumpLine_inj (by simp) hb h
      exact absurd (dumpLines_head _ _ _) hy
    · rw [if_neg ha, if_neg hb, List.append_assoc, List.append_assoc] at h
      obtain ⟨h1, h2⟩ := dumpLine_inj (by simp) (by simp) h
      obtain ⟨h3, h4⟩ := ih (n - 16) (by omega) (by simp; omega) hx hy h2
      refine ⟨?_, h4⟩
      rw [← List.take_append_drop 16 a, h1, h3, List.take_append_drop]

theorem dumpText_inj {desc : Bytes} {v u : Int} {a b x y : Bytes} (hv : v = a.length)
    (hu : u = b.length) (ha : 0 < a.length) (hb : 0 < b.length) (hx : x.head? ≠ some 32)
    (hy : y.head? ≠ some 32) (h : dumpText desc v a ++ x = dumpText desc u b ++ y) :
    a = b ∧ x = y := by
  subst hv hu
  unfold dumpText at h
  rw [if_neg (by omega), if_neg (by omega), if_neg (by omega), if_neg (by omega), Int.toNat_natCast,
    Int.toNat_natCast, List.take_length, List.take_length] at h
  simp only [List.append_assoc] at h
  exact dumpLines_inj _ le_rfl hx hy (List.append_cancel_left (List.append_cancel_left
    (List.append_cancel_left h)))

theorem toInt_small {n : Nat} (h : n < 2 ^ 31) : toInt n = n := by
  unfold toInt
  omega

theorem dumpText_head {desc : Bytes} {c : UInt8} {r : Bytes} (hd : desc = c :: r) (v : Int) (b x : Bytes) :
    (dumpText desc v b ++ x).head? = some c := by
  subst hd
  unfold dumpText
  simp

/-- the first secret key can be read in the text -/
theorem text_inj {m m' : Bytes} {v v' : Values} {x y : Bytes} (h1 : v.key.pk.length = 49)
    (h1' : v'.key.pk.length = 49) (h2 : 0 < v.key.sk.length) (h2' : 0 < v'.key.sk.length)
    (h3 : v.key.sk.length < 2 ^ 31) (h3' : v'.key.sk.length < 2 ^ 31)
    (h : v.text m ++ x = v'.text m' ++ y) : v.key.sk = v'.key.sk := by
  unfold Values.text at h
  simp only [List.append_assoc] at h
  have h := List.append_cancel_left (List.append_cancel_left (List.append_cancel_left h))
  have hsk : ascii "sk" = 115 :: [107] := by decide
  obtain ⟨-, h⟩ := dumpText_inj (by rw [h1]; rfl) (by rw [h1']; rfl) (by omega) (by omega)
    (by rw [dumpText_head hsk]; decide) (by rw [dumpText_head hsk]; decide) h
  exact (dumpText_inj (toInt_small h3) (toInt_small h3') h2 h2' (by simp) (by simp) h).1

/-! ### a length that is too large -/

theorem dumpBytes_past {B : List (Option Bytes)} {addr : Option Ptr} {bs : Bytes}
    (hr : Region ⟨B⟩ addr bs) (hno : ¬ Readable ⟨B⟩ (addr.map fun q => { q with off := q.off + bs.length }) 1)
    (k : Nat) : ∀ {i : Nat} {w : World} {b s : Bytes},
    i ≤ bs.length → bs.length < i + k → w.heap.blocks = B ++ [some b] → b.length = 17 →
    (i ≠ 0 → (∀ c ∈ s, c ≠ 0) ∧ s.length = (i - 1) % 16 + 1 ∧ ∃ post, b = s ++ 0 :: post) →
    ∃ w', dumpBytes ⟨B.length, 0⟩ addr i k w = (.ub, w') := by
  induction k with
  | zero => intro i w b s h1 h2; omega
  | succ k ih =>
    intro i w b s hi hk hw hb hs
    have hm : i % 16 < 16 := Nat.mod_lt _ (by omega)
    rcases Nat.lt_or_ge i bs.length with hlt | hge
    · have h1 := dumpByte_eq hr hlt hw hb (s := s) (fun _ h => ⟨(hs h).1, (hs h).2.2⟩)
      have htk : b.take (i % 16) = s.take (i % 16) := by
        by_cases h : i = 0
        · subst h; simp
        · obtain ⟨-, c2, post, rfl⟩ := hs h
          rw [List.take_append_of_le_length (by omega)]
      have hsl : (s.take (i % 16)).length = i % 16 := by
        by_cases h : i = 0
        · subst h; simp
        · rw [List.length_take, (hs h).2.1]; omega
      obtain ⟨w', hw'⟩ := ih (i := i + 1) (s := s.take (i % 16) ++ [printable bs[i]]) (w := { w with
          heap := ⟨B ++ [some (b.take (i % 16) ++ printable bs[i] :: 0 :: b.drop (i % 16 + 2))]⟩
          out := w.out ++ (before i s ++ (ascii " " ++ Debug.hex2 bs[i])) }) (by omega) (by omega) rfl
        (by
          simp only [List.length_append, List.length_cons, List.length_take, List.length_drop]
          omega)
        (fun _ => by
          refine ⟨?_, by rw [List.length_append, hsl]; simp, ?_⟩
          · intro c hc
            rcases List.mem_append.1 hc with hc | hc
            · by_cases h : i = 0
              · subst h; simp at hc
              · exact (hs h).1 c (List.mem_of_mem_take hc)
            · obtain rfl := List.mem_singleton.1 hc
              exact printable_ne_zero _
          · exact ⟨b.drop (i % 16 + 2), by rw [htk]; simp⟩)
      exact ⟨w', (PM.bind_ret h1).trans hw'⟩
    · obtain rfl : i = bs.length := by omega
      have rest : ∀ w' : World, w'.heap.blocks = B ++ [some b] → ∀ f : Bytes → PM Unit,
          (load addr bs.length 1 >>= f) w' = (.ub, w') := fun w' hw' f => by
        refine PM.bind_ub (mem_eq (h := w'.heap) (fromRawParts_ub ?_))
        rintro ⟨c, c1, q, pre, post, c2, c3, c4⟩
        refine hno ⟨c, c1, q, pre, post, c2, c3, ?_⟩
        obtain ⟨q', _, _, hq', _, hb'⟩ := hr
        rw [hq'] at c2
        cases c2
        rw [hw', List.getElem?_append_left (List.getElem?_eq_some_iff.1 hb').1] at c4
        exact c4
      have hbyte : ∃ w', dumpByte ⟨B.length, 0⟩ addr bs.length w = (.ub, w') := by
        unfold dumpByte
        by_cases h16 : bs.length % 16 = 0
        · rw [if_pos h16]
          by_cases h0 : bs.length = 0
          · rw [if_neg (by simpa using h0)]
            exact ⟨_, (PM.bind_ret (print_eq _ _)).trans (rest _ (by exact hw) _)⟩
          · rw [if_pos h0]
            obtain ⟨c1, -, post, rfl⟩ := hs h0
            exact ⟨_, (PM.bind_ret (printBuff_at (t := []) hw c1)).trans
              ((PM.bind_ret (print_eq _ _)).trans (rest _ (by exact hw) _))⟩
        · rw [if_neg h16]
          exact ⟨_, rest _ hw _⟩
      obtain ⟨w', hw'⟩ := hbyte
      exact ⟨w', PM.bind_ub hw'⟩

theorem hexDump_past {B : List (Option Bytes)} {stack desc : Bytes} {addr : Option Ptr} {v : Int}
    {bs : Bytes} (hr : Region ⟨B⟩ addr bs)
    (hno : ¬ Readable ⟨B⟩ (addr.map fun q => { q with off := q.off + bs.length }) 1)
    (hv : (bs.length : Int) < v) (hs : 17 ≤ stack.length) {w : World} (hw : w.heap.blocks = B) :
    ∃ w', hexDump stack desc addr v w = (.ub, w') := by
  subst hw
  unfold hexDump
  obtain ⟨w', hw'⟩ := dumpBytes_past hr hno v.toNat (i := 0) (b := stack.take 17) (s := []) (w := { w with
      heap := ⟨w.heap.blocks ++ [some (stack.take 17)]⟩
      out := w.out ++ (desc ++ ascii ":" ++ [10]) }) (by omega) (by omega) rfl (by simp; omega)
    (fun h => absurd rfl h)
  refine ⟨w', (PM.bind_ret (array_eq _ _)).trans ((PM.bind_ret (print_eq _ _)).trans ?_)⟩
  rw [if_neg (by omega), if_neg (by omega)]
  exact PM.bind_ub hw'

end Pixel.CTest
