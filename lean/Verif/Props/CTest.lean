import Verif.Proof.CTest
import Verif.Props.Runs

/-!
# C72: the C program with memory and output
-/

namespace Pixel.Props

open Pixel Pixel.Spec Pixel.Curve Pixel.Vectors Pixel.CHeap Pixel.CTest

set_option linter.unusedSectionVars false

variable {G1 G2 GT : Type} [AddCommGroup G1] [AddCommGroup G2] [CommGroup GT]

/-! ### `hexDump` -/

/-- C72: `hexDump` of bytes that are there prints their dump, whatever its buffer holds at first, and
leaves the rest of the memory as it is. -/
theorem C72_hexdump {stack desc bs : Bytes} {addr : Option Ptr} {v : Int} {w : World}
    (hr : Region w.heap addr bs) (hv : v ≤ bs.length) (hs : 17 ≤ stack.length) :
    hexDump stack desc addr v w = (.ret (), { w with
      heap := ⟨w.heap.blocks ++ [none]⟩, out := w.out ++ dumpText desc v bs }) :=
  hexDump_eq hr (by omega) hs rfl

/-- C72: with a length that goes past the end of the block, the behaviour is undefined. -/
theorem C72_hexdump_past {stack desc bs : Bytes} {addr : Option Ptr} {v : Int} {w : World}
    (hr : Region w.heap addr bs) (hend : ∀ c, ¬ Region w.heap addr (bs ++ [c]))
    (hv : (bs.length : Int) < v) (hs : 17 ≤ stack.length) :
    ∃ w', hexDump stack desc addr v w = (.ub, w') := by
  refine hexDump_past hr ?_ hv hs rfl
  rintro ⟨c, c1, q, pre, post, c2, c3, c4⟩
  obtain ⟨q', pre', post', rfl, h2, h3⟩ := hr
  cases c2
  obtain ⟨c, rfl⟩ := List.length_eq_one_iff.1 c1
  rw [show (⟨w.heap.blocks⟩ : Heap) = w.heap from rfl] at c4
  refine hend c ⟨q', pre', post, rfl, h2, ?_⟩
  simp only at c3 c4
  rw [c4]
  have e := Option.some.inj (Option.some.inj (h3.symm.trans c4))
  have : pre' ++ bs = pre := by
    refine (List.append_inj (?_ : pre' ++ bs ++ post' = pre ++ ([c] ++ post)) ?_).1
    · rw [e]; simp
    · rw [List.length_append, c3, h2]
  rw [← this]
  simp

/-! ### the program -/

variable [DecidableEq GT] {E : Ext G1 G2 GT} {pf : Profile} {stack seed rngseed msg : Bytes}

/-- C72: the program on memory ends as the program on byte lists does, and writes the same files.  In
particular its behaviour is never undefined. -/
theorem C72_same_as_bytes (hst : 745 ≤ stack.length) (hseed : 36 ≤ seed.length) (n : Nat) (w : World) :
    (main E pf stack seed rngseed msg n w).1 = outOf (cMain E pf seed rngseed msg n w.disk).1 ∧
    (main E pf stack seed rngseed msg n w).2.disk = (cMain E pf seed rngseed msg n w.disk).2 ∧
    (main E pf stack seed rngseed msg n w).1 ≠ .ub := by
  have h := ref_main (E := E) (pf := pf) (rngseed := rngseed) (msg := msg) (n := n) w hst hseed
  unfold Ref at h
  rcases hy : cMain E pf seed rngseed msg n w.disk with ⟨b | e | p, d⟩ <;> rw [hy] at h
  · obtain ⟨a, w', h1, h2, -⟩ := h
    rw [h1]
    exact ⟨rfl, h2, by simp⟩
  · obtain ⟨w', h1, h2⟩ := h
    rw [h1]
    exact ⟨rfl, h2, by simp⟩
  · obtain ⟨w', h1, h2⟩ := h
    rw [h1]
    exact ⟨rfl, h2, by simp⟩

/-- C72: what the program has printed and what it leaves in memory when it returns: every secret key
it ever had. -/
theorem C72_success (hst : 745 ≤ stack.length) (hseed : 36 ≤ seed.length) {n : Nat} {w w' : World}
    (hm : main E pf stack seed rngseed msg n w = (.ret (), w')) :
    ∃ (v : Values) (bs : List Bytes), v.Of E pf seed rngseed msg ∧
      UpdatedKeys E pf rngseed v.key.sk (List.range' 2 (n - 2)) bs ∧
      live w'.heap = live w.heap ++ v.sks ++ v.key.sk :: bs ∧
      w'.out = w.out ++ v.text msg ++ vectorText (List.range' 2 (n - 2)) ++
        (ascii "Hello Algorand" ++ [10]) := by
  have h := ref_main (E := E) (pf := pf) (rngseed := rngseed) (msg := msg) (n := n) w hst hseed
  unfold Ref at h
  rcases hy : cMain E pf seed rngseed msg n w.disk with ⟨b | e | p, d⟩ <;> rw [hy] at h
  · obtain ⟨a, w₁, h1, h2, h3⟩ := h
    rw [hm] at h1
    cases h1
    exact h3
  · obtain ⟨w₁, h1, -⟩ := h
    rw [hm] at h1
    cases h1
  · obtain ⟨w₁, h1, -⟩ := h
    rw [hm] at h1
    cases h1

/-- C72: the seed must have at least 35 bytes: a round whose seed is longer than the array, with its
zero at the end, reads past it. -/
theorem C72_short_seed {w : World} {b msg pkList sigList : Ptr} {msgLen i : Nat}
    (hb : w.heap.blocks[b.block]? = some (some (seed ++ [0]))) (h0 : b.off = 0)
    (hi : seed.length + 1 < 32 + i) :
    ∃ w', testRound E pf stack b msg pkList sigList msgLen i w = (.ub, w') := by
  have hno : ¬ Readable w.heap (some b) (32 + i) := by
    rintro ⟨c, c1, q, pre, post, c2, c3, c4⟩
    cases c2
    have e := congrArg List.length (Option.some.inj (Option.some.inj (hb.symm.trans c4)))
    simp at e
    omega
  exact ⟨_, (PM.bind_ret (print_eq _ _)).trans (PM.bind_ub (mem_eq (CM.bind_ub (fromRawParts_ub hno))))⟩

/-- C72: the output tells the secret key: two runs that print the same had the same one, whatever
their seeds, messages and libraries. -/
theorem C72_output_reveals_key {E' : Ext G1 G2 GT} {pf' : Profile} {stack' seed' rngseed' msg' : Bytes}
    {n n' : Nat} {w w₁ w' w₁' : World} {k k' : Ffi.Keys}
    (hst : 745 ≤ stack.length) (hst' : 745 ≤ stack'.length)
    (hseed : 36 ≤ seed.length) (hseed' : 36 ≤ seed'.length)
    (hm : main E pf stack seed rngseed msg n w = (.ret (), w₁))
    (hm' : main E' pf' stack' seed' rngseed' msg' n' w' = (.ret (), w₁'))
    (hk : Ffi.cKeygen E seed = .ok k) (hk' : Ffi.cKeygen E' seed' = .ok k')
    (hl : 0 < k.sk.length ∧ k.sk.length < 2 ^ 31) (hl' : 0 < k'.sk.length ∧ k'.sk.length < 2 ^ 31)
    (ho : w.out = w'.out) (ho₁ : w₁.out = w₁'.out) : k.sk = k'.sk := by
  obtain ⟨v, bs, h1, -, -, h4⟩ := C72_success hst hseed hm
  obtain ⟨v', bs', h1', -, -, h4'⟩ := C72_success hst' hseed' hm'
  have e := h1.key.symm.trans hk
  have e' := h1'.key.symm.trans hk'
  cases Res.ok.inj e
  cases Res.ok.inj e'
  rw [h4, h4', ho] at ho₁
  simp only [List.append_assoc] at ho₁
  exact text_inj (keygen_pk_length h1.key) (keygen_pk_length h1'.key) hl.1 hl'.1 hl.2 hl'.2
    (List.append_cancel_left ho₁)

theorem updatedKeys_blobFor (H : HashLaws E) (L : GroupLaws E) (C : CodecLaws E) (D : DefaultLaws E)
    {x : Nat} {b : Bytes} {ts : List Nat} {bs : List Bytes} (h : UpdatedKeys E pf rngseed b ts bs) :
    ∀ {t : Nat}, BlobFor E (x • E.defaultParam.h) t b →
      List.Forall₂ (fun t b => BlobFor E (x • E.defaultParam.h) t b) ts bs := by
  induction h with
  | nil => intro t _; exact .nil
  | @cons b b' t ts bs h1 h2 ih =>
    intro t0 hb
    have hc : BlobFor E (x • E.defaultParam.h) t b' :=
      (cUpdates_blobFor H L C D pf hb (us := [(t, rngseed)]) (b' := b') (by rw [cUpdates, h1]; rfl)).1
    exact .cons hc (ih hc)

/-- C72: with the laws, the program runs to its end from any memory and any disk if the Rust program of
the test vectors does; then the memory holds, beside what it held before, `7 + (n - 1)` secret keys, and
for every time below `n` one that can sign for it; and the key of time 1 can be read in the output. -/
theorem C72_nothing_wiped (H : HashLaws E) (L : GroupLaws E) (C : CodecLaws E) (D : DefaultLaws E)
    (hst : 745 ≤ stack.length) (hseed : 36 ≤ seed.length) {n : Nat} (h3 : 3 ≤ n) (h100 : n ≤ 100)
    {d0 d1 : Disk} (hr : rustMain E pf seed rngseed msg n d0 = (.ok (), d1)) (w : World) :
    ∃ (w' : World) (x : Nat) (keys : List Bytes) (k : Ffi.Keys) (pre post : Bytes),
      main E pf stack seed rngseed msg n w = (.ret (), w') ∧
      live w'.heap = live w.heap ++ keys ∧ keys.length = 7 + (n - 1) ∧
      (∀ b ∈ keys, ∃ y t : Nat, 1 ≤ t ∧ t < n ∧ BlobFor E (y • E.defaultParam.h) t b) ∧
      (∀ t, 1 ≤ t → t < n → ∃ b ∈ keys, BlobFor E (x • E.defaultParam.h) t b) ∧
      Ffi.cKeygen E seed = .ok k ∧ BlobFor E (x • E.defaultParam.h) 1 k.sk ∧
      w'.out = w.out ++ pre ++ dumpText (ascii "sk") k.sk.length k.sk ++ post := by
  obtain ⟨d', hc, -⟩ := C61_c_program H L C D hseed h3 h100 hr w.disk
  have hm := (C72_same_as_bytes (E := E) (pf := pf) (rngseed := rngseed) (msg := msg) hst hseed n w).1
  rw [hc] at hm
  obtain ⟨w', hm⟩ : ∃ w', main E pf stack seed rngseed msg n w = (.ret (), w') :=
    ⟨_, Prod.ext hm rfl⟩
  obtain ⟨v, bs, g1, g2, g3, g4⟩ := C72_success hst hseed hm
  obtain ⟨k, x, k1, -, -, k4, -, k6, -⟩ := (C46_keygen H L C D pf seed).2 (by omega)
  rw [g1.key] at k1
  cases Res.ok.inj k1
  have hsize : v.key.sk.length = 3287 := by
    have : Ffi.cEstimateSkSize pf 1 Ffi.cGetDepth = .ok 3287 := by cases pf <;> decide +kernel
    rw [this] at k4
    exact (Res.ok.inj k4).symm
  have hsk2 : BlobFor E (x • E.defaultParam.h) 2 v.sk2 :=
    (cUpdates_blobFor H L C D pf k6 (us := [(2, rngseed)]) (b' := v.sk2) (by
      rw [cUpdates, g1.sk2]; rfl)).1
  have hbs := updatedKeys_blobFor H L C D g2 k6
  have hrounds : ∀ a ∈ v.rounds, ∃ y : Nat, BlobFor E (y • E.defaultParam.h) 1 a.1.sk := by
    have : ∀ {i : Nat} {l : List (Ffi.Keys × Bytes)}, Rounds E pf seed msg i l → i + l.length ≤ 5 →
        ∀ a ∈ l, ∃ y : Nat, BlobFor E (y • E.defaultParam.h) 1 a.1.sk := by
      intro i l hl
      induction hl with
      | nil => intro _ a ha; cases ha
      | @cons i k s l h1 h2 h3 h4 ih =>
        intro hi a ha
        simp only [List.length_cons] at hi
        rcases List.mem_cons.1 ha with rfl | ha
        · obtain ⟨k', y, y1, -, -, -, -, y6, -⟩ := (C46_keygen H L C D pf (seed.take (32 + i))).2
            (by rw [List.length_take]; omega)
          rw [h1] at y1
          cases Res.ok.inj y1
          exact ⟨y, y6⟩
        · exact ih (by omega) a ha
    exact this g1.rounds (by rw [g1.len])
  have hlen : bs.length = n - 2 := by
    rw [← hbs.length_eq, List.length_range']
  refine ⟨w', x, v.sks ++ v.key.sk :: bs, v.key,
    [10] ++ ascii "key generation" ++ [10] ++ dumpText (ascii "pk") 49 v.key.pk, ?_, hm,
    by rw [g3, List.append_assoc], ?_, ?_, ?_, g1.key, k6, ?_⟩
  rotate_left
  · simp only [Values.sks, List.length_append, List.length_cons, List.length_map, g1.len, hlen]
    omega
  · intro b hb
    simp only [Values.sks, List.mem_append, List.mem_cons, List.mem_map] at hb
    rcases hb with (rfl | rfl | ⟨a, ha, rfl⟩) | rfl | hb
    · exact ⟨x, 1, by omega, by omega, k6⟩
    · exact ⟨x, 2, by omega, by omega, hsk2⟩
    · obtain ⟨y, hy⟩ := hrounds a ha
      exact ⟨y, 1, by omega, by omega, hy⟩
    · exact ⟨x, 1, by omega, by omega, k6⟩
    · obtain ⟨i, hi, rfl⟩ := List.getElem_of_mem hb
      have := hbs.get (by rw [List.length_range']; omega) hi
      rw [List.get_eq_getElem, List.getElem_range'] at this
      simp only at this
      exact ⟨x, 2 + 1 * i, by omega, by omega, this⟩
  · intro t t1 t2
    rcases Nat.lt_or_ge 1 t with ht | ht
    · have hi : t - 2 < bs.length := by omega
      have := hbs.get (by rw [List.length_range']; omega) hi
      rw [List.get_eq_getElem, List.getElem_range', show 2 + 1 * (t - 2) = t by omega] at this
      exact ⟨_, by simp, this⟩
    · obtain rfl : t = 1 := by omega
      exact ⟨v.key.sk, by simp [Values.sks], k6⟩
  · rw [g4]
    unfold Values.text
    rw [toInt_small (by omega)]
    simp only [List.append_assoc]
    rfl

/-- C72: the program of the repository, with SHA-512 and BLS12-381: it runs to its end from any memory
and any disk, and leaves 70 secret keys in memory, among them one for every time from 1 to 63. -/
theorem C72_real {R : Rest GT} (h : Real R) (pf : Profile) (hst : 745 ≤ stack.length) (w : World) :
    ∃ (w' : World) (x : Nat) (keys : List Bytes) (k : Ffi.Keys) (pre post : Bytes),
      main (bls R) pf stack Fast.vectorSeed [] vectorMsg 64 w = (.ret (), w') ∧
      live w'.heap = live w.heap ++ keys ∧ keys.length = 70 ∧
      (∀ t, 1 ≤ t → t < 64 → ∃ b ∈ keys, BlobFor (bls R) (x • R.defaultParam.h) t b) ∧
      Ffi.cKeygen (bls R) Fast.vectorSeed = .ok k ∧
      w'.out = w.out ++ pre ++ dumpText (ascii "sk") 3287 k.sk ++ post := by
  obtain ⟨H, L, C, D⟩ := C65_assumptions h.sha h.pairing h.hash h.param
  obtain ⟨d1, _, _, hr, -⟩ := C66_make_test h pf (fun _ _ => true) []
  obtain ⟨w', x, keys, k, pre, post, g1, g2, g3, -, g5, g6, -, g8⟩ :=
    C72_nothing_wiped H L C D hst (by rw [Fast.vectorSeed_length]; omega) (by omega) (by omega) hr w
  refine ⟨w', x, keys, k, pre, post, g1, g2, g3, g5, g6, ?_⟩
  have hl : k.sk.length = 3287 := by
    obtain ⟨k', _, k1, -, -, k4, -⟩ := (C46_keygen H L C D pf Fast.vectorSeed).2
      (by rw [Fast.vectorSeed_length]; omega)
    rw [g6] at k1
    cases Res.ok.inj k1
    have : Ffi.cEstimateSkSize pf 1 Ffi.cGetDepth = .ok 3287 := by cases pf <;> decide +kernel
    rw [this] at k4
    exact (Res.ok.inj k4).symm
  rw [g8, hl]
  rfl

/-! ### concrete cases -/

open Toy

/-- C72: a dump of eighteen bytes in a block, with rubbish in the buffer; one byte more is undefined -/
example : (hexDump (List.replicate 20 0xff) (ascii "x") (some ⟨0, 1⟩) 18
      ⟨⟨[some (List.range 19 |>.map (UInt8.ofNat <| 60 + ·))]⟩, [], []⟩).2.out =
      ascii "x:\n  0000  3d 3e 3f 40 41 42 43 44 45 46 47 48 49 4a 4b 4c  =>?@ABCDEFGHIJKL\n" ++
      ascii "  0010  4d 4e                                            MN\n" ∧
    (hexDump (List.replicate 20 0xff) (ascii "x") (some ⟨0, 1⟩) 19
      ⟨⟨[some (List.range 19 |>.map (UInt8.ofNat <| 60 + ·))]⟩, [], []⟩).1 = .ub := by
  decide +kernel

section

-- the toy groups are built with the ring structure of `ZMod 3`
attribute [-instance] ZMod.instField

/-- C72: the toy instance with a seed of 40 bytes meets the conditions, so the program runs through -/
example (stack : Bytes) (hst : 745 ≤ stack.length) (w : World) : ∃ w' keys,
    main (ext sha0) .debug stack (List.replicate 40 7) [] [1, 2] 6 w = (.ret (), w') ∧
      live w'.heap = live w.heap ++ keys ∧ keys.length = 12 := by
  obtain ⟨d1, _, _, hr, -⟩ := toy_make_test [1, 2] (fun _ _ => true) []
  obtain ⟨w', x, keys, k, pre, post, g1, g2, g3, -⟩ := C72_nothing_wiped (E := ext sha0)
    (pf := .debug) (seed := List.replicate 40 7) (rngseed := []) (msg := [1, 2]) hashLaws
    (groupLaws sha0) (codecLaws sha0) (defaultLaws sha0) hst (by simp) (n := 6) (by omega) (by omega)
    hr w
  exact ⟨w', keys, g1, g2, g3⟩

end

/-- C72: the assumptions of the real case can be met -/
example (stack : Bytes) (hst : 745 ≤ stack.length) (w : World) : ∃ w',
    main (bls restGen) .release stack Fast.vectorSeed [] vectorMsg 64 w = (.ret (), w') := by
  have h := C65_hypotheses_met
  obtain ⟨w', _, _, _, _, _, g1, -⟩ :=
    C72_real (R := restGen) ⟨h.1, h.2.1, h.2.2.1, h.2.2.2.1⟩ .release hst w
  exact ⟨w', g1⟩

end Pixel.Props
