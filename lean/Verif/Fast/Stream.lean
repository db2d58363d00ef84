import Verif.Fast.Hmac
import Verif.Spec.Schedule

/-!
# The stream of PRNG states, on numbers

`prngStream` of `Verif/Spec/Schedule.lean` with SHA-512, in a form the kernel evaluates quickly.
-/

namespace Pixel.Fast

open Pixel Pixel.Sha512 Pixel.Spec Pixel.Props

/-- `text "Pixel secret key update"` -/
def updV : Nat := beNat (text "Pixel secret key update")

/-- Draw `n` times from the state `q`; `false` if a state is `p`. -/
def drawsN (n p uv : Nat) (k : Nat → Bool) (q : Nat) : Bool :=
  Nat.rec (motive := fun _ => Nat → Bool) k
    (fun _ ih q => expandN q uv 23 fun _ t2 => Bool.rec (ih t2) false (Nat.beq t2 p)) n q

/-- One update: mix in the seed, draw `n` times. -/
def stepN (p iv sv sl uv n : Nat) (k : Nat → Bool) : Bool :=
  expandN p iv 39 fun t1 t2 =>
    hmacN t2 64 (Nat.add (Nat.shiftLeft t1 (Nat.mul 8 sl)) sv) (Nat.add 64 sl) (drawsN n p uv k)

/-- A history of updates: the numbers of the HKDF infos and of draws, all with one seed. -/
def streamN (sv sl uv : Nat) (us : List (Nat × Nat)) (k : Nat → Bool) (p : Nat) : Bool :=
  List.rec (motive := fun _ => Nat → Bool) k
    (fun u _ ih p => Prod.rec (fun iv n => stepN p iv sv sl uv n ih) u) us p

theorem beNat_inj {s t : Bytes} (h : s.length = t.length) (e : beNat s = beNat t) : s = t := by
  induction s using List.reverseRecOn generalizing t with
  | nil => exact (List.length_eq_zero_iff.1 h.symm).symm
  | append_singleton s x ih =>
    rcases List.eq_nil_or_concat t with rfl | ⟨t, y, rfl⟩
    · simp at h
    · rw [List.concat_eq_append] at h e ⊢
      have hx := x.toNat_lt
      have hy := y.toNat_lt
      rw [beNat_append, beNat_append, List.length_singleton, List.length_singleton, pow_one,
        beNat_single, beNat_single] at e
      have e1 : beNat s = beNat t := by omega
      have e2 : x.toNat = y.toNat := by omega
      rw [ih (by simpa using h) e1, UInt8.toNat_inj.1 e2]

theorem prng_ext {p q : Prng} (hp : p.WF) (hq : q.WF) :
    Nat.beq (beNat p.seed) (beNat q.seed) = decide (p = q) := by
  by_cases h : p = q
  · rw [decide_eq_true h, h]
    exact Nat.beq_refl _
  · rw [decide_eq_false h]
    refine Bool.eq_false_iff.2 fun e => h ?_
    replace e := Nat.eq_of_beq_eq_true e
    obtain ⟨p⟩ := p
    obtain ⟨q⟩ := q
    congr 1
    exact beNat_inj (hp.trans hq.symm) e

theorem sha_len : ∀ m, (sha512 m).length = 64 := Kat.sha512_length

theorem afterDraws_wf {q : Prng} (hq : q.WF) (n : Nat) : (afterDraws sha512 q n).WF := by
  cases n with
  | zero => exact hq
  | succ n =>
    rw [afterDraws, afterDraw, sampleThenUpdate_eq sha_len]
    exact drawNext_wf sha_len _ _

theorem afterDraw_eq (q : Prng) :
    afterDraw sha512 q = ⟨okm2 sha512 q.seed (text "Pixel secret key update")⟩ := by
  rw [afterDraw, sampleThenUpdate_eq sha_len]
  rfl

theorem text_upd_length : (text "Pixel secret key update").length = 23 := by decide +kernel

theorem text_reseed_length : (text "Pixel secret key rerandomize expand").length = 35 := by
  decide +kernel

/-- what `prngStep` does, by recursion -/
def walk (p : Prng) : Nat → Prng → Option Prng
  | 0, q => some q
  | n + 1, q => if afterDraw sha512 q = p then none else walk p n (afterDraw sha512 q)

theorem drawsN_eq {p : Prng} (hp : p.WF) (k : Nat → Bool) (n : Nat) : ∀ {q : Prng}, q.WF →
    drawsN n (beNat p.seed) updV k (beNat q.seed) =
      match walk p n q with
      | none => false
      | some r => k (beNat r.seed) := by
  induction n with
  | zero => intro q _; rfl
  | succ n ih =>
    intro q hq
    have hw : (afterDraw sha512 q).WF := afterDraws_wf hq 1
    have e := expandN_eq (info := text "Pixel secret key update") hq
      (by rw [text_upd_length]; omega)
      (fun _ t2 => Bool.rec (motive := fun _ => Bool) (drawsN n (beNat p.seed) updV k t2) false
        (Nat.beq t2 (beNat p.seed)))
    rw [text_upd_length] at e
    refine Eq.trans e ?_
    have e2 : okm2 sha512 q.seed (text "Pixel secret key update") = (afterDraw sha512 q).seed := by
      rw [afterDraw_eq]
    rw [e2, prng_ext hw hp, walk]
    by_cases h : afterDraw sha512 q = p
    · rw [decide_eq_true h, if_pos h]
    · rw [decide_eq_false h, if_neg h]
      exact ih hw

theorem afterDraws_succ (q : Prng) (n : Nat) :
    afterDraws sha512 (afterDraw sha512 q) n = afterDraws sha512 q (n + 1) := by
  induction n with
  | zero => rfl
  | succ n ih => rw [afterDraws, ih]; rfl

theorem walk_eq (p : Prng) (n : Nat) (q : Prng) :
    walk p n q = if (List.range n).any (fun k => decide (afterDraws sha512 q (k + 1) = p)) then none
      else some (afterDraws sha512 q n) := by
  induction n generalizing q with
  | zero => rfl
  | succ n ih =>
    rw [walk, List.range_succ_eq_map, List.any_cons, List.any_map]
    by_cases h : afterDraw sha512 q = p
    · have h' : afterDraws sha512 q (0 + 1) = p := h
      rw [if_pos h, decide_eq_true h', Bool.true_or, if_pos rfl]
    · have h' : ¬ afterDraws sha512 q (0 + 1) = p := h
      rw [if_neg h, decide_eq_false h', Bool.false_or, ih, afterDraws_succ]
      simp only [afterDraws_succ]
      rfl

theorem reseeded_wf (p : Prng) (seed : Bytes) (t : Nat) : (reseeded sha512 p seed t).WF := by
  rw [reseeded_eq sha_len]
  exact mixed_wf sha_len _ _ _

theorem stepN_eq {p : Prng} (hp : p.WF) (d t tar : Nat) {seed : Bytes} (hs : seed.length < 2 ^ 63)
    (k : Nat → Bool) :
    stepN (beNat p.seed) (beNat (text "Pixel secret key rerandomize expand" ++ be32 t)) (beNat seed)
        seed.length updV (drawsNeeded d t tar) k =
      match prngStep sha512 d p t tar seed with
      | none => false
      | some r => k (beNat r.seed) := by
  have hl : (text "Pixel secret key rerandomize expand" ++ be32 t).length = 39 := by
    rw [List.length_append, text_reseed_length]; rfl
  have e := expandN_eq (info := text "Pixel secret key rerandomize expand" ++ be32 t) hp
    (by rw [hl]; omega) (fun t1 t2 =>
      hmacN t2 64 (Nat.add (Nat.shiftLeft t1 (Nat.mul 8 seed.length)) (beNat seed))
        (Nat.add 64 seed.length) (drawsN (drawsNeeded d t tar) (beNat p.seed) updV k))
  rw [hl] at e
  refine Eq.trans e ?_
  generalize ei : text "Pixel secret key rerandomize expand" ++ be32 t = info
  have l1 : (okm1 sha512 p.seed info).length = 64 := okm1_length sha_len _ _
  have l2 : (okm2 sha512 p.seed info).length = 64 := okm2_length sha_len _ _
  have m1 : Nat.add (Nat.shiftLeft (beNat (okm1 sha512 p.seed info)) (Nat.mul 8 seed.length))
      (beNat seed) = beNat (okm1 sha512 p.seed info ++ seed) := by
    rw [beNat_append]
    show _ <<< (8 * seed.length) + _ = _
    rw [Nat.shiftLeft_eq, pow_mul]
    rfl
  have m2 : Nat.add 64 seed.length = (okm1 sha512 p.seed info ++ seed).length := by
    rw [List.length_append, l1]
    rfl
  have e2 := hmacN_eq (key := okm2 sha512 p.seed info) (m := okm1 sha512 p.seed info ++ seed)
    (by omega) (by rw [List.length_append, l1]; omega)
    (drawsN (drawsNeeded d t tar) (beNat p.seed) updV k)
  rw [← m1, ← m2, l2] at e2
  refine Eq.trans e2 ?_
  have e3 : reseeded sha512 p seed t =
      ⟨hmac sha512 (okm2 sha512 p.seed info) (okm1 sha512 p.seed info ++ seed)⟩ := by
    rw [reseeded, ei, rerandomize_eq sha_len]
    rfl
  have e4 := drawsN_eq hp k (drawsNeeded d t tar) (reseeded_wf p seed t)
  rw [walk_eq, e3] at e4
  rw [e4, prngStep, e3]

theorem prngStep_wf {p : Prng} {d t tar : Nat} {seed : Bytes} {q : Prng}
    (h : prngStep sha512 d p t tar seed = some q) : q.WF := by
  rw [prngStep] at h
  split at h
  · cases h
  · cases h
    exact afterDraws_wf (reseeded_wf _ _ _) _

/-- the infos and the numbers of draws along a list of target times -/
def plan (d : Nat) : Nat → List Nat → List (Nat × Nat)
  | _, [] => []
  | t, tar :: ts =>
    (beNat (text "Pixel secret key rerandomize expand" ++ be32 t), drawsNeeded d t tar) ::
      plan d tar ts

/-- The function on numbers is the stream of PRNG states with SHA-512. -/
theorem streamN_eq (d : Nat) {seed : Bytes} (hs : seed.length < 2 ^ 63) (k : Nat → Bool)
    (ts : List Nat) : ∀ {p : Prng} (t : Nat), p.WF →
    streamN (beNat seed) seed.length updV (plan d t ts) k (beNat p.seed) =
      match prngStream sha512 d p t (ts.map fun tar => (tar, seed)) with
      | none => false
      | some q => k (beNat q.seed) := by
  induction ts with
  | nil => intro p t _; rfl
  | cons tar ts ih =>
    intro p t hp
    have e := stepN_eq hp d t tar hs (streamN (beNat seed) seed.length updV (plan d tar ts) k)
    refine Eq.trans e ?_
    rw [List.map_cons, prngStream]
    rcases h : prngStep sha512 d p t tar seed with _ | q
    · rfl
    · exact ih tar (prngStep_wf h)

/-- the first state of a key, on numbers -/
def firstN (cs sv sl saltV mkV inV : Nat) (k : Nat → Bool) : Bool :=
  hmacN (Nat.add (Nat.mul saltV 256) cs) 17 sv sl fun s =>
    expandN s mkV 18 fun _ s => expandN s inV 25 fun _ s => k s

theorem firstN_eq (cs : UInt8) {seed : Bytes} (hs : seed.length < 2 ^ 64) (k : Nat → Bool) :
    firstN cs.toNat (beNat seed) seed.length (beNat (text "Pixel master key"))
      (beNat (text "key initialization")) (beNat (text "Pixel secret key init" ++ be32 1)) k =
      k (beNat (firstState sha512 seed cs).seed) := by
  have l1 : (text "Pixel master key" ++ [cs]).length = 17 := by
    rw [List.length_append, show (text "Pixel master key").length = 16 by decide +kernel]; rfl
  have l2 : (text "key initialization").length = 18 := by decide +kernel
  have l3 : (text "Pixel secret key init" ++ be32 1).length = 25 := by
    rw [List.length_append, show (text "Pixel secret key init").length = 21 by decide +kernel]; rfl
  have m1 : Nat.add (Nat.mul (beNat (text "Pixel master key")) 256) cs.toNat =
      beNat (text "Pixel master key" ++ [cs]) := by
    rw [beNat_append, List.length_singleton, pow_one, beNat_single]; rfl
  have w : ∀ p : Prng, (drawNext sha512 p (text "key initialization")).WF := fun p =>
    drawNext_wf sha_len _ _
  unfold firstN
  have e1 := hmacN_eq (key := text "Pixel master key" ++ [cs]) (m := seed) (by rw [l1]; omega) hs
    (fun s => expandN s (beNat (text "key initialization")) 18 fun _ s =>
      expandN s (beNat (text "Pixel secret key init" ++ be32 1)) 25 fun _ s => k s)
  rw [l1, ← m1] at e1
  refine e1.trans ?_
  have e2 := expandN_eq (s := hmac sha512 (text "Pixel master key" ++ [cs]) seed)
    (info := text "key initialization") (hmac_length sha_len _ _) (by rw [l2]; omega) (fun _ s =>
      expandN s (beNat (text "Pixel secret key init" ++ be32 1)) 25 fun _ s => k s)
  rw [l2] at e2
  refine e2.trans ?_
  have e3 := expandN_eq (s := okm2 sha512 (hmac sha512 (text "Pixel master key" ++ [cs]) seed)
    (text "key initialization")) (info := text "Pixel secret key init" ++ be32 1)
    (okm2_length sha_len _ _) (by rw [l3]; omega) (fun _ s => k s)
  rw [l3] at e3
  refine e3.trans ?_
  rw [firstState, sampleThenUpdate_eq sha_len, sampleThenUpdate_eq sha_len]
  rfl

theorem firstState_wf (seed : Bytes) (cs : UInt8) : (firstState sha512 seed cs).WF := by
  rw [firstState, sampleThenUpdate_eq sha_len]
  exact drawNext_wf sha_len _ _

end Pixel.Fast
