import Verif.Spec.Memory
import Verif.Proof.SubKeyOps
import Verif.Proof.Update
import Verif.Proof.Verify
import Verif.Proof.Sig

/-! # Helper lemmas: what the functions leave in memory -/

set_option linter.unusedSectionVars false

namespace Pixel

open Spec MM

variable {G1 G2 GT : Type} [AddCommGroup G1] [AddCommGroup G2] [CommGroup GT]

/-- A call of `f` ends with `x`, leaves the caller's variables alone and leaves `l` behind. -/
def Ends {α : Type} (f : MM G1 G2 α) (x : Res α) (l : List (Cell G1 G2)) : Prop :=
  ∀ m, f m = (x, { frame := m.frame, left := m.left ++ l })

/-- A body started with the variables `fr` ends with `x`; what it has left behind together with
its variables at the end is `l`. -/
def Body {α : Type} (f : MM G1 G2 α) (fr : List (String × Cell G1 G2)) (x : Res α)
    (l : List (Cell G1 G2)) : Prop :=
  ∃ fr' l', (∀ left, f { frame := fr, left := left } = (x, { frame := fr', left := left ++ l' })) ∧
    l' ++ fr'.map Prod.snd = l

theorem Ends.unique {α : Type} {f : MM G1 G2 α} {x y : Res α} {l l' : List (Cell G1 G2)}
    (h : Ends f x l) (h' : Ends f y l') : x = y ∧ l = l' := by
  have := (h ⟨[], []⟩).symm.trans (h' ⟨[], []⟩)
  simpa using this

theorem Ends.fst {α : Type} {f : MM G1 G2 α} {x : Res α} {l : List (Cell G1 G2)}
    (h : Ends f x l) (m : Mem G1 G2) : (f m).1 = x := by rw [h m]

theorem Ends.left {α : Type} {f : MM G1 G2 α} {x : Res α} {l : List (Cell G1 G2)}
    (h : Ends f x l) (m : Mem G1 G2) : (f m).2.left = m.left ++ l := by rw [h m]

section rules

variable {α β : Type} {fr : List (String × Cell G1 G2)} {l l1 : List (Cell G1 G2)}

theorem Body.scope {f : MM G1 G2 α} {x : Res α} (h : Body f [] x l) : Ends (scope f) x l := by
  obtain ⟨fr', l', h1, rfl⟩ := h
  intro m
  unfold MM.scope
  simp only [h1, List.append_assoc]

theorem Body.letv {x : String} {c : Cell G1 G2} {g : Unit → MM G1 G2 β} {y : Res β}
    (h : Body (g ()) ((x, c) :: fr) y l) : Body (MM.letv x c >>= g) fr y l := by
  obtain ⟨fr', l', h1, h2⟩ := h
  exact ⟨fr', l', fun left => h1 left, h2⟩

theorem Body.setv {x : String} {c : Cell G1 G2} {g : Unit → MM G1 G2 β} {y : Res β}
    (h : Body (g ()) (fr.map (fun p => if p.1 = x then (x, c) else p)) y l) :
    Body (MM.setv x c >>= g) fr y l := by
  obtain ⟨fr', l', h1, h2⟩ := h
  exact ⟨fr', l', fun left => h1 left, h2⟩

theorem Body.zeroize {x : String} {g : Unit → MM G1 G2 β} {y : Res β}
    (h : Body (g ()) (fr.filter (fun p => p.1 ≠ x)) y l) :
    Body (MM.zeroize x >>= g) fr y l := by
  obtain ⟨fr', l', h1, h2⟩ := h
  exact ⟨fr', l', fun left => h1 left, h2⟩

theorem Body.pure (a : α) (h : fr.map Prod.snd = l) :
    Body (Pure.pure a : MM G1 G2 α) fr (.ok a) l :=
  ⟨fr, [], fun left => by simp, by simpa using h⟩

theorem Body.lift (x : Res α) (h : fr.map Prod.snd = l) : Body (SM.lift x : MM G1 G2 α) fr x l :=
  ⟨fr, [], fun left => by simp, by simpa using h⟩

theorem Body.err (e : Err) (h : fr.map Prod.snd = l) :
    Body (SM.err e : MM G1 G2 α) fr (.err e) l :=
  Body.lift _ h

/-- a call inside a body -/
theorem Body.call {f : MM G1 G2 α} {x : Res α} {g : α → MM G1 G2 β} {y : α → Res β}
    (h : Ends f x l1) (hg : ∀ a, x = .ok a → Body (g a) fr (y a) l)
    (hf : (∀ a, x ≠ .ok a) → fr.map Prod.snd = l) :
    Body (f >>= g) fr (x >>= y) (l1 ++ l) := by
  cases x with
  | ok a =>
    obtain ⟨fr', l', h1, h2⟩ := hg a rfl
    refine ⟨fr', l1 ++ l', fun left => ?_, by rw [List.append_assoc, h2]⟩
    rw [SM.bind_run_ok (h _), h1, List.append_assoc]
    rfl
  | err e =>
    refine ⟨fr, l1, fun left => ?_, by rw [hf (by simp)]⟩
    rw [SM.bind_run_err (h _)]
    rfl
  | panic e =>
    refine ⟨fr, l1, fun left => ?_, by rw [hf (by simp)]⟩
    rw [SM.bind_run_panic (h _)]
    rfl

theorem Body.call_ok {f : MM G1 G2 α} {a : α} {g : α → MM G1 G2 β} {y : Res β}
    (h : Ends f (.ok a) l1) (hg : Body (g a) fr y l) : Body (f >>= g) fr y (l1 ++ l) := by
  obtain ⟨fr', l', h1, h2⟩ := hg
  refine ⟨fr', l1 ++ l', fun left => ?_, by rw [List.append_assoc, h2]⟩
  rw [SM.bind_run_ok (h _), h1, List.append_assoc]

theorem Ends.lift (x : Res α) : Ends (SM.lift x : MM G1 G2 α) x [] := fun m => by simp

theorem Ends.pure (a : α) : Ends (Pure.pure a : MM G1 G2 α) (.ok a) [] := fun m => by simp

theorem Ends.err (e : Err) : Ends (SM.err e : MM G1 G2 α) (.err e) [] := fun m => by simp

theorem Body.lift_ok {x : Res α} {a : α} {g : α → MM G1 G2 β} {y : Res β}
    (hx : x = .ok a) (hg : Body (g a) fr y l) : Body (SM.lift x >>= g) fr y l := by
  rw [hx]; exact hg

theorem Body.lift_bind {x : Res α} {g : α → MM G1 G2 β} {y : α → Res β}
    (hg : ∀ a, x = .ok a → Body (g a) fr (y a) l)
    (hf : (∀ a, x ≠ .ok a) → fr.map Prod.snd = l) : Body (SM.lift x >>= g) fr (x >>= y) l :=
  Body.call (l1 := []) (Ends.lift x) hg hf

/-- a function that only calls others -/
theorem Ends.bind_ok {f : MM G1 G2 α} {a : α} {g : α → MM G1 G2 β} {y : Res β}
    (h : Ends f (.ok a) l1) (hg : Ends (g a) y l) : Ends (f >>= g) y (l1 ++ l) := by
  intro m
  rw [SM.bind_run_ok (h m), hg, List.append_assoc]

theorem Ends.bind_err {f : MM G1 G2 α} {e : Err} {g : α → MM G1 G2 β}
    (h : Ends f (.err e) l1) : Ends (f >>= g) (.err e) l1 := fun m => by
  rw [SM.bind_run_err (h m)]

theorem Ends.bind_panic {f : MM G1 G2 α} {e : Panic} {g : α → MM G1 G2 β}
    (h : Ends f (.panic e) l1) : Ends (f >>= g) (.panic e) l1 := fun m => by
  rw [SM.bind_run_panic (h m)]

/-- if neither part leaves anything behind -/
theorem Ends.bind_nil {f : MM G1 G2 α} {x : Res α} {g : α → MM G1 G2 β} {y : α → Res β}
    (h : Ends f x []) (hg : ∀ a, x = .ok a → Ends (g a) (y a) []) :
    Ends (f >>= g) (x >>= y) [] := by
  cases x with
  | ok a => exact h.bind_ok (hg a rfl)
  | err e => exact h.bind_err
  | panic e => exact h.bind_panic

/-- a call in tail position -/
theorem Ends.tail {f : MM G1 G2 α} {x : Res α} (h : Ends f x l1) (hl : l1 ++ fr.map Prod.snd = l) :
    Body f fr x l :=
  ⟨fr, l1, fun _ => h _, hl⟩

theorem Ends.toBody {f : MM G1 G2 α} {x : Res α} (h : Ends f x l) : Body f [] x l :=
  ⟨[], l, fun _ => h _, by simp⟩

/-- The result of `f` is `x`, whatever the memory. -/
def Agrees (f : MM G1 G2 α) (x : Res α) : Prop := ∀ m, (f m).1 = x

theorem Agrees.scope {f : MM G1 G2 α} {x : Res α} (h : Agrees f x) : Agrees (MM.scope f) x := by
  intro m
  have := h { frame := [], left := m.left }
  unfold MM.scope
  exact this

/-- a statement that only changes the variables -/
theorem Agrees.local {f : MM G1 G2 Unit} {g : Unit → MM G1 G2 β} {y : Res β}
    (h : Agrees (g ()) y) (hf : ∀ m, (f m).1 = .ok () := by exact fun _ => rfl) :
    Agrees (f >>= g) y := by
  intro m
  have hm : f m = (.ok (), (f m).2) := by rw [← hf m]
  rw [SM.bind_run_ok hm]
  exact h _

theorem Agrees.call {f : MM G1 G2 α} {a : α} {g : α → MM G1 G2 β} {y : Res β}
    (h : Ends f (.ok a) l) (hg : Agrees (g a) y) : Agrees (f >>= g) y := by
  intro m
  rw [SM.bind_run_ok (h m)]
  exact hg _

theorem Agrees.lift {x : Res α} {g : α → MM G1 G2 β} {y : α → Res β}
    (h : ∀ a, x = .ok a → Agrees (g a) (y a)) : Agrees (SM.lift x >>= g) (x >>= y) := by
  intro m
  cases x with
  | ok a => exact h a rfl m
  | err e => rfl
  | panic e => rfl

end rules

/-- what a successful `os2ip_mod_p` leaves behind: `s` and the overwritten `tslide` -/
def osLeft (r : Fr) : List (Cell G1 G2) :=
  [.num r.val, .bytes ((List.range 64).map UInt8.ofNat)]

theorem frFromRepr_some {a b c d : Nat} {x : Fr} (h : frFromRepr a b c d = some x) :
    a + b * 2 ^ 64 + c * 2 ^ 128 + d * 2 ^ 192 = x.val := by
  unfold frFromRepr at h
  simp only at h
  by_cases hn : a + b * 2 ^ 64 + c * 2 ^ 128 + d * 2 ^ 192 < rOrder
  · rw [if_pos hn] at h
    cases h
    rw [ZMod.val_natCast, Nat.mod_eq_of_lt hn]
  · rw [if_neg hn] at h
    cases h

attribute [local irreducible] rOrder natToBE in
theorem os2ipModPM_ends {b : Bytes} (h : b.length ≤ 64) :
    Ends (os2ipModPM b : MM G1 G2 Fr) (.ok ((beNat b : Nat) : Fr)) (osLeft ((beNat b : Nat) : Fr)) := by
  have H := os2ipModP_eq h
  unfold os2ipModP at H
  simp only [Res.bind_eq_ok] at H
  obtain ⟨_, h0, top, h1, _, h2, b0, h3, b1, h4, b2, h5, b3, h6, h7⟩ := H
  apply Body.scope
  refine Body.lift_ok h0 (Body.letv (Body.letv (Body.letv (Body.lift_ok h1 (Body.lift_ok h2
    (Body.lift_ok h3 (Body.lift_ok h4 (Body.lift_ok h5 (Body.lift_ok h6 ?_)))))))))
  refine Body.letv (Body.zeroize (Body.zeroize (Body.setv ?_)))
  cases hr : frFromRepr (beNat b0) (beNat b1) (beNat b2) (beNat b3) with
  | none => rw [hr] at h7; cases h7
  | some x =>
    rw [hr] at h7
    cases h7
    have := frFromRepr_some hr
    refine Body.lift _ ?_
    rw [this]
    simp [osLeft]

section

variable {sha : Bytes → Bytes}

theorem Prng.initM_ends (h : ∀ m, (sha m).length = 64) (seed salt : Bytes) :
    Ends (Prng.initM sha seed salt : MM G1 G2 Prng) (.ok { seed := hmac sha salt seed })
      [.bytes (hmac sha salt seed)] := by
  apply Body.scope
  refine Body.letv (Body.letv (Body.lift_ok (slice_all (hmac_length h _ _)) (Body.lift_ok
    (copy64_eq (hmac_length h _ _)) (Body.setv (Body.zeroize ?_)))))
  exact Body.pure _ (by simp [hkdfExtract])

theorem Prng.sampleThenUpdateM_ends (h : ∀ m, (sha m).length = 64) (info : Bytes) (p : Prng) :
    Ends (Prng.sampleThenUpdateM sha info p : MM G1 G2 (Fr × Prng))
      (.ok (drawVal sha p info, drawNext sha p info)) (osLeft (drawVal sha p info)) := by
  apply Body.scope
  refine Body.letv (Body.letv (Body.lift_ok (expandAsserted_128 h _ _) (Body.setv (Body.lift_ok
    (slice_first (okm1_length h _ _)) ?_))))
  rw [← List.append_nil (osLeft _)]
  refine Body.call_ok (os2ipModPM_ends (by rw [okm1_length h])) (Body.letv (Body.lift_ok
    (slice_second (okm1_length h _ _) (by rw [okm2_length h])) (Body.lift_ok
    (copy64_eq (okm2_length h _ _)) (Body.setv (Body.zeroize (Body.zeroize (Body.zeroize ?_)))))))
  exact Body.pure _ (by simp)

theorem Prng.sampleM_ends (h : ∀ m, (sha m).length = 64) (info : Bytes) (p : Prng) :
    Ends (Prng.sampleM sha info p : MM G1 G2 Fr)
      (.ok (drawVal sha p info)) (osLeft (drawVal sha p info)) := by
  apply Body.scope
  refine Body.letv (Body.letv (Body.lift_ok (expandAsserted_64 h _ _) (Body.setv ?_)))
  rw [← List.append_nil (osLeft _)]
  refine Body.call_ok (os2ipModPM_ends (by rw [okm1_length h])) (Body.zeroize (Body.zeroize ?_))
  exact Body.pure _ (by simp)

theorem Prng.rerandomizeM_ends (h : ∀ m, (sha m).length = 64) (seed info : Bytes) (p : Prng) :
    Ends (Prng.rerandomizeM sha seed info p : MM G1 G2 Prng) (.ok (mixed sha p seed info)) [] := by
  apply Body.scope
  refine Body.letv (Body.letv (Body.lift_ok (expandAsserted_128 h _ _) (Body.setv (Body.lift_ok
    (slice_first (okm1_length h _ _)) (Body.letv (Body.lift_ok
    (slice_second (okm1_length h _ _) (by rw [okm2_length h])) (Body.letv (Body.lift_ok
    (slice_all (hmac_length h _ _)) (Body.lift_ok (copy64_eq (hmac_length h _ _)) (Body.zeroize
    (Body.zeroize (Body.zeroize (Body.zeroize ?_)))))))))))))
  exact Body.pure _ (by simp)

end

/-! ### sub keys -/

theorem after_ok {σ : Type} {f : SM σ Unit} {s s' : σ} (h : f s = (.ok (), s')) :
    after f s = .ok s' := by unfold after; rw [SM.exec_ok h]; rfl

theorem after_eq {σ : Type} (f : SM σ Unit) (s : σ) :
    after f s = match f s with
      | (.ok _, s') => .ok s'
      | (.err e, _) => .err e
      | (.panic p, _) => .panic p := by
  unfold after SM.exec
  rcases f s with ⟨r, s'⟩
  cases r <;> rfl

theorem after_bind {σ : Type} (f : SM σ Unit) (g : Unit → SM σ Unit) (s : σ) :
    after (f >>= g) s = (after f s >>= fun s' => after (g ()) s') := by
  simp only [after_eq, SM.bind_run]
  rcases f s with ⟨r, s'⟩
  cases r <;> rfl

theorem after_get {σ : Type} (f : σ → SM σ Unit) (s : σ) :
    after (SM.get >>= f) s = after (f s) s := by
  simp only [after_eq, SM.get_bind]

theorem after_lift {σ α : Type} (x : Res α) (f : α → SM σ Unit) (s : σ) :
    after (SM.lift x >>= f) s = (x >>= fun a => after (f a) s) := by
  cases x <;> simp [after_eq]

theorem after_set {σ : Type} (s' s : σ) : after (SM.set s') s = .ok s' := rfl

theorem after_set_bind {σ : Type} (s' s : σ) (g : Unit → SM σ Unit) :
    after (SM.set s' >>= g) s = after (g ()) s' := by
  simp only [after_eq, SM.set_bind]

/-- a loop whose iterations leave nothing behind -/
theorem foldlM_ends {σ β : Type} {Inv : σ → Prop} {F : σ → β → MM G1 G2 σ} {f : β → SM σ Unit}
    (l : List β)
    (h : ∀ i ∈ l, ∀ s, Inv s → Ends (F s i) (after (f i) s) [] ∧
      ∀ s', after (f i) s = .ok s' → Inv s') (s : σ) (hs : Inv s) :
    Ends (l.foldlM F s) (after (l.forM f) s) [] := by
  induction l generalizing s with
  | nil => exact Ends.pure s
  | cons a l ih =>
    show Ends (F s a >>= fun s' => l.foldlM F s') (after (f a >>= fun _ => l.forM f) s) []
    rw [after_bind]
    have h1 := h a (by simp) s hs
    refine Ends.bind_nil h1.1 fun s' hs' => ?_
    exact ih (fun i hi => h i (by simp [hi])) s' (h1.2 s' hs')

namespace SubSecretKey

/-- what `SubSecretKey::init` leaves behind -/
def rootLeft (pp : PubParam G1 G2) (alpha : G1) (r : Fr) (s : SubSecretKey G1 G2) :
    List (Cell G1 G2) :=
  [.g1 s.hpoly, .g2 s.g2r, .g1s (pp.hlist.take 1 ++ s.hvector ++ pp.hlist.drop (pp.depth + 1)),
    .fr r, .g1 alpha]

theorem initM_ends {pp : PubParam G1 G2} {alpha : G1} {r : Fr} {s : SubSecretKey G1 G2}
    (h : init pp alpha r = .ok s) : Ends (initM pp alpha r) (.ok s) (rootLeft pp alpha r s) := by
  unfold init at h
  simp only [Res.bind_eq_ok] at h
  obtain ⟨h0, h1, h2⟩ := h
  cases h2
  apply Body.scope
  refine Body.letv (Body.letv (Body.letv (Body.letv (Body.lift_ok h1 (Body.letv (Body.setv ?_))))))
  exact Body.pure _ (by simp [rootLeft])

/-- the body of the last loop of `randomization` -/
def randStep (pp : PubParam G1 G2) (r : Fr) (tlen i : Nat) : SM (SubSecretKey G1 G2) Unit := do
  let tmp ← SM.lift (idx pp.hlist (tlen + i + 1))
  let tmp := mulFr r tmp
  let self ← SM.get
  let hi ← SM.lift (idx self.hvector i)
  SM.set { self with hvector := self.hvector.set i (hi + tmp) }

theorem randomizationM_ends {pf : Profile} {pp : PubParam G1 G2} (S : ParamShape pp) (r : Fr)
    {s : SubSecretKey G1 G2} {v : List Nat} (hv : NodeAt pp.depth s.time v) :
    Ends (randomizationM pf pp r s) (after (randomization pf pp r) s) [.fr r] := by
  have hd := S.depth_le
  have hn := nodeAt_isNode hv
  obtain ⟨h0, hs, hl⟩ : ∃ h0 hs, pp.hlist = h0 :: hs := by
    cases h : pp.hlist with
    | nil => have := S.hlist_len; rw [h] at this; simp at this
    | cons a l => exact ⟨a, l, rfl⟩
  have hlen : hs.length = pp.depth := by have := S.hlist_len; rw [hl] at this; simpa using this
  have hi0 : idx pp.hlist 0 = .ok h0 := by rw [hl]; rfl
  have hloop := nodeLoop_eq (pp := pp) hl hn.2 (by have := hn.1; omega)
  have hti : TimeVec.init pf s.time pp.depth = .ok (tvOf pp.depth v) := by
    rw [← nodeAt_num_eq hv]; exact init_num hd hn
  have e : after (randomization pf pp r) s =
      after ((List.range s.hvector.length).forM (randStep pp r v.length))
        { s with g2r := s.g2r + mulFr r pp.g2, hpoly := s.hpoly + mulFr r (nodePoint pp v) } := by
    unfold randomization timeVec
    simp only [after_get, after_set_bind]
    rw [hti, after_lift, Res.ok_bind, hi0, after_lift, Res.ok_bind]
    simp only [tvOf] at hloop ⊢
    rw [after_lift, hloop, Res.ok_bind]
    simp only [after_get, after_set_bind]
    rfl
  rw [e]
  apply Body.scope
  refine Body.letv (Body.letv (Body.lift_ok hti (Body.lift_ok hi0 (Body.letv (Body.lift_ok hloop
    (Body.setv (Body.zeroize (Body.zeroize ?_))))))))
  have key := foldlM_ends (G1 := G1) (G2 := G2) (f := randStep pp r v.length)
    (F := fun self i => MM.scope do
      let tmp ← SM.lift (idx pp.hlist (v.length + i + 1))
      let tmp := mulFr r tmp
      MM.letv "tmp_sec" (.g1 tmp)
      let hi ← SM.lift (idx self.hvector i)
      MM.zeroize "tmp_sec"
      pure { self with hvector := self.hvector.set i (hi + tmp) })
    (Inv := fun x => x.hvector.length = s.hvector.length)
    (List.range s.hvector.length) (by
      intro i hi x hx
      rw [List.mem_range] at hi
      have hx' : i < x.hvector.length := by omega
      unfold randStep
      rw [after_lift]
      simp only [after_get]
      rw [idx_lt hx']
      constructor
      · apply Body.scope
        refine Body.lift_bind (fun tmp _ => ?_) (fun _ => rfl)
        rw [after_lift, Res.ok_bind, after_set]
        refine Body.letv (Body.lift_ok rfl (Body.zeroize ?_))
        exact Body.pure _ (by simp)
      · intro s' h'
        rw [Res.bind_eq_ok] at h'
        obtain ⟨tmp, _, h'⟩ := h'
        rw [after_lift, Res.ok_bind, after_set] at h'
        cases h'
        simpa using hx)
    { s with g2r := s.g2r + mulFr r pp.g2, hpoly := s.hpoly + mulFr r (nodePoint pp v) } rfl
  exact key.tail (by simp)

/-- with an invalid time stamp, `randomization` returns before it clears `tmp_sec` -/
theorem randomizationM_bad {pf : Profile} {pp : PubParam G1 G2} (hd : pp.depth ≤ 63) (r : Fr)
    {s : SubSecretKey G1 G2} (hv : ¬ ValidTime pp.depth s.time) :
    ∃ e, after (randomization pf pp r) s = .err e ∧
      Ends (randomizationM pf pp r s) (.err e) [.g2 (mulFr r pp.g2), .fr r] := by
  rcases init_cases (pf := pf) (t := s.time) hd with ⟨hv1, h1⟩ | ⟨hv1, e, h1⟩
  · exact absurd hv1 hv
  · refine ⟨e, ?_, ?_⟩
    · unfold randomization timeVec
      simp only [after_get, after_set_bind]
      rw [h1]
      rfl
    · apply Body.scope
      refine Body.letv (Body.letv ?_)
      unfold timeVec
      simp only
      rw [h1]
      exact Body.lift _ (by simp)

/-- the body of the first loop of `delegate` -/
def delStep (tv : List Nat) (cur i : Nat) : SM (SubSecretKey G1 G2) Unit := do
  let self ← SM.get
  let tmp ← SM.lift (idx self.hvector i)
  let ti ← SM.lift (idx tv (i + cur))
  let tmp := if ti = 2 then tmp + tmp else tmp
  SM.set { self with hpoly := self.hpoly + tmp }

/-- the body of the second loop of `delegate` -/
def dropStep : SM (SubSecretKey G1 G2) Unit := do
  let self ← SM.get
  let hv ← SM.lift (removeFirst self.hvector)
  SM.set { self with hvector := hv }

theorem delegateM_ends (pf : Profile) (tar d : Nat) (s : SubSecretKey G1 G2) :
    Ends (delegateM pf tar d s) (after (delegate pf tar d) s) [] := by
  apply Body.scope
  unfold delegate
  rw [after_get, after_lift]
  refine Body.lift_bind (fun cv hcv => ?_) (fun _ => rfl)
  rw [after_lift]
  refine Body.lift_bind (fun tv htv => ?_) (fun _ => rfl)
  by_cases hp : (!cv.isPrefix tv) = true
  · rw [if_pos hp, if_pos hp]
    exact Body.err _ rfl
  · rw [if_neg hp, if_neg hp]
    apply Ends.toBody
    simp only
    rw [after_bind]
    refine Ends.bind_nil ?_ fun s1 hs1 => ?_
    · refine foldlM_ends (f := delStep tv.vec cv.vec.length) (Inv := fun _ => True) _ ?_ _ trivial
      intro i hi x _
      refine ⟨?_, fun _ _ => trivial⟩
      rw [List.mem_range] at hi
      have hi' : i + cv.vec.length < tv.vec.length := by omega
      apply Body.scope
      unfold delStep
      rw [after_get, after_lift]
      refine Body.lift_bind (fun tmp _ => ?_) (fun _ => rfl)
      rw [after_lift, idx_lt hi', Res.ok_bind]
      refine Body.letv (Body.lift_ok rfl (Body.setv (Body.zeroize ?_)))
      exact Body.pure _ (by simp)
    · rw [after_bind]
      refine Ends.bind_nil ?_ fun s2 hs2 => ?_
      · refine foldlM_ends (f := fun _ => dropStep) (Inv := fun _ => True) _ ?_ _ trivial
        intro i hi x _
        refine ⟨?_, fun _ _ => trivial⟩
        unfold dropStep
        rw [after_get, after_lift]
        exact Ends.bind_nil (Ends.lift _) fun a _ => Ends.pure _
      · rw [after_get]
        exact Ends.pure _

/-- what serialising a sub key leaves behind -/
theorem serializeM_ends (E : Ext G1 G2 GT) (c : Bool) (s : SubSecretKey G1 G2) :
    Ends (serializeM E c true s) (serialize E c s) [.g1s s.hvector] := by
  apply Body.scope
  refine Body.letv ?_
  unfold serialize
  by_cases h : s.time > 2 ^ 32
  · rw [if_pos h, if_pos h]
    exact Body.err _ rfl
  · rw [if_neg h, if_neg h]
    refine Body.letv ?_
    refine Body.zeroize ?_
    exact Body.pure _ (by simp)

theorem serializeM_fail (E : Ext G1 G2 GT) (c : Bool) (s : SubSecretKey G1 G2) {b : Bytes}
    (h : serialize E c s = .ok b) :
    Ends (serializeM E c false s) (.err .codec) [.bytes b, .g1s s.hvector] := by
  unfold serialize at h
  apply Body.scope
  refine Body.letv ?_
  by_cases ht : s.time > 2 ^ 32
  · rw [if_pos ht] at h; cases h
  · rw [if_neg ht] at h
    cases h
    rw [if_neg ht]
    exact Body.letv (Body.err _ (by simp))

end SubSecretKey

/-! ### secret keys -/

namespace SecretKey

/-- what `SecretKey::init` leaves behind -/
theorem initM_ends {sha : Bytes → Bytes} (h : ∀ m, (sha m).length = 64) {pp : PubParam G1 G2}
    {alpha : G1} {p : Prng} {sk : SecretKey G1 G2} (hi : init sha pp alpha p = .ok sk) :
    ∃ s, sk.ssk = [s] ∧
      Ends (initM sha pp alpha p) (.ok sk)
        (osLeft (drawVal sha p (DOM_SEP_SK_INIT ++ [0, 0, 0, 1])) ++
          (SubSecretKey.rootLeft pp alpha (drawVal sha p (DOM_SEP_SK_INIT ++ [0, 0, 0, 1])) s ++
            [.g1 alpha])) := by
  unfold init at hi
  by_cases hc : (!validCiphersuite.contains pp.ciphersuite) = true
  · rw [if_pos hc] at hi; cases hi
  · rw [if_neg hc] at hi
    simp only [sampleThenUpdate_exec h, Res.ok_bind] at hi
    rw [Res.bind_eq_ok] at hi
    obtain ⟨s, h1, h2⟩ := hi
    cases h2
    refine ⟨s, rfl, ?_⟩
    apply Body.scope
    refine Body.letv ?_
    rw [if_neg hc]
    refine Body.call_ok (Prng.sampleThenUpdateM_ends h _ _) (Body.letv ?_)
    refine Body.call_ok (SubSecretKey.initM_ends h1) (Body.zeroize ?_)
    exact Body.pure _ (by simp)

/-- what the draw number `k` of an update leaves behind -/
def drawLeft (sha : Bytes → Bytes) (p : Prng) (k : Nat) : List (Cell G1 G2) :=
  osLeft (drawVal sha (chain sha p k) DOM_SEP_SK_UPDATE) ++
    [.fr (drawVal sha (chain sha p k) DOM_SEP_SK_UPDATE)]

theorem rerandStepM_ends {sha : Bytes → Bytes} (h : ∀ m, (sha m).length = 64) {pf : Profile}
    {pp : PubParam G1 G2} (S : ParamShape pp) (p0 : Prng) (sk : SecretKey G1 G2)
    {s : SubSecretKey G1 G2} {v : List Nat} (hv : NodeAt pp.depth s.time v) :
    ∃ L, Ends (rerandStepM sha pf pp p0 sk s) (do
        let (r, prng) ← (Prng.sampleThenUpdate sha DOM_SEP_SK_UPDATE).exec sk.prng
        let newSk := { sk with prng := prng }
        assertRes (!(newSk.prng.eq p0))
        let (_, newSsk) ← (SubSecretKey.randomization pf pp r).exec s
        .ok (newSk, newSsk)) L ∧ (∀ c ∈ L, c ∈ drawLeft sha sk.prng 0) ∧
      ∀ s', after (SubSecretKey.randomization pf pp (drawVal sha sk.prng DOM_SEP_SK_UPDATE)) s =
        .ok s' → L = drawLeft sha sk.prng 0 := by
  have hr := SubSecretKey.randomizationM_ends (pf := pf) S
    (drawVal sha sk.prng DOM_SEP_SK_UPDATE) hv
  rw [sampleThenUpdate_exec h, Res.ok_bind]
  simp only
  set r := drawVal sha sk.prng DOM_SEP_SK_UPDATE with hrdef
  have hdl : (drawLeft sha sk.prng 0 : List (Cell G1 G2)) = osLeft r ++ [.fr r] := rfl
  cases ha : assertRes (!(drawNext sha sk.prng DOM_SEP_SK_UPDATE).eq p0) with
  | err e => unfold assertRes at ha; split at ha <;> cases ha
  | panic q =>
    refine ⟨osLeft r ++ [.fr r], ?_, by rw [hdl]; exact fun c hc => hc, fun _ _ => hdl.symm⟩
    rw [Res.panic_bind]
    apply Body.scope
    refine Body.call_ok (Prng.sampleThenUpdateM_ends h _ _) (Body.letv ?_)
    simp only
    rw [ha]
    exact Body.lift (.panic q) rfl
  | ok u =>
    have hbody : ∀ {y l}, Body (do
          let newSsk ← (⟨fun m => match SubSecretKey.randomizationM pf pp r s m with
            | (.err e, m') => (do zeroize "r_sec"; SM.err e : MM G1 G2 (SubSecretKey G1 G2)) m'
            | out => out⟩ : MM G1 G2 (SubSecretKey G1 G2))
          zeroize "r_sec"
          pure ({ sk with prng := drawNext sha sk.prng DOM_SEP_SK_UPDATE }, newSsk))
          [("r_sec", .fr r)] y l → Ends (rerandStepM sha pf pp p0 sk s) y (osLeft r ++ l) := by
      intro y l hb
      apply Body.scope
      refine Body.call_ok (Prng.sampleThenUpdateM_ends h _ _) (Body.letv ?_)
      exact Body.lift_ok ha hb
    rw [Res.ok_bind]
    have hx : (do
        let (_, newSsk) ← (SubSecretKey.randomization pf pp r).exec s
        .ok ({ sk with prng := drawNext sha sk.prng DOM_SEP_SK_UPDATE }, newSsk) : Res _) =
        (after (SubSecretKey.randomization pf pp r) s >>= fun newSsk =>
          .ok ({ sk with prng := drawNext sha sk.prng DOM_SEP_SK_UPDATE }, newSsk)) := by
      unfold after
      cases (SubSecretKey.randomization pf pp r).exec s <;> rfl
    rw [hx]
    cases hre : after (SubSecretKey.randomization pf pp r) s with
    | ok s' =>
      rw [hre] at hr
      refine ⟨osLeft r ++ [.fr r], hbody ⟨[], [.fr r], fun left => ?_, by simp⟩,
        by rw [hdl]; exact fun c hc => hc, fun _ _ => hdl.symm⟩
      rw [SM.bind_run]
      simp only
      rw [hr]
      rfl
    | err e =>
      rw [hre] at hr
      refine ⟨osLeft r ++ [.fr r], hbody ⟨[], [.fr r], fun left => ?_, by simp⟩,
        by rw [hdl]; exact fun c hc => hc, fun _ _ => hdl.symm⟩
      rw [SM.bind_run]
      simp only
      rw [hr]
      rfl
    | panic q =>
      rw [hre] at hr
      refine ⟨osLeft r ++ ([.fr r] ++ [.fr r]),
        hbody ⟨[("r_sec", .fr r)], [.fr r], fun left => ?_, by simp⟩, ?_, by simp⟩
      · rw [SM.bind_run]
        simp only
        rw [hr]
        rfl
      · rw [hdl]
        intro c hc
        simp only [List.mem_append, List.mem_singleton, or_self] at hc ⊢
        exact hc

theorem delegated_node {pf : Profile} {d tar : Nat} (hd : d ≤ 63) {s s' : SubSecretKey G1 G2}
    (h : after (SubSecretKey.delegate pf tar d) s = .ok s') : ∃ v, NodeAt d s'.time v := by
  rw [after_eq] at h
  rcases hx : SubSecretKey.delegate pf tar d s with ⟨r, s1⟩
  rw [hx] at h
  cases r with
  | err e => cases h
  | panic e => cases h
  | ok u =>
    cases h
    obtain ⟨v, w, _, h2, _, _, h3⟩ := (SubSecretKey.delegate_ok_iff hd).1 hx
    rw [h3]
    exact ⟨_, h2⟩

/-- what the first `n` draws of an update leave behind -/
def drawsLeft (sha : Bytes → Bytes) (p : Prng) (n : Nat) : List (Cell G1 G2) :=
  (List.range n).flatMap (drawLeft sha p)

theorem drawLeft_succ (sha : Bytes → Bytes) (p : Prng) (k : Nat) :
    (drawLeft sha (drawNext sha p DOM_SEP_SK_UPDATE) k : List (Cell G1 G2)) =
      drawLeft sha p (k + 1) := by
  unfold drawLeft
  rw [chain_succ']

theorem drawsLeft_succ (sha : Bytes → Bytes) (p : Prng) (n : Nat) :
    (drawLeft sha p 0 ++ drawsLeft sha (drawNext sha p DOM_SEP_SK_UPDATE) n :
      List (Cell G1 G2)) = drawsLeft sha p (n + 1) := by
  unfold drawsLeft
  rw [List.range_succ_eq_map, List.flatMap_cons, List.flatMap_map]
  congr 1

theorem vecInsert_length {α : Type} {l l' : List α} {i : Nat} {x : α}
    (h : vecInsert l i x = .ok l') : l'.length = l.length + 1 := by
  unfold vecInsert at h
  by_cases hi : i ≤ l.length
  · rw [if_pos hi] at h
    cases h
    simp
    omega
  · rw [if_neg hi] at h
    cases h

/-- the loop leaves the values it has drawn behind, and nothing else -/
theorem updateLoopM_ends {sha : Bytes → Bytes} (h : ∀ m, (sha m).length = 64) {pf : Profile}
    {pp : PubParam G1 G2} (S : ParamShape pp) (p0 : Prng) (l : List TimeVec) (i : Nat)
    (sk : SecretKey G1 G2) :
    ∃ n L, Ends (updateLoopM sha pf pp p0 i l sk) (updateLoop sha pf pp p0 i l sk) L ∧
      (∀ c ∈ L, c ∈ drawsLeft sha sk.prng n) ∧
      ∀ sk', updateLoop sha pf pp p0 i l sk = .ok sk' → L = drawsLeft sha sk.prng n ∧
        (sk'.ssk.length = sk.ssk.length ∧ n = 0 ∨
          sk'.ssk.length = sk.ssk.length + n + (if i = 0 then 1 else 0)) := by
  induction l generalizing i sk with
  | nil =>
    refine ⟨0, [], Ends.pure sk, by simp, ?_⟩
    intro sk' hsk
    cases hsk
    exact ⟨rfl, Or.inl ⟨rfl, rfl⟩⟩
  | cons t l ih =>
    unfold updateLoopM updateLoop
    simp only
    -- the scan
    cases hf : scanDup pf pp.depth t sk.ssk
        (List.range' (i + 1) (sk.ssk.length - (i + 1))) with
    | err e => exact ⟨0, [], Ends.err e, by simp, by simp⟩
    | panic e => exact ⟨0, [], Ends.lift (.panic e), by simp, by simp⟩
    | ok found =>
    rw [SM.lift_ok_bind, Res.ok_bind]
    cases found with
    | true =>
      refine ⟨0, [], Ends.pure sk, by simp, ?_⟩
      intro sk' hsk
      cases hsk
      exact ⟨rfl, Or.inl ⟨rfl, rfl⟩⟩
    | false =>
    simp only [Bool.false_eq_true, if_false]
    cases hx : idx sk.ssk 0 with
    | err e => exact ⟨0, [], Ends.err e, by simp, by simp⟩
    | panic e => exact ⟨0, [], Ends.lift (.panic e), by simp, by simp⟩
    | ok s =>
    rw [SM.lift_ok_bind, Res.ok_bind]
    -- the delegation
    have hdel := SubSecretKey.delegateM_ends pf t.time pp.depth s
    cases hs : (SubSecretKey.delegate pf t.time pp.depth).exec s with
    | err e =>
      have e1 : after (SubSecretKey.delegate pf t.time pp.depth) s = .err e := by
        unfold after; rw [hs]; rfl
      rw [e1] at hdel
      exact ⟨0, [], hdel.bind_err, by simp, by simp⟩
    | panic e =>
      have e1 : after (SubSecretKey.delegate pf t.time pp.depth) s = .panic e := by
        unfold after; rw [hs]; rfl
      rw [e1] at hdel
      exact ⟨0, [], hdel.bind_panic, by simp, by simp⟩
    | ok q =>
    obtain ⟨u, s1⟩ := q
    have e1 : after (SubSecretKey.delegate pf t.time pp.depth) s = .ok s1 := by
      unfold after; rw [hs]; rfl
    rw [e1] at hdel
    obtain ⟨v, hv⟩ := delegated_node S.depth_le e1
    rw [Res.ok_bind]
    simp only
    by_cases hi : i ≠ 0
    · simp only [if_pos hi]
      obtain ⟨L1, hE, hmem, hexact⟩ := rerandStepM_ends h S (pf := pf) p0 sk hv
      simp only at hE
      cases hy : (do
        let (r, prng) ← (Prng.sampleThenUpdate sha DOM_SEP_SK_UPDATE).exec sk.prng
        let newSk := { sk with prng := prng }
        assertRes (!(newSk.prng.eq p0))
        let (_, newSsk) ← (SubSecretKey.randomization pf pp r).exec s1
        .ok (newSk, newSsk) : Res (SecretKey G1 G2 × SubSecretKey G1 G2)) with
      | err e =>
        simp only at hy
        rw [hy] at hE
        exact ⟨1, L1, hdel.bind_ok hE.bind_err, by simpa [drawsLeft] using hmem, by simp⟩
      | panic e =>
        simp only at hy
        rw [hy] at hE
        exact ⟨1, L1, hdel.bind_ok hE.bind_panic, by simpa [drawsLeft] using hmem, by simp⟩
      | ok q =>
        obtain ⟨sk1, s2⟩ := q
        have hy' := hy
        simp only at hy
        rw [hy] at hE
        rw [Res.ok_bind]
        simp only
        -- what the step did
        rw [sampleThenUpdate_exec h, Res.ok_bind] at hy'
        simp only [Res.bind_eq_ok] at hy'
        obtain ⟨_, _, ⟨_, s3⟩, h3, h4⟩ := hy'
        obtain ⟨rfl, rfl⟩ := Prod.mk.inj (Res.ok.inj h4)
        simp only at hE h3 ⊢
        have hL1 : L1 = drawLeft sha sk.prng 0 := hexact s3 (by unfold after; rw [h3]; rfl)
        cases hz : vecInsert sk.ssk (i + 1) s3 with
        | err e =>
          refine ⟨1, L1 ++ [], hdel.bind_ok (hE.bind_ok ?_), by simpa [drawsLeft] using hmem,
            by simp⟩
          simp only
          rw [hz]
          exact Ends.err e
        | panic e =>
          refine ⟨1, L1 ++ [], hdel.bind_ok (hE.bind_ok ?_), by simpa [drawsLeft] using hmem,
            by simp⟩
          simp only
          rw [hz]
          exact Ends.lift (.panic e)
        | ok ssk =>
          obtain ⟨n, L, h5, h6, h7⟩ := ih (i + 1)
            { sk with ssk := ssk, prng := drawNext sha sk.prng DOM_SEP_SK_UPDATE }
          refine ⟨n + 1, L1 ++ L, hdel.bind_ok (hE.bind_ok ?_), ?_, ?_⟩
          · simp only
            rw [hz]
            exact h5
          · intro c hc
            rw [← drawsLeft_succ]
            rcases List.mem_append.1 hc with hc | hc
            · exact List.mem_append_left _ (hmem c hc)
            · exact List.mem_append_right _ (h6 c hc)
          · intro sk' hsk
            obtain ⟨h8, h9⟩ := h7 sk' hsk
            refine ⟨by rw [← drawsLeft_succ, h8, hL1], ?_⟩
            have := vecInsert_length hz
            rw [if_neg (Nat.succ_ne_zero i)] at h9
            rw [if_neg hi]
            right
            rcases h9 with ⟨h9, h10⟩ | h9 <;> simp only at h9 <;> omega
    · have hi0 : i = 0 := by omega
      simp only [if_neg hi]
      rw [Res.ok_bind]
      simp only
      cases hz : vecInsert sk.ssk (i + 1) s1 with
      | err e =>
        refine ⟨0, [], hdel.bind_ok ((Ends.pure _).bind_ok ?_), by simp, by simp⟩
        simp only
        rw [hz]
        exact Ends.err e
      | panic e =>
        refine ⟨0, [], hdel.bind_ok ((Ends.pure _).bind_ok ?_), by simp, by simp⟩
        simp only
        rw [hz]
        exact Ends.lift (.panic e)
      | ok ssk =>
        obtain ⟨n, L, h5, h6, h7⟩ := ih (i + 1) { sk with ssk := ssk }
        refine ⟨n, L, hdel.bind_ok ((Ends.pure _).bind_ok ?_), h6, ?_⟩
        · simp only
          rw [hz]
          exact h5
        · intro sk' hsk
          obtain ⟨h8, h9⟩ := h7 sk' hsk
          refine ⟨h8, ?_⟩
          have := vecInsert_length hz
          rw [if_neg (Nat.succ_ne_zero i)] at h9
          rw [if_pos hi0]
          right
          rcases h9 with ⟨h9, h10⟩ | h9 <;> simp only at h9 <;> omega

theorem dropUntil_length {t : Nat} {l A : List (SubSecretKey G1 G2)}
    (h : dropUntil t l = .ok A) : A.length ≤ l.length := by
  induction l with
  | nil => cases h
  | cons a l ih =>
    unfold dropUntil at h
    by_cases hc : a.time ≠ t
    · rw [if_pos hc] at h
      have := ih h
      simp only [List.length_cons]
      omega
    · rw [if_neg hc] at h
      cases h
      exact le_refl _

/-- an update leaves the values drawn in its loop behind, and nothing else -/
theorem updateM_ends {sha : Bytes → Bytes} (h : ∀ m, (sha m).length = 64) {pf : Profile}
    {pp : PubParam G1 G2} (S : ParamShape pp) (tar : Nat) (seed : Bytes) (sk : SecretKey G1 G2) :
    ∃ n L, Ends (updateM sha pf pp tar seed sk) (after (update sha pf pp tar seed) sk) L ∧
      (∀ c ∈ L, c ∈ drawsLeft sha
        (mixed sha sk.prng seed (DOM_SEP_SK_RERANDOMIZE_INFO ++ timeBytes sk.time)) n) ∧
      ∀ sk', update sha pf pp tar seed sk = (.ok (), sk') →
        L = drawsLeft sha
          (mixed sha sk.prng seed (DOM_SEP_SK_RERANDOMIZE_INFO ++ timeBytes sk.time)) n ∧
        ∃ A : List (SubSecretKey G1 G2), A.length ≤ sk.ssk.length ∧
          (sk'.ssk.length + 1 = A.length ∧ n = 0 ∨ sk'.ssk.length = A.length + n) := by
  generalize hP : mixed sha sk.prng seed (DOM_SEP_SK_RERANDOMIZE_INFO ++ timeBytes sk.time) = P
  suffices H : ∃ n L, Body
      (if sk.ciphersuite ≠ pp.ciphersuite then SM.err .ciphersuite
       else do
        let depth := pp.depth
        let sh ← SM.lift (shl1 pf depth)
        let maxTime ← SM.lift (sub64 pf sh 1)
        let curTime := sk.time
        if curTime ≥ tar ∨ tar > maxTime then
          SM.err .timeStamp
        else do
          let delegatorTime ← SM.lift (sk.findAncestor tar)
          let newSk := sk
          let info := DOM_SEP_SK_RERANDOMIZE_INFO ++ timeBytes curTime
          let prng ← Prng.rerandomizeM sha seed info newSk.prng
          let newSk := { newSk with prng := prng }
          let newSk := { newSk with time := delegatorTime }
          let ssk ← SM.lift (dropUntil delegatorTime newSk.ssk)
          let newSk := { newSk with ssk := ssk }
          if newSk.ssk.isEmpty then
            SM.err .sskEmpty
          else if delegatorTime = tar then
            pure newSk
          else do
            let targetTimeVec ← SM.lift (TimeVec.init pf tar depth)
            let gammaList ← SM.lift (targetTimeVec.gammaList pf depth)
            let newSk ← updateLoopM sha pf pp sk.prng 0 gammaList newSk
            let ssk ← SM.lift (removeFirst newSk.ssk)
            let newSk := { newSk with ssk := ssk }
            let first ← SM.lift (idx newSk.ssk 0)
            pure { newSk with time := first.time } : MM G1 G2 (SecretKey G1 G2)) []
      (after (update sha pf pp tar seed) sk) L ∧
      (∀ c ∈ L, c ∈ drawsLeft sha P n) ∧
      ∀ sk', after (update sha pf pp tar seed) sk = .ok sk' → L = drawsLeft sha P n ∧
        ∃ A : List (SubSecretKey G1 G2), A.length ≤ sk.ssk.length ∧
          (sk'.ssk.length + 1 = A.length ∧ n = 0 ∨ sk'.ssk.length = A.length + n) by
    obtain ⟨n, L, h1, h2, h3⟩ := H
    exact ⟨n, L, h1.scope, h2, fun sk' hsk => h3 sk' (after_ok hsk)⟩
  unfold update
  rw [after_get]
  by_cases hc : sk.ciphersuite ≠ pp.ciphersuite
  · rw [if_pos hc, if_pos hc]
    exact ⟨0, [], Body.err _ rfl, by simp, fun sk' hk => by cases hk⟩
  rw [if_neg hc, if_neg hc]
  simp only
  rw [(maxTime_eq pf S.depth_le).1, SM.lift_ok_bind, SM.lift_ok_bind,
    (maxTime_eq pf S.depth_le).2, SM.lift_ok_bind, SM.lift_ok_bind]
  by_cases ht : sk.time ≥ tar ∨ tar > 2 ^ pp.depth - 1
  · rw [if_pos ht, if_pos ht]
    exact ⟨0, [], Body.err _ rfl, by simp, fun sk' hk => by cases hk⟩
  rw [if_neg ht, if_neg ht, after_lift]
  cases hfa : sk.findAncestor tar with
  | err e => exact ⟨0, [], Body.err _ rfl, by simp, fun sk' hk => by cases hk⟩
  | panic e => exact ⟨0, [], Body.lift (.panic e) rfl, by simp, fun sk' hk => by cases hk⟩
  | ok td =>
  rw [SM.lift_ok_bind, Res.ok_bind, rerandomize_exec h, SM.lift_ok_bind]
  simp only
  rw [after_lift]
  have key : ∀ {n : Nat} {L : List (Cell G1 G2)} {g : Prng → MM G1 G2 (SecretKey G1 G2)}
      {y : Res (SecretKey G1 G2)}, Body (g P) [] y L →
      Body (Prng.rerandomizeM sha seed (DOM_SEP_SK_RERANDOMIZE_INFO ++ timeBytes sk.time) sk.prng
        >>= g) [] y L := by
    intro n L g y hb
    have := Body.call_ok (Prng.rerandomizeM_ends (G1 := G1) (G2 := G2) h seed
      (DOM_SEP_SK_RERANDOMIZE_INFO ++ timeBytes sk.time) sk.prng) (hP ▸ hb)
    simpa using this
  cases hdr : dropUntil td sk.ssk with
  | err e =>
    refine ⟨0, [], key (n := 0) ?_, by simp, fun sk' hk => by cases hk⟩
    exact Body.err _ rfl
  | panic e =>
    refine ⟨0, [], key (n := 0) ?_, by simp, fun sk' hk => by cases hk⟩
    exact Body.lift (.panic e) rfl
  | ok A =>
  rw [Res.ok_bind]
  by_cases hA : A.isEmpty = true
  · rw [if_pos hA]
    refine ⟨0, [], key (n := 0) ?_, by simp, fun sk' hk => by cases hk⟩
    simp only [SM.lift_ok_bind]
    rw [if_pos hA]
    exact Body.err _ rfl
  rw [if_neg hA]
  by_cases htt : td = tar
  · rw [if_pos htt, hP]
    refine ⟨0, [], key (n := 0) ?_, by simp, fun sk' hk => ⟨rfl, A, dropUntil_length hdr, ?_⟩⟩
    swap
    · cases hk; exact Or.inr rfl
    simp only [SM.lift_ok_bind]
    rw [if_neg hA, if_pos htt]
    exact Body.pure _ rfl
  rw [if_neg htt, after_lift, hP]
  cases hti : TimeVec.init pf tar pp.depth with
  | err e =>
    refine ⟨0, [], key (n := 0) ?_, by simp, fun sk' hk => by cases hk⟩
    simp only [SM.lift_ok_bind]
    rw [if_neg hA, if_neg htt]
    exact Body.err _ rfl
  | panic e =>
    refine ⟨0, [], key (n := 0) ?_, by simp, fun sk' hk => by cases hk⟩
    simp only [SM.lift_ok_bind]
    rw [if_neg hA, if_neg htt]
    exact Body.lift (.panic e) rfl
  | ok tv =>
  rw [Res.ok_bind, after_lift]
  cases hga : tv.gammaList pf pp.depth with
  | err e =>
    refine ⟨0, [], key (n := 0) ?_, by simp, fun sk' hk => by cases hk⟩
    simp only [SM.lift_ok_bind]
    rw [if_neg hA, if_neg htt, hga]
    exact Body.err _ rfl
  | panic e =>
    refine ⟨0, [], key (n := 0) ?_, by simp, fun sk' hk => by cases hk⟩
    simp only [SM.lift_ok_bind]
    rw [if_neg hA, if_neg htt, hga]
    exact Body.lift (.panic e) rfl
  | ok gl =>
  rw [Res.ok_bind, after_lift]
  obtain ⟨n, L, h1, h2, h3⟩ := updateLoopM_ends h S (pf := pf) sk.prng gl 0
    { sk with prng := P, time := td, ssk := A }
  simp only at h1 h2 h3
  refine ⟨n, L, key (n := 0) ?_, h2, ?_⟩
  · simp only [SM.lift_ok_bind]
    rw [if_neg hA, if_neg htt, hga, SM.lift_ok_bind, ← List.append_nil L]
    refine Body.call h1 (fun sk1 _ => ?_) (fun _ => rfl)
    rw [after_lift]
    refine Body.lift_bind (fun ssk _ => ?_) (fun _ => rfl)
    rw [after_lift]
    refine Body.lift_bind (fun s0 _ => ?_) (fun _ => rfl)
    exact Body.pure _ rfl
  · intro sk' hsk
    rw [Res.bind_eq_ok] at hsk
    obtain ⟨sk1, h4, h5⟩ := hsk
    obtain ⟨h6, h7⟩ := h3 sk1 h4
    refine ⟨h6, ?_⟩
    rw [after_lift, Res.bind_eq_ok] at h5
    obtain ⟨ssk, h8, h9⟩ := h5
    rw [after_lift, Res.bind_eq_ok] at h9
    obtain ⟨s0, h10, h11⟩ := h9
    cases h11
    have hlen : sk1.ssk.length = ssk.length + 1 := by
      unfold removeFirst at h8
      cases hss : sk1.ssk with
      | nil => rw [hss] at h8; cases h8
      | cons a b => rw [hss] at h8; cases h8; rfl
    refine ⟨A, dropUntil_length hdr, ?_⟩
    rcases h7 with ⟨h7, h8⟩ | h7
    · left
      simp only
      omega
    · right
      simp only [if_true] at h7
      simp only
      omega

/-- serialising a key leaves copies of its sub keys' vectors behind -/
theorem serLoop_body (E : Ext G1 G2 GT) (c : Bool) (l : List (SubSecretKey G1 G2)) (buf : Bytes)
    {b : Bytes} {g : Bytes → MM G1 G2 Bytes} {y : Res Bytes} {L : List (Cell G1 G2)}
    (h : serializeSsks E c l buf = .ok b) (hg : Body (g b) [("buf", .bytes b)] y L) :
    Body (l.foldlM (fun buf e => do
      let b ← e.serializeM E c true
      setv "buf" (.bytes (buf ++ b))
      pure (buf ++ b)) buf >>= g) [("buf", .bytes buf)] y
        (l.map (fun s => Cell.g1s s.hvector) ++ L) := by
  induction l generalizing buf with
  | nil =>
    cases h
    exact hg
  | cons e l ih =>
    unfold serializeSsks at h
    rw [Res.bind_eq_ok] at h
    obtain ⟨x, h1, h2⟩ := h
    have he := SubSecretKey.serializeM_ends E c e
    rw [h1] at he
    rw [List.foldlM_cons, bind_assoc, bind_assoc]
    refine Body.call_ok (l1 := [Cell.g1s e.hvector]) he ?_
    rw [bind_assoc]
    refine Body.setv ?_
    exact ih (buf ++ x) h2

theorem serializeM_ok {E : Ext G1 G2 GT} {c : Bool} {sk : SecretKey G1 G2} {b : Bytes}
    (h : serialize E c sk = .ok b) :
    Ends (serializeM E c true sk) (.ok b) (sk.ssk.map (fun s => Cell.g1s s.hvector)) ∧
    Ends (serializeM E c false sk) (.err .codec)
      (sk.ssk.map (fun s => Cell.g1s s.hvector) ++ [.bytes b]) := by
  unfold serialize at h
  by_cases hc : (!validCiphersuite.contains sk.ciphersuite) = true
  · rw [if_pos hc] at h; cases h
  rw [if_neg hc] at h
  constructor
  · apply Body.scope
    rw [if_neg hc, ← List.append_nil (List.map _ _)]
    refine Body.letv (serLoop_body E c sk.ssk _ h ?_)
    exact Body.zeroize (Body.pure _ (by simp))
  · apply Body.scope
    rw [if_neg hc]
    refine Body.letv (serLoop_body E c sk.ssk _ h ?_)
    exact Body.err _ rfl

/-- what reading a key back leaves behind -/
def readLeft (s : SubSecretKey G1 G2) : List (Cell G1 G2) := [.g1 s.hpoly, .g2 s.g2r]

theorem _root_.Pixel.SM.exec_bind {σ α β : Type} (f : SM σ α) (g : α → SM σ β) (s : σ) :
    (f >>= g).exec s = (f.exec s >>= fun p => (g p.1).exec p.2) := by
  unfold SM.exec
  rw [SM.bind_run]
  rcases f s with ⟨r, s'⟩
  cases r <;> rfl

theorem _root_.Pixel.SM.exec_lift {σ α β : Type} (x : Res α) (g : α → SM σ β) (s : σ) :
    (SM.lift x >>= g).exec s = (x >>= fun a => (g a).exec s) := by
  cases x <;> simp [SM.exec]

theorem _root_.Pixel.SubSecretKey.deserializeM_ok {E : Ext G1 G2 GT} {c : Bool} {inp out : Bytes}
    {s : SubSecretKey G1 G2} (h : (SubSecretKey.deserialize E c).exec inp = .ok (s, out)) :
    Ends (SubSecretKey.deserializeM E c inp) (.ok (s, out)) (readLeft s) := by
  unfold SubSecretKey.deserialize at h
  rw [SM.exec_bind, Res.bind_eq_ok] at h
  obtain ⟨⟨time, i1⟩, h1, h⟩ := h
  simp only at h
  by_cases ht : beNat time = 0
  · rw [if_pos ht] at h; cases h
  rw [if_neg ht, SM.exec_bind, Res.bind_eq_ok] at h
  obtain ⟨⟨n, i2⟩, h2, h⟩ := h
  rw [SM.exec_bind, Res.bind_eq_ok] at h
  obtain ⟨⟨g2r, i3⟩, h3, h⟩ := h
  rw [SM.exec_bind, Res.bind_eq_ok] at h
  obtain ⟨⟨hpoly, i4⟩, h4, h⟩ := h
  rw [SM.exec_bind, Res.bind_eq_ok] at h
  obtain ⟨⟨hv, i5⟩, h5, h⟩ := h
  cases h
  apply Body.scope
  refine Body.lift_ok h1 ?_
  simp only
  rw [if_neg ht]
  refine Body.lift_ok h2 (Body.lift_ok h3 (Body.letv (Body.lift_ok h4 (Body.letv (Body.lift_ok h5
    ?_)))))
  exact Body.pure _ rfl

theorem deserializeSsksM_ok {E : Ext G1 G2 GT} {c : Bool} {n : Nat} {inp out : Bytes}
    {l : List (SubSecretKey G1 G2)}
    (h : (readMany (SubSecretKey.deserialize E c) n).exec inp = .ok (l, out)) :
    Ends (deserializeSsksM E c n inp) (.ok (l, out)) (l.flatMap readLeft) := by
  induction n generalizing inp l with
  | zero => cases h; exact Ends.pure _
  | succ n ih =>
    unfold readMany at h
    rw [SM.exec_bind, Res.bind_eq_ok] at h
    obtain ⟨⟨s, i1⟩, h1, h⟩ := h
    rw [SM.exec_bind, Res.bind_eq_ok] at h
    obtain ⟨⟨l', i2⟩, h2, h⟩ := h
    cases h
    rw [List.flatMap_cons, ← List.append_nil (l'.flatMap _)]
    exact (SubSecretKey.deserializeM_ok h1).bind_ok ((ih h2).bind_ok (Ends.pure _))

theorem deserializeM_ok {E : Ext G1 G2 GT} {c : Bool} {inp out : Bytes} {sk : SecretKey G1 G2}
    (h : (deserialize E c).exec inp = .ok (sk, out)) :
    Ends (deserializeM E c inp) (.ok (sk, out))
      (sk.ssk.flatMap readLeft ++ [.bytes sk.prng.seed]) := by
  unfold deserialize at h
  rw [SM.exec_bind, Res.bind_eq_ok] at h
  obtain ⟨⟨cs, i1⟩, h1, h⟩ := h
  rw [SM.exec_bind, Res.bind_eq_ok] at h
  obtain ⟨⟨seed, i2⟩, h2, h⟩ := h
  rw [SM.exec_lift, Res.bind_eq_ok] at h
  obtain ⟨c0, h3, h⟩ := h
  by_cases hc : (!validCiphersuite.contains c0) = true
  · rw [if_pos hc] at h; cases h
  rw [if_neg hc, SM.exec_lift, Res.bind_eq_ok] at h
  obtain ⟨c1, h4, h⟩ := h
  by_cases hz : c1 = 0
  · rw [if_pos hz] at h; cases h
  rw [if_neg hz, SM.exec_bind, Res.bind_eq_ok] at h
  obtain ⟨⟨s, i3⟩, h5, h⟩ := h
  rw [SM.exec_bind, Res.bind_eq_ok] at h
  obtain ⟨⟨l, i4⟩, h6, h⟩ := h
  cases h
  apply Body.scope
  refine Body.lift_ok h1 (Body.letv (Body.lift_ok h2 (Body.setv (Body.lift_ok h3 ?_))))
  rw [if_neg hc]
  refine Body.lift_ok h4 ?_
  rw [if_neg hz]
  simp only
  rw [List.flatMap_cons, List.append_assoc]
  refine Body.call_ok (SubSecretKey.deserializeM_ok h5) (Body.call_ok (deserializeSsksM_ok h6) ?_)
  exact Body.lift_ok rfl (Body.pure _ (by simp))

end SecretKey

/-! ### key generation -/

theorem proofOfPossessionM_ends (E : Ext G1 G2 GT) (x : Fr) (pk : G2) (cs : UInt8) :
    Ends (proofOfPossessionM E x pk cs) (proofOfPossession E x pk cs) [.fr x] := by
  apply Body.scope
  exact Body.letv (Body.pure _ rfl)

/-- what `master_key_gen` leaves behind -/
def masterLeft (sha : Bytes → Bytes) (pp : PubParam G1 G2) (seed : Bytes) : List (Cell G1 G2) :=
  [.bytes (kgState sha seed pp.ciphersuite).seed] ++
    (osLeft (kgSecret sha seed pp.ciphersuite) ++
      ([.fr (kgSecret sha seed pp.ciphersuite)] ++
        [.g1 (mulFr (kgSecret sha seed pp.ciphersuite) pp.h),
          .fr (kgSecret sha seed pp.ciphersuite)]))

/-- what key generation leaves behind -/
theorem keygenM_ends {E : Ext G1 G2 GT} (H : HashLaws E) {pp : PubParam G1 G2} (S : ParamShape pp)
    {seed : Bytes} (h : 32 ≤ seed.length) (hc : Supported pp.ciphersuite) :
    ∃ s, SubSecretKey.init pp (mulFr (kgSecret E.sha512 seed pp.ciphersuite) pp.h)
        (drawVal E.sha512 (kgNext E.sha512 seed pp.ciphersuite) (DOM_SEP_SK_INIT ++ [0, 0, 0, 1]))
        = .ok s ∧
      Ends (keygenM E seed pp) (keygen E seed pp)
        (masterLeft E.sha512 pp seed ++
          ((osLeft (drawVal E.sha512 (kgNext E.sha512 seed pp.ciphersuite)
            (DOM_SEP_SK_INIT ++ [0, 0, 0, 1])) ++
          (SubSecretKey.rootLeft pp (mulFr (kgSecret E.sha512 seed pp.ciphersuite) pp.h)
            (drawVal E.sha512 (kgNext E.sha512 seed pp.ciphersuite)
              (DOM_SEP_SK_INIT ++ [0, 0, 0, 1])) s ++
          [.g1 (mulFr (kgSecret E.sha512 seed pp.ciphersuite) pp.h)])) ++
          [.g1 (mulFr (kgSecret E.sha512 seed pp.ciphersuite) pp.h)])) := by
  obtain ⟨s, h1, h2, h3⟩ := keygen_eq H S h hc
  refine ⟨s, h1, ?_⟩
  have hv := validCiphersuite_contains.2 hc
  have hl := H.sha_len
  -- the master key
  have hm : Ends (masterKeyGenM E seed pp)
      (.ok (mulFr (kgSecret E.sha512 seed pp.ciphersuite) pp.g2,
        mulFr (kgSecret E.sha512 seed pp.ciphersuite) pp.h,
        blsCoreSign E (kgSecret E.sha512 seed pp.ciphersuite)
            (DOM_SEP_POP ++ E.encG2 true (mulFr (kgSecret E.sha512 seed pp.ciphersuite) pp.g2))
            [pp.ciphersuite],
        kgNext E.sha512 seed pp.ciphersuite))
      (masterLeft E.sha512 pp seed) := by
    apply Body.scope
    simp only [hv, Bool.not_true, Bool.false_eq_true, if_false]
    rw [if_neg (by omega)]
    refine Body.call_ok (Prng.initM_ends hl _ _) ?_
    refine Body.call_ok (Prng.sampleThenUpdateM_ends hl _ _) ?_
    refine Body.letv (Body.call_ok (proofOfPossessionM_ends E _ _ _) (Body.letv ?_))
    exact Body.pure _ rfl
  -- the first secret key
  have hi : SecretKey.init E.sha512 pp (mulFr (kgSecret E.sha512 seed pp.ciphersuite) pp.h)
      (kgNext E.sha512 seed pp.ciphersuite) = .ok
        { ciphersuite := pp.ciphersuite, time := 1, ssk := [s]
          prng := drawNext E.sha512 (kgNext E.sha512 seed pp.ciphersuite)
            (DOM_SEP_SK_INIT ++ [0, 0, 0, 1]) } := by
    unfold SecretKey.init
    simp only [hv, Bool.not_true, Bool.false_eq_true, if_false]
    rw [sampleThenUpdate_exec hl, Res.ok_bind]
    simp only
    rw [h1]
    rfl
  obtain ⟨s', hs', hki⟩ := SecretKey.initM_ends hl hi
  have e : s' = s := by simpa using hs'.symm
  subst e
  rw [h3]
  have hpk : PublicKey.init pp (mulFr (kgSecret E.sha512 seed pp.ciphersuite) pp.g2) = .ok
      { ciphersuite := pp.ciphersuite
        pk := mulFr (kgSecret E.sha512 seed pp.ciphersuite) pp.g2 } := by
    unfold PublicKey.init
    simp only [hv, Bool.not_true, Bool.false_eq_true, if_false]
  apply Body.scope
  rw [if_neg (by omega)]
  refine Body.call_ok hm (Body.letv (Body.lift_ok hpk (Body.call_ok hki ?_)))
  exact Body.pure _ rfl

/-- key generation that is refused leaves nothing behind -/
theorem keygenM_refused {E : Ext G1 G2 GT} {pp : PubParam G1 G2} {seed : Bytes}
    (h : seed.length < 32 ∨ ¬ Supported pp.ciphersuite) :
    Ends (keygenM E seed pp) (keygen E seed pp) [] := by
  apply Body.scope
  by_cases hs : seed.length < 32
  · rw [keygen_short hs, if_pos hs]
    exact Body.err _ rfl
  · have hc : ¬ Supported pp.ciphersuite := h.resolve_left hs
    rw [keygen_suite (by omega) hc, if_neg hs]
    have : validCiphersuite.contains pp.ciphersuite = false := by
      rw [← Bool.not_eq_true, validCiphersuite_contains]; exact hc
    refine Ends.tail (l1 := []) ?_ rfl
    refine Ends.bind_err ?_
    apply Body.scope
    rw [if_neg hs]
    simp only [this, Bool.not_false, if_true]
    exact Body.err _ rfl

/-! ### signing -/

namespace Signature

/-- what a successful `sign_fr` leaves behind: the randomness `r` and the two components of the
signature -/
theorem signFrM_ok {pp : PubParam G1 G2} (pf : Profile) {sk : SecretKey G1 G2}
    {t : Nat} {M r : Fr} {sig : Signature G1 G2} (h : signFr pf sk t pp M r = .ok sig) :
    Ends (signFrM pf sk t pp M r) (.ok sig) [.g1 sig.sigma2, .g2 sig.sigma1, .fr r] := by
  unfold signFr at h
  simp only [Res.bind_eq_ok] at h
  obtain ⟨_, h1, s, h2, tv, h3, h0, h4, t3, h5, hd, h6, hl, h7, h8⟩ := h
  cases h8
  apply Body.scope
  refine Body.letv (Body.lift_ok h1 (Body.lift_ok h2 (Body.lift_ok h3 (Body.letv (Body.letv
    (Body.setv (Body.zeroize (Body.lift_ok h4 (Body.letv (Body.lift_ok h5 (Body.lift_ok h6
    (Body.setv (Body.letv ?_)))))))))))))
  rw [h7]
  refine Body.lift_ok rfl (Body.letv (Body.setv (Body.zeroize (Body.zeroize ?_))))
  exact Body.pure _ (by simp)

/-- a `sign_fr` that fails because the sub key's vector is empty leaves `hpoly` behind -/
theorem signFrM_empty {pp : PubParam G1 G2} (S : ParamShape pp) (pf : Profile)
    {sk : SecretKey G1 G2} {s : SubSecretKey G1 G2} {l : List (SubSecretKey G1 G2)}
    (hs : sk.ssk = s :: l) {v : List Nat} (hv : NodeAt pp.depth s.time v) (he : s.hvector = [])
    (M r : Fr) :
    signFr pf sk sk.time pp M r = .err .sskEmpty ∧
    Ends (signFrM pf sk sk.time pp M r) (.err .sskEmpty)
      [.g1 s.hpoly, .g2 (s.g2r + mulFr r pp.g2), .fr r] := by
  have hn := nodeAt_isNode hv
  obtain ⟨h0, hl, hhl, hlen⟩ := hlist_cons S
  have hloop := nodeLoop_eq (pp := pp) (v := v) hhl hn.2 (by have := hn.1; omega)
  have hi0 : idx pp.hlist 0 = .ok h0 := by rw [hhl]; rfl
  have hti : s.timeVec pf pp.depth = .ok (tvOf pp.depth v) := by
    unfold SubSecretKey.timeVec
    rw [← nodeAt_num_eq hv]; exact init_num S.depth_le hn
  have hf : sk.firstSsk = .ok s := by unfold SecretKey.firstSsk; rw [hs]; rfl
  have hlc : s.lastHvectorCoeff = .err .sskEmpty := by
    unfold SubSecretKey.lastHvectorCoeff; rw [he]; rfl
  have ha : assertRes (decide (sk.time = sk.time)) = .ok () := by simp
  constructor
  · unfold signFr
    rw [ha, Res.ok_bind, hf, Res.ok_bind]
    simp only [hti, Res.ok_bind, tvOf]
    rw [hi0, Res.ok_bind, hloop, Res.ok_bind, hlist_last S, Res.ok_bind, hlc]
    rfl
  · apply Body.scope
    refine Body.letv (Body.lift_ok ha (Body.lift_ok hf (Body.lift_ok hti (Body.letv (Body.letv
      (Body.setv (Body.zeroize (Body.lift_ok hi0 (Body.letv (Body.lift_ok hloop (Body.lift_ok
      (hlist_last S) (Body.setv (Body.letv ?_)))))))))))))
    rw [hlc]
    simp only [bind_assoc]
    refine Body.zeroize ?_
    exact Body.lift (.err .sskEmpty) (by simp)

/-- signing leaves the randomness and the signature behind, nothing else -/
theorem signBytesM_ok {sha : Bytes → Bytes} (h : ∀ m, (sha m).length = 64) {pp : PubParam G1 G2}
    (pf : Profile) {sk : SecretKey G1 G2} {t : Nat} {msg : Bytes}
    {sig : Signature G1 G2} (hs : signBytes sha pf sk t pp msg = .ok sig) :
    Ends (signBytesM sha pf sk t pp msg) (.ok sig)
      (osLeft (drawVal sha sk.prng (signInfo msg t)) ++
        [.g1 sig.sigma2, .g2 sig.sigma1, .fr (drawVal sha sk.prng (signInfo msg t))]) := by
  unfold signBytes at hs
  simp only at hs
  by_cases hc : (!validCiphersuite.contains pp.ciphersuite) = true
  · rw [if_pos hc] at hs; cases hs
  rw [if_neg hc] at hs
  by_cases hk : sk.ciphersuite ≠ pp.ciphersuite
  · rw [if_pos hk] at hs; cases hs
  rw [if_neg hk, Res.bind_eq_ok] at hs
  obtain ⟨u, h1, h2⟩ := hs
  rw [sample_exec h, Res.ok_bind] at h2
  simp only at h2
  rw [hashMsg_eq h, Res.ok_bind] at h2
  apply Body.scope
  simp only
  rw [if_neg hc, if_neg hk]
  refine Body.lift_ok h1 (Body.call_ok (Prng.sampleM_ends h _ _) (Body.letv (Body.lift_ok
    (hashMsg_eq h _ _) ?_)))
  have hf := signFrM_ok pf h2
  refine ⟨[], [.g1 sig.sigma2, .g2 sig.sigma1, .fr (drawVal sha sk.prng (signInfo msg t))],
    fun left => ?_, by simp⟩
  have e := hf ⟨[("r_sec", .fr (drawVal sha sk.prng (signInfo msg t)))], left⟩
  simp only [e]
  rfl

/-- The two models give the same result, whatever the input. -/
theorem signFrM_fst (pf : Profile) (sk : SecretKey G1 G2) (t : Nat) (pp : PubParam G1 G2) (M r : Fr)
    (m : Mem G1 G2) : (signFrM pf sk t pp M r m).1 = signFr pf sk t pp M r := by
  suffices H : Agrees (signFrM pf sk t pp M r) (signFr pf sk t pp M r) from H m
  refine Agrees.scope (Agrees.local ?_)
  refine Agrees.lift fun _ _ => Agrees.lift fun s _ => Agrees.lift fun tv _ => ?_
  refine Agrees.local (Agrees.local (Agrees.local (Agrees.local ?_)))
  refine Agrees.lift fun h0 _ => Agrees.local (Agrees.lift fun t3 _ => Agrees.lift fun hd _ => ?_)
  refine Agrees.local (Agrees.local ?_)
  cases hl : s.lastHvectorCoeff with
  | err e => exact fun m => rfl
  | panic e => exact fun m => rfl
  | ok x => exact fun m => rfl

theorem signBytesM_fst {sha : Bytes → Bytes} (h : ∀ m, (sha m).length = 64) (pf : Profile)
    (sk : SecretKey G1 G2) (t : Nat) (pp : PubParam G1 G2) (msg : Bytes) (m : Mem G1 G2) :
    (signBytesM sha pf sk t pp msg m).1 = signBytes sha pf sk t pp msg := by
  suffices H : Agrees (signBytesM sha pf sk t pp msg) (signBytes sha pf sk t pp msg) from H m
  refine Agrees.scope ?_
  unfold signBytes
  simp only
  by_cases hc : (!validCiphersuite.contains pp.ciphersuite) = true
  · rw [if_pos hc, if_pos hc]; exact fun m => rfl
  rw [if_neg hc, if_neg hc]
  by_cases hk : sk.ciphersuite ≠ pp.ciphersuite
  · rw [if_pos hk, if_pos hk]; exact fun m => rfl
  rw [if_neg hk, if_neg hk, sample_exec h]
  refine Agrees.lift fun _ _ => ?_
  rw [Res.ok_bind]
  refine Agrees.call (Prng.sampleM_ends h (signInfo msg t) sk.prng) ?_
  refine Agrees.local (Agrees.lift fun M _ => ?_)
  intro m
  have e := signFrM_fst pf sk t pp M (drawVal sha sk.prng (signInfo msg t)) m
  simp only
  rw [← e]
  rcases signFrM pf sk t pp M (drawVal sha sk.prng (signInfo msg t)) m with ⟨r, m'⟩
  cases r <;> rfl

end Signature

end Pixel
