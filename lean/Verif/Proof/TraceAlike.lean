import Verif.Proof.Trace

/-! # Helper lemmas: runs on keys of the same shape look alike -/

set_option linter.unusedSectionVars false

namespace Pixel.Trace

open Pixel Spec

variable {G1 G2 GT : Type} [AddCommGroup G1] [AddCommGroup G2] [CommGroup GT]

/-- what is compared: with `c` everything but the comparisons of PRNG states, without `c` all -/
def obs (c : Bool) (l : List Ev) : List Ev := if c then seen l else l

/-- with `c`: no comparison of PRNG states found them equal -/
def Clear (c : Bool) (l : List Ev) : Prop := c = true → Ev.compare 64 ∉ l

/-- same kind of outcome, related results -/
def Rel {α β : Type} (R : α → β → Prop) : Res α → Res β → Prop
  | .ok a, .ok b => R a b
  | .err e, .err e' => e = e'
  | .panic p, .panic p' => p = p'
  | _, _ => False

/-- two runs look alike -/
def Alike {α β : Type} (c : Bool) (R : α → β → Prop) (x : TR α) (y : TR β) : Prop :=
  Clear c x.trace → Clear c y.trace → obs c x.trace = obs c y.trace ∧ Rel R x.out y.out

/-- two methods on related states look alike and leave related states -/
def AlikeS {σ α β : Type} (c : Bool) (Q : σ → σ → Prop) (R : α → β → Prop) (x : TS σ α)
    (y : TS σ β) : Prop :=
  ∀ s t, Q s t → Clear c (x s).2 → Clear c (y t).2 →
    obs c (x s).2 = obs c (y t).2 ∧ Rel R (x s).1.1 (y t).1.1 ∧ Q (x s).1.2 (y t).1.2

/-- nothing in common is asked for -/
def T2 {α β : Type} (_ : α) (_ : β) : Prop := True

variable {c : Bool}

theorem obs_append (a b : List Ev) : obs c (a ++ b) = obs c a ++ obs c b := by
  unfold obs seen; split <;> simp

theorem Clear.left {a b : List Ev} (h : Clear c (a ++ b)) : Clear c a := fun hc hm =>
  h hc (List.mem_append_left _ hm)

theorem Clear.right {a b : List Ev} (h : Clear c (a ++ b)) : Clear c b := fun hc hm =>
  h hc (List.mem_append_right _ hm)

theorem Rel.refl {α : Type} {R : α → α → Prop} (h : ∀ a, R a a) (x : Res α) : Rel R x x := by
  cases x <;> simp [Rel, h]

theorem Rel.mono {α β : Type} {R S : α → β → Prop} {x : Res α} {y : Res β} (h : Rel R x y)
    (hs : ∀ a b, R a b → S a b) : Rel S x y := by
  cases x <;> cases y <;> simp_all [Rel]

section rules

variable {σ α β γ δ : Type} {R : α → β → Prop} {S : γ → δ → Prop} {Q : σ → σ → Prop}

theorem Alike.mono {R' : α → β → Prop} {x : TR α} {y : TR β} (h : Alike c R x y)
    (hs : ∀ a b, R a b → R' a b) : Alike c R' x y := fun h1 h2 =>
  ⟨(h h1 h2).1, (h h1 h2).2.mono hs⟩

theorem Alike.pure {a : α} {b : β} (h : R a b) : Alike c R (pure a) (pure b) := fun _ _ => ⟨rfl, h⟩

theorem Alike.tick (e : Ev) : Alike c T2 (TR.tick e) (TR.tick e) := fun _ _ => ⟨rfl, trivial⟩

theorem Alike.res {x : Res α} {y : Res β} (h : Rel R x y) : Alike c R (TR.res x) (TR.res y) :=
  fun _ _ => ⟨rfl, h⟩

theorem Alike.err (e : Err) : Alike c R (TR.res (.err e)) (TR.res (.err e)) :=
  Alike.res (by simp [Rel])

theorem Alike.fail (e : Err) (t : String) {l l' : List Nat} (h : l = l') :
    Alike c R (TR.fail e t l) (TR.fail e t l') := by
  subst h; exact fun _ _ => ⟨rfl, by simp [Rel, TR.fail]⟩

theorem trace_bind (x : TR α) (f : α → TR γ) :
    (x >>= f).trace = x.trace ++ (match x.out with | .ok a => (f a).trace | _ => []) := by
  change (TR.bind x f).trace = _
  unfold TR.bind
  cases x.out <;> simp

theorem Alike.bind {x : TR α} {y : TR β} {f : α → TR γ} {g : β → TR δ} (h : Alike c R x y)
    (h2 : ∀ a b, R a b → Alike c S (f a) (g b)) : Alike c S (x >>= f) (y >>= g) := by
  intro c1 c2
  rw [trace_bind] at c1 c2 ⊢
  rw [trace_bind, out_bind, out_bind]
  obtain ⟨e1, e2⟩ := h c1.left c2.left
  rw [obs_append, obs_append, e1]
  cases hx : x.out <;> cases hy : y.out <;> rw [hx, hy] at e2 <;> simp only [Rel] at e2
  · rename_i a b
    simp only [hx, hy] at c1 c2
    obtain ⟨e3, e4⟩ := h2 a b e2 c1.right c2.right
    exact ⟨by simp only [e3], e4⟩
  · subst e2; exact ⟨rfl, rfl⟩
  · subst e2; exact ⟨rfl, rfl⟩

/-- the same function twice, on public data -/
theorem Alike.same {x : TR α} : Alike c Eq x x := fun _ _ => ⟨rfl, Rel.refl (fun _ => rfl) _⟩

theorem Alike.branch {b b' : Bool} (h : b = b') : Alike c Eq (branch b) (branch b') := by
  subst h; exact Alike.same

theorem Alike.check {b b' : Bool} (h : b = b') : Alike c T2 (check b) (check b') := by
  subst h; exact Alike.same.mono (fun _ _ _ => trivial)

theorem Alike.mul {G : Type} [AddMonoid G] (r r' : Fr) (p p' : G) :
    Alike c T2 (mul r p) (mul r' p') := fun _ _ => ⟨rfl, trivial⟩

theorem Alike.add {G : Type} [Add G] (p p' q q' : G) :
    Alike c T2 (add p q) (add p' q') := fun _ _ => ⟨rfl, trivial⟩

theorem Alike.doubleIf {G : Type} [Add G] (b : Bool) (p p' : G) :
    Alike c T2 (doubleIf b p) (doubleIf b p') := by
  cases b
  · exact fun _ _ => ⟨rfl, trivial⟩
  · exact Alike.add _ _ _ _

theorem idx_rel {l : List α} {l' : List β} (h : List.Forall₂ R l l') (i : Nat) :
    Rel R (Pixel.idx l i) (Pixel.idx l' i) := by
  induction h generalizing i with
  | nil => simp [Pixel.idx, Rel]
  | cons h1 h2 ih =>
    cases i with
    | zero => simpa [Pixel.idx, Rel] using h1
    | succ i => simpa [Pixel.idx] using ih i

theorem Alike.idx {l : List α} {l' : List β} (h : List.Forall₂ R l l') (i : Nat) :
    Alike c R (idx l i) (idx l' i) :=
  Alike.bind (Alike.tick _) (fun _ _ _ => Alike.res (idx_rel h i))

theorem forall₂_T2 {l : List α} {l' : List β} (h : l.length = l'.length) :
    List.Forall₂ T2 l l' := by
  induction l generalizing l' with
  | nil => cases l' <;> simp_all
  | cons a l ih =>
    cases l' with
    | nil => simp at h
    | cons b l' => exact .cons trivial (ih (by simpa using h))

theorem removeFirst_rel {l : List α} {l' : List β} (h : List.Forall₂ R l l') :
    Rel (List.Forall₂ R) (Pixel.removeFirst l) (Pixel.removeFirst l') := by
  cases h with
  | nil => simp [Pixel.removeFirst, Rel]
  | cons h1 h2 => simpa [Pixel.removeFirst, Rel] using h2

theorem Alike.removeFirst {l : List α} {l' : List β} (h : List.Forall₂ R l l') :
    Alike c (List.Forall₂ R) (removeFirst l) (removeFirst l') := by
  unfold Trace.removeFirst
  rw [h.length_eq]
  exact Alike.bind (Alike.tick _) (fun _ _ _ => Alike.res (removeFirst_rel h))

theorem Alike.vecInsert {l : List α} {l' : List β} (h : List.Forall₂ R l l') {a : α} {b : β}
    (hab : R a b) (i : Nat) : Alike c (List.Forall₂ R) (vecInsert l i a) (vecInsert l' i b) := by
  unfold Trace.vecInsert
  rw [h.length_eq]
  refine Alike.bind (Alike.tick _) (fun _ _ _ => Alike.res ?_)
  unfold Pixel.vecInsert
  rw [h.length_eq]
  split
  · exact List.rel_append (List.forall₂_take i h) (.cons hab (List.forall₂_drop i h))
  · simp [Rel]

theorem Alike.slice {b b' : Bytes} (h : b.length = b'.length) (i j : Nat) :
    Alike c (fun x y => x.length = j - i ∧ y.length = j - i) (slice b i j) (slice b' i j) := by
  unfold Trace.slice
  rw [h]
  refine Alike.bind (Alike.tick _) (fun _ _ _ => Alike.res ?_)
  unfold Pixel.slice
  rw [h]
  split
  · simp only [Rel, List.length_take, List.length_drop]; omega
  · simp [Rel]

theorem Alike.foldlM {ι : Type} {f : α → ι → TR α} {g : β → ι → TR β} (l : List ι) {a : α} {b : β}
    (h : R a b) (hs : ∀ a b i, R a b → Alike c R (f a i) (g b i)) :
    Alike c R (l.foldlM f a) (l.foldlM g b) := by
  induction l generalizing a b with
  | nil => exact Alike.pure h
  | cons i l ih =>
    rw [List.foldlM_cons, List.foldlM_cons]
    exact Alike.bind (hs a b i h) (fun a b h => ih h)

theorem Alike.mapM {f : α → TR γ} {g : β → TR δ} {l : List α} {l' : List β}
    (h : List.Forall₂ R l l') (hs : ∀ a b, R a b → Alike c S (f a) (g b)) :
    Alike c (List.Forall₂ S) (l.mapM f) (l'.mapM g) := by
  induction h with
  | nil => exact Alike.pure .nil
  | cons h1 h2 ih =>
    rw [List.mapM_cons, List.mapM_cons]
    exact Alike.bind (hs _ _ h1) (fun a b hab => Alike.bind ih (fun _ _ hl => Alike.pure (.cons hab hl)))

/-! states -/

theorem AlikeS.pure {a : α} {b : β} (h : R a b) : AlikeS c Q R (pure a) (pure b) :=
  fun _ _ hq _ _ => ⟨rfl, h, hq⟩

theorem AlikeS.get : AlikeS c Q Q TS.get TS.get := fun _ _ hq _ _ => ⟨rfl, hq, hq⟩

theorem AlikeS.set {s t : σ} (h : Q s t) : AlikeS c Q T2 (TS.set s) (TS.set t) :=
  fun _ _ _ _ _ => ⟨rfl, trivial, h⟩

theorem AlikeS.err (e : Err) : AlikeS c Q R (TS.err e) (TS.err e) :=
  fun _ _ hq _ _ => ⟨rfl, rfl, hq⟩

theorem AlikeS.lift {x : TR α} {y : TR β} (h : Alike c R x y) :
    AlikeS c Q R (TS.lift x) (TS.lift y) := fun _ _ hq h1 h2 =>
  ⟨(h h1 h2).1, (h h1 h2).2, hq⟩

theorem run_bind (x : TS σ α) (f : α → TS σ γ) (s : σ) :
    (x >>= f) s = (match (x s).1.1 with
      | .ok a => ((f a (x s).1.2).1, (x s).2 ++ (f a (x s).1.2).2)
      | .err e => ((.err e, (x s).1.2), (x s).2)
      | .panic p => ((.panic p, (x s).1.2), (x s).2)) := by
  change TS.bind x f s = _
  unfold TS.bind
  rcases h : x s with ⟨⟨r, s'⟩, t⟩
  cases r <;> simp only [h]

theorem AlikeS.bind {x : TS σ α} {y : TS σ β} {f : α → TS σ γ} {g : β → TS σ δ}
    (h : AlikeS c Q R x y) (h2 : ∀ a b, R a b → AlikeS c Q S (f a) (g b)) :
    AlikeS c Q S (x >>= f) (y >>= g) := by
  intro s t hq c1 c2
  rw [run_bind] at c1 c2 ⊢
  rw [run_bind]
  have k1 : Clear c (x s).2 := by
    cases hx : (x s).1.1 <;> rw [hx] at c1
    · exact c1.left
    · exact c1
    · exact c1
  have k2 : Clear c (y t).2 := by
    cases hy : (y t).1.1 <;> rw [hy] at c2
    · exact c2.left
    · exact c2
    · exact c2
  obtain ⟨e1, e2, e3⟩ := h s t hq k1 k2
  cases hx : (x s).1.1 <;> cases hy : (y t).1.1 <;> rw [hx, hy] at e2 <;> simp only [Rel] at e2
  · rename_i a b
    simp only [hx, hy] at c1 c2
    obtain ⟨e4, e5, e6⟩ := h2 a b e2 _ _ e3 c1.right c2.right
    exact ⟨by simp only [obs_append, e1, e4], e5, e6⟩
  · subst e2; exact ⟨e1, rfl, e3⟩
  · subst e2; exact ⟨e1, rfl, e3⟩

theorem AlikeS.forM {ι : Type} {f g : ι → TS σ PUnit} (l : List ι)
    (hs : ∀ i, AlikeS c Q T2 (f i) (g i)) : AlikeS c Q T2 (l.forM f) (l.forM g) := by
  induction l with
  | nil => exact AlikeS.pure trivial
  | cons i l ih => exact AlikeS.bind (hs i) (fun _ _ _ => ih)

theorem AlikeS.exec {x : TS σ α} {y : TS σ β} (h : AlikeS c Q R x y) {s t : σ} (hq : Q s t) :
    Alike c (fun p q => R p.1 q.1 ∧ Q p.2 q.2) (x.exec s) (y.exec t) := by
  intro c1 c2
  obtain ⟨e1, e2, e3⟩ := h s t hq c1 c2
  refine ⟨e1, ?_⟩
  unfold TS.exec
  rcases hx : (x s).1 with ⟨r, s'⟩
  rcases hy : (y t).1 with ⟨r', t'⟩
  rw [hx, hy] at e2 e3
  cases r <;> cases r' <;> simp_all [Rel]

end rules

/-! ## `/repo/src/prng.rs` -/

/-- both of this length -/
def Len (n : Nat) (a b : Bytes) : Prop := a.length = n ∧ b.length = n

/-- both well formed -/
def PrngRel (a b : Prng) : Prop := a.WF ∧ b.WF

theorem os2ip_alike {n : Nat} (hn : n ≤ 64) {a b : Bytes} (h : Len n a b) :
    Alike c T2 (os2ipModP a) (os2ipModP b) := by
  rw [os2ipModP_of (by have := h.1; omega), os2ipModP_of (by have := h.2; omega), h.1, h.2]
  exact fun _ _ => ⟨rfl, trivial⟩

theorem copy64_rel {a b : Bytes} (h : Len 64 a b) : Rel (Len 64) (copy64 a) (copy64 b) := by
  unfold copy64
  rw [if_pos h.1, if_pos h.2]
  exact h

section prng

variable {sha : Bytes → Bytes} (hsha : ∀ m, (sha m).length = 64)
include hsha

theorem extract_alike {salt salt' ikm ikm' : Bytes} (h : salt.length = salt'.length)
    (h' : ikm.length = ikm'.length) :
    Alike c (Len 64) (extract sha salt ikm) (extract sha salt' ikm') := by
  unfold extract
  rw [h, h']
  exact Alike.bind (Alike.tick _) (fun _ _ _ => Alike.pure ⟨hmac_length hsha _ _, hmac_length hsha _ _⟩)

theorem expand128_alike {prk prk' info info' : Bytes} (h : prk.length = prk'.length)
    (h' : info.length = info'.length) :
    Alike c (Len 128) (expand sha prk info 128) (expand sha prk' info' 128) := by
  unfold expand
  rw [h, h', expandAsserted_128 hsha, expandAsserted_128 hsha]
  refine Alike.bind (Alike.tick _) (fun _ _ _ => Alike.res ?_)
  constructor <;> rw [List.length_append, okm1_length hsha, okm2_length hsha]

theorem expand64_alike {prk prk' info info' : Bytes} (h : prk.length = prk'.length)
    (h' : info.length = info'.length) :
    Alike c (Len 64) (expand sha prk info 64) (expand sha prk' info' 64) := by
  unfold expand
  rw [h, h', expandAsserted_64 hsha, expandAsserted_64 hsha]
  refine Alike.bind (Alike.tick _) (fun _ _ _ => Alike.res ?_)
  constructor <;> rw [okm1_length hsha]

theorem PrngRel.len {a b : Prng} (h : PrngRel a b) : a.seed.length = b.seed.length :=
  h.1.trans h.2.symm

theorem prngInit_alike {seed seed' salt : Bytes} (h : seed.length = seed'.length) :
    Alike c PrngRel (prngInit sha seed salt) (prngInit sha seed' salt) := by
  unfold prngInit
  refine Alike.bind (extract_alike hsha rfl h) fun a b hab => ?_
  refine Alike.bind (Alike.slice (hab.1.trans hab.2.symm) 0 64) fun a b hab => ?_
  refine Alike.bind (Alike.res (copy64_rel hab)) fun a b hab => ?_
  exact Alike.pure hab

theorem sampleThenUpdate_alike {info info' : Bytes} (h : info.length = info'.length) :
    AlikeS c PrngRel T2 (sampleThenUpdate sha info) (sampleThenUpdate sha info') := by
  unfold sampleThenUpdate
  refine AlikeS.bind AlikeS.get fun s t hst => ?_
  refine AlikeS.bind (AlikeS.lift (expand128_alike hsha (hst.1.trans hst.2.symm) h)) fun o o' ho => ?_
  refine AlikeS.bind (AlikeS.lift (Alike.slice (ho.1.trans ho.2.symm) 0 64)) fun o1 o1' h1 => ?_
  refine AlikeS.bind (AlikeS.lift (os2ip_alike le_rfl h1)) fun r r' hr => ?_
  refine AlikeS.bind (AlikeS.lift (Alike.slice (ho.1.trans ho.2.symm) 64 128)) fun o2 o2' h2 => ?_
  refine AlikeS.bind (AlikeS.lift (Alike.res (copy64_rel h2))) fun n n' hn => ?_
  exact AlikeS.bind (AlikeS.set hn) fun _ _ _ => AlikeS.pure trivial

theorem sample_alike {info info' : Bytes} (h : info.length = info'.length) :
    AlikeS c PrngRel T2 (sample sha info) (sample sha info') := by
  unfold sample
  refine AlikeS.bind AlikeS.get fun s t hst => ?_
  refine AlikeS.bind (AlikeS.lift (expand64_alike hsha (hst.1.trans hst.2.symm) h)) fun o o' ho => ?_
  exact AlikeS.lift (os2ip_alike le_rfl ho)

theorem rerandomize_alike {seed seed' info info' : Bytes} (h : seed.length = seed'.length)
    (h' : info.length = info'.length) :
    AlikeS c PrngRel T2 (rerandomize sha seed info) (rerandomize sha seed' info') := by
  unfold rerandomize
  refine AlikeS.bind AlikeS.get fun s t hst => ?_
  refine AlikeS.bind (AlikeS.lift (expand128_alike hsha (hst.1.trans hst.2.symm) h')) fun o o' ho => ?_
  refine AlikeS.bind (AlikeS.lift (Alike.slice (ho.1.trans ho.2.symm) 0 64)) fun o1 o1' h1 => ?_
  refine AlikeS.bind (AlikeS.lift (Alike.slice (ho.1.trans ho.2.symm) 64 128)) fun o2 o2' h2 => ?_
  refine AlikeS.bind (AlikeS.lift (extract_alike hsha (h2.1.trans h2.2.symm)
    (by rw [List.length_append, List.length_append, h1.1, h1.2, h]))) fun p p' hp => ?_
  refine AlikeS.bind (AlikeS.lift (Alike.slice (hp.1.trans hp.2.symm) 0 64)) fun q q' hq => ?_
  refine AlikeS.bind (AlikeS.lift (Alike.res (copy64_rel hq))) fun n n' hn => ?_
  exact AlikeS.set hn

end prng

theorem takeWhile_all {α : Type} {p : α → Bool} {l : List α} (h : l.all p = true) :
    l.takeWhile p = l := by
  induction l with
  | nil => rfl
  | cons a l ih =>
    rw [List.all_cons, Bool.and_eq_true] at h
    rw [List.takeWhile_cons_of_pos h.1, ih h.2]

/-- the comparison: with `c`, both must have found a difference -/
theorem prngEq_alike {a b a' b' : Prng} :
    Alike true (fun x y => x = false ∧ y = false) (prngEq a b) (prngEq a' b') := by
  have key : ∀ p q : Prng, Clear true (prngEq p q).trace → p.eq q = false := by
    intro p q h
    by_contra hc
    rw [Bool.not_eq_false] at hc
    apply h rfl
    change _ ∈ [Ev.compare (equalBytes p q)]
    have : equalBytes p q = 64 := by
      unfold equalBytes
      unfold Prng.eq at hc
      rw [takeWhile_all hc]
      simp
    rw [this]
    simp
  intro h1 h2
  exact ⟨rfl, key _ _ h1, key _ _ h2⟩

/-! ## `/repo/src/subkeys.rs` -/

/-- same time, vectors of the same length -/
def SskRel (a b : SubSecretKey G1 G2) : Prop :=
  a.time = b.time ∧ a.hvector.length = b.hvector.length

theorem nodeSum_alike (hlist : List G1) (tv : List Nat) (a b : G1) :
    Alike c T2 (nodeSum hlist tv a) (nodeSum hlist tv b) := by
  unfold nodeSum
  refine Alike.foldlM _ trivial fun x y i _ => ?_
  refine Alike.bind Alike.same fun p q hpq => ?_
  refine Alike.bind Alike.same fun t t' ht => ?_
  subst ht
  refine Alike.bind Alike.same fun w w' hw => ?_
  subst hw
  exact Alike.bind (Alike.doubleIf _ _ _) fun _ _ _ => Alike.add _ _ _ _

theorem sskInit_alike (pp : PubParam G1 G2) (alpha alpha' : G1) (r r' : Fr) :
    Alike c SskRel (sskInit pp alpha r) (sskInit pp alpha' r') := by
  unfold sskInit
  refine Alike.bind (Alike.mul _ _ _ _) fun _ _ _ => ?_
  refine Alike.bind Alike.same fun _ _ _ => ?_
  refine Alike.bind (Alike.mul _ _ _ _) fun _ _ _ => ?_
  refine Alike.bind (Alike.add _ _ _ _) fun _ _ _ => ?_
  refine Alike.bind (Alike.mapM (S := T2) (forall₂_T2 rfl) fun _ _ _ => Alike.mul _ _ _ _)
    fun _ _ h => ?_
  exact Alike.pure ⟨rfl, h.length_eq⟩

theorem randomization_alike (pf : Profile) (pp : PubParam G1 G2) (r r' : Fr) :
    AlikeS c SskRel T2 (randomization pf pp r) (randomization pf pp r') := by
  unfold randomization
  refine AlikeS.bind (AlikeS.lift (Alike.mul _ _ _ _)) fun _ _ _ => ?_
  refine AlikeS.bind AlikeS.get fun s t h => ?_
  refine AlikeS.bind (AlikeS.lift (Alike.add _ _ _ _)) fun _ _ _ => ?_
  refine AlikeS.bind (AlikeS.set h) fun _ _ _ => ?_
  refine AlikeS.bind AlikeS.get fun s t h => ?_
  refine AlikeS.bind (R := Eq) (AlikeS.lift (by rw [h.1]; exact Alike.same)) fun v v' hv => ?_
  subst hv
  refine AlikeS.bind (AlikeS.lift Alike.same) fun _ _ _ => ?_
  refine AlikeS.bind (AlikeS.lift (nodeSum_alike _ _ _ _)) fun _ _ _ => ?_
  refine AlikeS.bind (AlikeS.lift (Alike.mul _ _ _ _)) fun _ _ _ => ?_
  refine AlikeS.bind AlikeS.get fun s t h => ?_
  refine AlikeS.bind (AlikeS.lift (Alike.add _ _ _ _)) fun _ _ _ => ?_
  refine AlikeS.bind (AlikeS.set h) fun _ _ _ => ?_
  refine AlikeS.bind AlikeS.get fun s t h => ?_
  rw [h.2]
  refine AlikeS.forM _ fun i => ?_
  refine AlikeS.bind (AlikeS.lift Alike.same) fun _ _ _ => ?_
  refine AlikeS.bind (AlikeS.lift (Alike.mul _ _ _ _)) fun _ _ _ => ?_
  refine AlikeS.bind AlikeS.get fun s t h => ?_
  refine AlikeS.bind (AlikeS.lift (Alike.idx (forall₂_T2 h.2) i)) fun _ _ _ => ?_
  refine AlikeS.bind (AlikeS.lift (Alike.add _ _ _ _)) fun _ _ _ => ?_
  exact AlikeS.set ⟨h.1, by simpa using h.2⟩

theorem delegate_alike (pf : Profile) (tar d : Nat) :
    AlikeS c SskRel T2 (delegate pf tar d : TS (SubSecretKey G1 G2) Unit) (delegate pf tar d) := by
  unfold delegate
  refine AlikeS.bind AlikeS.get fun s t h => ?_
  refine AlikeS.bind (R := Eq) (AlikeS.lift (by rw [h.1]; exact Alike.same)) fun v v' hv => ?_
  subst hv
  refine AlikeS.bind (AlikeS.lift Alike.same) fun w w' hw => ?_
  subst hw
  refine AlikeS.bind (AlikeS.lift Alike.same) fun b b' hb => ?_
  subst hb
  split
  · exact AlikeS.lift (Alike.fail _ _ rfl)
  refine AlikeS.bind (AlikeS.forM _ fun i => ?_) fun _ _ _ => ?_
  · refine AlikeS.bind AlikeS.get fun s t h => ?_
    refine AlikeS.bind (AlikeS.lift (Alike.idx (forall₂_T2 h.2) i)) fun _ _ _ => ?_
    refine AlikeS.bind (AlikeS.lift Alike.same) fun x x' hx => ?_
    subst hx
    refine AlikeS.bind (AlikeS.lift Alike.same) fun x x' hx => ?_
    subst hx
    refine AlikeS.bind (AlikeS.lift (Alike.doubleIf _ _ _)) fun _ _ _ => ?_
    refine AlikeS.bind (AlikeS.lift (Alike.add _ _ _ _)) fun _ _ _ => ?_
    exact AlikeS.set h
  refine AlikeS.bind (AlikeS.forM _ fun i => ?_) fun _ _ _ => ?_
  · refine AlikeS.bind AlikeS.get fun s t h => ?_
    refine AlikeS.bind (AlikeS.lift (Alike.removeFirst (forall₂_T2 h.2))) fun _ _ hl => ?_
    exact AlikeS.set ⟨h.1, hl.length_eq⟩
  refine AlikeS.bind AlikeS.get fun s t h => ?_
  exact AlikeS.set ⟨rfl, h.2⟩

/-! ## `/repo/src/secret_key.rs` -/

/-- same shape -/
structure SkRel (a b : SecretKey G1 G2) : Prop where
  suite : a.ciphersuite = b.ciphersuite
  time : a.time = b.time
  ssk : List.Forall₂ SskRel a.ssk b.ssk
  prng : PrngRel a.prng b.prng

theorem skRel_iff {a b : SecretKey G1 G2} : SkRel a b ↔ SameShape a b := by
  have key : ∀ l l' : List (SubSecretKey G1 G2), List.Forall₂ SskRel l l' ↔
      l.map (fun s => (s.time, s.hvector.length)) = l'.map (fun s => (s.time, s.hvector.length)) := by
    intro l
    induction l with
    | nil => intro l'; cases l' <;> simp
    | cons s l ih => intro l'; cases l' <;> simp [SskRel, ih]
  constructor
  · intro h
    exact ⟨h.suite, h.time, (key _ _).1 h.ssk, h.prng.1, h.prng.2⟩
  · intro h
    exact ⟨h.suite, h.time, (key _ _).2 h.ssk, h.wfa, h.wfb⟩

theorem SkRel.isEmpty {l l' : List (SubSecretKey G1 G2)} (h : List.Forall₂ SskRel l l') :
    l.isEmpty = l'.isEmpty := by cases h <;> rfl

theorem findAncestor_alike {a b : SecretKey G1 G2} (h : SkRel a b) (tar : Nat) :
    Alike c Eq (findAncestor a tar) (findAncestor b tar) := by
  unfold findAncestor
  refine Alike.bind (Alike.branch (SkRel.isEmpty h.ssk)) fun x x' hx => ?_
  subst hx
  split
  · exact Alike.fail _ _ rfl
  refine Alike.bind (Alike.idx h.ssk 0) fun s t hst => ?_
  refine Alike.bind (Alike.branch (by rw [hst.1])) fun x x' hx => ?_
  subst hx
  split
  · exact Alike.fail _ _ (by rw [hst.1])
  rw [h.ssk.length_eq]
  refine Alike.bind (Alike.foldlM (R := SskRel) _ hst fun x y i hxy => ?_) fun x y hxy =>
    Alike.pure hxy.1
  refine Alike.bind (Alike.idx h.ssk _) fun s t hst => ?_
  refine Alike.bind (Alike.branch (by rw [hst.1])) fun x x' hx => ?_
  subst hx
  split
  · exact Alike.pure hst
  · exact Alike.pure hxy

theorem dropUntil_alike {l l' : List (SubSecretKey G1 G2)} (h : List.Forall₂ SskRel l l') (t : Nat) :
    Alike c (List.Forall₂ SskRel) (dropUntil t l) (dropUntil t l') := by
  induction h with
  | nil => exact Alike.bind (Alike.tick _) fun _ _ _ => Alike.res rfl
  | cons h1 h2 ih =>
    unfold dropUntil
    refine Alike.bind (Alike.tick _) fun _ _ _ => ?_
    refine Alike.bind (Alike.branch (by rw [h1.1])) fun x x' hx => ?_
    subst hx
    split
    · rw [h2.length_eq]
      exact Alike.bind (Alike.tick _) fun _ _ _ => ih
    · exact Alike.pure (.cons h1 h2)

theorem scanDup_alike (pf : Profile) (d : Nat) (v : TimeVec) {l l' : List (SubSecretKey G1 G2)}
    (h : List.Forall₂ SskRel l l') (js : List Nat) :
    Alike c Eq (scanDup pf d v l js) (scanDup pf d v l' js) := by
  induction js with
  | nil => exact Alike.pure rfl
  | cons j js ih =>
    unfold scanDup
    refine Alike.bind (Alike.idx h j) fun s t hst => ?_
    refine Alike.bind (R := Eq) (by rw [hst.1]; exact Alike.same) fun w w' hw => ?_
    subst hw
    refine Alike.bind Alike.same fun x x' hx => ?_
    subst hx
    split
    · exact Alike.pure rfl
    · exact ih

section key

variable {sha : Bytes → Bytes} (hsha : ∀ m, (sha m).length = 64)
include hsha

theorem skInit_alike (pp : PubParam G1 G2) (alpha alpha' : G1) {p p' : Prng} (h : PrngRel p p') :
    Alike c SkRel (skInit sha pp alpha p) (skInit sha pp alpha' p') := by
  unfold skInit
  refine Alike.bind Alike.same fun x x' hx => ?_
  subst hx
  split
  · exact Alike.fail _ _ rfl
  refine Alike.bind ((sampleThenUpdate_alike hsha rfl).exec h) fun ⟨r, q⟩ ⟨r', q'⟩ hq => ?_
  refine Alike.bind (sskInit_alike _ _ _ _ _) fun s t hst => ?_
  exact Alike.pure ⟨rfl, rfl, .cons hst .nil, hq.2⟩

theorem rerandStep_alike (pf : Profile) (pp : PubParam G1 G2) {p p' : Prng} {a b : SecretKey G1 G2}
    (h : SkRel a b) {s t : SubSecretKey G1 G2} (hst : SskRel s t) :
    Alike true (fun x y => SkRel x.1 y.1 ∧ SskRel x.2 y.2) (rerandStep sha pf pp p a s)
      (rerandStep sha pf pp p' b t) := by
  unfold rerandStep
  refine Alike.bind ((sampleThenUpdate_alike hsha rfl).exec h.prng) fun ⟨r, q⟩ ⟨r', q'⟩ hq => ?_
  refine Alike.bind prngEq_alike fun x y hxy => ?_
  obtain ⟨rfl, rfl⟩ := hxy
  refine Alike.bind (Alike.res (R := T2) trivial) fun _ _ _ => ?_
  refine Alike.bind ((randomization_alike pf pp r r').exec hst) fun ⟨_, s⟩ ⟨_, t⟩ hs => ?_
  exact Alike.pure ⟨⟨h.suite, h.time, h.ssk, hq.2⟩, hs.2⟩

theorem updateLoop_alike (pf : Profile) (pp : PubParam G1 G2) {p p' : Prng} (i : Nat)
    (l : List TimeVec) {a b : SecretKey G1 G2} (h : SkRel a b) :
    Alike true SkRel (updateLoop sha pf pp p i l a) (updateLoop sha pf pp p' i l b) := by
  induction l generalizing i a b with
  | nil => exact Alike.pure h
  | cons v l ih =>
    unfold updateLoop
    refine Alike.bind (R := Eq) (by rw [h.ssk.length_eq]; exact scanDup_alike pf _ v h.ssk _)
      fun x x' hx => ?_
    subst hx
    split
    · exact Alike.pure h
    refine Alike.bind (Alike.idx h.ssk 0) fun s t hst => ?_
    refine Alike.bind ((delegate_alike pf _ _).exec hst) fun ⟨_, s⟩ ⟨_, t⟩ hs => ?_
    refine Alike.bind Alike.same fun x x' hx => ?_
    subst hx
    refine Alike.bind (R := fun x y => SkRel x.1 y.1 ∧ SskRel x.2 y.2) ?_
      fun ⟨a, s⟩ ⟨b, t⟩ hab => ?_
    · split
      · exact rerandStep_alike hsha pf pp h hs.2
      · exact Alike.pure ⟨h, hs.2⟩
    refine Alike.bind (Alike.vecInsert hab.1.ssk hab.2 _) fun m m' hm => ?_
    exact ih _ ⟨hab.1.suite, hab.1.time, hm, hab.1.prng⟩

theorem update_alike (pf : Profile) (pp : PubParam G1 G2) (tar : Nat) {seed seed' : Bytes}
    (hs : seed.length = seed'.length) :
    AlikeS true SkRel T2 (update sha pf pp tar seed) (update sha pf pp tar seed') := by
  unfold update
  refine AlikeS.bind AlikeS.get fun a b h => ?_
  refine AlikeS.bind (AlikeS.lift (Alike.branch (by rw [h.suite]))) fun x x' hx => ?_
  subst hx
  split
  · exact AlikeS.err _
  refine AlikeS.bind (AlikeS.lift Alike.same) fun x x' hx => ?_
  subst hx
  refine AlikeS.bind (AlikeS.lift Alike.same) fun x x' hx => ?_
  subst hx
  refine AlikeS.bind (AlikeS.lift (Alike.branch (by rw [h.time]))) fun x x' hx => ?_
  subst hx
  split
  · exact AlikeS.lift (Alike.fail _ _ rfl)
  refine AlikeS.bind (AlikeS.lift (findAncestor_alike h tar)) fun x x' hx => ?_
  subst hx
  refine AlikeS.bind (AlikeS.lift ((rerandomize_alike hsha hs (by simp [timeBytes])).exec h.prng))
    fun ⟨_, q⟩ ⟨_, q'⟩ hq => ?_
  refine AlikeS.bind (AlikeS.lift (dropUntil_alike h.ssk _)) fun l l' hl => ?_
  refine AlikeS.bind (AlikeS.lift (Alike.branch (SkRel.isEmpty hl))) fun x x' hx => ?_
  subst hx
  split
  · exact AlikeS.lift (Alike.fail _ _ rfl)
  refine AlikeS.bind (AlikeS.lift Alike.same) fun x x' hx => ?_
  subst hx
  split
  · exact AlikeS.bind (AlikeS.set ⟨h.suite, rfl, hl, hq.2⟩) fun _ _ _ => AlikeS.pure trivial
  refine AlikeS.bind (AlikeS.lift Alike.same) fun x x' hx => ?_
  subst hx
  refine AlikeS.bind (AlikeS.lift Alike.same) fun x x' hx => ?_
  subst hx
  refine AlikeS.bind (AlikeS.lift (updateLoop_alike hsha pf pp 0 _ ⟨h.suite, rfl, hl, hq.2⟩))
    fun a b h => ?_
  refine AlikeS.bind (AlikeS.lift (Alike.removeFirst h.ssk)) fun l l' hl => ?_
  refine AlikeS.bind (AlikeS.lift (Alike.idx hl 0)) fun s t hst => ?_
  exact AlikeS.bind (AlikeS.set ⟨h.suite, hst.1, hl, h.prng⟩) fun _ _ _ => AlikeS.pure trivial

/-! ## `/repo/src/sig.rs` -/

theorem signFr_alike (pf : Profile) {a b : SecretKey G1 G2} (h : SkRel a b) (tar : Nat)
    (pp : PubParam G1 G2) (m m' r r' : Fr) :
    Alike c T2 (signFr pf a tar pp m r) (signFr pf b tar pp m' r') := by
  unfold signFr firstSsk
  refine Alike.bind (Alike.check (by rw [h.time])) fun _ _ _ => ?_
  refine Alike.bind (R := SskRel) ?_ fun s t hst => ?_
  · refine Alike.bind (Alike.branch (SkRel.isEmpty h.ssk)) fun x x' hx => ?_
    subst hx
    split
    · exact Alike.fail _ _ rfl
    · exact Alike.idx h.ssk 0
  refine Alike.bind (R := Eq) (by rw [hst.1]; exact Alike.same) fun v v' hv => ?_
  subst hv
  refine Alike.bind (Alike.mul _ _ _ _) fun _ _ _ => ?_
  refine Alike.bind (Alike.add _ _ _ _) fun _ _ _ => ?_
  refine Alike.bind Alike.same fun _ _ _ => ?_
  refine Alike.bind (nodeSum_alike _ _ _ _) fun _ _ _ => ?_
  refine Alike.bind Alike.same fun _ _ _ => ?_
  refine Alike.bind (Alike.mul _ _ _ _) fun _ _ _ => ?_
  refine Alike.bind (Alike.add _ _ _ _) fun _ _ _ => ?_
  refine Alike.bind (Alike.mul _ _ _ _) fun _ _ _ => ?_
  refine Alike.bind (R := T2) ?_ fun _ _ _ => ?_
  · unfold lastHvectorCoeff
    refine Alike.bind (Alike.branch (b' := t.hvector.isEmpty) ?_) fun x x' hx => ?_
    · have := hst.2
      cases h1 : s.hvector <;> cases h2 : t.hvector <;> simp_all
    subst hx
    split
    · exact Alike.err _
    · rw [hst.2]; exact Alike.idx (forall₂_T2 hst.2) _
  refine Alike.bind (Alike.mul _ _ _ _) fun _ _ _ => ?_
  refine Alike.bind (Alike.add _ _ _ _) fun _ _ _ => ?_
  refine Alike.bind (Alike.add _ _ _ _) fun _ _ _ => ?_
  exact Alike.pure trivial

theorem signBytes_alike (pf : Profile) {a b : SecretKey G1 G2} (h : SkRel a b) (tar : Nat)
    (pp : PubParam G1 G2) {m m' : Bytes} (hm : m.length = m'.length) :
    Alike c T2 (signBytes sha pf a tar pp m) (signBytes sha pf b tar pp m') := by
  unfold signBytes
  refine Alike.bind Alike.same fun x x' hx => ?_
  subst hx
  split
  · exact Alike.fail _ _ rfl
  refine Alike.bind (Alike.branch (by rw [h.suite])) fun x x' hx => ?_
  subst hx
  split
  · exact Alike.fail _ _ (by rw [h.suite])
  refine Alike.bind (Alike.check (by rw [h.time])) fun _ _ _ => ?_
  refine Alike.bind ((sample_alike hsha (by simp [signInfo, timeBytes, hm])).exec h.prng)
    fun ⟨r, _⟩ ⟨r', _⟩ _ => ?_
  refine Alike.bind (R := T2) ?_ fun _ _ _ => ?_
  · simp only [List.length_append, hm]
    exact Alike.tick _
  refine Alike.bind (os2ip_alike le_rfl ⟨hsha _, hsha _⟩) fun _ _ _ => ?_
  exact signFr_alike hsha pf h tar pp _ _ _ _

theorem sign_alike (pf : Profile) (tar : Nat) (pp : PubParam G1 G2) {m m' seed seed' : Bytes}
    (hm : m.length = m'.length) (hs : seed.length = seed'.length) :
    AlikeS true SkRel T2 (sign sha pf tar pp m seed) (sign sha pf tar pp m' seed') := by
  unfold sign
  refine AlikeS.bind AlikeS.get fun a b h => ?_
  refine AlikeS.bind (AlikeS.lift (Alike.branch (by rw [h.time]))) fun x x' hx => ?_
  subst hx
  split
  · exact AlikeS.lift (Alike.fail _ _ (by rw [h.time]))
  refine AlikeS.bind (AlikeS.lift (Alike.branch (by rw [h.time]))) fun x x' hx => ?_
  subst hx
  have fin : ∀ _ _ : Unit, T2 () () → AlikeS true SkRel T2
      (TS.get >>= fun sk => TS.lift (signBytes sha pf sk tar pp m))
      (TS.get >>= fun sk => TS.lift (signBytes sha pf sk tar pp m')) := fun _ _ _ =>
    AlikeS.bind AlikeS.get fun a b h => AlikeS.lift (signBytes_alike hsha pf h tar pp hm)
  split
  · exact AlikeS.bind (update_alike hsha pf pp tar hs) fin
  · exact fin () () trivial

theorem signPresent_alike (pf : Profile) (tar : Nat) (pp : PubParam G1 G2) {m m' : Bytes}
    (hm : m.length = m'.length) :
    AlikeS c SkRel T2 (signPresent sha pf tar pp m) (signPresent sha pf tar pp m') := by
  unfold signPresent
  refine AlikeS.bind AlikeS.get fun a b h => ?_
  refine AlikeS.bind (AlikeS.lift (Alike.branch (by rw [h.time]))) fun x x' hx => ?_
  subst hx
  split
  · exact AlikeS.lift (Alike.fail _ _ (by rw [h.time]))
  · exact AlikeS.lift (signBytes_alike hsha pf h tar pp hm)

theorem signThenUpdate_alike (pf : Profile) (tar : Nat) (pp : PubParam G1 G2)
    {m m' seed seed' : Bytes} (hm : m.length = m'.length) (hs : seed.length = seed'.length) :
    AlikeS true SkRel T2 (signThenUpdate sha pf tar pp m seed)
      (signThenUpdate sha pf tar pp m' seed') := by
  unfold signThenUpdate
  refine AlikeS.bind AlikeS.get fun a b h => ?_
  refine AlikeS.bind (AlikeS.lift (Alike.branch (by rw [h.time]))) fun x x' hx => ?_
  subst hx
  split
  · exact AlikeS.lift (Alike.fail _ _ (by rw [h.time]))
  refine AlikeS.bind (AlikeS.lift (signBytes_alike hsha pf h tar pp hm)) fun _ _ _ => ?_
  refine AlikeS.bind (AlikeS.lift Alike.same) fun x x' hx => ?_
  subst hx
  exact AlikeS.bind (update_alike hsha pf pp _ hs) fun _ _ _ => AlikeS.pure trivial

end key

/-! ## `/repo/src/key_pair.rs` -/

theorem masterKeyGen_alike {E : Ext G1 G2 GT} (hsha : ∀ m, (E.sha512 m).length = 64)
    (henc : ∀ a b : G2, (E.encG2 true a).length = (E.encG2 true b).length) (pp : PubParam G1 G2)
    {seed seed' : Bytes} (hs : seed.length = seed'.length) :
    Alike c (fun x y => PrngRel x.2.2.2 y.2.2.2) (masterKeyGen E seed pp)
      (masterKeyGen E seed' pp) := by
  unfold masterKeyGen
  refine Alike.bind (Alike.branch (by rw [hs])) fun x x' hx => ?_
  subst hx
  split
  · exact Alike.fail _ _ (by rw [hs])
  refine Alike.bind Alike.same fun x x' hx => ?_
  subst hx
  split
  · exact Alike.fail _ _ rfl
  refine Alike.bind (prngInit_alike hsha hs) fun p p' hp => ?_
  refine Alike.bind ((sampleThenUpdate_alike hsha rfl).exec hp) fun ⟨r, q⟩ ⟨r', q'⟩ hq => ?_
  refine Alike.bind (Alike.mul _ _ _ _) fun pk pk' _ => ?_
  refine Alike.bind (R := T2) ?_ fun _ _ _ => ?_
  · simp only [List.length_append, henc pk pk']
    exact Alike.tick _
  refine Alike.bind (Alike.mul _ _ _ _) fun _ _ _ => ?_
  refine Alike.bind (Alike.mul _ _ _ _) fun _ _ _ => ?_
  exact Alike.pure hq.2

theorem keygen_alike {E : Ext G1 G2 GT} (hsha : ∀ m, (E.sha512 m).length = 64)
    (henc : ∀ a b : G2, (E.encG2 true a).length = (E.encG2 true b).length) (pp : PubParam G1 G2)
    {seed seed' : Bytes} (hs : seed.length = seed'.length) :
    Alike c (fun x y => SkRel x.2.1 y.2.1) (keygen E seed pp) (keygen E seed' pp) := by
  unfold keygen
  refine Alike.bind (Alike.branch (by rw [hs])) fun x x' hx => ?_
  subst hx
  split
  · exact Alike.fail _ _ (by rw [hs])
  refine Alike.bind (masterKeyGen_alike hsha henc pp hs) fun ⟨_, _, _, p⟩ ⟨_, _, _, p'⟩ hp => ?_
  refine Alike.bind Alike.same fun x x' hx => ?_
  subst hx
  split
  · exact Alike.fail _ _ rfl
  refine Alike.bind (skInit_alike hsha pp _ _ hp) fun _ _ h => ?_
  exact Alike.pure h

/-! ## `/repo/src/serdes.rs` -/

/-- equal lengths -/
def EqLen (a b : Bytes) : Prop := a.length = b.length

theorem flatten_len {l l' : List Bytes} (h : List.Forall₂ EqLen l l') :
    l.flatten.length = l'.flatten.length := by
  induction h with
  | nil => rfl
  | cons h1 _ ih => simp only [List.flatten_cons, List.length_append, ih]; rw [h1]

section serdes

variable {E : Ext G1 G2 GT} {cm : Bool}
  (h1 : ∀ a b : G1, (E.encG1 cm a).length = (E.encG1 cm b).length)
  (h2 : ∀ a b : G2, (E.encG2 cm a).length = (E.encG2 cm b).length)
include h1 h2

theorem sskSerialize_alike {s t : SubSecretKey G1 G2} (h : SskRel s t) :
    Alike c EqLen (sskSerialize E cm s) (sskSerialize E cm t) := by
  unfold sskSerialize
  refine Alike.bind (Alike.branch (by rw [h.1])) fun x x' hx => ?_
  subst hx
  split
  · exact Alike.err _
  refine Alike.bind (Alike.tick _) fun _ _ _ => ?_
  refine Alike.bind (Alike.tick _) fun _ _ _ => ?_
  refine Alike.bind (Alike.mapM (S := EqLen) (forall₂_T2 h.2) fun a b _ =>
    Alike.bind (Alike.tick _) fun _ _ _ => Alike.pure (h1 a b)) fun l l' hl => ?_
  have e : EqLen (timeBytes s.time ++ [UInt8.ofNat s.hvector.length] ++ E.encG2 cm s.g2r
      ++ E.encG1 cm s.hpoly ++ l.flatten) (timeBytes t.time ++ [UInt8.ofNat t.hvector.length] ++
      E.encG2 cm t.g2r ++ E.encG1 cm t.hpoly ++ l'.flatten) := by
    simp only [EqLen, List.length_append, flatten_len hl, h1 s.hpoly t.hpoly, h2 s.g2r t.g2r,
      timeBytes, List.length_cons]
  refine Alike.bind (R := T2) ?_ fun _ _ _ => Alike.pure e
  rw [e]
  exact Alike.tick _

theorem serializeSsks_alike {l l' : List (SubSecretKey G1 G2)} (h : List.Forall₂ SskRel l l')
    {b b' : Bytes} (hb : EqLen b b') :
    Alike c EqLen (serializeSsks E cm l b) (serializeSsks E cm l' b') := by
  induction h generalizing b b' with
  | nil => exact Alike.pure hb
  | cons h3 _ ih =>
    unfold serializeSsks
    refine Alike.bind (sskSerialize_alike h1 h2 h3) fun x y hxy => ih ?_
    simp only [EqLen, List.length_append]
    rw [hb, hxy]

theorem skSerialize_alike {a b : SecretKey G1 G2} (h : SkRel a b) :
    Alike c EqLen (skSerialize E cm a) (skSerialize E cm b) := by
  unfold skSerialize
  refine Alike.bind (Alike.branch (by rw [h.suite])) fun x x' hx => ?_
  subst hx
  split
  · exact Alike.err _
  refine Alike.bind (serializeSsks_alike h1 h2 h.ssk ?_) fun x y hxy => ?_
  · simp only [EqLen, List.length_append, List.length_cons, List.length_nil]
    rw [h.prng.1, h.prng.2]
  refine Alike.bind (R := T2) ?_ fun _ _ _ => Alike.pure hxy
  rw [hxy]
  exact Alike.tick _

end serdes

/-! ## requests -/

theorem request_alike {sha : Bytes → Bytes} (hsha : ∀ m, (sha m).length = 64) (pf : Profile)
    (pp : PubParam G1 G2) {r r' : Request} (hr : SameRequest r r') {a b : SecretKey G1 G2}
    (h : SkRel a b) (c1 : Clear true (r.run sha pf pp a).2) (c2 : Clear true (r'.run sha pf pp b).2) :
    seen (r.run sha pf pp a).2 = seen (r'.run sha pf pp b).2 ∧
      (r.run sha pf pp a).1.1 = (r'.run sha pf pp b).1.1 ∧
      SkRel (r.run sha pf pp a).1.2 (r'.run sha pf pp b).1.2 := by
  have fin : ∀ {x y : TS (SecretKey G1 G2) Unit}, AlikeS true SkRel T2 x y →
      Clear true (x a).2 → Clear true (y b).2 → seen (x a).2 = seen (y b).2 ∧
        (x a).1.1 = (y b).1.1 ∧ SkRel (x a).1.2 (y b).1.2 := by
    intro x y hxy c1 c2
    obtain ⟨e1, e2, e3⟩ := hxy a b h c1 c2
    refine ⟨e1, ?_, e3⟩
    cases hx : (x a).1.1 <;> cases hy : (y b).1.1 <;> rw [hx, hy] at e2 <;> simp_all [Rel]
  cases hr with
  | update hs => exact fin (update_alike hsha pf pp _ hs) c1 c2
  | sign hm hs =>
    exact fin (AlikeS.bind (sign_alike hsha pf _ pp hm hs) fun _ _ _ => AlikeS.pure trivial) c1 c2
  | signPresent hm =>
    exact fin (AlikeS.bind (signPresent_alike hsha pf _ pp hm) fun _ _ _ => AlikeS.pure trivial) c1 c2
  | signThenUpdate hm hs =>
    exact fin (AlikeS.bind (signThenUpdate_alike hsha pf _ pp hm hs) fun _ _ _ =>
      AlikeS.pure trivial) c1 c2

theorem seen_append (a b : List Ev) : seen (a ++ b) = seen a ++ seen b := by simp [seen]

theorem serve_alike {sha : Bytes → Bytes} (hsha : ∀ m, (sha m).length = 64) (pf : Profile)
    (pp : PubParam G1 G2) {rs rs' : List Request} (hr : List.Forall₂ SameRequest rs rs')
    {a b : SecretKey G1 G2} (h : SkRel a b) (c1 : Clear true (serve sha pf pp rs a).2.2)
    (c2 : Clear true (serve sha pf pp rs' b).2.2) :
    seen (serve sha pf pp rs a).2.2 = seen (serve sha pf pp rs' b).2.2 ∧
      (serve sha pf pp rs a).1 = (serve sha pf pp rs' b).1 ∧
      SkRel (serve sha pf pp rs a).2.1 (serve sha pf pp rs' b).2.1 := by
  induction hr generalizing a b with
  | nil => exact ⟨rfl, rfl, h⟩
  | @cons r r' rs rs' hr _ ih =>
    unfold serve at c1 c2 ⊢
    have key := request_alike hsha pf pp hr h
    rcases hx : r.run sha pf pp a with ⟨⟨x, a'⟩, l⟩
    rcases hy : r'.run sha pf pp b with ⟨⟨y, b'⟩, l'⟩
    rw [hx, hy] at key
    rw [hx] at c1
    rw [hy] at c2
    have k1 : Clear true l := by
      cases x
      · exact c1.left
      · exact c1.left
      · exact c1
    have k2 : Clear true l' := by
      cases y
      · exact c2.left
      · exact c2.left
      · exact c2
    obtain ⟨e1, e2, e3⟩ := key k1 k2
    simp only at e1 e2 e3
    subst e2
    cases x with
    | panic p => exact ⟨e1, rfl, e3⟩
    | ok u =>
      obtain ⟨f1, f2, f3⟩ := ih e3 c1.right c2.right
      exact ⟨by simp only [seen_append, e1, f1], by simp only [f2], f3⟩
    | err e =>
      obtain ⟨f1, f2, f3⟩ := ih e3 c1.right c2.right
      exact ⟨by simp only [seen_append, e1, f1], by simp only [f2], f3⟩

/-! ## entries that end a run -/

/-- the run ended with a panic or with an error -/
def Stopped {α : Type} (k : Bool) (x : Res α) : Prop := (if k then x.isPanic else x.isErr) = true

/-- entries of the kind `bad` are followed by a panic (`k`) or an error (`!k`) -/
class Ends (bad : Ev → Prop) (k : Bool) : Prop where
  branch : ∀ b, ¬ bad (.branch b)
  index : ∀ i, ¬ bad (.index i)
  call : ∀ f l, ¬ bad (.call f l)
  print : ∀ t l, bad (.print t l) → k = false
  compare : ∀ n, bad (.compare n) → n = 64 ∧ k = true

/-- two PRNG states found equal: the assertion fails -/
instance endsCompare : Ends (fun e => e = .compare 64) true :=
  ⟨by simp, by simp, by simp, by simp, fun n h => ⟨by simpa using h, rfl⟩⟩

/-- something was printed: an error is returned -/
instance endsPrint : Ends (fun e => ∃ t l, e = .print t l) false :=
  ⟨by simp, by simp, by simp, by simp, by simp⟩

/-- after a bad entry the run ended -/
def Safe {α : Type} (bad : Ev → Prop) (k : Bool) (x : TR α) : Prop :=
  ∀ e ∈ x.trace, bad e → Stopped k x.out

/-- the same for methods -/
def SafeS {σ α : Type} (bad : Ev → Prop) (k : Bool) (x : TS σ α) : Prop :=
  ∀ s, ∀ e ∈ (x s).2, bad e → Stopped k (x s).1.1

section safe

variable {σ α β : Type} {bad : Ev → Prop} {k : Bool}

theorem Safe.of {x : TR α} (h : ∀ e ∈ x.trace, ¬ bad e) : Safe bad k x := fun e h' hb =>
  absurd hb (h e h')

theorem Safe.bind {x : TR α} {f : α → TR β} (h : Safe bad k x) (h2 : ∀ a, Safe bad k (f a)) :
    Safe bad k (x >>= f) := by
  unfold Safe at *
  intro e
  rw [trace_bind, out_bind, List.mem_append]
  have h := h e
  cases hx : x.out with
  | ok a =>
    rw [hx] at h
    rintro (h' | h') hb
    · exact absurd (h h' hb) (by cases k <;> simp [Stopped])
    · exact h2 a e h' hb
  | err e =>
    rw [hx] at h
    rintro (h' | h') hb
    · exact h h' hb
    · simp at h'
  | panic p =>
    rw [hx] at h
    rintro (h' | h') hb
    · exact h h' hb
    · simp at h'

theorem Safe.pure (a : α) : Safe bad k (pure a : TR α) := Safe.of (by simp [Pure.pure])
theorem Safe.res (a : Res α) : Safe bad k (TR.res a) := Safe.of (by simp [TR.res])
theorem Safe.tick [E : Ends bad k] {e : Ev} (h : match e with
    | .print _ _ => False | .compare _ => False | _ => True) : Safe bad k (TR.tick e) := by
  refine Safe.of fun e' he => ?_
  obtain rfl : e' = e := by simpa [TR.tick] using he
  cases e'
  · exact E.branch _
  · exact E.index _
  · exact E.call _ _
  · exact h.elim
  · exact h.elim

theorem Safe.foldlM {f : β → α → TR β} (h : ∀ b a, Safe bad k (f b a)) (l : List α) (b : β) :
    Safe bad k (l.foldlM f b) := by
  induction l generalizing b with
  | nil => exact Safe.pure _
  | cons a l ih => rw [List.foldlM_cons]; exact Safe.bind (h b a) fun b => ih b

theorem Safe.mapM {f : α → TR β} (h : ∀ a, Safe bad k (f a)) (l : List α) : Safe bad k (l.mapM f) := by
  induction l with
  | nil => exact Safe.pure _
  | cons a l ih =>
    rw [List.mapM_cons]
    exact Safe.bind (h a) fun b => Safe.bind ih fun _ => Safe.pure _

theorem Safe.fail [E : Ends bad k] (e : Err) (t : String) (l : List Nat) :
    Safe bad k (TR.fail e t l : TR α) := by
  intro e' he hb
  obtain rfl : e' = .print t l := by simpa [TR.fail] using he
  rw [E.print _ _ hb]
  rfl

theorem Safe.sayErr [Ends bad k] (t : String) (x : Res α) : Safe bad k (sayErr t x) := by
  cases x
  · exact Safe.pure _
  · exact Safe.fail _ _ _
  · exact Safe.res _

theorem SafeS.bind {x : TS σ α} {f : α → TS σ β} (h : SafeS bad k x) (h2 : ∀ a, SafeS bad k (f a)) :
    SafeS bad k (x >>= f) := by
  intro s e
  have h := h s e
  rw [run_bind]
  cases hx : (x s).1.1 with
  | ok a =>
    rw [hx] at h
    rw [List.mem_append]
    rintro (h' | h') hb
    · exact absurd (h h' hb) (by cases k <;> simp [Stopped])
    · exact h2 a _ e h' hb
  | err e' =>
    rw [hx] at h
    exact h
  | panic p =>
    rw [hx] at h
    exact h

theorem SafeS.pure (a : α) : SafeS bad k (pure a : TS σ α) := fun s e h => by simp [Pure.pure] at h
theorem SafeS.get : SafeS bad k (TS.get : TS σ σ) := fun s e h => by simp [TS.get] at h
theorem SafeS.set (a : σ) : SafeS bad k (TS.set a) := fun s e h => by simp [TS.set] at h
theorem SafeS.err (e : Err) : SafeS bad k (TS.err e : TS σ α) := fun s e' h => by simp [TS.err] at h
theorem SafeS.lift {x : TR α} (h : Safe bad k x) : SafeS bad k (TS.lift x : TS σ α) :=
  fun _ e h' => h e h'

theorem SafeS.forM {f : α → TS σ PUnit} (h : ∀ a, SafeS bad k (f a)) (l : List α) :
    SafeS bad k (l.forM f) := by
  induction l with
  | nil => exact SafeS.pure _
  | cons a l ih => exact SafeS.bind (h a) fun _ => ih

theorem SafeS.exec {x : TS σ α} (h : SafeS bad k x) (s : σ) : Safe bad k (x.exec s) := by
  intro e h' hb
  have := h s e h' hb
  unfold TS.exec
  rcases hx : (x s).1 with ⟨r, s'⟩
  rw [hx] at this
  cases r <;> cases k <;> simp_all [Stopped]

end safe

variable {bad : Ev → Prop} {k : Bool} [hE : Ends bad k]
include hE

/-- go through a function -/
macro "safe_walk" : tactic => `(tactic|
  repeat' (first
    | assumption
    | exact Safe.pure _
    | exact Safe.res _
    | exact Safe.fail _ _ _
    | exact Safe.sayErr _ _
    | exact Safe.tick trivial
    | exact SafeS.get
    | exact SafeS.set _
    | exact SafeS.err _
    | exact SafeS.pure _
    | refine SafeS.lift ?_
    | refine SafeS.exec ?_ _
    | refine SafeS.forM (fun _ => ?_) _
    | refine Safe.foldlM (fun _ _ => ?_) _ _
    | refine Safe.mapM (fun _ => ?_) _
    | refine Safe.bind ?_ (fun _ => ?_)
    | refine SafeS.bind ?_ (fun _ => ?_)
    | split))

theorem branch_safe (b : Bool) : Safe bad k (branch b) := by unfold branch; safe_walk
theorem check_safe (b : Bool) : Safe bad k (check b) := by unfold check; safe_walk
theorem idx_safe {α : Type} (l : List α) (i : Nat) : Safe bad k (idx l i) := by unfold idx; safe_walk
theorem slice_safe (b : Bytes) (i j : Nat) : Safe bad k (slice b i j) := by unfold slice; safe_walk
theorem mul_safe {G : Type} [AddMonoid G] (r : Fr) (p : G) : Safe bad k (mul r p) := by
  unfold mul; safe_walk
theorem add_safe {G : Type} [Add G] (p q : G) : Safe bad k (add p q) := by unfold add; safe_walk
theorem doubleIf_safe {G : Type} [Add G] (b : Bool) (p : G) : Safe bad k (doubleIf b p) := by
  unfold doubleIf; split
  · exact add_safe _ _
  · safe_walk

theorem timeVec_safe (pf : Profile) (t d : Nat) : Safe bad k (timeVec pf t d) := by
  unfold timeVec; safe_walk
theorem gammaList_safe (pf : Profile) (v : TimeVec) (d : Nat) : Safe bad k (gammaList pf v d) := by
  unfold gammaList; safe_walk
theorem vecInsert_safe {α : Type} (l : List α) (i : Nat) (x : α) : Safe bad k (vecInsert l i x) := by
  unfold vecInsert; safe_walk
theorem removeFirst_safe {α : Type} (l : List α) : Safe bad k (removeFirst l) := by
  unfold removeFirst; safe_walk
theorem extract_safe (sha : Bytes → Bytes) (a b : Bytes) : Safe bad k (extract sha a b) := by
  unfold extract; safe_walk
theorem expand_safe (sha : Bytes → Bytes) (a b : Bytes) (n : Nat) : Safe bad k (expand sha a b n) := by
  unfold expand; safe_walk

theorem os2ip_safe (b : Bytes) : Safe bad k (os2ipModP b) := by
  by_cases h : b.length ≤ 64
  · rw [os2ipModP_of h]; exact Safe.of (by simp [os2ipTrace, hE.branch, hE.call])
  · refine Safe.of ?_
    unfold os2ipModP
    rw [decide_eq_false h]
    change ∀ e ∈ [Ev.branch false], _
    simp [hE.branch]

theorem sampleThenUpdate_safe (sha : Bytes → Bytes) (info : Bytes) :
    SafeS bad k (sampleThenUpdate sha info) := by
  unfold sampleThenUpdate
  refine SafeS.bind SafeS.get fun p => ?_
  refine SafeS.bind (SafeS.lift (expand_safe _ _ _ _)) fun _ => ?_
  refine SafeS.bind (SafeS.lift (slice_safe _ _ _)) fun _ => ?_
  refine SafeS.bind (SafeS.lift (os2ip_safe _)) fun _ => ?_
  refine SafeS.bind (SafeS.lift (slice_safe _ _ _)) fun _ => ?_
  safe_walk

theorem sample_safe (sha : Bytes → Bytes) (info : Bytes) : SafeS bad k (sample sha info) := by
  unfold sample
  refine SafeS.bind SafeS.get fun p => ?_
  exact SafeS.bind (SafeS.lift (expand_safe _ _ _ _)) fun _ => SafeS.lift (os2ip_safe _)

theorem rerandomize_safe (sha : Bytes → Bytes) (seed info : Bytes) :
    SafeS bad k (rerandomize sha seed info) := by
  unfold rerandomize
  refine SafeS.bind SafeS.get fun p => ?_
  refine SafeS.bind (SafeS.lift (expand_safe _ _ _ _)) fun _ => ?_
  refine SafeS.bind (SafeS.lift (slice_safe _ _ _)) fun _ => ?_
  refine SafeS.bind (SafeS.lift (slice_safe _ _ _)) fun _ => ?_
  refine SafeS.bind (SafeS.lift (extract_safe _ _ _)) fun _ => ?_
  refine SafeS.bind (SafeS.lift (slice_safe _ _ _)) fun _ => ?_
  safe_walk

theorem nodeSum_safe (hlist : List G1) (tv : List Nat) (a : G1) : Safe bad k (nodeSum hlist tv a) := by
  unfold nodeSum
  refine Safe.foldlM (fun _ _ => ?_) _ _
  refine Safe.bind (idx_safe _ _) fun _ => ?_
  refine Safe.bind (idx_safe _ _) fun _ => ?_
  refine Safe.bind (branch_safe _) fun _ => ?_
  exact Safe.bind (doubleIf_safe _ _) fun _ => add_safe _ _

theorem randomization_safe (pf : Profile) (pp : PubParam G1 G2) (r : Fr) :
    SafeS bad k (randomization pf pp r) := by
  unfold randomization
  refine SafeS.bind (SafeS.lift (mul_safe _ _)) fun _ => ?_
  refine SafeS.bind SafeS.get fun _ => ?_
  refine SafeS.bind (SafeS.lift (add_safe _ _)) fun _ => ?_
  refine SafeS.bind (SafeS.set _) fun _ => ?_
  refine SafeS.bind SafeS.get fun _ => ?_
  refine SafeS.bind (SafeS.lift (timeVec_safe _ _ _)) fun _ => ?_
  refine SafeS.bind (SafeS.lift (idx_safe _ _)) fun _ => ?_
  refine SafeS.bind (SafeS.lift (nodeSum_safe _ _ _)) fun _ => ?_
  refine SafeS.bind (SafeS.lift (mul_safe _ _)) fun _ => ?_
  refine SafeS.bind SafeS.get fun _ => ?_
  refine SafeS.bind (SafeS.lift (add_safe _ _)) fun _ => ?_
  refine SafeS.bind (SafeS.set _) fun _ => ?_
  refine SafeS.bind SafeS.get fun _ => ?_
  refine SafeS.forM (fun _ => ?_) _
  refine SafeS.bind (SafeS.lift (idx_safe _ _)) fun _ => ?_
  refine SafeS.bind (SafeS.lift (mul_safe _ _)) fun _ => ?_
  refine SafeS.bind SafeS.get fun _ => ?_
  refine SafeS.bind (SafeS.lift (idx_safe _ _)) fun _ => ?_
  exact SafeS.bind (SafeS.lift (add_safe _ _)) fun _ => SafeS.set _

theorem delegate_safe (pf : Profile) (tar d : Nat) :
    SafeS bad k (delegate pf tar d : TS (SubSecretKey G1 G2) Unit) := by
  unfold delegate
  refine SafeS.bind SafeS.get fun _ => ?_
  refine SafeS.bind (SafeS.lift (timeVec_safe _ _ _)) fun _ => ?_
  refine SafeS.bind (SafeS.lift (timeVec_safe _ _ _)) fun _ => ?_
  refine SafeS.bind (SafeS.lift (branch_safe _)) fun _ => ?_
  split
  · exact SafeS.lift (Safe.fail _ _ _)
  refine SafeS.bind (SafeS.forM (fun _ => ?_) _) fun _ => ?_
  · refine SafeS.bind SafeS.get fun _ => ?_
    refine SafeS.bind (SafeS.lift (idx_safe _ _)) fun _ => ?_
    refine SafeS.bind (SafeS.lift (idx_safe _ _)) fun _ => ?_
    refine SafeS.bind (SafeS.lift (branch_safe _)) fun _ => ?_
    refine SafeS.bind (SafeS.lift (doubleIf_safe _ _)) fun _ => ?_
    exact SafeS.bind (SafeS.lift (add_safe _ _)) fun _ => SafeS.set _
  refine SafeS.bind (SafeS.forM (fun _ => ?_) _) fun _ => ?_
  · refine SafeS.bind SafeS.get fun _ => ?_
    exact SafeS.bind (SafeS.lift (removeFirst_safe _)) fun _ => SafeS.set _
  exact SafeS.bind SafeS.get fun _ => SafeS.set _

theorem findAncestor_safe (sk : SecretKey G1 G2) (tar : Nat) : Safe bad k (findAncestor sk tar) := by
  unfold findAncestor
  refine Safe.bind (branch_safe _) fun _ => ?_
  split
  · exact Safe.fail _ _ _
  refine Safe.bind (idx_safe _ _) fun _ => ?_
  refine Safe.bind (branch_safe _) fun _ => ?_
  split
  · exact Safe.fail _ _ _
  refine Safe.bind (Safe.foldlM (fun _ _ => ?_) _ _) fun _ => Safe.pure _
  refine Safe.bind (idx_safe _ _) fun _ => ?_
  refine Safe.bind (branch_safe _) fun _ => ?_
  safe_walk

theorem dropUntil_safe (t : Nat) (l : List (SubSecretKey G1 G2)) : Safe bad k (dropUntil t l) := by
  induction l with
  | nil => unfold dropUntil; safe_walk
  | cons s l ih =>
    unfold dropUntil
    refine Safe.bind (Safe.tick trivial) fun _ => ?_
    refine Safe.bind (branch_safe _) fun _ => ?_
    split
    · exact Safe.bind (Safe.tick trivial) fun _ => ih
    · exact Safe.pure _

theorem scanDup_safe (pf : Profile) (d : Nat) (v : TimeVec) (l : List (SubSecretKey G1 G2))
    (js : List Nat) : Safe bad k (scanDup pf d v l js) := by
  induction js with
  | nil => exact Safe.pure _
  | cons j js ih =>
    unfold scanDup
    refine Safe.bind (idx_safe _ _) fun _ => ?_
    refine Safe.bind (timeVec_safe _ _ _) fun _ => ?_
    refine Safe.bind (branch_safe _) fun _ => ?_
    split
    · exact Safe.pure _
    · exact ih

omit hE in
theorem all_of_takeWhile {α : Type} {p : α → Bool} {l : List α}
    (h : (l.takeWhile p).length = l.length) : l.all p = true := by
  induction l with
  | nil => rfl
  | cons a l ih =>
    by_cases ha : p a = true
    · rw [List.takeWhile_cons_of_pos ha] at h
      rw [List.all_cons, ha, ih (by simpa using h)]; rfl
    · rw [List.takeWhile_cons_of_neg ha] at h
      simp at h

theorem rerandStep_safe (sha : Bytes → Bytes) (pf : Profile) (pp : PubParam G1 G2) (p : Prng)
    (sk : SecretKey G1 G2) (s : SubSecretKey G1 G2) : Safe bad k (rerandStep sha pf pp p sk s) := by
  unfold rerandStep
  refine Safe.bind (SafeS.exec (sampleThenUpdate_safe _ _) _) fun x => ?_
  rcases x with ⟨r, q⟩
  by_cases h : q.eq p = true
  · intro e he hb
    have hk : k = true := by
      have : e ∈ [Ev.compare (equalBytes q p)] := by
        rw [trace_bind, out_prngEq] at he
        simp only [h, Bool.not_true, assertRes_false] at he
        rw [trace_bind, out_res] at he
        simpa [prngEq, trace_bind, TR.tick, TR.res, Pure.pure] using he
      rw [List.mem_singleton] at this
      exact (hE.compare _ (this ▸ hb)).2
    subst hk
    simp only [out_bind, out_prngEq, Res.ok_bind, h, out_res, Bool.not_true, assertRes_false,
      Res.panic_bind]
    rfl
  · refine Safe.bind (Safe.of ?_) fun _ => Safe.bind (Safe.res _) fun _ =>
      Safe.bind (SafeS.exec (randomization_safe _ _ _) _) fun _ => Safe.pure _
    intro e hm hb
    change _ ∈ [Ev.compare (equalBytes q p)] at hm
    rw [List.mem_singleton] at hm
    subst hm
    apply h
    unfold Prng.eq
    exact all_of_takeWhile ((hE.compare _ hb).1.trans (by simp))

theorem updateLoop_safe (sha : Bytes → Bytes) (pf : Profile) (pp : PubParam G1 G2) (p : Prng)
    (i : Nat) (l : List TimeVec) (sk : SecretKey G1 G2) :
    Safe bad k (updateLoop sha pf pp p i l sk) := by
  induction l generalizing i sk with
  | nil => exact Safe.pure _
  | cons v l ih =>
    unfold updateLoop
    refine Safe.bind (scanDup_safe _ _ _ _ _) fun _ => ?_
    split
    · exact Safe.pure _
    refine Safe.bind (idx_safe _ _) fun _ => ?_
    refine Safe.bind (SafeS.exec (delegate_safe _ _ _) _) fun x => ?_
    rcases x with ⟨_, s⟩
    refine Safe.bind (branch_safe _) fun _ => ?_
    refine Safe.bind ?_ fun x => ?_
    · split
      · exact rerandStep_safe _ _ _ _ _ _
      · exact Safe.pure _
    rcases x with ⟨_, s⟩
    exact Safe.bind (vecInsert_safe _ _ _) fun _ => ih _ _

theorem update_safe (sha : Bytes → Bytes) (pf : Profile) (pp : PubParam G1 G2) (tar : Nat)
    (seed : Bytes) : SafeS bad k (update sha pf pp tar seed) := by
  unfold update
  refine SafeS.bind SafeS.get fun a => ?_
  refine SafeS.bind (SafeS.lift (branch_safe _)) fun _ => ?_
  split
  · exact SafeS.err _
  refine SafeS.bind (SafeS.lift (Safe.res _)) fun _ => ?_
  refine SafeS.bind (SafeS.lift (Safe.res _)) fun _ => ?_
  refine SafeS.bind (SafeS.lift (branch_safe _)) fun _ => ?_
  split
  · exact SafeS.lift (Safe.fail _ _ _)
  refine SafeS.bind (SafeS.lift (findAncestor_safe _ _)) fun _ => ?_
  refine SafeS.bind (SafeS.lift (SafeS.exec (rerandomize_safe _ _ _) _)) fun x => ?_
  rcases x with ⟨_, q⟩
  refine SafeS.bind (SafeS.lift (dropUntil_safe _ _)) fun _ => ?_
  refine SafeS.bind (SafeS.lift (branch_safe _)) fun _ => ?_
  split
  · exact SafeS.lift (Safe.fail _ _ _)
  refine SafeS.bind (SafeS.lift (branch_safe _)) fun _ => ?_
  split
  · exact SafeS.bind (SafeS.set _) fun _ => SafeS.pure _
  refine SafeS.bind (SafeS.lift (timeVec_safe _ _ _)) fun _ => ?_
  refine SafeS.bind (SafeS.lift (gammaList_safe _ _ _)) fun _ => ?_
  refine SafeS.bind (SafeS.lift (updateLoop_safe _ _ _ _ _ _ _)) fun _ => ?_
  refine SafeS.bind (SafeS.lift (removeFirst_safe _)) fun _ => ?_
  refine SafeS.bind (SafeS.lift (idx_safe _ _)) fun _ => ?_
  exact SafeS.bind (SafeS.set _) fun _ => SafeS.pure _

theorem signFr_safe (pf : Profile) (sk : SecretKey G1 G2) (tar : Nat) (pp : PubParam G1 G2)
    (m r : Fr) : Safe bad k (signFr pf sk tar pp m r) := by
  unfold signFr firstSsk lastHvectorCoeff
  refine Safe.bind (check_safe _) fun _ => ?_
  refine Safe.bind (Safe.bind (branch_safe _) fun _ => ?_) fun _ => ?_
  · split
    · exact Safe.fail _ _ _
    · exact idx_safe _ _
  refine Safe.bind (timeVec_safe _ _ _) fun _ => ?_
  refine Safe.bind (mul_safe _ _) fun _ => ?_
  refine Safe.bind (add_safe _ _) fun _ => ?_
  refine Safe.bind (idx_safe _ _) fun _ => ?_
  refine Safe.bind (nodeSum_safe _ _ _) fun _ => ?_
  refine Safe.bind (idx_safe _ _) fun _ => ?_
  refine Safe.bind (mul_safe _ _) fun _ => ?_
  refine Safe.bind (add_safe _ _) fun _ => ?_
  refine Safe.bind (mul_safe _ _) fun _ => ?_
  refine Safe.bind (Safe.bind (branch_safe _) fun _ => ?_) fun _ => ?_
  · split
    · exact Safe.res _
    · exact idx_safe _ _
  refine Safe.bind (mul_safe _ _) fun _ => ?_
  refine Safe.bind (add_safe _ _) fun _ => ?_
  exact Safe.bind (add_safe _ _) fun _ => Safe.pure _

theorem signBytes_safe (sha : Bytes → Bytes) (pf : Profile) (sk : SecretKey G1 G2) (tar : Nat)
    (pp : PubParam G1 G2) (m : Bytes) : Safe bad k (signBytes sha pf sk tar pp m) := by
  unfold signBytes
  refine Safe.bind (branch_safe _) fun _ => ?_
  split
  · exact Safe.fail _ _ _
  refine Safe.bind (branch_safe _) fun _ => ?_
  split
  · exact Safe.fail _ _ _
  refine Safe.bind (check_safe _) fun _ => ?_
  refine Safe.bind (SafeS.exec (sample_safe _ _) _) fun x => ?_
  rcases x with ⟨r, _⟩
  refine Safe.bind (Safe.tick trivial) fun _ => ?_
  exact Safe.bind (os2ip_safe _) fun _ => signFr_safe _ _ _ _ _ _

theorem sign_safe (sha : Bytes → Bytes) (pf : Profile) (t : Nat) (pp : PubParam G1 G2)
    (m seed : Bytes) : SafeS bad k (sign sha pf t pp m seed) := by
  unfold sign
  refine SafeS.bind SafeS.get fun _ => ?_
  refine SafeS.bind (SafeS.lift (branch_safe _)) fun _ => ?_
  split
  · exact SafeS.lift (Safe.fail _ _ _)
  refine SafeS.bind (SafeS.lift (branch_safe _)) fun _ => ?_
  split
  · exact SafeS.bind (update_safe _ _ _ _ _) fun _ =>
      SafeS.bind SafeS.get fun _ => SafeS.lift (signBytes_safe _ _ _ _ _ _)
  · exact SafeS.bind SafeS.get fun _ => SafeS.lift (signBytes_safe _ _ _ _ _ _)

theorem signPresent_safe (sha : Bytes → Bytes) (pf : Profile) (t : Nat) (pp : PubParam G1 G2)
    (m : Bytes) : SafeS bad k (signPresent sha pf t pp m) := by
  unfold signPresent
  refine SafeS.bind SafeS.get fun _ => ?_
  refine SafeS.bind (SafeS.lift (branch_safe _)) fun _ => ?_
  split
  · exact SafeS.lift (Safe.fail _ _ _)
  · exact SafeS.lift (signBytes_safe _ _ _ _ _ _)

theorem signThenUpdate_safe (sha : Bytes → Bytes) (pf : Profile) (t : Nat) (pp : PubParam G1 G2)
    (m seed : Bytes) : SafeS bad k (signThenUpdate sha pf t pp m seed) := by
  unfold signThenUpdate
  refine SafeS.bind SafeS.get fun _ => ?_
  refine SafeS.bind (SafeS.lift (branch_safe _)) fun _ => ?_
  split
  · exact SafeS.lift (Safe.fail _ _ _)
  refine SafeS.bind (SafeS.lift (signBytes_safe _ _ _ _ _ _)) fun _ => ?_
  refine SafeS.bind (SafeS.lift (Safe.res _)) fun _ => ?_
  exact SafeS.bind (update_safe _ _ _ _ _) fun _ => SafeS.pure _

theorem prngInit_safe (sha : Bytes → Bytes) (a b : Bytes) : Safe bad k (prngInit sha a b) := by
  unfold prngInit
  exact Safe.bind (extract_safe _ _ _) fun _ => Safe.bind (slice_safe _ _ _) fun _ =>
    Safe.bind (Safe.res _) fun _ => Safe.pure _

theorem masterKeyGen_safe (E : Ext G1 G2 GT) (seed : Bytes) (pp : PubParam G1 G2) :
    Safe bad k (masterKeyGen E seed pp) := by
  unfold masterKeyGen
  refine Safe.bind (branch_safe _) fun _ => ?_
  split
  · exact Safe.fail _ _ _
  refine Safe.bind (branch_safe _) fun _ => ?_
  split
  · exact Safe.fail _ _ _
  exact Safe.bind (prngInit_safe _ _ _) fun _ => Safe.bind (SafeS.exec (sampleThenUpdate_safe _ _) _)
    fun _ => Safe.bind (mul_safe _ _) fun _ => Safe.bind (Safe.tick trivial) fun _ =>
    Safe.bind (mul_safe _ _) fun _ => Safe.bind (mul_safe _ _) fun _ => Safe.pure _

theorem skInit_safe (sha : Bytes → Bytes) (pp : PubParam G1 G2) (alpha : G1) (p : Prng) :
    Safe bad k (skInit sha pp alpha p) := by
  unfold skInit sskInit
  refine Safe.bind (branch_safe _) fun _ => ?_
  split
  · exact Safe.fail _ _ _
  exact Safe.bind (SafeS.exec (sampleThenUpdate_safe _ _) _) fun _ => Safe.bind
    (Safe.bind (mul_safe _ _) fun _ => Safe.bind (idx_safe _ _) fun _ => Safe.bind (mul_safe _ _)
      fun _ => Safe.bind (add_safe _ _) fun _ => Safe.bind (Safe.mapM (fun _ => mul_safe _ _) _)
      fun _ => Safe.pure _) fun _ => Safe.pure _

theorem keygen_safe (E : Ext G1 G2 GT) (seed : Bytes) (pp : PubParam G1 G2) :
    Safe bad k (keygen E seed pp) := by
  unfold keygen
  refine Safe.bind (branch_safe _) fun _ => ?_
  split
  · exact Safe.fail _ _ _
  refine Safe.bind (masterKeyGen_safe _ _ _) fun _ => ?_
  refine Safe.bind (branch_safe _) fun _ => ?_
  split
  · exact Safe.fail _ _ _
  exact Safe.bind (skInit_safe _ _ _ _) fun _ => Safe.pure _

theorem request_safe (sha : Bytes → Bytes) (pf : Profile) (pp : PubParam G1 G2) (r : Request)
    (sk : SecretKey G1 G2) :
    ∀ e ∈ (r.run sha pf pp sk).2, bad e → Stopped k (r.run sha pf pp sk).1.1 := by
  cases r with
  | update t s => exact update_safe sha pf pp t s sk
  | sign t m s =>
    exact SafeS.bind (sign_safe sha pf t pp m s) (fun _ => SafeS.pure _) sk
  | signPresent t m =>
    exact SafeS.bind (signPresent_safe sha pf t pp m) (fun _ => SafeS.pure _) sk
  | signThenUpdate t m s =>
    exact SafeS.bind (signThenUpdate_safe sha pf t pp m s) (fun _ => SafeS.pure _) sk

omit hE in
theorem serve_clear (sha : Bytes → Bytes) (pf : Profile) (pp : PubParam G1 G2) (rs : List Request)
    (sk : SecretKey G1 G2) (h : ∀ x ∈ (serve sha pf pp rs sk).1, x.isPanic = false) :
    Ev.compare 64 ∉ (serve sha pf pp rs sk).2.2 := by
  induction rs generalizing sk with
  | nil => simp [serve]
  | cons r rs ih =>
    have key : Ev.compare 64 ∈ (r.run sha pf pp sk).2 → (r.run sha pf pp sk).1.1.isPanic = true :=
      fun h => request_safe (hE := endsCompare) sha pf pp r sk _ h rfl
    unfold serve at h ⊢
    rcases hx : r.run sha pf pp sk with ⟨⟨x, a'⟩, l⟩
    rw [hx] at h key
    cases x with
    | panic p => simp at h
    | ok u =>
      simp only [List.mem_cons, List.mem_append, not_or] at h ⊢
      exact ⟨fun hm => by simpa using key hm, ih a' fun y hy => h y (Or.inr hy)⟩
    | err e =>
      simp only [List.mem_cons, List.mem_append, not_or] at h ⊢
      exact ⟨fun hm => by simpa using key hm, ih a' fun y hy => h y (Or.inr hy)⟩

end Pixel.Trace
