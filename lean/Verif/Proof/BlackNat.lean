import Verif.Spec.Api

/-! # The functions of the model commute with homomorphisms of the groups -/

namespace Pixel

open Spec

set_option linter.unusedSectionVars false

variable {S1 S2 G1 G2 : Type} [AddCommGroup S1] [AddCommGroup S2] [AddCommGroup G1] [AddCommGroup G2]

/-! ## the data -/

def PubParam.image (φ : S1 →+ G1) (ψ : S2 →+ G2) (pp : PubParam S1 S2) : PubParam G1 G2 :=
  { depth := pp.depth, ciphersuite := pp.ciphersuite, g2 := ψ pp.g2, h := φ pp.h
    hlist := pp.hlist.map φ }

def SubSecretKey.image (φ : S1 →+ G1) (ψ : S2 →+ G2) (s : SubSecretKey S1 S2) : SubSecretKey G1 G2 :=
  { time := s.time, g2r := ψ s.g2r, hpoly := φ s.hpoly, hvector := s.hvector.map φ }

def SecretKey.image (φ : S1 →+ G1) (ψ : S2 →+ G2) (s : SecretKey S1 S2) : SecretKey G1 G2 :=
  { ciphersuite := s.ciphersuite, time := s.time, ssk := s.ssk.map (SubSecretKey.image φ ψ)
    prng := s.prng }

def Signature.image (φ : S1 →+ G1) (ψ : S2 →+ G2) (s : Signature S1 S2) : Signature G1 G2 :=
  { ciphersuite := s.ciphersuite, time := s.time, sigma1 := ψ s.sigma1, sigma2 := φ s.sigma2 }

variable {φ : S1 →+ G1} {ψ : S2 →+ G2}

/-! ## results -/

theorem idx_image {α β : Type} (f : α → β) (l : List α) (i : Nat) :
    idx (l.map f) i = f <$> idx l i := by
  unfold idx
  rw [List.getElem?_map]
  cases l[i]? <;> rfl

theorem removeFirst_image {α β : Type} (f : α → β) (l : List α) :
    removeFirst (l.map f) = List.map f <$> removeFirst l := by
  cases l <;> rfl

theorem bind_image {α β γ δ : Type} {f : α → β} {h : γ → δ} {x : Res α} {y : Res β}
    {k : α → Res γ} {k' : β → Res δ} (hx : y = f <$> x) (hk : ∀ a, k' (f a) = h <$> k a) :
    (y >>= k') = h <$> (x >>= k) := by
  rw [hx]
  cases x
  · exact hk _
  · rfl
  · rfl

theorem foldlM_image {α β ι : Type} {f : α → β} {F : α → ι → Res α} {F' : β → ι → Res β} (l : List ι)
    (h : ∀ a i, F' (f a) i = f <$> F a i) (a : α) : l.foldlM F' (f a) = f <$> l.foldlM F a := by
  induction l generalizing a with
  | nil => rfl
  | cons i l ih =>
    rw [List.foldlM_cons, List.foldlM_cons]
    exact bind_image (h a i) ih

theorem mulFr_image {A B : Type} [AddCommGroup A] [AddCommGroup B] (f : A →+ B) (r : Fr) (a : A) :
    mulFr r (f a) = f (mulFr r a) := (map_nsmul f _ _).symm

/-- the point of a time vector -/
theorem timePoint_image (pp : PubParam S1 S2) (tv : List Nat) (n : Nat) (h0 : S1) :
    ((List.range n).foldlM (fun tmp3 i => do
      let tmp2 ← idx (pp.image φ ψ).hlist (i + 1)
      let ti ← idx tv i
      let tmp2 := if ti = 2 then tmp2 + tmp2 else tmp2
      .ok (tmp3 + tmp2)) (φ h0) : Res G1) =
    φ <$> (List.range n).foldlM (fun tmp3 i => do
      let tmp2 ← idx pp.hlist (i + 1)
      let ti ← idx tv i
      let tmp2 := if ti = 2 then tmp2 + tmp2 else tmp2
      .ok (tmp3 + tmp2)) h0 := by
  refine foldlM_image _ (fun a i => ?_) h0
  refine bind_image (idx_image φ _ _) fun b => ?_
  refine bind_image (f := id) (by cases idx tv i <;> rfl) fun t => ?_
  simp only [id]
  by_cases ht : t = 2
  · simp only [ht, if_true, Res.map_ok, map_add]
  · simp only [ht, if_false, Res.map_ok, map_add]

theorem id_image {α : Type} (x : Res α) : x = id <$> x := by cases x <;> rfl

/-- `sign_fr` -/
theorem signFr_image (pf : Profile) (sk : SecretKey S1 S2) (t : Nat) (pp : PubParam S1 S2) (M r : Fr) :
    Signature.signFr pf (sk.image φ ψ) t (pp.image φ ψ) M r =
      Signature.image φ ψ <$> Signature.signFr pf sk t pp M r := by
  unfold Signature.signFr
  refine bind_image (id_image _) fun _ => ?_
  refine bind_image (f := SubSecretKey.image φ ψ) ?_ fun s => ?_
  · unfold SecretKey.firstSsk
    show (if (sk.ssk.map _).isEmpty then _ else _) = _
    rw [List.isEmpty_map]
    by_cases he : sk.ssk.isEmpty = true
    · rw [if_pos he, if_pos he]
      rfl
    · rw [if_neg he, if_neg he]
      exact idx_image _ _ _
  refine bind_image (f := id) (id_image _) fun tv => ?_
  refine bind_image (f := φ) (idx_image φ _ _) fun h0 => ?_
  refine bind_image (f := φ) (timePoint_image _ _ _ _) fun p => ?_
  refine bind_image (f := φ) (idx_image φ _ _) fun hd => ?_
  refine bind_image (f := φ) ?_ fun hl => ?_
  · unfold SubSecretKey.lastHvectorCoeff
    show (if (s.hvector.map φ).isEmpty then _ else idx (s.hvector.map φ) ((s.hvector.map φ).length - 1)) = _
    rw [List.isEmpty_map, List.length_map]
    by_cases he : s.hvector.isEmpty = true
    · rw [if_pos he, if_pos he]
      rfl
    · rw [if_neg he, if_neg he]
      exact idx_image _ _ _
  simp only [Res.map_ok, Signature.image, PubParam.image, SubSecretKey.image, mulFr_image, ← map_add]

theorem signWith_image (pf : Profile) (pp : PubParam S1 S2) (t : Nat) (keys : List (SubSecretKey S1 S2))
    (M r : Fr) : signWith pf (pp.image φ ψ) t (keys.map (SubSecretKey.image φ ψ)) M r =
      (signWith pf pp t keys M r).image φ ψ := by
  unfold signWith
  have h := signFr_image (φ := φ) (ψ := ψ) pf
    { ciphersuite := pp.ciphersuite, time := t, ssk := keys, prng := ⟨[]⟩ } t pp M r
  simp only [SecretKey.image] at h
  rw [show (pp.image φ ψ).ciphersuite = pp.ciphersuite from rfl, h]
  rcases Signature.signFr pf { ciphersuite := pp.ciphersuite, time := t, ssk := keys, prng := ⟨[]⟩ } t
    pp M r with s | e | e
  · rfl
  · simp only [Res.map_err, Signature.image, map_zero]
  · simp only [Res.map_panic, Signature.image, map_zero]

/-! ## methods -/

/-- the methods agree along `f` on the state and `h` on the results -/
def Along {σ τ α β : Type} (f : σ → τ) (h : α → β) (x : SM σ α) (y : SM τ β) : Prop :=
  ∀ s, y (f s) = (h <$> (x s).1, f (x s).2)

section
variable {σ τ α β γ δ : Type} {f : σ → τ} {h : α → β} {h' : γ → δ}

theorem Along.bind {x : SM σ α} {y : SM τ β} {k : α → SM σ γ} {k' : β → SM τ δ}
    (hx : Along f h x y) (hk : ∀ a, Along f h' (k a) (k' (h a))) : Along f h' (x >>= k) (y >>= k') := by
  intro s
  rw [SM.bind_run, SM.bind_run, hx s]
  rcases x s with ⟨a | e | e, s'⟩
  · exact hk a s'
  · rfl
  · rfl

theorem Along.get : Along f f (SM.get : SM σ σ) (SM.get : SM τ τ) := fun _ => rfl

theorem Along.set (s : σ) : Along f id (SM.set s : SM σ Unit) (SM.set (f s) : SM τ Unit) := fun _ => rfl

theorem Along.lift {x : Res α} {y : Res β} (hx : y = h <$> x) :
    Along f h (SM.lift x : SM σ α) (SM.lift y : SM τ β) := fun s => by
  rw [SM.lift_run, SM.lift_run, hx]

theorem Along.err (e : Err) : Along f h (SM.err e : SM σ α) (SM.err e : SM τ β) := fun _ => rfl

theorem Along.forM {ι : Type} (l : List ι) {x : ι → SM σ Unit} {y : ι → SM τ Unit}
    (hx : ∀ i, Along f id (x i) (y i)) : Along f id (l.forM x) (l.forM y) := by
  induction l with
  | nil => exact fun _ => rfl
  | cons i l ih =>
    exact (hx i).bind (h := id) (h' := id) (k := fun _ => l.forM x) (k' := fun _ => l.forM y)
      fun _ => ih
end

/-- `delegate` -/
theorem delegate_image (pf : Profile) (t d : Nat) :
    Along (SubSecretKey.image φ ψ) id (SubSecretKey.delegate pf t d)
      (SubSecretKey.delegate pf t d : SM (SubSecretKey G1 G2) Unit) := by
  unfold SubSecretKey.delegate
  refine Along.get.bind fun s => ?_
  refine (Along.lift (h := id) (id_image _)).bind fun cur => ?_
  refine (Along.lift (h := id) (id_image _)).bind fun tar => ?_
  simp only [id]
  by_cases hp : (!cur.isPrefix tar) = true
  · rw [if_pos hp, if_pos hp]
    exact Along.err _
  · rw [if_neg hp, if_neg hp]
    refine (Along.forM _ fun i => ?_).bind fun _ => (Along.forM _ fun i => ?_).bind fun _ => ?_
    · refine Along.get.bind fun s => ?_
      refine (Along.lift (h := φ) (idx_image φ _ _)).bind fun p => ?_
      refine (Along.lift (h := id) (id_image _)).bind fun ti => ?_
      simp only [id]
      have e : (if ti = 2 then φ p + φ p else φ p) = φ (if ti = 2 then p + p else p) := by
        by_cases ht : ti = 2
        · simp only [ht, if_true, map_add]
        · simp only [ht, if_false]
      rw [e]
      have := Along.set (f := SubSecretKey.image φ ψ)
        { s with hpoly := s.hpoly + if ti = 2 then p + p else p }
      simp only [SubSecretKey.image, map_add] at this ⊢
      exact this
    · refine Along.get.bind fun s => ?_
      refine (Along.lift (h := List.map φ) (removeFirst_image φ _)).bind fun l => ?_
      exact Along.set { s with hvector := l }
    · refine Along.get.bind fun s => ?_
      exact Along.set { s with time := t }

/-- `randomization` -/
theorem randomization_image (pf : Profile) (pp : PubParam S1 S2) (r : Fr) :
    Along (SubSecretKey.image φ ψ) id (SubSecretKey.randomization pf pp r)
      (SubSecretKey.randomization pf (pp.image φ ψ) r) := by
  unfold SubSecretKey.randomization
  refine Along.get.bind fun s => ?_
  refine Along.bind (h := id) ?_ fun _ => ?_
  · have := Along.set (f := SubSecretKey.image φ ψ) { s with g2r := s.g2r + mulFr r pp.g2 }
    simp only [SubSecretKey.image, map_add, ← mulFr_image] at this ⊢
    exact this
  refine Along.get.bind fun s => ?_
  refine (Along.lift (h := id) (id_image _)).bind fun tv => ?_
  refine (Along.lift (h := φ) (idx_image φ _ _)).bind fun h0 => ?_
  refine (Along.lift (h := φ) (timePoint_image _ _ _ _)).bind fun p => ?_
  refine Along.get.bind fun s => ?_
  refine Along.bind (h := id) ?_ fun _ => ?_
  · have := Along.set (f := SubSecretKey.image φ ψ) { s with hpoly := s.hpoly + mulFr r p }
    simp only [SubSecretKey.image, map_add, ← mulFr_image] at this ⊢
    exact this
  refine Along.get.bind fun s => ?_
  rw [show (s.image φ ψ).hvector.length = s.hvector.length from List.length_map _]
  refine Along.forM _ fun i => ?_
  refine (Along.lift (h := φ) (idx_image φ _ _)).bind fun q => ?_
  refine Along.get.bind fun s => ?_
  refine (Along.lift (h := φ) (idx_image φ _ _)).bind fun hi => ?_
  have := Along.set (f := SubSecretKey.image φ ψ)
    { s with hvector := s.hvector.set i (hi + mulFr r q) }
  simp only [SubSecretKey.image, List.map_set, map_add, ← mulFr_image] at this ⊢
  exact this

theorem delegatedTo_image (pf : Profile) (pp : PubParam S1 S2) (key : SubSecretKey S1 S2) (s : Nat) :
    delegatedTo pf (pp.image φ ψ) (key.image φ ψ) s = (delegatedTo pf pp key s).image φ ψ := by
  unfold delegatedTo
  rw [show (pp.image φ ψ).depth = pp.depth from rfl, delegate_image pf s pp.depth key]

theorem stepKeys_image (pf : Profile) (pp : PubParam S1 S2) (t tar : Nat)
    (keys : List (SubSecretKey S1 S2)) (rs : List Fr) :
    stepKeys pf (pp.image φ ψ) t tar (keys.map (SubSecretKey.image φ ψ)) rs =
      (stepKeys pf pp t tar keys rs).map (SubSecretKey.image φ ψ) := by
  unfold stepKeys
  rw [show (pp.image φ ψ).depth = pp.depth from rfl, ← List.map_drop]
  rcases keys.drop (dropped pp.depth t tar) with _ | ⟨key, rest⟩
  · rfl
  · rcases newTimes pp.depth t tar with _ | ⟨s, ss⟩
    · rfl
    · simp only [List.map_cons, List.map_append, delegatedTo_image, List.map_zipWith]
      congr 2
      congr 1
      funext s' r
      rw [randomization_image pf pp r]

end Pixel
