import Verif.Proof.BlackBox
import Verif.Proof.SingleLift
import Verif.Proof.Box

/-! # Black-box forgers give black-box algorithms for the problem of C75 -/

namespace Pixel

open Spec Props

set_option linter.unusedSectionVars false

section General

variable {Ω S1 S2 G1 G2 GT : Type} [AddCommGroup S1] [AddCommGroup S2] [AddCommGroup G1]
  [AddCommGroup G2] [CommGroup GT]
  {E : Ext G1 G2 GT} {φ : Ω → S1 →+ G1} {ψ : Ω → S2 →+ G2}

/-! ## The adversary as a family -/

theorem lin_image {A B : Type} [AddCommGroup A] [AddCommGroup B] (f : A →+ B) (c : Nat → Fr)
    (l : List A) : lin c (l.map f) = f (lin c l) := by
  induction l generalizing c with
  | nil => exact (map_zero f).symm
  | cons a l ih => simp only [List.map_cons, lin, ih, map_add, map_nsmul]

theorem made_image (φ : S1 →+ G1) (ψ : S2 →+ G2) (k1 : List S1) (k2 : List S2) (F : BoxClaim) :
    F.made (k1.map φ) (k2.map ψ) = Claim.image φ ψ (F.made k1 k2) := by
  simp only [BoxClaim.made, Claim.image, lin_image, List.map_map]
  rfl

/-- a question about the elements known, by their names -/
def Question.names (k1 : List S1) (k2 : List S2) : Question → Ask S1 S2
  | .isZero1 c => .zero1 (lin c k1)
  | .isZero2 c => .zero2 (lin c k2)
  | .isOneT l => .oneT (l.map fun p => (lin p.1 k2, lin p.2 k1))

theorem holds_names (φ : S1 →+ G1) (ψ : S2 →+ G2) (k1 : List S1) (k2 : List S2) (q : Question) :
    q.Holds E (k1.map φ) (k2.map ψ) ↔ (Question.names k1 k2 q).Holds E φ ψ := by
  rcases q with c | c | l
  · simp only [Question.Holds, Question.names, Ask.Holds, lin_image]
  · simp only [Question.Holds, Question.names, Ask.Holds, lin_image]
  · simp only [Question.Holds, Question.names, Ask.Holds, tee, lin_image, List.map_map]
    rfl

theorem keyElements1_image (φ : S1 →+ G1) (ψ : S2 →+ G2) (sk : SecretKey S1 S2) :
    keyElements1 (sk.image φ ψ) = (keyElements1 sk).map φ := by
  simp only [keyElements1, SecretKey.image, List.flatMap_map, List.map_flatMap, SubSecretKey.image,
    List.map_cons]

theorem keyElements2_image (φ : S1 →+ G1) (ψ : S2 →+ G2) (sk : SecretKey S1 S2) :
    keyElements2 (sk.image φ ψ) = (keyElements2 sk).map ψ := by
  simp only [keyElements2, SecretKey.image, List.map_map]
  rfl

theorem keyShape_image (φ : S1 →+ G1) (ψ : S2 →+ G2) (sk : SecretKey S1 S2) :
    keyShape (sk.image φ ψ) = keyShape sk := by
  simp only [keyShape, SecretKey.image, List.map_map]
  refine List.map_congr_left fun s _ => ?_
  simp only [Function.comp, SubSecretKey.image, List.length_map]

theorem play_box {B : Nat} (P : BoxPlayer) {b : Budget} (h : P.Keeps B b) (k1 : List S1) (k2 : List S2) :
    HashBox E φ ψ b.tests fun ω => P.play E (k1.map (φ ω)) (k2.map (ψ ω)) := by
  induction P generalizing b k1 k2 with
  | toss n hn next ih => exact .toss fun c => ih c (h c) k1 k2
  | eval m next ih => exact .eval fun x => ih x (h.2.2 x) k1 k2
  | test q y n ihy ihn =>
    obtain ⟨h1, h2, h3⟩ := h
    have := HashBox.test (E := E) (φ := φ) (ψ := ψ) (Question.names k1 k2 q) (ihy h2 k1 k2)
      (ihn h3 k1 k2)
    rw [Nat.sub_add_cancel h1] at this
    refine this.of_eq fun ω => ?_
    by_cases hq : (Question.names k1 k2 q).Holds E (φ ω) (ψ ω)
    · simp only [BoxPlayer.play, if_pos hq, if_pos ((holds_names (φ ω) (ψ ω) k1 k2 q).2 hq)]
    · simp only [BoxPlayer.play, if_neg hq,
        if_neg (fun h => hq ((holds_names (φ ω) (ψ ω) k1 k2 q).1 h))]
  | point next ih =>
    refine .point fun p => (ih h.2 (k1 ++ [p]) k2).of_eq fun ω => ?_
    simp only [List.map_append, List.map_cons, List.map_nil]
  | sign msg next ih =>
    refine .sign fun y => (ih h.2.2 (k1 ++ [y.sigma2]) (k2 ++ [y.sigma1])).of_eq fun ω => ?_
    simp only [List.map_append, List.map_cons, List.map_nil]
    rfl
  | update t s next ih => exact .update (ih h.2.2 k1 k2)
  | breakIn next ih =>
    refine .breakIn fun sk => (ih sk.prng.seed (keyShape sk) (h _ _) (k1 ++ keyElements1 sk)
      (k2 ++ keyElements2 sk)).of_eq fun ω => ?_
    rw [keyElements1_image, keyElements2_image, keyShape_image, List.map_append, List.map_append]
    rfl
  | forge F =>
    refine (HashBox.forge (F.made k1 k2)).of_eq fun ω => ?_
    simp only [BoxPlayer.play, made_image]

/-! ## Elements that have names -/

/-- a family of elements has a name -/
def Named {S G : Type} [AddCommGroup S] [AddCommGroup G] (φ : Ω → S →+ G) (f : Ω → G) : Prop :=
  ∃ c, ∀ ω, f ω = φ ω c

section
variable {S G : Type} [AddCommGroup S] [AddCommGroup G] {χ : Ω → S →+ G} {f f' : Ω → G}

theorem Named.zero : Named χ fun _ => 0 := ⟨0, fun _ => (map_zero _).symm⟩

theorem Named.of (c : S) : Named χ fun ω => χ ω c := ⟨c, fun _ => rfl⟩

theorem Named.add (h : Named χ f) (h' : Named χ f') : Named χ fun ω => f ω + f' ω := by
  obtain ⟨c, e⟩ := h
  obtain ⟨c', e'⟩ := h'
  exact ⟨c + c', fun ω => by simp only [map_add, e, e']⟩

theorem Named.neg (h : Named χ f) : Named χ fun ω => - f ω := by
  obtain ⟨c, e⟩ := h
  exact ⟨-c, fun ω => by simp only [map_neg, e]⟩

theorem Named.sub (h : Named χ f) (h' : Named χ f') : Named χ fun ω => f ω - f' ω := by
  obtain ⟨c, e⟩ := h
  obtain ⟨c', e'⟩ := h'
  exact ⟨c - c', fun ω => by simp only [map_sub, e, e']⟩

theorem Named.smul (n : Nat) (h : Named χ f) : Named χ fun ω => n • f ω := by
  obtain ⟨c, e⟩ := h
  exact ⟨n • c, fun ω => by simp only [map_nsmul, e]⟩

theorem Named.sum {ι : Type} (s : Finset ι) {F : ι → Ω → G} (h : ∀ i ∈ s, Named χ (F i)) :
    Named χ fun ω => ∑ i ∈ s, F i ω := by
  classical
  induction s using Finset.induction_on with
  | empty => simpa using Named.zero
  | insert i s hi ih =>
    have := (h i (Finset.mem_insert_self i s)).add (ih fun j hj => h j (Finset.mem_insert_of_mem hj))
    simpa only [Finset.sum_insert hi] using this

theorem Named.list {n : Nat} {F : Fin n → Ω → G} (h : ∀ i, Named χ (F i)) :
    ∃ l : List S, ∀ ω, (List.ofFn fun i => F i ω) = l.map (χ ω) := by
  choose c hc using h
  refine ⟨List.ofFn c, fun ω => ?_⟩
  rw [List.map_ofFn]
  congr 1
  funext i
  exact hc i ω
end

theorem nodePoint_image (φ : S1 →+ G1) (ψ : S2 →+ G2) (pp : PubParam S1 S2) (v : List Nat) :
    nodePoint (pp.image φ ψ) v = φ (nodePoint pp v) := by
  obtain ⟨d, cs, g2, h, l⟩ := pp
  have key : ∀ (v : List Nat) (l : List S1), (List.zipWith (fun t h => t • h) v (l.map φ)).sum =
      φ (List.zipWith (fun t h => t • h) v l).sum := by
    intro v l
    induction v generalizing l with
    | nil => simp
    | cons a v ih =>
      cases l with
      | nil => simp
      | cons b l => simp only [List.map_cons, List.zipWith_cons_cons, List.sum_cons, ih, map_add,
          map_nsmul]
  cases l with
  | nil => simp [nodePoint, PubParam.image]
  | cons a l => simp only [nodePoint, PubParam.image, List.map_cons, List.headD_cons, List.tail_cons,
      key, map_add]

theorem sigPoint_image (φ : S1 →+ G1) (ψ : S2 →+ G2) (pp : PubParam S1 S2) (v : List Nat) (M : Fr) :
    sigPoint (pp.image φ ψ) v M = φ (sigPoint pp v M) := by
  unfold sigPoint
  rw [nodePoint_image, map_add, map_nsmul]
  congr 2
  show (pp.hlist.map φ).getLastD 0 = _
  rw [List.getLastD_eq_getLast?, List.getLastD_eq_getLast?, List.getLast?_map]
  cases pp.hlist.getLast? with
  | none => exact (map_zero φ).symm
  | some a => rfl

/-- the elements of an instance have names -/
structure NamedInstance (φ : Ω → S1 →+ G1) (ψ : Ω → S2 →+ G2) (E : Ext G1 G2 GT)
    (I : Ω → Instance G1 G2) : Prop where
  at1 : ∀ i, Named φ fun ω => (I ω).at1 i
  at2 : ∀ i, Named ψ fun ω => (I ω).at2 i
  b1 : Named φ fun ω => (I ω).b1
  b2 : Named ψ fun ω => (I ω).b2
  gen2 : Named ψ fun _ => E.gen2

variable {I : Ω → Instance G1 G2}

theorem simParam_named (N : NamedInstance φ ψ E I) (cs : UInt8) (d : Nat) (w : List Nat) (M : Fr)
    (k : Coin d → Fr) : ∃ pp : PubParam S1 S2, pp.depth = d ∧
      ∀ ω, simParam E cs d w M (I ω) k = pp.image (φ ω) (ψ ω) := by
  obtain ⟨g2, h2⟩ := N.gen2
  obtain ⟨h, hh⟩ := ((N.at1 0).smul (k .h).val).add (N.at1 d)
  obtain ⟨l, hl⟩ := Named.list (χ := φ) (n := d + 1) (F := fun i ω => (k (.gen i)).val • (I ω).at1 0 +
    (if i.val = 0 then ∑ j ∈ Finset.Icc 1 d, (coefs d w M j).val • (I ω).at1 (d + 1 - j)
    else - (I ω).at1 (d + 1 - i))) (fun i => by
      refine ((N.at1 0).smul _).add ?_
      by_cases hi : i.val = 0
      · simp only [if_pos hi]
        exact Named.sum _ fun j _ => (N.at1 _).smul _
      · simp only [if_neg hi]
        exact (N.at1 _).neg)
  refine ⟨⟨d, cs, g2, h, l⟩, rfl, fun ω => ?_⟩
  simp only [simParam, PubParam.image, hh, hl, h2 ω]

theorem simFirst_named (N : NamedInstance φ ψ E I) (d : Nat) (w : List Nat) (M : Fr) (c : Nat → Fr)
    (r : Fr) : Named ψ fun ω => simFirst E d w M (I ω) c r :=
  (N.gen2.smul _).add ((N.at2 _).smul _)

theorem simSecond_named (N : NamedInstance φ ψ E I) (cs : UInt8) (d : Nat) (w : List Nat) (M : Fr)
    (k : Coin d → Fr) (v : List Nat) (M' r : Fr) :
    Named φ fun ω => simSecond E cs d w M (I ω) k v M' r := by
  obtain ⟨pp, _, hpp⟩ := simParam_named N cs d w M k
  unfold simSecond
  simp only [hpp, sigPoint_image]
  exact ((((N.at1 1).smul _).add ((Named.of _).smul _)).add
    (Named.sum _ fun i _ => (N.at1 _).smul _)).add (Named.sum _ fun i _ => (N.at1 _).smul _)

theorem simVector_named (N : NamedInstance φ ψ E I) (d : Nat) (w : List Nat) (M : Fr)
    (k : Coin d → Fr) (c : Nat → Fr) (r : Fr) (i : Fin (d + 1)) :
    Named φ fun ω => simVector d w M (I ω) k c r i :=
  (((((N.at1 0).smul _).smul _).sub ((N.at1 _).smul _)).add ((N.at1 _).smul _)).sub ((N.at1 _).smul _)

theorem simAnswer_named (N : NamedInstance φ ψ E I) (cs : UInt8) (d : Nat) (w : List Nat) (M : Fr)
    (k : Coin d → Fr) (r : Fr) (q : Query) : ∃ a : Answer S1 S2, ∀ ω,
      simAnswer E cs d w M (I ω) k r q = Answer.image (φ ω) (ψ ω) a := by
  rcases q with ⟨t, v⟩ | ⟨t, v, M'⟩ | _
  · obtain ⟨x, hx⟩ := simFirst_named N d w M (coefs d v 0) r
    obtain ⟨y, hy⟩ := simSecond_named N cs d w M k v 0 r
    obtain ⟨l, hl⟩ := Named.list fun i => simVector_named N d w M k (coefs d v 0) r i
    refine ⟨.subKey ⟨t, x, y, l.drop (v.length + 1)⟩, fun ω => ?_⟩
    simp only [simAnswer, Answer.image, SubSecretKey.image, hx ω, hy ω, List.map_drop, ← hl ω]
  · obtain ⟨x, hx⟩ := simFirst_named N d w M (coefs d v M') r
    obtain ⟨y, hy⟩ := simSecond_named N cs d w M k v M' r
    refine ⟨.signature ⟨cs, t, x, y⟩, fun ω => ?_⟩
    simp only [simAnswer, Answer.image, Signature.image, hx ω, hy ω]
  · obtain ⟨pp, _, hpp⟩ := simParam_named N cs d w M k
    refine ⟨.point (r.val • pp.h), fun ω => ?_⟩
    simp only [simAnswer, Answer.image, hpp ω, PubParam.image, map_nsmul]

theorem strip_named (us : List Fr) (l : List (Partner S1 S2)) :
    Named φ fun ω => stripOf us (l.map (Partner.image (φ ω) (ψ ω))) := by
  unfold stripOf
  induction l with
  | nil => exact Named.zero
  | cons c l ih =>
    simp only [List.map_cons, List.sum_cons]
    refine Named.add ?_ ih
    obtain ⟨key, p, pop⟩ := c
    rcases p with _ | p
    · exact Named.zero
    · exact (Named.of pop).smul _

theorem copies_image (φ : S1 →+ G1) (ψ : S2 →+ G2) (l : List (Partner S1 S2)) :
    copies (l.map (Partner.image φ ψ)) = copies l := by
  unfold copies
  rw [List.countP_map]
  rfl

theorem reduce_box (N : NamedInstance φ ψ E I) (cs : UInt8) (d : Nat) (w : List Nat) (M : Fr)
    (k : Coin d → Fr) {m : Nat} {f : Ω → Player G1 G2} (hf : PlayBox E φ ψ m f) (us : List Fr) :
    GuessBox E φ ψ m fun ω => (f ω).reduce E cs d w M (I ω) k us := by
  induction hf generalizing us with
  | toss _ ih => exact .toss fun c => ih c us
  | @ask _ q f _ ih =>
    refine .draw fun r => ?_
    obtain ⟨a, ha⟩ := simAnswer_named N cs d w M k r q
    simp only [ha]
    exact ih a _
  | test q _ _ ih ih' =>
    refine (GuessBox.test q (ih us) (ih' us)).of_eq fun ω => ?_
    by_cases h : q.Holds E (φ ω) (ψ ω)
    · simp only [if_pos h]
    · simp only [if_neg h]
  | forge F =>
    obtain ⟨x, hx⟩ := (((Named.of (χ := φ) F.sigma2).sub (strip_named (ψ := ψ) us F.cosigners)).smul
      (((copies F.cosigners + 1 : Nat) : Fr)⁻¹).val).sub ((N.at1 1).smul (k .h).val)
    obtain ⟨y, hy⟩ := N.b1.smul (-((((copies F.cosigners + 1 : Nat) : Fr)⁻¹) *
      ∑ i : Fin (d + 1), coefs d w M i * k (.gen i))).val
    obtain ⟨z, hz⟩ := N.b2
    refine (GuessBox.out [(z, x), (F.sigma1, y)]).of_eq fun ω => ?_
    simp only [Player.reduce, extract, tee, List.map_cons, List.map_nil, List.prod_cons, List.prod_nil,
      mul_one, ← hx ω, ← hy ω, ← hz ω, Claim.image, copies_image]

end General

/-! ## The names of the elements made from an instance -/

section Concrete

variable {G1 G2 GT : Type} [AddCommGroup G1] [AddCommGroup G2] [CommGroup GT]
  {E : Ext G1 G2 GT} {g : G1}

/-- combinations of the elements of an instance -/
abbrev Name := (Nat → Fr) × Fr

/-- as a `Mix` -/
def Name.mix (c : Name) : Mix := ⟨c.1, c.2⟩

/-- its exponent -/
noncomputable def nameValue (d : Nat) (ω : Fr × Fr) : Name →+ Fr where
  toFun c := Box.mixE d ω.1 ω.2 (Name.mix c)
  map_zero' := by simp [Box.mixE, Name.mix]
  map_add' a b := by
    simp only [Box.mixE, Name.mix, Prod.fst_add, Prod.snd_add, Pi.add_apply, add_smul,
      Finset.sum_add_distrib]
    ring

/-- the element -/
noncomputable def nameIn {A : Type} [AddCommGroup A] (a : A) (ha : rOrder • a = 0) (d : Nat) (ω : Fr × Fr) :
    Name →+ A := (expHom a ha).comp (nameValue d ω)

theorem nameIn1 (hg : rOrder • g = 0) (d : Nat) (ω : Fr × Fr) (c : Name) :
    nameIn g hg d ω c = (instanceOf E g d ω.1 ω.2).mix1 (Name.mix c) := (Box.mix1_eq hg d _ _ _).symm

theorem nameIn2 (hg2 : rOrder • E.gen2 = 0) (d : Nat) (ω : Fr × Fr) (c : Name) :
    nameIn E.gen2 hg2 d ω c = (instanceOf E g d ω.1 ω.2).mix2 (Name.mix c) :=
  (Box.mix2_eq hg2 d _ _ _).symm

theorem value_power {d i : Nat} (hi : i ≤ d) (ω : Fr × Fr) :
    nameValue d ω (fun j => if j = i then 1 else 0, 0) = ω.1 ^ i := by
  show (∑ j : Fin (d + 1), (if j.val = i then (1 : Fr) else 0) • ω.1 ^ j.val) + (0 : Fr) • ω.2 = _
  rw [Finset.sum_eq_single (⟨i, by omega⟩ : Fin (d + 1))]
  · simp
  · intro j _ hj
    rw [if_neg fun h => hj (Fin.ext h), zero_smul]
  · simp

theorem value_b (d : Nat) (ω : Fr × Fr) : nameValue d ω (fun _ => 0, 1) = ω.2 := by
  show (∑ j : Fin (d + 1), (0 : Fr) • ω.1 ^ j.val) + (1 : Fr) • ω.2 = _
  simp

theorem powers_named {A : Type} [AddCommGroup A] (a : A) (ha : rOrder • a = 0) (d i : Nat) :
    Named (nameIn a ha d) fun ω =>
      (List.ofFn fun j : Fin (d + 1) => (ω.1 ^ j.val).val • a).getD i 0 := by
  by_cases hi : i ≤ d
  · refine ⟨(fun j => if j = i then 1 else 0, 0), fun ω => ?_⟩
    simp only []
    rw [List.getD_eq_getElem?_getD, List.getElem?_ofFn, dif_pos (by omega)]
    show _ = expHom a ha (nameValue d ω _)
    rw [value_power hi]
    rfl
  · refine ⟨0, fun ω => ?_⟩
    simp only []
    rw [map_zero, List.getD_eq_default]
    rw [List.length_ofFn]
    omega

theorem instance_named (hg : rOrder • g = 0) (hg2 : rOrder • E.gen2 = 0) (d : Nat) :
    NamedInstance (nameIn g hg d) (nameIn E.gen2 hg2 d) E
      (fun ω : Fr × Fr => instanceOf E g d ω.1 ω.2) where
  at1 i := powers_named g hg d i
  at2 i := powers_named E.gen2 hg2 d i
  b1 := ⟨(fun _ => 0, 1), fun ω => by
    show _ = expHom g hg (nameValue d ω _)
    rw [value_b]
    rfl⟩
  b2 := ⟨(fun _ => 0, 1), fun ω => by
    show _ = expHom E.gen2 hg2 (nameValue d ω _)
    rw [value_b]
    rfl⟩
  gen2 := ⟨(fun j => if j = 0 then 1 else 0, 0), fun ω => by
    show _ = expHom E.gen2 hg2 (nameValue d ω _)
    rw [value_power (Nat.zero_le d), pow_zero]
    show _ = (1 : Fr).val • E.gen2
    rw [ZMod.val_one'' (by decide), one_smul]⟩

/-! ## The algorithm -/

theorem solver_of (hg : rOrder • g = 0) (hg2 : rOrder • E.gen2 = 0) {d m : Nat} {f : Fr × Fr → Guess GT}
    (hf : GuessBox E (nameIn g hg d) (nameIn E.gen2 hg2 d) m f) : ∃ S : Solver, S.Tests m ∧
      ∀ ω z, (f ω).chance z = (S.run E (instanceOf E g d ω.1 ω.2)).chance z := by
  have ht : ∀ (ω : Fr × Fr) (l : List (Name × Name)), tee E (nameIn g hg d ω) (nameIn E.gen2 hg2 d ω) l =
      (instanceOf E g d ω.1 ω.2).mixT E (l.map fun p => (Name.mix p.1, Name.mix p.2)) := by
    intro ω l
    simp only [tee, Instance.mixT, List.map_map]
    congr 1
    refine List.map_congr_left fun p _ => ?_
    simp only [Function.comp, nameIn1 (E := E) hg, nameIn2 (g := g) hg2]
  induction hf with
  | @toss m n hn f _ ih =>
    choose S h1 h2 using ih
    exact ⟨.toss n hn S, h1, fun ω z => avg_congr fun c => h2 c ω z⟩
  | @draw m f _ ih =>
    choose S h1 h2 using ih
    refine ⟨.toss rOrder (Nat.pos_of_ne_zero (NeZero.ne rOrder)) fun c => S (dieEquiv c),
      fun c => h1 _, fun ω z => ?_⟩
    refine (avg_congr fun c => h2 c ω z).trans ?_
    exact (avg_equiv dieEquiv fun r => ((S r).run E (instanceOf E g d ω.1 ω.2)).chance z).symm
  | @test m f f' q _ _ ih ih' =>
    obtain ⟨S, h1, h2⟩ := ih
    obtain ⟨S', h1', h2'⟩ := ih'
    rcases q with c | c | l
    · refine ⟨.isZero1 (Name.mix c) S S', ⟨Nat.succ_pos _, h1, h1'⟩, fun ω z => ?_⟩
      have hq : Ask.Holds E (nameIn g hg d ω) (nameIn E.gen2 hg2 d ω) (.zero1 c) ↔
          (instanceOf E g d ω.1 ω.2).mix1 (Name.mix c) = 0 := by
        simp only [Ask.Holds, nameIn1 (E := E) hg]
      by_cases h : (instanceOf E g d ω.1 ω.2).mix1 (Name.mix c) = 0
      · simp only [Solver.run, if_pos (hq.2 h), if_pos h, h2]
      · simp only [Solver.run, if_neg fun h' => h (hq.1 h'), if_neg h, h2']
    · refine ⟨.isZero2 (Name.mix c) S S', ⟨Nat.succ_pos _, h1, h1'⟩, fun ω z => ?_⟩
      have hq : Ask.Holds E (nameIn g hg d ω) (nameIn E.gen2 hg2 d ω) (.zero2 c) ↔
          (instanceOf E g d ω.1 ω.2).mix2 (Name.mix c) = 0 := by
        simp only [Ask.Holds, nameIn2 (g := g) hg2]
      by_cases h : (instanceOf E g d ω.1 ω.2).mix2 (Name.mix c) = 0
      · simp only [Solver.run, if_pos (hq.2 h), if_pos h, h2]
      · simp only [Solver.run, if_neg fun h' => h (hq.1 h'), if_neg h, h2']
    · refine ⟨.isOneT (l.map fun p => (Name.mix p.1, Name.mix p.2)) S S',
        ⟨Nat.succ_pos _, h1, h1'⟩, fun ω z => ?_⟩
      have hq : Ask.Holds E (nameIn g hg d ω) (nameIn E.gen2 hg2 d ω) (.oneT l) ↔
          (instanceOf E g d ω.1 ω.2).mixT E (l.map fun p => (Name.mix p.1, Name.mix p.2)) = 1 := by
        simp only [Ask.Holds, ht]
      by_cases h : (instanceOf E g d ω.1 ω.2).mixT E (l.map fun p => (Name.mix p.1, Name.mix p.2)) = 1
      · simp only [Solver.run, if_pos (hq.2 h), if_pos h, h2]
      · simp only [Solver.run, if_neg fun h' => h (hq.1 h'), if_neg h, h2']
  | out l =>
    refine ⟨.out (l.map fun p => (Name.mix p.1, Name.mix p.2)), trivial, fun ω z => ?_⟩
    simp only [ht, Solver.run]

/-- the reduction is black-box -/
theorem reduction_box (hg : rOrder • g = 0) (hg2 : rOrder • E.gen2 = 0) (pf : Profile) {cs : UInt8}
    {d : Nat} {B : Nat} {P : BoxPlayer} {b : Budget} (hP : P.Keeps B b) (t i : Nat) (k : Coin d → Fr) :
    GuessBox E (nameIn g hg d) (nameIn E.gen2 hg2 d) b.tests fun ω =>
      roReduction E cs d (path d t) i (apiBet pf d t (hashLift pf d t (P.against E)))
        (instanceOf E g d ω.1 ω.2) k := by
  have N := instance_named (E := E) hg hg2 d
  refine .toss fun D0 => reduce_box N cs d (path d t) (Digest.field D0) k (plain_box i D0 ?_ []) []
  obtain ⟨pp, hd, hpp⟩ := simParam_named N cs d (path d t) (Digest.field D0) k
  obtain ⟨pk, hpk⟩ := N.at2 1
  obtain ⟨q, hq⟩ := (N.at1 0).smul (k .q).val
  obtain ⟨pop, hpop⟩ := (N.at1 1).smul (k .q).val
  have hbox := lift_box pf pp t (play_box (E := E) (φ := nameIn g hg d) (ψ := nameIn E.gen2 hg2 d) P hP
    (pp.h :: q :: pop :: pp.hlist) [pp.g2, pk]) 1 [] []
  refine (bet_box pf pp d t hbox .start).of_eq fun ω => ?_
  simp only [apiBet, hashLift, simWorld, BoxPlayer.against, hpp ω, hq ω, hpop ω, hpk ω]
  rw [if_pos (show (pp.image (nameIn g hg d ω) (nameIn E.gen2 hg2 d ω)).depth = d from hd)]
  rfl

theorem reduction_bound (L : GroupLaws E) (hsub : E.inSub1 g = true) (hne : g ≠ 0) (pf : Profile)
    {cs : UInt8} {d : Nat} (hd : 1 ≤ d) (hd' : d ≤ 63) {B : Nat} {P : BoxPlayer} {b : Budget}
    (hP : P.Keeps B b) (t i : Nat) :
    solveChance E g d (roReduction E cs d (path d t) i (apiBet pf d t (hashLift pf d t (P.against E)))) ≤
      ((b.tests + 1) * (2 * d + 1)) / rOrder := by
  have hg := L.sub1_order _ hsub
  have hg2 := L.sub2_order _ L.gen2_sub
  choose S h1 h2 using fun k : Coin d → Fr =>
    solver_of hg hg2 (reduction_box (E := E) (cs := cs) hg hg2 pf hP t i k)
  have e : solveChance E g d (roReduction E cs d (path d t) i (apiBet pf d t (hashLift pf d t
      (P.against E)))) = solveChance E g d (fun I k => (S k).run E I) := by
    unfold solveChance
    exact avg_congr fun γ => avg_congr fun c => avg_congr fun k => h2 k (γ, c) _
  rw [e, Box.solveChance_at]
  refine ((avg_mono fun k => Box.at_bound L hsub hne hd hd' (S k) (h1 k)).trans
    (avg_const _).le).trans (le_of_eq ?_)
  push_cast
  rfl

/-! ## The budget -/

theorem play_legal {B : Nat} (P : BoxPlayer) {b : Budget} (h : P.Keeps B b) (k1 : List G1)
    (k2 : List G2) : (P.play E k1 k2).Legal := by
  induction P generalizing b k1 k2 with
  | toss n hn next ih => exact fun c => ih c (h c) k1 k2
  | eval m next ih => exact fun x => ih x (h.2.2 x) k1 k2
  | test q y n ihy ihn =>
    by_cases hq : q.Holds E k1 k2
    · simp only [BoxPlayer.play, if_pos hq]
      exact ihy h.2.1 k1 k2
    · simp only [BoxPlayer.play, if_neg hq]
      exact ihn h.2.2 k1 k2
  | point next ih => exact fun p => ih h.2 _ _
  | sign msg next ih => exact fun y => ih h.2.2 _ _
  | update t s next ih => exact ih h.2.2 k1 k2
  | breakIn next ih => exact fun sk => ih _ _ (h _ _) _ _
  | forge F =>
    show (F.cosigners.map _).length + 1 < rOrder
    rw [List.length_map]
    exact h.2

theorem play_points {B : Nat} (P : BoxPlayer) {b : Budget} (h : P.Keeps B b) (k1 : List G1)
    (k2 : List G2) : (P.play E k1 k2).Points b.points := by
  induction P generalizing b k1 k2 with
  | toss n hn next ih => exact fun c => ih c (h c) k1 k2
  | eval m next ih => exact fun x => ih x (h.2.2 x) k1 k2
  | test q y n ihy ihn =>
    by_cases hq : q.Holds E k1 k2
    · simp only [BoxPlayer.play, if_pos hq]
      exact ihy h.2.1 k1 k2
    · simp only [BoxPlayer.play, if_neg hq]
      exact ihn h.2.2 k1 k2
  | point next ih => exact ⟨h.1, fun p => ih h.2 _ _⟩
  | sign msg next ih => exact fun y => ih h.2.2 _ _
  | update t s next ih => exact ih h.2.2 k1 k2
  | breakIn next ih => exact fun sk => ih _ _ (h _ _) _ _
  | forge F => trivial

theorem play_within {B : Nat} (P : BoxPlayer) {b : Budget} (h : P.Keeps B b) (k1 : List G1)
    (k2 : List G2) : (P.play E k1 k2).Within B b.evals b.signs b.updates := by
  induction P generalizing b k1 k2 with
  | toss n hn next ih => exact fun c => ih c (h c) k1 k2
  | eval m next ih => exact ⟨h.1, h.2.1, fun x => ih x (h.2.2 x) k1 k2⟩
  | test q y n ihy ihn =>
    by_cases hq : q.Holds E k1 k2
    · simp only [BoxPlayer.play, if_pos hq]
      exact ihy h.2.1 k1 k2
    · simp only [BoxPlayer.play, if_neg hq]
      exact ihn h.2.2 k1 k2
  | point next ih => exact fun p => ih h.2 _ _
  | sign msg next ih => exact ⟨h.1, h.2.1, fun y => ih h.2.2 _ _⟩
  | update t s next ih => exact ⟨h.1, h.2.1, ih h.2.2 k1 k2⟩
  | breakIn next ih => exact fun sk => ih _ _ (h _ _) _ _
  | forge F => exact h.1

end Concrete

end Pixel
