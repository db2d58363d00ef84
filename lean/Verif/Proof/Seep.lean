import Verif.Spec.Seep
import Verif.Proof.Spill
import Verif.Proof.BlackSolve

/-! # Black-box forgers that look at the state of the generator -/

namespace Pixel

open Spec Props

set_option linter.unusedSectionVars false

section General

variable {Ω S1 S2 G1 G2 GT : Type} [AddCommGroup S1] [AddCommGroup S2] [AddCommGroup G1]
  [AddCommGroup G2] [CommGroup GT]
  {E : Ext G1 G2 GT} {φ : Ω → S1 →+ G1} {ψ : Ω → S2 →+ G2}

theorem HashBox.none {m : Nat} : HashBox E φ ψ m fun _ => .forge .none :=
  (HashBox.forge Claim.none).of_eq fun ω => by rw [none_image (φ ω) (ψ ω)]

theorem freed_box {B : Nat} (n : Nat) (P : SeepPlayer) {b : SeepBudget} (h : P.Keeps B b)
    (k1 : List S1) (k2 : List S2) :
    HashBox E φ ψ b.tests fun ω => (P.play E (k1.map (φ ω)) (k2.map (ψ ω))).freed n := by
  induction P generalizing b k1 k2 with
  | toss m hm next ih => exact .toss fun c => ih c (h c) k1 k2
  | eval m next ih => exact .eval fun x => ih x (h.2.2 x) k1 k2
  | test q y no ihy ihn =>
    obtain ⟨h1, h2, h3⟩ := h
    have := HashBox.test (E := E) (φ := φ) (ψ := ψ) (Question.names k1 k2 q) (ihy h2 k1 k2)
      (ihn h3 k1 k2)
    rw [Nat.sub_add_cancel h1] at this
    refine this.of_eq fun ω => ?_
    by_cases hq : (Question.names k1 k2 q).Holds E (φ ω) (ψ ω)
    · simp only [SeepPlayer.play, if_pos hq, if_pos ((holds_names (φ ω) (ψ ω) k1 k2 q).2 hq)]
    · simp only [SeepPlayer.play, if_neg hq,
        if_neg (fun h => hq ((holds_names (φ ω) (ψ ω) k1 k2 q).1 h))]
  | point next ih =>
    refine .point fun p => (ih h.2 (k1 ++ [p]) k2).of_eq fun ω => ?_
    simp only [List.map_append, List.map_cons, List.map_nil]
  | sign msg next ih =>
    refine .sign fun y => (ih h.2.2 (k1 ++ [y.sigma2]) (k2 ++ [y.sigma1])).of_eq fun ω => ?_
    simp only [List.map_append, List.map_cons, List.map_nil]
    rfl
  | update t s next ih => exact .update (ih h.2.2 k1 k2)
  | refresh t next ih => exact .toss fun s => .update (ih h.2.2 k1 k2)
  | look next ih =>
    exact .breakIn fun sk => ih sk.prng.seed (h _) k1 k2
  | breakIn next ih =>
    refine .breakIn fun sk => (ih sk.prng.seed (keyShape sk) (h _ _) (k1 ++ keyElements1 sk)
      (k2 ++ keyElements2 sk)).of_eq fun ω => ?_
    beta_reduce
    rw [keyElements1_image, keyElements2_image, keyShape_image, List.map_append, List.map_append]
    rfl
  | forge F =>
    refine (HashBox.forge (F.made k1 k2)).of_eq fun ω => ?_
    simp only [SeepPlayer.play, made_image, SpillPlayer.freed]

theorem shield_box {B : Nat} (n t0 d : Nat) (pp : Ω → PubParam G1 G2) (hpp : ∀ ω, (pp ω).depth = d)
    (P : SeepPlayer) {b : SeepBudget} (h : P.Keeps B b) (k1 : List S1) (k2 : List S2) (t : Nat)
    (se : Option Prng) (us : Bool) :
    HashBox E φ ψ b.tests fun ω =>
      (P.play E (k1.map (φ ω)) (k2.map (ψ ω))).shield n (pp ω) t0 t se us := by
  induction P generalizing b k1 k2 t se us with
  | toss m hm next ih => exact .toss fun c => ih c (h c) k1 k2 t se us
  | eval m next ih => exact .eval fun x => ih x (h.2.2 x) k1 k2 t se us
  | test q y no ihy ihn =>
    obtain ⟨h1, h2, h3⟩ := h
    have := HashBox.test (E := E) (φ := φ) (ψ := ψ) (Question.names k1 k2 q) (ihy h2 k1 k2 t se us)
      (ihn h3 k1 k2 t se us)
    rw [Nat.sub_add_cancel h1] at this
    refine this.of_eq fun ω => ?_
    by_cases hq : (Question.names k1 k2 q).Holds E (φ ω) (ψ ω)
    · simp only [SeepPlayer.play, if_pos hq, if_pos ((holds_names (φ ω) (ψ ω) k1 k2 q).2 hq)]
    · simp only [SeepPlayer.play, if_neg hq,
        if_neg (fun h => hq ((holds_names (φ ω) (ψ ω) k1 k2 q).1 h))]
  | point next ih =>
    refine .point fun p => (ih h.2 (k1 ++ [p]) k2 t se us).of_eq fun ω => ?_
    simp only [List.map_append, List.map_cons, List.map_nil]
  | sign msg next ih =>
    by_cases hs : se.isSome
    · refine HashBox.none.of_eq fun ω => ?_
      simp only [SeepPlayer.play, SpillPlayer.shield, if_pos hs]
    · have := HashBox.sign (E := E) (φ := φ) (ψ := ψ) (s := msg) (m := b.tests)
        (f := fun ω s => (next.play E (k1.map (φ ω) ++ [s.sigma2]) (k2.map (ψ ω) ++ [s.sigma1])).shield n
          (pp ω) t0 t se true) fun y => (ih h.2.2 (k1 ++ [y.sigma2]) (k2 ++ [y.sigma1]) t se
          true).of_eq fun ω => by
            simp only [List.map_append, List.map_cons, List.map_nil]
            rfl
      refine this.of_eq fun ω => ?_
      simp only [SeepPlayer.play, SpillPlayer.shield, if_neg hs]
  | update tar s next ih =>
    by_cases hv : t < tar ∧ tar ≤ 2 ^ d - 1
    · by_cases hs : se.isSome
      · refine HashBox.none.of_eq fun ω => ?_
        simp only [SeepPlayer.play, SpillPlayer.shield, hpp, if_pos hv, if_pos hs]
      · by_cases ht : tar ≤ t0
        · refine (HashBox.update (t := tar) (s := s) (ih h.2.2 k1 k2 tar se false)).of_eq fun ω => ?_
          simp only [SeepPlayer.play, SpillPlayer.shield, hpp, if_pos hv, if_neg hs, if_pos ht]
        · refine (HashBox.update (t := tar) (s := s) (freed_box n next h.2.2 k1 k2)).of_eq fun ω => ?_
          simp only [SeepPlayer.play, SpillPlayer.shield, hpp, if_pos hv, if_neg hs, if_neg ht]
    · refine (HashBox.update (t := tar) (s := s) (ih h.2.2 k1 k2 t se us)).of_eq fun ω => ?_
      simp only [SeepPlayer.play, SpillPlayer.shield, hpp, if_neg hv]
  | refresh tar next ih =>
    by_cases hv : t < tar ∧ tar ≤ 2 ^ d - 1
    · by_cases ht : tar ≤ t0
      · refine (HashBox.update (t := tar) (s := []) (ih h.2.2 k1 k2 tar none false)).of_eq fun ω => ?_
        simp only [SeepPlayer.play, SpillPlayer.shield, hpp, if_pos hv, if_pos ht]
      · refine (HashBox.update (t := tar) (s := []) (freed_box n next h.2.2 k1 k2)).of_eq fun ω => ?_
        simp only [SeepPlayer.play, SpillPlayer.shield, hpp, if_pos hv, if_neg ht]
    · refine (HashBox.update (t := tar) (s := []) (ih h.2.2 k1 k2 t se us)).of_eq fun ω => ?_
      simp only [SeepPlayer.play, SpillPlayer.shield, hpp, if_neg hv]
  | look next ih =>
    by_cases hu : us
    · refine HashBox.none.of_eq fun ω => ?_
      cases se <;> simp only [SeepPlayer.play, SpillPlayer.shield, if_pos hu]
    · rcases se with _ | p
      · have := HashBox.toss (E := E) (φ := φ) (ψ := ψ) (m := b.tests) (hn := digests_pos)
          (f := fun ω (K : Fin (256 ^ 64)) => ((next (Digest.bytes K)).play E (k1.map (φ ω))
            (k2.map (ψ ω))).shield n (pp ω) t0 t (some ⟨Digest.bytes K⟩) us)
          fun K => ih _ (h _) k1 k2 t _ us
        refine this.of_eq fun ω => ?_
        simp only [SeepPlayer.play, SpillPlayer.shield, if_neg hu]
      · refine (ih p.seed (h _) k1 k2 t (some p) us).of_eq fun ω => ?_
        simp only [SeepPlayer.play, SpillPlayer.shield, if_neg hu]
  | breakIn next ih => exact HashBox.none
  | forge F =>
    refine (HashBox.forge (F.made k1 k2)).of_eq fun ω => ?_
    simp only [SeepPlayer.play, made_image, SpillPlayer.shield]

end General

section Concrete

variable {G1 G2 GT : Type} [AddCommGroup G1] [AddCommGroup G2] [CommGroup GT]
  {E : Ext G1 G2 GT} {g : G1}

theorem seep_box (hg : rOrder • g = 0) (hg2 : rOrder • E.gen2 = 0) (pf : Profile) {cs : UInt8}
    {d : Nat} {B : Nat} {P : SeepPlayer} {b : SeepBudget} (hP : P.Keeps B b) (n t i : Nat)
    (k : Coin d → Fr) :
    GuessBox E (nameIn g hg d) (nameIn E.gen2 hg2 d) b.tests fun ω =>
      roReduction E cs d (path d t) i (apiBet pf d t (hashLift pf d t (spillShield n t (P.against E))))
        (instanceOf E g d ω.1 ω.2) k := by
  have N := instance_named (E := E) hg hg2 d
  refine .toss fun D0 => reduce_box N cs d (path d t) (Digest.field D0) k (plain_box i D0 ?_ []) []
  obtain ⟨pp, hd, hpp⟩ := simParam_named N cs d (path d t) (Digest.field D0) k
  obtain ⟨pk, hpk⟩ := N.at2 1
  obtain ⟨q, hq⟩ := (N.at1 0).smul (k .q).val
  obtain ⟨pop, hpop⟩ := (N.at1 1).smul (k .q).val
  have hbox := lift_box pf pp t (shield_box (E := E) (φ := nameIn g hg d) (ψ := nameIn E.gen2 hg2 d)
    n t d (fun ω => pp.image (nameIn g hg d ω) (nameIn E.gen2 hg2 d ω)) (fun _ => hd) P hP
    (pp.h :: q :: pop :: pp.hlist) [pp.g2, pk] 1 none false) 1 [] []
  refine (bet_box pf pp d t hbox .start).of_eq fun ω => ?_
  simp only [apiBet, hashLift, simWorld, spillShield, SeepPlayer.against, hpp ω, hq ω, hpop ω, hpk ω]
  rw [if_pos (show (pp.image (nameIn g hg d ω) (nameIn E.gen2 hg2 d ω)).depth = d from hd)]
  rfl

theorem seep_bound (L : GroupLaws E) (hsub : E.inSub1 g = true) (hne : g ≠ 0) (pf : Profile)
    {cs : UInt8} {d : Nat} (hd : 1 ≤ d) (hd' : d ≤ 63) {B : Nat} {P : SeepPlayer} {b : SeepBudget}
    (hP : P.Keeps B b) (n t i : Nat) :
    solveChance E g d (roReduction E cs d (path d t) i
        (apiBet pf d t (hashLift pf d t (spillShield n t (P.against E))))) ≤
      ((b.tests + 1) * (2 * d + 1)) / rOrder := by
  have hg := L.sub1_order _ hsub
  have hg2 := L.sub2_order _ L.gen2_sub
  choose S h1 h2 using fun k : Coin d → Fr =>
    solver_of hg hg2 (seep_box (E := E) (cs := cs) hg hg2 pf hP n t i k)
  have e : solveChance E g d (roReduction E cs d (path d t) i (apiBet pf d t (hashLift pf d t
      (spillShield n t (P.against E))))) = solveChance E g d (fun I k => (S k).run E I) := by
    unfold solveChance
    exact avg_congr fun γ => avg_congr fun c => avg_congr fun k => h2 k (γ, c) _
  rw [e, Box.solveChance_at]
  refine ((avg_mono fun k => Box.at_bound L hsub hne hd hd' (S k) (h1 k)).trans
    (avg_const _).le).trans (le_of_eq ?_)
  push_cast
  rfl

/-! ## The budget -/

theorem seep_legal {B : Nat} (P : SeepPlayer) {b : SeepBudget} (h : P.Keeps B b) (k1 : List G1)
    (k2 : List G2) : (P.play E k1 k2).Legal := by
  induction P generalizing b k1 k2 with
  | toss n hn next ih => exact fun c => ih c (h c) k1 k2
  | eval m next ih => exact fun x => ih x (h.2.2 x) k1 k2
  | test q y n ihy ihn =>
    by_cases hq : q.Holds E k1 k2
    · simp only [SeepPlayer.play, if_pos hq]
      exact ihy h.2.1 k1 k2
    · simp only [SeepPlayer.play, if_neg hq]
      exact ihn h.2.2 k1 k2
  | point next ih => exact fun p => ih h.2 _ _
  | sign msg next ih => exact fun y => ih h.2.2 _ _
  | update t s next ih => exact ih h.2.2 k1 k2
  | refresh t next ih => exact ih h.2.2 k1 k2
  | look next ih => exact fun p => ih _ (h _) _ _
  | breakIn next ih => exact fun sk => ih _ _ (h _ _) _ _
  | forge F =>
    show (F.cosigners.map _).length + 1 < rOrder
    rw [List.length_map]
    exact h.2

theorem seep_points {B : Nat} (P : SeepPlayer) {b : SeepBudget} (h : P.Keeps B b) (k1 : List G1)
    (k2 : List G2) : (P.play E k1 k2).Points b.points := by
  induction P generalizing b k1 k2 with
  | toss n hn next ih => exact fun c => ih c (h c) k1 k2
  | eval m next ih => exact fun x => ih x (h.2.2 x) k1 k2
  | test q y n ihy ihn =>
    by_cases hq : q.Holds E k1 k2
    · simp only [SeepPlayer.play, if_pos hq]
      exact ihy h.2.1 k1 k2
    · simp only [SeepPlayer.play, if_neg hq]
      exact ihn h.2.2 k1 k2
  | point next ih => exact ⟨h.1, fun p => ih h.2 _ _⟩
  | sign msg next ih => exact fun y => ih h.2.2 _ _
  | update t s next ih => exact ih h.2.2 k1 k2
  | refresh t next ih => exact ih h.2.2 k1 k2
  | look next ih => exact fun p => ih _ (h _) _ _
  | breakIn next ih => exact fun sk => ih _ _ (h _ _) _ _
  | forge F => trivial

theorem seep_within {B : Nat} (P : SeepPlayer) {b : SeepBudget} (h : P.Keeps B b) (k1 : List G1)
    (k2 : List G2) : (P.play E k1 k2).Within B b.evals b.signs b.updates b.unseen := by
  induction P generalizing b k1 k2 with
  | toss n hn next ih => exact fun c => ih c (h c) k1 k2
  | eval m next ih => exact ⟨h.1, h.2.1, fun x => ih x (h.2.2 x) k1 k2⟩
  | test q y n ihy ihn =>
    by_cases hq : q.Holds E k1 k2
    · simp only [SeepPlayer.play, if_pos hq]
      exact ihy h.2.1 k1 k2
    · simp only [SeepPlayer.play, if_neg hq]
      exact ihn h.2.2 k1 k2
  | point next ih => exact fun p => ih h.2 _ _
  | sign msg next ih => exact ⟨h.1, h.2.1, fun y => ih h.2.2 _ _⟩
  | update t s next ih => exact ⟨h.1, h.2.1, ih h.2.2 k1 k2⟩
  | refresh t next ih => exact ⟨h.1, h.2.1, ih h.2.2 k1 k2⟩
  | look next ih => exact fun p => ih _ (h _) _ _
  | breakIn next ih => exact fun sk => ih _ _ (h _ _) _ _
  | forge F => exact h.1

end Concrete

end Pixel
