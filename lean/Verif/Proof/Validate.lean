import Verif.Proof.Verify
import Verif.Props.SubKey
import Verif.Proof.Serdes
import Verif.Spec.Check

/-!
# Lemmas about `SecretKey::validate` on arbitrary keys
-/

namespace Pixel

open Spec Props

set_option linter.unusedSectionVars false

variable {G1 G2 GT : Type} [AddCommGroup G1] [AddCommGroup G2] [CommGroup GT]

namespace SecretKey

/-- the loop of `validate`, as a recursion over the two lists -/
def chk [DecidableEq GT] (E : Ext G1 G2 GT) (pf : Profile) (pk : PublicKey G2)
    (pp : PubParam G1 G2) : List TimeVec → List (SubSecretKey G1 G2) → Res Bool
  | _, [] => .ok true
  | [], s :: _ => do
    let v ← s.validate E pf pk pp
    if !v then .ok false else .panic .index
  | g :: gl, s :: ss => do
    let v ← s.validate E pf pk pp
    if !v then .ok false
    else if s.time ≠ g.time then .ok false else chk E pf pk pp gl ss

theorem validateLoop_eq [DecidableEq GT] (E : Ext G1 G2 GT) (pf : Profile) (pk : PublicKey G2)
    (pp : PubParam G1 G2) (gl : List TimeVec) (ssk : List (SubSecretKey G1 G2)) (n : Nat) :
    ∀ i, i + n = ssk.length → validateLoop E pf pk pp gl ssk (List.range' i n) =
      chk E pf pk pp (gl.drop i) (ssk.drop i) := by
  induction n with
  | zero =>
    intro i h
    rw [List.drop_of_length_le (l := ssk) (by omega), List.range'_zero, validateLoop, chk]
  | succ n ih =>
    intro i h
    have hi : i < ssk.length := by omega
    rw [List.range'_succ, validateLoop, idx_lt hi, Res.ok_bind, List.drop_eq_getElem_cons hi]
    by_cases hg : i < gl.length
    · rw [List.drop_eq_getElem_cons hg, chk, ih (i + 1) (by omega), idx_lt hg]
      rfl
    · rw [List.drop_of_length_le (l := gl) (by omega), chk, idx_ge (by omega)]
      rfl

theorem validateLoop_chk [DecidableEq GT] (E : Ext G1 G2 GT) (pf : Profile) (pk : PublicKey G2)
    (pp : PubParam G1 G2) (gl : List TimeVec) (ssk : List (SubSecretKey G1 G2)) :
    validateLoop E pf pk pp gl ssk (List.range ssk.length) = chk E pf pk pp gl ssk := by
  rw [List.range_eq_range', validateLoop_eq E pf pk pp gl ssk ssk.length 0 (by omega)]
  rfl

theorem validate_chk [DecidableEq GT] (E : Ext G1 G2 GT) (pf : Profile) {pp : PubParam G1 G2}
    (hd : pp.depth ≤ 63) (sk : SecretKey G1 G2) (pk : PublicKey G2) :
    ((sk.ciphersuite = pk.ciphersuite ∧ sk.ciphersuite = pp.ciphersuite ∧
        ValidTime pp.depth sk.time) →
      validate E pf sk pk pp =
        chk E pf pk pp ((gam (path pp.depth sk.time)).map (tvOf pp.depth)) sk.ssk) ∧
    (¬ (sk.ciphersuite = pk.ciphersuite ∧ sk.ciphersuite = pp.ciphersuite ∧
        ValidTime pp.depth sk.time) → validate E pf sk pk pp = .ok false) := by
  constructor
  · rintro ⟨h1, h2, h3⟩
    have hn : NodeAt pp.depth sk.time (path pp.depth sk.time) := nodeAt_iff.2 ⟨h3, rfl⟩
    have hnode := nodeAt_isNode hn
    have hnum := nodeAt_num_eq hn
    simp only [validate]
    rw [if_neg (by rw [← h1, ← h2]; simp)]
    have hi := init_num (pf := pf) hd hnode
    rw [hnum] at hi
    rw [hi]
    simp only []
    rw [gammaList_eq hd hnode]
    exact validateLoop_chk E pf pk pp _ _
  · intro h
    simp only [validate]
    by_cases h1 : sk.ciphersuite ≠ pk.ciphersuite ∨ sk.ciphersuite ≠ pp.ciphersuite
    · rw [if_pos h1]
    · rw [if_neg h1]
      push Not at h1
      rcases init_cases (pf := pf) (t := sk.time) hd with ⟨hv, _⟩ | ⟨_, e, he⟩
      · exact absurd ⟨h1.1, h1.2, hv⟩ h
      · rw [he]

/-- outcomes of the loop for sub keys with elements of the subgroup -/
theorem chk_cases [DecidableEq GT] {E : Ext G1 G2 GT} (L : GroupLaws E) (pf : Profile)
    {pp : PubParam G1 G2} (W : ParamWF E pp) {pk : PublicKey G2} {x : Nat}
    (hpk : pk.pk = x • pp.g2) (vs : List (List Nat)) (hvs : ∀ v ∈ vs, IsNode pp.depth v)
    (ssk : List (SubSecretKey G1 G2))
    (hsub : ∀ s ∈ ssk, E.inSub2 s.g2r = true ∧ E.inSub1 s.hpoly = true) :
    (chk E pf pk pp (vs.map (tvOf pp.depth)) ssk = .ok true ∧
      List.Forall₂ (HeadFor pp (x • pp.h)) (vs.take ssk.length) ssk) ∨
    (chk E pf pk pp (vs.map (tvOf pp.depth)) ssk = .panic .index ∧ vs.length < ssk.length ∧
      List.Forall₂ (HeadFor pp (x • pp.h)) vs (ssk.take vs.length) ∧
      ∃ s w, ssk[vs.length]? = some s ∧ HeadFor pp (x • pp.h) w s) ∨
    (chk E pf pk pp (vs.map (tvOf pp.depth)) ssk = .ok false ∧
      ¬ List.Forall₂ (HeadFor pp (x • pp.h)) (vs.take ssk.length) ssk ∧
      ¬ (List.Forall₂ (HeadFor pp (x • pp.h)) vs (ssk.take vs.length) ∧
        ∃ s w, ssk[vs.length]? = some s ∧ HeadFor pp (x • pp.h) w s)) := by
  induction ssk generalizing vs with
  | nil =>
    left
    exact ⟨by rw [chk], by simp⟩
  | cons s ss ih =>
    obtain ⟨hg, hp⟩ := hsub s (by simp)
    obtain ⟨rho, hrho⟩ := L.gen2_gen _ hg
    rw [← W.g2_gen] at hrho
    obtain ⟨hb, hiff⟩ := C10_validate_exact L pf W hpk hrho hp
    have hhead : (∃ w, HeadFor pp (x • pp.h) w s) ↔ s.validate E pf pk pp = .ok true := by
      constructor
      · rintro ⟨w, h1, rho', h2, h3⟩
        exact (C10_validate_exact L pf W hpk h2 hp).2.2 ⟨w, h1, h3⟩
      · intro h
        obtain ⟨w, h1, h2⟩ := hiff.1 h
        exact ⟨w, h1, rho, hrho, h2⟩
    rcases hb with hb | hb
    · obtain ⟨w, hw⟩ := hhead.2 hb
      cases vs with
      | nil =>
        rw [List.map_nil, chk, hb, Res.ok_bind]
        right; left
        exact ⟨rfl, by simp, by simp, s, w, rfl, hw⟩
      | cons v vs =>
        rw [List.map_cons, chk, hb, Res.ok_bind]
        simp only [Bool.not_true, Bool.false_eq_true, if_false]
        have hvn := hvs v (by simp)
        have hwv : HeadFor pp (x • pp.h) v s ↔ s.time = (tvOf pp.depth v).time := by
          constructor
          · intro h
            rw [← nodeAt_num_eq h.1]
            rfl
          · intro h
            have : w = v := num_inj (nodeAt_isNode hw.1) hvn (by
              rw [nodeAt_num_eq hw.1, h]; rfl)
            exact this ▸ hw
        by_cases ht : s.time = (tvOf pp.depth v).time
        · rw [if_neg (by simpa using ht)]
          have hv := hwv.2 ht
          rcases ih vs (fun v hv => hvs v (by simp [hv])) (fun s hs => hsub s (by simp [hs])) with
            ⟨h1, h2⟩ | ⟨h1, h2, h3, h4⟩ | ⟨h1, h2, h3⟩
          · left
            exact ⟨h1, by simpa using ⟨hv, h2⟩⟩
          · right; left
            refine ⟨h1, by simp only [List.length_cons]; omega, by simpa using ⟨hv, h3⟩, ?_⟩
            simpa using h4
          · right; right
            refine ⟨h1, ?_, ?_⟩
            · simp only [List.length_cons, List.take_succ_cons, List.forall₂_cons]
              exact fun h => h2 h.2
            · simp only [List.length_cons, List.take_succ_cons, List.forall₂_cons,
                List.getElem?_cons_succ]
              exact fun h => h3 ⟨h.1.2, h.2⟩
        · rw [if_pos (by simpa using ht)]
          right; right
          refine ⟨rfl, ?_, ?_⟩
          · simp only [List.length_cons, List.take_succ_cons, List.forall₂_cons]
            exact fun h => ht (hwv.1 h.1)
          · simp only [List.length_cons, List.take_succ_cons, List.forall₂_cons]
            exact fun h => ht (hwv.1 h.1.1)
    · have hno : ¬ ∃ w, HeadFor pp (x • pp.h) w s := by
        rw [hhead, hb]
        intro h
        cases h
      right; right
      refine ⟨?_, ?_, ?_⟩
      · cases vs with
        | nil => rw [List.map_nil, chk, hb, Res.ok_bind]; rfl
        | cons v vs => rw [List.map_cons, chk, hb, Res.ok_bind]; rfl
      · cases vs with
        | nil => simp
        | cons v vs =>
          simp only [List.length_cons, List.take_succ_cons, List.forall₂_cons]
          exact fun h => hno ⟨v, h.1⟩
      · cases vs with
        | nil =>
          rintro ⟨_, s', w, h1, h2⟩
          cases Option.some.inj h1
          exact hno ⟨w, h2⟩
        | cons v vs =>
          simp only [List.length_cons, List.take_succ_cons, List.forall₂_cons]
          exact fun h => hno ⟨v, h.1.1⟩

end SecretKey

end Pixel
