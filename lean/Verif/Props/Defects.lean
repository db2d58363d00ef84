import Verif.Proof.Defects
import Verif.Props.Agg
import Verif.Toy

/-!
# C31, continued: when an aggregate of arbitrary signatures is accepted

Vocabulary: `Verif/Spec/Defects.lean`; assumptions: `Verif/Spec/Laws.lean`.
-/

namespace Pixel.Props

open Pixel Pixel.Spec

variable {G1 G2 GT : Type} [AddCommGroup G1] [AddCommGroup G2] [CommGroup GT]

/-- C31: for signatures with arbitrary second components: each is accepted exactly if its defect is
zero, and the aggregate exactly if the defects add up to zero. -/
theorem C31_defects [DecidableEq GT] {E : Ext G1 G2 GT} (H : HashLaws E) (L : GroupLaws E)
    {pp : PubParam G1 G2} (W : ParamWF E pp) (pf : Profile) (hsup : Supported pp.ciphersuite) {t : Nat}
    {v : List Nat} (hv : NodeAt pp.depth t v) (msg : Bytes) {l : List (Share G1 G2)} (hne : l ≠ [])
    (hl : ∀ p ∈ l, p.For pp t) :
    (∀ p ∈ l, (Signature.verifyBytes E pf p.sig p.pk pp msg = .ok true ↔
      p.defect pp v (msgField E.sha512 pp.ciphersuite msg) = 0)) ∧
    ∃ s, Signature.aggregateWithoutValidate (l.map (·.sig)) = .ok s ∧
      (Signature.verifyBytesAggregated E pf s (l.map (·.pk)) pp msg = .ok true ↔
        (l.map fun p => p.defect pp v (msgField E.sha512 pp.ciphersuite msg)).sum = 0) := by
  refine ⟨fun p hp => ?_, ?_⟩
  · have h := hl p hp
    rw [accept_given H L W pf hsup h.key h.suite h.first (by rw [h.time]; exact hv) msg, Share.defect,
      sub_eq_zero]
  · obtain ⟨h1, h2, h3⟩ := shares_sums pp v (msgField E.sha512 pp.ciphersuite msg) l hl
    let s : Signature G1 G2 :=
      { ciphersuite := pp.ciphersuite, time := t, sigma1 := (l.map fun p => p.sig.sigma1).sum,
        sigma2 := (l.map fun p => p.sig.sigma2).sum }
    refine ⟨s, Signature.aggregate_ok_iff.2 ⟨by simpa using hne, ?_, by simp [s, Function.comp_def],
      by simp [s, Function.comp_def]⟩, ?_⟩
    · intro e he
      obtain ⟨p, hp, rfl⟩ := List.mem_map.1 he
      exact ⟨(hl p hp).suite, (hl p hp).time⟩
    · rw [C35_only_the_sum E pf s (l.map (·.pk)) pp msg (by simpa using hne) (by
          intro pk hpk
          obtain ⟨p, hp, rfl⟩ := List.mem_map.1 hpk
          exact (hl p hp).key_suite) pp.ciphersuite,
        accept_given H L W pf hsup (x := (l.map (·.x)).sum) (a := (l.map (·.a)).sum)
          (by simpa [Function.comp_def] using h1) rfl h2 hv msg]
      change (l.map fun p => p.sig.sigma2).sum = _ ↔ _
      rw [h3, add_eq_left]

/-- C31: a single bad signature cannot hide: if all the others are accepted, the aggregate is accepted
exactly if that one is. -/
theorem C31_one_bad_spoils [DecidableEq GT] {E : Ext G1 G2 GT} (H : HashLaws E) (L : GroupLaws E)
    {pp : PubParam G1 G2} (W : ParamWF E pp) (pf : Profile) (hsup : Supported pp.ciphersuite) {t : Nat}
    (ht : ValidTime pp.depth t) (msg : Bytes) {l1 l2 : List (Share G1 G2)} {p : Share G1 G2}
    (hl : ∀ q ∈ l1 ++ p :: l2, q.For pp t)
    (hok : ∀ q ∈ l1 ++ l2, Signature.verifyBytes E pf q.sig q.pk pp msg = .ok true) :
    ∃ s, Signature.aggregateWithoutValidate ((l1 ++ p :: l2).map (·.sig)) = .ok s ∧
      (Signature.verifyBytesAggregated E pf s ((l1 ++ p :: l2).map (·.pk)) pp msg = .ok true ↔
        Signature.verifyBytes E pf p.sig p.pk pp msg = .ok true) := by
  have hv : NodeAt pp.depth t (path pp.depth t) := nodeAt_iff.2 ⟨ht, rfl⟩
  set v := path pp.depth t
  obtain ⟨h1, s, h2, h3⟩ := C31_defects H L W pf hsup hv msg (l := l1 ++ p :: l2) (by simp) hl
  refine ⟨s, h2, ?_⟩
  rw [h3, h1 p (by simp)]
  have z : ∀ l : List (Share G1 G2), (∀ q ∈ l, q ∈ l1 ++ l2) →
      (l.map fun q => q.defect pp v (msgField E.sha512 pp.ciphersuite msg)).sum = 0 := by
    intro l hl'
    refine List.sum_eq_zero fun d hd => ?_
    obtain ⟨q, hq, rfl⟩ := List.mem_map.1 hd
    have hq' := hl' q hq
    exact (h1 q (by
      rcases List.mem_append.1 hq' with h | h
      · exact List.mem_append_left _ h
      · exact List.mem_append_right _ (List.mem_cons_of_mem _ h))).1 (hok q hq')
  rw [List.map_append, List.sum_append, List.map_cons, List.sum_cons, z l1 (fun q hq => by simp [hq]),
    z l2 (fun q hq => by simp [hq]), zero_add, add_zero]

/-! ### Concrete cases -/

section Examples
open Pixel.Toy

/-- a share for time 3 at depth 5 with a given defect -/
private def share (msg : Bytes) (x a : Nat) (e : G) : Share G G :=
  { pk := { ciphersuite := 1, pk := x • (param 5 1).g2 }
    sig := { ciphersuite := 1, time := 3, sigma1 := a • (param 5 1).g2
             sigma2 := x • (param 5 1).h +
               a • sigPoint (param 5 1) [1, 1] (msgField (ext sha0).sha512 1 msg) + e }
    x := x, a := a }

/-- three signers with defects: each signature is refused, the aggregate of the three is accepted, the
aggregate of the first two is not -/
example (msg : Bytes) :
    let p1 := share msg 3 2 (1, 0); let p2 := share msg 4 5 (2, 0); let p3 := share msg 6 7 (-3, 0)
    (∀ p ∈ [p1, p2, p3],
      Signature.verifyBytes (ext sha0) .release p.sig p.pk (param 5 1) msg ≠ .ok true) ∧
    (∃ s, Signature.aggregateWithoutValidate [p1.sig, p2.sig, p3.sig] = .ok s ∧
      Signature.verifyBytesAggregated (ext sha0) .release s [p1.pk, p2.pk, p3.pk] (param 5 1) msg =
        .ok true) ∧
    (∃ s, Signature.aggregateWithoutValidate [p1.sig, p2.sig] = .ok s ∧
      Signature.verifyBytesAggregated (ext sha0) .release s [p1.pk, p2.pk] (param 5 1) msg ≠
        .ok true) := by
  intro p1 p2 p3
  have W := param_wf sha0 (d := 5) (by omega) (by omega) 1
  have hv : NodeAt (param 5 1).depth 3 [1, 1] :=
    nodeAt_iff.2 ⟨⟨by decide +kernel, by decide +kernel⟩, by decide +kernel⟩
  have hd : ∀ x a e, (share msg x a e).defect (param 5 1) [1, 1]
      (msgField (ext sha0).sha512 (param 5 1).ciphersuite msg) = e := by
    intro x a e
    simp only [Share.defect, share]
    exact add_sub_cancel_left _ _
  have hf : ∀ x a e, (share msg x a e).For (param 5 1) 3 := fun x a e => ⟨rfl, rfl, rfl, rfl, rfl⟩
  obtain ⟨a1, s, a2, a3⟩ := C31_defects hashLaws (groupLaws sha0) W .release (Or.inr rfl) hv msg
    (l := [p1, p2, p3]) (by simp) (by simp [p1, p2, p3, hf])
  obtain ⟨-, s', b2, b3⟩ := C31_defects hashLaws (groupLaws sha0) W .release (Or.inr rfl) hv msg
    (l := [p1, p2]) (by simp) (by simp [p1, p2, hf])
  refine ⟨fun p hp hc => ?_, ⟨s, a2, a3.2 ?_⟩, ⟨s', b2, fun hc => ?_⟩⟩
  · have := (a1 p hp).1 hc
    simp only [List.mem_cons, List.not_mem_nil, or_false] at hp
    rcases hp with rfl | rfl | rfl <;> simp only [p1, p2, p3, hd] at this <;>
      exact absurd this (by decide +kernel)
  · simp only [List.map_cons, List.map_nil, p1, p2, p3, hd]
    decide +kernel
  · have := b3.1 hc
    simp only [List.map_cons, List.map_nil, p1, p2, hd] at this
    exact absurd this (by decide +kernel)

/-- two good signatures and one outside the subgroup: the aggregate is refused -/
example (msg : Bytes) :
    ∃ s, Signature.aggregateWithoutValidate
        [(share msg 3 2 0).sig, (share msg 4 5 (0, 1)).sig, (share msg 6 7 0).sig] = .ok s ∧
      Signature.verifyBytesAggregated (ext sha0) .release s
        [(share msg 3 2 0).pk, (share msg 4 5 (0, 1)).pk, (share msg 6 7 0).pk] (param 5 1) msg ≠
          .ok true := by
  have W := param_wf sha0 (d := 5) (by omega) (by omega) 1
  have hv : NodeAt (param 5 1).depth 3 [1, 1] :=
    nodeAt_iff.2 ⟨⟨by decide +kernel, by decide +kernel⟩, by decide +kernel⟩
  have hd : ∀ x a e, (share msg x a e).defect (param 5 1) [1, 1]
      (msgField (ext sha0).sha512 (param 5 1).ciphersuite msg) = e := by
    intro x a e
    simp only [Share.defect, share]
    exact add_sub_cancel_left _ _
  have hf : ∀ x a e, (share msg x a e).For (param 5 1) 3 := fun x a e => ⟨rfl, rfl, rfl, rfl, rfl⟩
  have one : ∀ x a e, Signature.verifyBytes (ext sha0) .release (share msg x a e).sig
      (share msg x a e).pk (param 5 1) msg = .ok true ↔ e = 0 := by
    intro x a e
    have := (C31_defects hashLaws (groupLaws sha0) W .release (Or.inr rfl) hv msg
      (l := [share msg x a e]) (by simp) (by simp [hf])).1 (share msg x a e) (by simp)
    rwa [hd] at this
  obtain ⟨s, h1, h2⟩ := C31_one_bad_spoils hashLaws (groupLaws sha0) W .release (Or.inr rfl) (t := 3)
    ⟨by decide +kernel, by decide +kernel⟩ msg (l1 := [share msg 3 2 0]) (l2 := [share msg 6 7 0])
    (p := share msg 4 5 (0, 1)) (by simp [hf]) (by simp [one])
  refine ⟨s, h1, fun hc => ?_⟩
  have := (one _ _ _).1 (h2.1 hc)
  exact absurd this (by decide +kernel)

end Examples

end Pixel.Props
