import Verif.Proof.Altered
import Verif.Props.Agg
import Verif.Spec.Defects

/-! # Helper lemmas for C31: defects of signatures -/

namespace Pixel.Props

open Pixel Pixel.Spec

variable {G1 G2 GT : Type} [AddCommGroup G1] [AddCommGroup G2] [CommGroup GT]

theorem getLastD_mem_zero {K : AddSubmonoid G1} {l : List G1} (h : ∀ a ∈ l, a ∈ K) : l.getLastD 0 ∈ K := by
  rw [List.getLastD_eq_getLast?]
  cases hl : l.getLast? with
  | none => exact K.zero_mem
  | some a => exact h a (List.mem_of_getLast? hl)

theorem sigPoint_mem {K : AddSubmonoid G1} {pp : PubParam G1 G2} (h : ∀ a ∈ pp.hlist, a ∈ K)
    (v : List Nat) (M : Fr) : sigPoint pp v M ∈ K := by
  rw [sigPoint]
  exact K.add_mem (nodePoint_mem h v) (K.nsmul_mem (getLastD_mem_zero h) _)

/-- acceptance, with the exponents given -/
theorem accept_given [DecidableEq GT] {E : Ext G1 G2 GT} (H : HashLaws E) (L : GroupLaws E)
    {pp : PubParam G1 G2} (W : ParamWF E pp) (pf : Profile) (hsup : Supported pp.ciphersuite)
    {sig : Signature G1 G2} {pk : PublicKey G2} {x a : Nat} (hpk : pk.pk = x • pp.g2)
    (hc : sig.ciphersuite = pp.ciphersuite) (ha : sig.sigma1 = a • pp.g2) {v : List Nat}
    (hv : NodeAt pp.depth sig.time v) (msg : Bytes) :
    Signature.verifyBytes E pf sig pk pp msg = .ok true ↔
      sig.sigma2 = x • pp.h + a • sigPoint pp v (msgField E.sha512 pp.ciphersuite msg) := by
  rw [C24_accept_sigFor H L W pf sig hpk msg]
  constructor
  · rintro ⟨-, v', a', hs⟩
    have hvv : v' = v := num_inj (nodeAt_isNode hs.node) (nodeAt_isNode hv) (by
      rw [nodeAt_num_eq hs.node, nodeAt_num_eq hv])
    subst hvv
    rw [hs.sigma2, nsmul_congr L (m := a') (n := a) (by rw [← W.g2_gen, ← hs.sigma1, ha])
      (sigPoint_mem (K := sub1 L) W.hlist_sub v' _)]
  · intro h
    exact ⟨hsup, v, a, hc, hv, ha, h⟩

/-- the sums of a list of shares -/
theorem shares_sums (pp : PubParam G1 G2) (v : List Nat) (M : Fr) {t : Nat} :
    ∀ l : List (Share G1 G2), (∀ p ∈ l, p.For pp t) →
      (l.map fun p => p.pk.pk).sum = (l.map (·.x)).sum • pp.g2 ∧
      (l.map fun p => p.sig.sigma1).sum = (l.map (·.a)).sum • pp.g2 ∧
      (l.map fun p => p.sig.sigma2).sum = (l.map (·.x)).sum • pp.h +
        (l.map (·.a)).sum • sigPoint pp v M + (l.map (Share.defect pp v M)).sum := by
  intro l
  induction l with
  | nil => intro _; simp
  | cons p l ih =>
    intro h
    obtain ⟨h1, h2, h3⟩ := ih fun q hq => h q (by simp [hq])
    have hp := h p (by simp)
    simp only [List.map_cons, List.sum_cons, h1, h2, h3, add_smul, hp.key, hp.first, Share.defect]
    refine ⟨trivial, trivial, ?_⟩
    abel

end Pixel.Props
