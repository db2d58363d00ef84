import Verif.Spec.Seed
import Verif.Proof.Lift

/-! # Key generation from a seed -/

namespace Pixel

open Spec Props

set_option linter.unusedSectionVars false

variable {G1 G2 GT : Type} [AddCommGroup G1] [AddCommGroup G2] [CommGroup GT]

theorem keygen_init {E : Ext G1 G2 GT} (H : HashLaws E) {pp : PubParam G1 G2} (S : ParamShape pp)
    {seed : Bytes} (h : 32 ≤ seed.length) (hc : Supported pp.ciphersuite) :
    ∃ sk, SecretKey.init E.sha512 pp (mulFr (kgSecret E.sha512 seed pp.ciphersuite) pp.h)
        (kgNext E.sha512 seed pp.ciphersuite) = .ok sk ∧
      keygen E seed pp = .ok (⟨pp.ciphersuite, (kgSecret E.sha512 seed pp.ciphersuite).val • pp.g2⟩, sk,
        ⟨pp.ciphersuite, (kgSecret E.sha512 seed pp.ciphersuite).val • E.hashToG1
          (DOM_SEP_POP ++ E.encG2 true (mulFr (kgSecret E.sha512 seed pp.ciphersuite) pp.g2))
            [pp.ciphersuite]⟩) := by
  obtain ⟨s, h1, _, h3⟩ := keygen_eq H S h hc
  refine ⟨_, ?_, h3⟩
  have hv := validCiphersuite_contains.2 hc
  unfold SecretKey.init
  simp only [hv, Bool.not_true, Bool.false_eq_true, if_false]
  rw [sampleThenUpdate_exec H.sha_len]
  simp only [Res.ok_bind]
  rw [h1]
  rfl

theorem startChance_avg [DecidableEq GT] (E : Ext G1 G2 GT) (pf : Profile) (g : G1) (d : Nat)
    (cs : UInt8) (A : World G1 G2 → CodePlayer G1 G2) :
    codeForgeChance E pf g d cs A = avg fun K : Digest => startChance E pf g d cs A ⟨K.bytes⟩ := by
  unfold codeForgeChance startChance
  exact avg_comm _

theorem worldOf_update (E : Ext G1 G2 GT) (g : G1) (cs : UInt8) {d : Nat} (a : Secret d 0 → Fr) (x : Fr) :
    worldOf E g cs (Function.update a .x x) [] =
      ⟨gameParam E g cs a, ⟨cs, x.val • E.gen2⟩, (a .q).val • g, x.val • (a .q).val • g, []⟩ := by
  unfold worldOf gameParam
  simp

theorem seed_chance [DecidableEq GT] {E : Ext G1 G2 GT} (H : HashLaws E) (pf : Profile) {g : G1}
    {d : Nat} {cs : UInt8} (hsup : Supported cs) (A : World G1 G2 → CodePlayer G1 G2)
    (a : Secret d 0 → Fr) (S : ParamShape (gameParam E g cs a)) {seed : Bytes}
    (hs : 32 ≤ seed.length) :
    (match keygen { E with hashToG1 := fun _ _ => (a .q).val • g } seed (gameParam E g cs a) with
      | .ok (pk, sk, pop) =>
        (A ⟨gameParam E g cs a, pk, (a .q).val • g, pop.pop, []⟩).chance E pf g ⟨sk, [], []⟩ []
          ⟨gameParam E g cs a, pk, (a .q).val • g, pop.pop, []⟩
      | _ => 0) =
    match Prng.sampleThenUpdate E.sha512 (ascii "key initialization")
      ⟨hmac E.sha512 (text "Pixel master key" ++ [cs]) seed⟩ with
    | (.ok x, p) =>
      match SecretKey.init E.sha512 (worldOf E g cs (Function.update a .x x) []).pp
        (mulFr x (worldOf E g cs (Function.update a .x x) []).pp.h) p with
      | .ok sk => (A (worldOf E g cs (Function.update a .x x) [])).chance E pf g ⟨sk, [], []⟩ []
          (worldOf E g cs (Function.update a .x x) [])
      | _ => 0
    | _ => 0 := by
  have hE : ∃ E' : Ext G1 G2 GT, E' = { E with hashToG1 := fun _ _ => (a .q).val • g } := ⟨_, rfl⟩
  obtain ⟨E', hE⟩ := hE
  have h0 : E'.sha512 = E.sha512 := by rw [hE]
  have hq : E'.hashToG1 = fun _ _ => (a .q).val • g := by rw [hE]
  obtain ⟨sk, h1, h2⟩ := keygen_init (E := E') (pp := gameParam E g cs a)
    ⟨by rw [h0]; exact H.sha_len⟩ S hs hsup
  rw [← hE, h2, sampleThenUpdate_eq H.sha_len]
  rw [h0] at *
  rw [hq]
  simp only [worldOf_update]
  rw [show (⟨hmac E.sha512 (text "Pixel master key" ++ [cs]) seed⟩ : Prng) = kgState E.sha512 seed cs by
    rw [← text_masterSalt]; rfl]
  erw [h1]
  rfl

end Pixel
