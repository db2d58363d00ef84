import Verif.Spec.Meet
import Verif.Proof.RandomView
import Verif.Proof.Domain

/-!
# Lemmas for C97: foreseen keys, and keys that meet
-/

namespace Pixel

open Pixel.Spec Pixel.Props

set_option linter.unusedSectionVars false

variable {G1 G2 GT : Type} [AddCommGroup G1] [AddCommGroup G2] [CommGroup GT]

open Classical in
/-- as an observer of the key -/
noncomputable def Spec.Namer.observer (p : G2) : Namer G2 → Observer G1 G2
  | .toss k hk n => .toss k hk fun c => (n c).observer p
  | .hash m n => .hash m fun b => (n b).observer p
  | .names l => .stop (if p ∈ l then 1 else 0)

theorem observer_sees {sha sha' : Bytes → Bytes} (pf : Profile) (pp : PubParam G1 G2)
    (sk : SecretKey G1 G2) (p : G2) (A : Namer G2) :
    ((A.observer p : Observer G1 G2).using sha).sees sha' pf pp sk = A.hits sha p := by
  induction A with
  | toss k hk n ih => exact avg_congr fun c => ih c
  | hash m n ih => exact ih _
  | names l => rfl

theorem observer_imagines {sha sha' : Bytes → Bytes} (pp : PubParam G1 G2) (x : Fr) (t : Nat)
    (memo : List (Bytes × Fr)) (p : G2) (A : Namer G2) :
    ((A.observer p : Observer G1 G2).using sha).imagines sha' pp x t memo = A.hits sha p := by
  induction A with
  | toss k hk n ih => exact avg_congr fun c => ih c
  | hash m n ih => exact ih _
  | names l => rfl

theorem namer_bounded (p : G2) (A : Namer G2) : (A.observer p : Observer G1 G2).Bounded := by
  induction A with
  | toss k hk n ih => exact fun c => ih c
  | hash m n ih => exact fun b => ih b
  | names l =>
    show 0 ≤ _ ∧ _ ≤ _
    split_ifs <;> norm_num

theorem namer_within {B k : Nat} (p : G2) (A : Namer G2) {q : Nat} (h : A.Within B k q) (u : Nat) :
    (A.observer p : Observer G1 G2).Within B q u := by
  induction A generalizing q with
  | toss k hk n ih => exact fun c => ih c (h c)
  | hash m n ih => exact ⟨h.1, h.2.1, fun b hb => ih b (h.2.2 b hb)⟩
  | names l => trivial

theorem named_chance {f : Fr → G2} (hf : Function.Injective f) (l : List G2) :
    (avg fun x : Fr => (Namer.names l).hits (fun _ => []) (f x)) ≤ l.length / rOrder := by
  classical
  unfold Namer.hits
  induction l with
  | nil => simp [avg]
  | cons a l ih =>
    have h2 : ∀ x : Fr, (if f x ∈ a :: l then (1 : ℚ) else 0) ≤
        (if f x = a then 1 else 0) + (if f x ∈ l then 1 else 0) := fun x => by
      by_cases ha : f x = a
      · rw [if_pos ha, if_pos (by simp [ha])]
        split_ifs <;> norm_num
      · by_cases hb : f x ∈ l
        · rw [if_neg ha, if_pos hb, if_pos (by simp [hb])]
          norm_num
        · rw [if_neg ha, if_neg hb, if_neg (by simp [ha, hb])]
          norm_num
    have h3 : (avg fun x : Fr => if f x = a then (1 : ℚ) else 0) ≤ 1 / rOrder := by
      refine (avg_at_most_one fun x y hx hy => hf (hx.trans hy.symm)).trans (le_of_eq ?_)
      rw [ZMod.card]
    refine le_trans (le_trans (le_of_eq ?_) (avg_mono h2)) ?_
    · exact avg_congr fun x => by congr
    rw [avg_add, List.length_cons, Nat.cast_succ, add_div, add_comm ((l.length : ℚ) / _)]
    refine add_le_add h3 (le_trans (le_of_eq ?_) ih)
    exact avg_congr fun x => by congr

theorem hits_uniform {sha : Bytes → Bytes} (hsha : ∀ m, (sha m).length = 64) {f : Fr → G2}
    (hf : Function.Injective f) {B k : Nat} (A : Namer G2) {q : Nat} (h : A.Within B k q) :
    (avg fun x : Fr => A.hits sha (f x)) ≤ k / rOrder := by
  induction A generalizing q with
  | toss m hm n ih =>
    have : Nonempty (Fin m) := ⟨⟨0, hm⟩⟩
    unfold Namer.hits
    rw [avg_comm]
    refine (avg_mono fun c => ih c (h c)).trans ?_
    rw [avg_const]
  | hash m n ih => exact ih _ (h.2.2 _ (hsha _))
  | names l =>
    refine (named_chance hf l).trans ?_
    exact div_le_div_of_nonneg_right (by exact_mod_cast h) (Nat.cast_nonneg _)

theorem multiples_inj {E : Ext G1 G2 GT} (L : GroupLaws E) (h0 : E.gen2 ≠ 0) :
    Function.Injective fun x : Fr => x.val • E.gen2 := fun _ _ h =>
  exponent_unique (L.sub2_order _ L.gen2_sub) h0 h

/-! ## The key of a seed that is known -/

theorem salt_length (cs : UInt8) : (text "Pixel master key" ++ [cs]).length ≤ 128 := by
  have h : (text "Pixel master key").length = 16 := by decide +kernel
  rw [List.length_append, h, List.length_singleton]
  norm_num

theorem keyOf_hits (E : Ext G1 G2 GT) (H : HashLaws E) {pp : PubParam G1 G2} (S : ParamShape pp)
    (hc : Supported pp.ciphersuite) {seed : Bytes} (hs : 32 ≤ seed.length)
    {a : PublicKey G2 × SecretKey G1 G2 × ProofOfPossession G1} (h : keygen E seed pp = .ok a) (p : G2) :
    (keyOf pp.ciphersuite pp.g2 seed).hits E.sha512 p = (Namer.names [a.1.pk]).hits E.sha512 p := by
  obtain ⟨sk, _, h2⟩ := keygen_init H S hs hc
  have h3 : a.1.pk = (kgSecret E.sha512 seed pp.ciphersuite).val • pp.g2 := by
    rw [← Res.ok.inj (h2.symm.trans h)]
  have h4 : kgSecret E.sha512 seed pp.ciphersuite = ((beNat (hmac E.sha512
      (hmac E.sha512 (text "Pixel master key" ++ [pp.ciphersuite]) seed)
        (text "key initialization" ++ [1])) : ℕ) : Fr) := by
    rw [← text_masterSalt, ← text_master]; rfl
  rw [h3, h4, hmac_pads _ (salt_length _), hmac_pads _ (by rw [H.sha_len]; norm_num)]
  rfl

theorem keyOf_within {B n : Nat} (hB : 300 ≤ B) (hnB : 128 + n ≤ B) (cs : UInt8) (g : G2) {seed : Bytes}
    (hs : seed.length = n) : (keyOf cs g seed).Within B 1 4 := by
  have h1 : (text "Pixel master key" ++ [cs]).length ≤ 128 := salt_length cs
  have h2 : (text "key initialization" ++ [1]).length ≤ 100 := by decide +kernel
  refine ⟨?_, by norm_num, fun a ha => ⟨?_, by norm_num, fun K hK => ⟨?_, by norm_num, fun b hb =>
    ⟨?_, by norm_num, fun o _ => le_rfl⟩⟩⟩⟩
  · rw [List.length_append, keyPad_length h1]; omega
  · rw [List.length_append, keyPad_length h1]; omega
  · rw [List.length_append, keyPad_length (by omega)]; omega
  · rw [List.length_append, keyPad_length (by omega)]; omega

end Pixel
