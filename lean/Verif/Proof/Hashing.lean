import Verif.Spec.Everyone
import Verif.Proof.SingleBounds
import Verif.Proof.Crowd

/-! # The functions of a signer as computations that evaluate the hash function -/

namespace Pixel

open Spec Props

set_option linter.unusedSectionVars false

variable {G1 G2 GT : Type} [AddCommGroup G1] [AddCommGroup G2] [CommGroup GT]
  {E : Ext G1 G2 GT} {g : G1} {pp : PubParam G1 G2} {sha : Bytes → Bytes} {α β : Type}

/-! ## What is computed -/

/-- the result, with the hash function `sha` -/
def Spec.Hashing.value (sha : Bytes → Bytes) : Hashing α → α
  | .done a => a
  | .eval m n => (n (sha m)).value sha

theorem andThen_value (c : Hashing α) (f : α → Hashing β) :
    (c.andThen f).value sha = (f (c.value sha)).value sha := by
  induction c with
  | done a => rfl
  | eval m n ih => exact ih _

theorem mac_value {K : Bytes} (hK : K.length ≤ 64) (m : Bytes) :
    (Hashing.mac K m).value sha = hmac sha K m := by
  rw [hmac_pads sha (by omega)]
  unfold Hashing.mac
  rw [List.take_of_length_le hK]
  rfl

theorem mix_value (h : ∀ m, (sha m).length = 64) {p : Prng} (hp : p.WF) (seed info : Bytes) :
    (Hashing.mix p.seed seed info).value sha = (mixed sha p seed info).seed := by
  have hp' : p.seed.length = 64 := hp
  unfold Hashing.mix
  rw [andThen_value, andThen_value, mac_value hp'.le, mac_value hp'.le, mac_value (hmac_length h _ _).le]
  rfl

theorem draw_value {p : Prng} (hp : p.WF) (info : Bytes) :
    (Hashing.draw p.seed info).value sha = (drawVal sha p info, (drawNext sha p info).seed) := by
  have hp' : p.seed.length = 64 := hp
  unfold Hashing.draw
  rw [andThen_value, andThen_value, mac_value hp'.le, mac_value hp'.le]
  have h1 : drawVal sha p info = _ := drawVal_eq p.seed info
  rw [h1]
  rfl

theorem draws_value (h : ∀ m, (sha m).length = 64) (n : Nat) {p : Prng} (hp : p.WF) :
    (Hashing.draws n p.seed).value sha =
      ((List.range n).map fun j => drawn sha (text "Pixel secret key update") (afterDraws sha p j),
        (afterDraws sha p n).seed) := by
  induction n generalizing p with
  | zero => rfl
  | succ n ih =>
    unfold Hashing.draws
    rw [andThen_value, draw_value hp, andThen_value, ih (drawNext_wf h _ _), afterDraws_succ,
      afterDraw_eq h, List.range_succ_eq_map, List.map_cons, List.map_map]
    simp only [Hashing.value]
    rw [text_update]
    congr 2
    · show _ = drawn sha _ p
      rw [drawn_eq h]
    · refine List.map_congr_left fun j _ => ?_
      simp only [Function.comp_apply]
      rw [afterDraws_succ, afterDraw_eq h, text_update]

theorem all_value {m : Nat} (f : Fin m → Hashing α) :
    (Hashing.all f).value sha = fun i => (f i).value sha := by
  induction m with
  | zero => funext i; exact i.elim0
  | succ m ih =>
    unfold Hashing.all
    rw [andThen_value, andThen_value, ih]
    funext i
    simp only [Hashing.value]
    refine Fin.cases ?_ (fun i => ?_) i
    · rfl
    · rfl

theorem keys_value (h : ∀ m, (sha m).length = 64) (hE : E.sha512 = sha) (L : GroupLaws E)
    (WF : ParamWF E pp) (hc : Supported pp.ciphersuite) {seed : Bytes} (hs : 32 ≤ seed.length) :
    ∃ (x : Fr) (r : Fr) (sk : SecretKey G1 G2), (Hashing.keys pp seed).value sha = (x, sk) ∧
      KeyAs pp x 1 [r] sk ∧ ∀ f : Bytes → Bytes → G1,
      keygen { E with hashToG1 := f } seed pp = .ok (⟨pp.ciphersuite, x.val • E.gen2⟩, sk,
        ⟨pp.ciphersuite, x.val • f (popInput E ⟨pp.ciphersuite, x.val • E.gen2⟩).1
          (popInput E ⟨pp.ciphersuite, x.val • E.gen2⟩).2⟩) := by
  subst hE
  have H : HashLaws E := ⟨h⟩
  obtain ⟨sk, h1, _⟩ := keygen_init H WF.toParamShape hs hc
  obtain ⟨sk', h1', h2, h3⟩ := init_keyAs H L WF hc (kgSecret E.sha512 seed pp.ciphersuite)
    (kgNext E.sha512 seed pp.ciphersuite)
  have e : sk' = sk := Res.ok.inj (h1'.symm.trans h1)
  subst e
  refine ⟨kgSecret E.sha512 seed pp.ciphersuite, _, sk', ?_, h2, fun f => ?_⟩
  · unfold Hashing.keys
    rw [andThen_value, mac_value (by
      have h : (text "Pixel master key").length = 16 := by decide +kernel
      rw [List.length_append, h, List.length_singleton]; norm_num)]
    have hst : kgState E.sha512 seed pp.ciphersuite =
        ⟨hmac E.sha512 (text "Pixel master key" ++ [pp.ciphersuite]) seed⟩ := by
      rw [← text_masterSalt]; rfl
    have hwf : (kgState E.sha512 seed pp.ciphersuite).WF := hmac_length h _ _
    rw [show hmac E.sha512 (text "Pixel master key" ++ [pp.ciphersuite]) seed =
      (kgState E.sha512 seed pp.ciphersuite).seed by rw [hst]]
    rw [andThen_value, draw_value hwf, andThen_value]
    rw [← text_master]
    change Hashing.value _ (Hashing.done (kgSecret E.sha512 seed pp.ciphersuite,
      ({ ciphersuite := pp.ciphersuite, time := 1
         ssk := keysOf pp (kgSecret E.sha512 seed pp.ciphersuite) 1
          [((Hashing.draw (kgNext E.sha512 seed pp.ciphersuite).seed _).value E.sha512).1]
         prng := ⟨((Hashing.draw (kgNext E.sha512 seed pp.ciphersuite).seed _).value E.sha512).2⟩ } :
          SecretKey G1 G2))) = _
    rw [draw_value (p := kgNext E.sha512 seed pp.ciphersuite) (drawNext_wf h _ _)]
    simp only [Hashing.value]
    congr 1
    rw [keyAs_eq h2, h3]
  · obtain ⟨sk'', h4, h5⟩ := keygen_init (E := { E with hashToG1 := f }) ⟨h⟩ WF.toParamShape hs hc
    have e : sk'' = sk' := Res.ok.inj (h4.symm.trans h1)
    rw [h5, e, WF.g2_gen, text_pop]
    rfl

theorem sign_value (H : HashLaws E) (L : GroupLaws E) (pf : Profile) (WF : ParamWF E pp)
    (hc : Supported pp.ciphersuite) {x : Fr} {t : Nat} {rho : List Fr} {sk : SecretKey G1 G2}
    (hk : KeyAs pp x t rho sk) (msg : Bytes) :
    Signature.signPresent E.sha512 pf sk.time pp msg sk =
      (.ok ((Hashing.sign pf pp sk msg).value E.sha512), sk) := by
  have h := H.sha_len
  rw [hk.time, C77_sign H L pf WF hc hk msg, signDraw_eq h, drawVal_eq]
  unfold Hashing.sign
  simp only [Hashing.value]
  have hp : sk.prng.seed.length = 64 := hk.prng
  rw [andThen_value, mac_value hp.le]
  simp only [Hashing.value]
  rw [hk.ssk, hk.time, signWith_eq L pf WF hk.valid hk.length]
  rfl

/-- an update that does not panic -/
theorem update_value (H : HashLaws E) (L : GroupLaws E) (pf : Profile) (WF : ParamWF E pp)
    {x : Fr} {t : Nat} {rho : List Fr} {sk : SecretKey G1 G2}
    (hk : KeyAs pp x t rho sk) (tar : Nat) (seed : Bytes) {r : Res Unit} {sk' : SecretKey G1 G2}
    (hu : SecretKey.update E.sha512 pf pp tar seed sk = (r, sk')) (hr : ∀ e, r ≠ .panic e) :
    (Hashing.update pf pp tar seed sk).value E.sha512 = sk' ∧ ∃ t' rho', KeyAs pp x t' rho' sk' := by
  have h := H.sha_len
  unfold Hashing.update
  rw [hk.time]
  by_cases h1 : t < tar ∧ tar ≤ 2 ^ pp.depth - 1
  · rw [if_pos h1]
    rcases update_exact h pf WF.toParamShape hk.keyFor h1.1 h1.2 seed with ⟨_, e⟩ | ⟨_, sk'', e, _⟩
    · rw [e] at hu
      exact absurd (Prod.mk.inj hu).1.symm (hr _)
    · rw [e] at hu
      obtain ⟨rfl, rfl⟩ := Prod.mk.inj hu
      obtain ⟨_, _, hk', hp⟩ := C77_update H L pf WF hk tar seed e
      refine ⟨?_, _, _, hk'⟩
      rw [andThen_value, mix_value h hk.prng, andThen_value]
      have hre : mixed E.sha512 sk.prng seed (DOM_SEP_SK_RERANDOMIZE_INFO ++ timeBytes t) =
          reseeded E.sha512 sk.prng seed t := (reseeded_eq h _ _ _).symm
      have hwf : (reseeded E.sha512 sk.prng seed t).WF := by rw [← hre]; exact h _
      rw [hre, draws_value h _ hwf]
      simp only [Hashing.value]
      rw [hk.ssk, stepKeys_eq L pf WF hk.valid h1.1 h1.2 hk.length (by simp), ← hp, hk.suite]
      exact (keyAs_eq hk').symm
  · rw [if_neg h1]
    rw [(C15_update_outcome h pf WF.toParamShape hk.keyFor tar seed).1 h1] at hu
    obtain ⟨_, rfl⟩ := Prod.mk.inj hu
    exact ⟨rfl, t, rho, hk⟩

/-! ## How often -/

/-- at most `k` strings of at most `B` octets are hashed, and the result is in `Q` -/
def Spec.Hashing.Within (B : Nat) (Q : α → Prop) : Hashing α → Nat → Prop
  | .done a, _ => Q a
  | .eval m n, k => m.length ≤ B ∧ 0 < k ∧ ∀ b, b.length ≤ 64 → (n b).Within B Q (k - 1)

theorem hashing_mono {B : Nat} {Q : α → Prop} {c : Hashing α} {k k' : Nat} (h : c.Within B Q k)
    (hk : k ≤ k') : c.Within B Q k' := by
  induction c generalizing k k' with
  | done a => exact h
  | eval m n ih => exact ⟨h.1, by have := h.2.1; omega, fun b hb => ih b (h.2.2 b hb) (by omega)⟩

theorem andThen_within {B : Nat} {Q : α → Prop} {Q' : β → Prop} {c : Hashing α} {f : α → Hashing β}
    {k k' : Nat} (h : c.Within B Q k) (hf : ∀ a, Q a → (f a).Within B Q' k') :
    (c.andThen f).Within B Q' (k + k') := by
  induction c generalizing k with
  | done a => exact hashing_mono (hf a h) (by omega)
  | eval m n ih =>
    have := h.2.1
    exact ⟨h.1, by omega, fun b hb => hashing_mono (ih b (h.2.2 b hb)) (by omega)⟩

theorem hashMac_within {B : Nat} (hB : 192 ≤ B) (K : Bytes) {m : Bytes} (hm : m.length + 128 ≤ B) :
    (Hashing.mac K m).Within B (fun b => b.length ≤ 64) 2 := by
  have hK : (K.take 64).length ≤ 128 := by rw [List.length_take]; omega
  refine ⟨?_, by norm_num, fun e he => ⟨?_, by norm_num, fun b hb => hb⟩⟩
  · rw [List.length_append, keyPad_length hK]; omega
  · rw [List.length_append, keyPad_length hK]; omega

theorem mix_within {B : Nat} (hB : 300 ≤ B) (K : Bytes) {seed info : Bytes}
    (hi : info.length + 193 ≤ B) (hs : seed.length + 192 ≤ B) :
    (Hashing.mix K seed info).Within B (fun _ => True) 6 := by
  refine andThen_within (k := 2) (k' := 4) (hashMac_within (by omega) K ?_) fun t1 h1 =>
    andThen_within (k := 2) (k' := 2) (hashMac_within (by omega) K ?_) fun t2 h2 => ?_
  · rw [List.length_append, List.length_singleton]; omega
  · rw [List.length_append, List.length_append, List.length_singleton]; omega
  · have := andThen_within (f := Hashing.done) (k' := 0) (Q' := fun _ : Bytes => True)
      (hashMac_within (B := B) (m := t1 ++ seed) (by omega) t2 (by rw [List.length_append]; omega))
      fun _ _ => trivial
    exact this

theorem draw_within {B : Nat} (hB : 300 ≤ B) (K : Bytes) {info : Bytes}
    (hi : info.length + 193 ≤ B) : (Hashing.draw K info).Within B (fun _ => True) 4 := by
  refine andThen_within (k := 2) (k' := 2) (hashMac_within (by omega) K ?_) fun t1 h1 =>
    andThen_within (k := 2) (k' := 0) (hashMac_within (by omega) K ?_) fun t2 h2 => trivial
  · rw [List.length_append, List.length_singleton]; omega
  · rw [List.length_append, List.length_append, List.length_singleton]; omega

theorem draws_within {B : Nat} (hB : 300 ≤ B) (n : Nat) (K : Bytes) :
    (Hashing.draws n K).Within B (fun _ => True) (4 * n) := by
  have hlen : (text "Pixel secret key update").length + 193 ≤ 300 := by decide +kernel
  induction n generalizing K with
  | zero => trivial
  | succ n ih =>
    refine hashing_mono (andThen_within (draw_within hB K (by omega)) fun r _ =>
      andThen_within (ih r.2) fun l _ => (?_ : Hashing.Within _ _ _ 0)) (by omega)
    trivial

theorem keys_within {B : Nat} (hB : 300 ≤ B) {seed : Bytes} (hs : seed.length + 128 ≤ B) :
    (Hashing.keys pp seed).Within B (fun _ => True) 10 := by
  have h1 : (text "key initialization").length + 193 ≤ 300 := by decide +kernel
  have h2 : (DOM_SEP_SK_INIT ++ [0, 0, 0, 1]).length + 193 ≤ 300 := by decide +kernel
  exact andThen_within (k := 2) (k' := 8) (hashMac_within (by omega) _ hs) fun K _ =>
    andThen_within (k := 4) (k' := 4) (draw_within hB K (by omega)) fun x _ =>
      andThen_within (k := 4) (k' := 0) (draw_within hB _ (by omega)) fun r _ => trivial

theorem hashSign_within {B : Nat} (pf : Profile) (sk : SecretKey G1 G2) {msg : Bytes}
    (hm : msg.length + 300 ≤ B) : (Hashing.sign pf pp sk msg).Within B (fun _ => True) 3 := by
  refine ⟨?_, by norm_num, fun b _ => andThen_within (k := 2) (k' := 0) (hashMac_within (by omega) _ ?_)
    fun _ _ => trivial⟩
  · rw [msgTag_length]; omega
  · rw [List.length_append, signInfo_length, List.length_singleton]; omega

theorem hashUpdate_within {B : Nat} (pf : Profile) (tar : Nat) {seed : Bytes}
    (hs : seed.length + 300 ≤ B) (sk : SecretKey G1 G2) :
    (Hashing.update pf pp tar seed sk).Within B (fun _ => True) (4 * pp.depth + 6) := by
  unfold Hashing.update
  have hi := rerandomize_length sk.time
  have hd := drawsNeeded_le pp.depth sk.time tar
  split_ifs
  · refine hashing_mono (andThen_within (mix_within (by omega) _ (by omega) (by omega)) fun K _ =>
      andThen_within (draws_within (by omega) _ K) fun r _ => (?_ : Hashing.Within _ _ _ 0)) (by omega)
    trivial
  · trivial

theorem all_within {B k m : Nat} {Q : α → Prop} {f : Fin m → Hashing α}
    (h : ∀ i, (f i).Within B Q k) : (Hashing.all f).Within B (fun _ => True) (m * k) := by
  induction m with
  | zero => trivial
  | succ m ih =>
    refine hashing_mono (andThen_within (h 0) fun a _ => andThen_within (ih fun i => h i.succ)
      fun l _ => (?_ : Hashing.Within _ _ _ 0)) (by rw [Nat.add_mul]; omega)
    trivial

/-! ## Adversaries that make computations -/

theorem runs_chance [DecidableEq GT] (H : HashLaws E) (pf : Profile) (c : Hashing α)
    (f : α → HashPlayer G1 G2) (S : CodeSigner G1 G2) (W : World G1 G2) :
    (HashPlayer.runs c f).chance E pf g S W = (f (c.value E.sha512)).chance E pf g S W := by
  induction c with
  | done a => rfl
  | eval m n ih =>
    simp only [HashPlayer.runs, HashPlayer.chance, Hashing.value]
    rw [ih, List.take_of_length_le (H.sha_len m).le]

theorem runs_legal {c : Hashing α} {f : α → HashPlayer G1 G2} (h : ∀ a, (f a).Legal) :
    (HashPlayer.runs c f).Legal := by
  induction c with
  | done a => exact h a
  | eval m n ih => exact fun b => ih _

theorem runs_points {c : Hashing α} {f : α → HashPlayer G1 G2} {k : Nat} (h : ∀ a, (f a).Points k) :
    (HashPlayer.runs c f).Points k := by
  induction c with
  | done a => exact h a
  | eval m n ih => exact fun b => ih _

theorem player_within_mono {B : Nat} {P : HashPlayer G1 G2} {q q' s s' u u' : Nat}
    (h : P.Within B q s u) (hq : q ≤ q') (hs : s ≤ s') (hu : u ≤ u') : P.Within B q' s' u' := by
  induction P generalizing q q' s s' u u' with
  | toss n hn next ih => exact fun c => ih c (h c) hq hs hu
  | eval m next ih =>
    exact ⟨h.1, by have := h.2.1; omega, fun b => ih b (h.2.2 b) (by omega) hs hu⟩
  | point next ih => exact fun c => ih c (h c) hq hs hu
  | sign msg next ih =>
    exact ⟨h.1, by have := h.2.1; omega, fun b => ih b (h.2.2 b) hq (by omega) hu⟩
  | update tar seed next ih =>
    exact ⟨h.1, by have := h.2.1; omega, ih h.2.2 hq hs (by omega)⟩
  | breakIn next ih => exact fun c => ih c (h c) hq hs hu
  | forge F => exact h

theorem runs_within {B : Nat} {Q : α → Prop} {c : Hashing α} {f : α → HashPlayer G1 G2}
    {k q q' s u : Nat} (hc : c.Within B Q k) (h : ∀ a, (f a).Within B q s u) (hq : k + q ≤ q') :
    (HashPlayer.runs c f).Within B q' s u := by
  induction c generalizing k q' with
  | done a => exact player_within_mono (h a) (by omega) le_rfl le_rfl
  | eval m n ih =>
    have := hc.2.1
    refine ⟨hc.1, by omega, fun b => ih _ (hc.2.2 _ ?_) (by omega)⟩
    rw [List.length_take]
    omega

end Pixel
