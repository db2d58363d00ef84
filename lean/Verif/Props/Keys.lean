import Verif.Proof.History
import Verif.Toy

/-!
# Properties C12–C14: key generation and proofs of possession

Vocabulary: `Verif/Spec/Key.lean`, `Verif/Spec/Domain.lean`; assumptions: `Verif/Spec/Laws.lean`.
-/

namespace Pixel.Props

open Pixel Pixel.Spec

set_option linter.unusedSectionVars false

variable {G1 G2 GT : Type} [AddCommGroup G1] [AddCommGroup G2] [CommGroup GT]

/-! ## C12 -/

/-- C12: the two failure modes, and what success means: for some master exponent `x` the public key
is `x·g2`, the secret key is the one for time 1 and master secret `x·h`, consists of one sub key and
validates, and the proof of possession verifies. -/
theorem C12_keygen_outcome [DecidableEq GT] {E : Ext G1 G2 GT} (H : HashLaws E) (L : GroupLaws E)
    (pf : Profile) {pp : PubParam G1 G2} (W : ParamWF E pp) (seed : Bytes) :
    (seed.length < 32 → keygen E seed pp = .err .seedTooShort) ∧
    (32 ≤ seed.length → ¬ Supported pp.ciphersuite → keygen E seed pp = .err .ciphersuite) ∧
    (32 ≤ seed.length → Supported pp.ciphersuite →
      ∃ pk sk pop, keygen E seed pp = .ok (pk, sk, pop) ∧
        pk.ciphersuite = pp.ciphersuite ∧ pop.ciphersuite = pp.ciphersuite ∧
        (∃ x : Nat, pk.pk = x • pp.g2 ∧ KeyFor pp (x • pp.h) 1 sk) ∧
        sk.ssk.length = 1 ∧
        SecretKey.validate E pf sk pk pp = .ok true ∧ pk.validate E pop = true) := by
  refine ⟨keygen_short, keygen_suite, fun hl hc => ?_⟩
  obtain ⟨s, _, h2, h3⟩ := keygen_eq H W.toParamShape hl hc
  have hk : HKey pp ((kgSecret E.sha512 seed pp.ciphersuite).val • pp.h) []
      { ciphersuite := pp.ciphersuite, time := 1, ssk := [s]
        prng := drawNext E.sha512 (kgNext E.sha512 seed pp.ciphersuite)
          (DOM_SEP_SK_INIT ++ [0, 0, 0, 1]) } :=
    { suite := rfl
      time := by simp
      node := isNode_nil.2 W.depth_pos
      prng := drawNext_wf H.sha_len _ _
      ssk := .cons ⟨_, h2⟩ .nil }
  refine ⟨_, _, _, h3, rfl, rfl, ⟨(kgSecret E.sha512 seed pp.ciphersuite).val, rfl, ?_⟩, rfl, ?_, ?_⟩
  · exact hk.keyFor
  · exact SecretKey.validate_honest L W pf hk rfl rfl
  · have hg : mulFr (kgSecret E.sha512 seed pp.ciphersuite) pp.g2 =
        (kgSecret E.sha512 seed pp.ciphersuite).val • E.gen2 := by rw [← W.g2_gen]; rfl
    refine (PublicKey.validate_iff L hg _).2 ⟨hc, rfl, ?_⟩
    rw [← text_pop]; rfl

/-! ## C13 -/

/-- C13: the exact acceptance condition for a proof of possession of the key `x·g`. -/
theorem C13_pop_exact [DecidableEq GT] {E : Ext G1 G2 GT} (L : GroupLaws E)
    {pk : PublicKey G2} {x : Nat} (hpk : pk.pk = x • E.gen2) (pop : ProofOfPossession G1) :
    pk.validate E pop = true ↔ Supported pk.ciphersuite ∧ pop.ciphersuite = pk.ciphersuite ∧
      pop.pop = x • E.hashToG1 (text "Pixel public key POP" ++ E.encG2 true pk.pk)
        [pk.ciphersuite] :=
  PublicKey.validate_iff L hpk pop

/-- C13: two proofs accepted for one public key in the right subgroup are the same. -/
theorem C13_pop_unique [DecidableEq GT] {E : Ext G1 G2 GT} (L : GroupLaws E)
    {pk : PublicKey G2} (hpk : E.inSub2 pk.pk = true) {p q : ProofOfPossession G1}
    (hp : pk.validate E p = true) (hq : pk.validate E q = true) : p = q := by
  obtain ⟨x, hx⟩ := L.gen2_gen _ hpk
  obtain ⟨_, h1, h2⟩ := (C13_pop_exact L hx p).1 hp
  obtain ⟨_, h3, h4⟩ := (C13_pop_exact L hx q).1 hq
  cases p; cases q
  simp only at h1 h2 h3 h4
  rw [h1, h2, h3, h4]

/-- C13: a proof carrying another ciphersuite than the key is rejected, whatever the key; so is
every proof for a key with an unsupported ciphersuite or outside the subgroup. -/
theorem C13_pop_rejected [DecidableEq GT] (E : Ext G1 G2 GT) (pk : PublicKey G2)
    (pop : ProofOfPossession G1)
    (h : pop.ciphersuite ≠ pk.ciphersuite ∨ ¬ Supported pk.ciphersuite ∨
      E.inSub2 pk.pk = false ∨ E.inSub1 pop.pop = false) : pk.validate E pop = false := by
  unfold PublicKey.validate
  by_cases h1 : Supported pk.ciphersuite
  · rw [validCiphersuite_contains.2 h1]
    simp only [Bool.not_true, Bool.false_eq_true, if_false]
    by_cases h2 : pk.ciphersuite = pop.ciphersuite
    · rw [if_neg (by simpa using h2)]
      rcases h with h | h | h | h
      · exact absurd h2.symm h
      · exact absurd h1 h
      · simp [blsCoreVerify, h]
      · simp [blsCoreVerify, h]
    · rw [if_pos h2]
  · have : validCiphersuite.contains pk.ciphersuite = false := by
      rw [← Bool.not_eq_true, validCiphersuite_contains]; exact h1
    rw [this]
    rfl

/-! ## C14 -/

/-- C14: the master exponent is a function of the seed and the ciphersuite alone (the big-endian
value of one HKDF block, reduced), whatever depth and group elements the parameters have. -/
theorem C14_master_exponent {E : Ext G1 G2 GT} (H : HashLaws E) {pp : PubParam G1 G2}
    (S : ParamShape pp) {seed : Bytes} {pk : PublicKey G2} {sk : SecretKey G1 G2}
    {pop : ProofOfPossession G1} (h : keygen E seed pp = .ok (pk, sk, pop)) :
    let prk := hmac E.sha512 (text "Pixel master key" ++ [pp.ciphersuite]) seed
    let x := natOfBytes (hmac E.sha512 prk (text "key initialization" ++ [1])) % rOrder
    pk.pk = x • pp.g2 ∧ KeyFor pp (x • pp.h) 1 sk := by
  have hl : 32 ≤ seed.length := by
    by_contra hc
    rw [keygen_short (by omega)] at h; cases h
  have hc : Supported pp.ciphersuite := by
    by_contra hc
    rw [keygen_suite hl hc] at h; cases h
  obtain ⟨s, _, h2, h3⟩ := keygen_eq H S hl hc
  have hx : (kgSecret E.sha512 seed pp.ciphersuite).val = natOfBytes (hmac E.sha512
      (hmac E.sha512 (text "Pixel master key" ++ [pp.ciphersuite]) seed)
      (text "key initialization" ++ [1])) % rOrder := by
    unfold kgSecret drawVal okm1 kgState
    rw [ZMod.val_natCast, natOfBytes_eq, text_masterSalt, text_master]
  rw [h] at h3
  obtain ⟨rfl, rfl, rfl⟩ : _ ∧ _ ∧ _ := by
    have := Res.ok.inj h3
    exact ⟨(Prod.mk.inj this).1, (Prod.mk.inj (Prod.mk.inj this).2).1,
      (Prod.mk.inj (Prod.mk.inj this).2).2⟩
  simp only [← hx]
  refine ⟨rfl, ?_⟩
  have hk : HKey pp ((kgSecret E.sha512 seed pp.ciphersuite).val • pp.h) []
      { ciphersuite := pp.ciphersuite, time := 1, ssk := [s]
        prng := drawNext E.sha512 (kgNext E.sha512 seed pp.ciphersuite)
          (DOM_SEP_SK_INIT ++ [0, 0, 0, 1]) } :=
    { suite := rfl
      time := by simp
      node := isNode_nil.2 S.depth_pos
      prng := drawNext_wf H.sha_len _ _
      ssk := .cons ⟨_, h2⟩ .nil }
  exact hk.keyFor

/-- C14: different ciphersuites give different HMAC key blocks for the extraction (which is more
than different salts: HMAC pads its key with zeros). -/
theorem C14_salt_separates (sha : Bytes → Bytes) {c c' : UInt8} (h : c ≠ c') :
    hmacKey sha (text "Pixel master key" ++ [c]) ≠ hmacKey sha (text "Pixel master key" ++ [c']) := by
  have hl : (text "Pixel master key").length = 16 := by decide +kernel
  have key : ∀ c : UInt8, (hmacKey sha (text "Pixel master key" ++ [c]))[16]? = some c := by
    intro c
    unfold hmacKey
    simp only
    rw [if_neg (by simp [hl]), List.getElem?_append_left (by simp [hl]),
      List.getElem?_append_right (by simp [hl])]
    simp [hl]
  intro he
  have h1 := key c
  rw [he, key c'] at h1
  exact h (Option.some.inj h1).symm

/-- C14: but because of that padding, ciphersuite 0 has the same HMAC key block as the bare label
without any ciphersuite byte. -/
theorem C14_suite_zero_is_bare_label (sha : Bytes → Bytes) :
    hmacKey sha (text "Pixel master key" ++ [0]) = hmacKey sha (text "Pixel master key") := by
  have e : text "Pixel master key" =
    [80, 105, 120, 101, 108, 32, 109, 97, 115, 116, 101, 114, 32, 107, 101, 121] := by decide +kernel
  rw [e]
  rfl

/-- C14: the two draws made by key generation use different strings, neither a prefix of the
other. -/
theorem C14_draws_separated {b c : List UInt8} (hb : InfoFor .masterKey b) (hc : InfoFor .keyInit c) :
    b ≠ c ∧ ¬ b <+: c ∧ ¬ c <+: b := by
  have h1 := infoFor_tag hb
  have h2 := infoFor_tag hc
  refine ⟨?_, ?_, ?_⟩
  · rintro rfl
    rw [h1] at h2
    exact absurd (tag_inj h2) (by decide)
  · rintro ⟨r, hr⟩
    have := tag_prefix hr.symm h1
    rw [h2] at this
    exact absurd (tag_inj this) (by decide)
  · rintro ⟨r, hr⟩
    have := tag_prefix hr.symm h2
    rw [h1] at this
    exact absurd (tag_inj this) (by decide)

/-! ### Concrete cases -/

section Examples
open Pixel.Toy

/-- C12–C14: a seed and parameters for which key generation succeeds -/
example : ∃ pk sk pop, keygen (ext sha0) (List.replicate 32 7) (param 5 1) = .ok (pk, sk, pop) ∧
    pk.validate (ext sha0) pop = true ∧ (ext sha0).inSub2 pk.pk = true := by
  have W := param_wf sha0 (d := 5) (by omega) (by omega) 1
  obtain ⟨pk, sk, pop, h1, _, _, ⟨x, h2, _⟩, _, _, h3⟩ :=
    (C12_keygen_outcome hashLaws (groupLaws sha0) .debug W (List.replicate 32 7)).2.2 (by simp)
      (Or.inr rfl)
  refine ⟨pk, sk, pop, h1, h3, ?_⟩
  rw [h2]
  exact (groupLaws sha0).sub2_nsmul (by simp [ext, param]) x

/-- C12: the failures happen -/
example : keygen (ext sha0) (List.replicate 31 7) (param 5 1) = .err .seedTooShort ∧
    keygen (ext sha0) (List.replicate 32 7) (param 5 2) = .err .ciphersuite := by
  refine ⟨keygen_short (by simp), keygen_suite (by simp) ?_⟩
  rintro (h | h) <;> exact absurd h (by decide)

/-- C13: a rejected proof -/
example : PublicKey.validate (ext sha0) ({ ciphersuite := 0, pk := (3, 0) } : PublicKey G)
    { ciphersuite := 0, pop := (0, 0) } = false := by
  rw [← Bool.not_eq_true, C13_pop_exact (groupLaws sha0) (x := 3) (by decide +kernel)]
  rintro ⟨_, _, h⟩
  revert h
  decide +kernel

end Examples

end Pixel.Props
