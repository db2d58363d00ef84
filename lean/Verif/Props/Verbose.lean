import Verif.Proof.Verbose
import Verif.Props.Validate

/-!
# Property C74: what the checking functions print

Vocabulary: `Verif/Spec/Verbose.lean`; assumptions: `Verif/Spec/Laws.lean`.
-/

namespace Pixel.Props

open Pixel Pixel.Spec Pixel.Verbose

set_option linter.unusedSectionVars false

variable {G1 G2 GT : Type} [AddCommGroup G1] [AddCommGroup G2] [CommGroup GT]

/-! ## printing changes nothing -/

/-- C74: the functions with their printing give the outcome of the functions without, in both
profiles. -/
theorem C74_same_outcome [DecidableEq GT] (E : Ext G1 G2 GT) (pf : Profile) (pp : PubParam G1 G2)
    (pk : PublicKey G2) (sk : SecretKey G1 G2) (s : SubSecretKey G1 G2) (sig : Signature G1 G2)
    (pop : ProofOfPossession G1) (msg : Bytes) (sigs : List (Signature G1 G2))
    (pks : List (PublicKey G2)) :
    (skValidate E pf sk pk pp).out = sk.validate E pf pk pp ∧
    (sskValidate E pf s pk pp).out = s.validate E pf pk pp ∧
    (verifyBytes E pf sig pk pp msg).out = sig.verifyBytes E pf pk pp msg ∧
    (verifyBytesAggregated E pf sig pks pp msg).out = sig.verifyBytesAggregated E pf pks pp msg ∧
    (aggregate pf sigs).out = Signature.aggregateWithoutValidate sigs ∧
    (pkInit pf pp pk.pk).out = PublicKey.init pp pk.pk ∧
    (pkValidate E pf pk pop).out = .ok (pk.validate E pop) :=
  ⟨out_skValidate E pf sk pk pp, out_sskValidate E pf s pk pp, out_verifyBytes E pf sig pk pp msg,
    out_verifyBytesAggregated E pf sig pks pp msg, out_aggregate pf sigs, out_pkInit pf pp pk.pk,
    out_pkValidate E pf pk pop⟩

/-- C74: a release build prints nothing, whatever the arguments, not even when it panics. -/
theorem C74_release_silent [DecidableEq GT] (E : Ext G1 G2 GT) (pp : PubParam G1 G2)
    (pk : PublicKey G2) (sk : SecretKey G1 G2) (s : SubSecretKey G1 G2) (sig : Signature G1 G2)
    (pop : ProofOfPossession G1) (msg : Bytes) (sigs : List (Signature G1 G2))
    (pks : List (PublicKey G2)) :
    (skValidate E .release sk pk pp).text = [] ∧
    (sskValidate E .release s pk pp).text = [] ∧
    (verifyBytes E .release sig pk pp msg).text = [] ∧
    (verifyBytesAggregated E .release sig pks pp msg).text = [] ∧
    (aggregate .release sigs).text = [] ∧
    (pkInit .release pp pk.pk).text = [] ∧
    (pkValidate E .release pk pop).text = [] :=
  ⟨silent_skValidate E sk pk pp, silent_sskValidate E s pk pp, silent_verifyBytes E sig pk pp msg,
    silent_verifyBytesAggregated E sig pks pp msg, silent_aggregate sigs, silent_pkInit pp pk.pk,
    silent_pkValidate E pk pop⟩

/-! ## verification -/

/-- C74: what verification prints in a debug build.  The public key and the message have no part in
it, nor has the pairing. -/
theorem C74_verify_text [DecidableEq GT] {E : Ext G1 G2 GT} (H : HashLaws E) {pp : PubParam G1 G2}
    (S : ParamShape pp) (sig : Signature G1 G2) (pk : PublicKey G2) (msg : Bytes) :
    (verifyBytes E .debug sig pk pp msg).text = Says.verify pp.ciphersuite sig.ciphersuite
      (E.inSub2 sig.sigma1) (E.inSub1 sig.sigma2) pp.depth sig.time :=
  text_verifyBytes H S sig pk msg

theorem says_verify_nil {c c' : UInt8} {a b : Bool} {d t : Nat} :
    Says.verify c c' a b d t = [] ↔
      Supported c ∧ c' = c ∧ a = true ∧ b = true ∧ ValidTime d t := by
  unfold Says.verify
  split
  · rename_i h
    constructor
    · intro hc; simp [Says.ln] at hc
    · rintro ⟨h1, h2, -⟩; exact absurd h (by simp [h1, h2])
  · rename_i h
    push Not at h
    split
    · rename_i hab
      constructor
      · intro hb
        refine ⟨h.1, h.2, hab.1, hab.2, ?_⟩
        by_contra hv
        exact badTime_ne hv hb
      · rintro ⟨-, -, -, -, hv⟩; exact badTime_valid hv
    · rename_i hab
      constructor
      · intro hc; simp [Says.ln] at hc
      · rintro ⟨-, -, h1, h2, -⟩; exact absurd ⟨h1, h2⟩ hab

/-- C74: verification is silent exactly when ciphersuites, subgroups and time are in order; then the
pairing equation alone decides. -/
theorem C74_verify_silent_iff [DecidableEq GT] {E : Ext G1 G2 GT} (H : HashLaws E)
    {pp : PubParam G1 G2} (S : ParamShape pp) (sig : Signature G1 G2) (pk : PublicKey G2)
    (msg : Bytes) :
    (verifyBytes E .debug sig pk pp msg).text = [] ↔
      Supported pp.ciphersuite ∧ sig.ciphersuite = pp.ciphersuite ∧ E.inSub2 sig.sigma1 = true ∧
        E.inSub1 sig.sigma2 = true ∧ ValidTime pp.depth sig.time := by
  rw [text_verifyBytes H S, says_verify_nil]

/-- C74: an accepted signature is accepted silently. -/
theorem C74_accept_silent [DecidableEq GT] {E : Ext G1 G2 GT} (H : HashLaws E)
    {pp : PubParam G1 G2} (S : ParamShape pp) {sig : Signature G1 G2} {pk : PublicKey G2}
    {msg : Bytes} (h : sig.verifyBytes E .debug pk pp msg = .ok true) :
    (verifyBytes E .debug sig pk pp msg).text = [] := by
  rw [C74_verify_silent_iff H S]
  rw [Signature.verifyBytes_eq H S] at h
  obtain ⟨h1, h2, h3, h4, v, h5, -⟩ := (@decide_eq_true_iff _ (_)).1 (Res.ok.inj h)
  exact ⟨h1, h2, h3, h4, (nodeAt_iff.1 h5).1⟩

/-- C74: a signature that is turned down for another message or another key than the one it was made
for is turned down silently: nothing tells why. -/
theorem C74_reject_silent [DecidableEq GT] {E : Ext G1 G2 GT} (H : HashLaws E)
    {pp : PubParam G1 G2} (S : ParamShape pp) {sig : Signature G1 G2} {pk pk' : PublicKey G2}
    {msg msg' : Bytes} (h : sig.verifyBytes E .debug pk pp msg = .ok true) :
    (verifyBytes E .debug sig pk' pp msg').text = [] := by
  have := C74_accept_silent H S h
  rw [text_verifyBytes H S] at this ⊢
  exact this

/-- C74: verification of an aggregate first compares the ciphersuites, then prints as verification
does; without public keys it panics silently. -/
theorem C74_aggregated_text [DecidableEq GT] {E : Ext G1 G2 GT} (H : HashLaws E)
    {pp : PubParam G1 G2} (S : ParamShape pp) (sig : Signature G1 G2) (pks : List (PublicKey G2))
    (msg : Bytes) :
    (¬ ((∀ pk ∈ pks, pk.ciphersuite = pp.ciphersuite) ∧ sig.ciphersuite = pp.ciphersuite) →
      (verifyBytesAggregated E .debug sig pks pp msg).text = Says.ln "ciphersuite do not match") ∧
    ((∀ pk ∈ pks, pk.ciphersuite = pp.ciphersuite) ∧ sig.ciphersuite = pp.ciphersuite →
      (verifyBytesAggregated E .debug sig pks pp msg).text =
        if pks = [] then [] else Says.verify pp.ciphersuite sig.ciphersuite (E.inSub2 sig.sigma1)
          (E.inSub1 sig.sigma2) pp.depth sig.time) := by
  have hany : (pks.any (fun e => decide (pp.ciphersuite ≠ e.ciphersuite)) = true) ↔
      ¬ ∀ pk ∈ pks, pk.ciphersuite = pp.ciphersuite := by
    simp only [List.any_eq_true, decide_eq_true_eq, not_forall, exists_prop]
    exact ⟨fun ⟨x, h1, h2⟩ => ⟨x, h1, fun h => h2 h.symm⟩, fun ⟨x, h1, h2⟩ => ⟨x, h1, fun h => h2 h.symm⟩⟩
  unfold verifyBytesAggregated
  constructor
  · intro h
    by_cases h1 : ∀ pk ∈ pks, pk.ciphersuite = pp.ciphersuite
    · rw [if_neg (by rw [hany]; exact not_not.2 h1), if_pos fun h2 => h ⟨h1, h2⟩, text_line]
      simp [Says.ln]
    · rw [if_pos (hany.2 h1), text_line]
      simp [Says.ln]
  · rintro ⟨h1, h2⟩
    rw [if_neg (by rw [hany]; exact not_not.2 h1), if_neg (by simp [h2])]
    cases pks with
    | nil => rw [if_pos rfl]; rfl
    | cons p l =>
      rw [if_neg (by simp)]
      change (Say.quiet (.ok p) >>= _ : Say Bool).text = _
      rw [quiet_ok]
      exact text_verifyBytes H S _ _ _

/-! ## keys -/

/-- C74: what the validation of a secret key prints in a debug build.  `bits` tells which of the sub
keys are valid by themselves and `gs` are the times of the cover. -/
theorem C74_validate_text [DecidableEq GT] (E : Ext G1 G2 GT) {pp : PubParam G1 G2}
    (S : ParamShape pp) (pk : PublicKey G2) (sk : SecretKey G1 G2) :
    ∃ bits : List Bool,
      List.Forall₂ (fun s b => SubSecretKey.validate E .debug s pk pp = .ok b) sk.ssk bits ∧
      (¬ (sk.ciphersuite = pk.ciphersuite ∧ sk.ciphersuite = pp.ciphersuite) →
        (skValidate E .debug sk pk pp).text = Says.ln "Ciphersuite does not match") ∧
      (sk.ciphersuite = pk.ciphersuite → sk.ciphersuite = pp.ciphersuite →
        ¬ ValidTime pp.depth sk.time → (skValidate E .debug sk pk pp).text =
          Says.badTime "Error in sk validation: " pp.depth sk.time) ∧
      (sk.ciphersuite = pk.ciphersuite → sk.ciphersuite = pp.ciphersuite →
        ∀ vs gs, CoverList pp.depth sk.time vs → List.Forall₂ (fun v g => NodeAt pp.depth g v) vs gs →
          ValidTime pp.depth sk.time → (skValidate E .debug sk pk pp).text =
            Says.subKeys pp.depth 0 ((sk.ssk.map (·.time)).zip bits) gs) := by
  refine ⟨sk.ssk.map (good E pk pp), ?_, (text_skValidate E S pk sk).1,
    fun h1 h2 => ((text_skValidate E S pk sk).2 ⟨h1, h2⟩).1, fun h1 h2 vs gs hc hg hv => ?_⟩
  · generalize sk.ssk = l
    induction l with
    | nil => exact .nil
    | cons s l ih =>
      refine .cons ?_ ih
      obtain ⟨b, hb, -⟩ := sskValidate_total E .debug S s pk
      rw [hb]
      unfold good
      rw [hb]
  · rw [((text_skValidate E S pk sk).2 ⟨h1, h2⟩).2 hv]
    have hn : NodeAt pp.depth sk.time (path pp.depth sk.time) := nodeAt_iff.2 ⟨hv, rfl⟩
    rw [coverList_iff hn] at hc
    rw [← hc]
    have : gs = vs.map (num pp.depth) := by
      clear hc
      induction hg with
      | nil => rfl
      | cons h _ ih => rw [List.map_cons, ← ih, nodeAt_num_eq h]
    rw [this]
    congr 1
    generalize sk.ssk = l
    induction l with
    | nil => rfl
    | cons s l ih => simp [ih]

/-- C74: in a debug build the validation of a secret key says something exactly when it returns
`false`. -/
theorem C74_validate_explains [DecidableEq GT] (E : Ext G1 G2 GT) {pp : PubParam G1 G2}
    (S : ParamShape pp) (pk : PublicKey G2) (sk : SecretKey G1 G2) {b : Bool}
    (h : sk.validate E .debug pk pp = .ok b) :
    (skValidate E .debug sk pk pp).text = [] ↔ b = true := by
  rw [← out_skValidate] at h
  exact skValidate_explains E S pk sk h

/-- C74: the text depends on the key only through its ciphersuite, its times and which of its sub
keys are valid: two keys that agree in these print the same. -/
theorem C74_validate_public [DecidableEq GT] (E : Ext G1 G2 GT) {pp : PubParam G1 G2}
    (S : ParamShape pp) {pk : PublicKey G2} {sk sk' : SecretKey G1 G2}
    (hc : sk.ciphersuite = sk'.ciphersuite) (ht : sk.time = sk'.time)
    (hs : List.Forall₂ (fun s s' : SubSecretKey G1 G2 => s.time = s'.time ∧
      s.validate E .debug pk pp = s'.validate E .debug pk pp) sk.ssk sk'.ssk) :
    (skValidate E .debug sk pk pp).text = (skValidate E .debug sk' pk pp).text := by
  have e := text_skValidate E S pk sk
  have e' := text_skValidate E S pk sk'
  by_cases hc1 : sk.ciphersuite = pk.ciphersuite ∧ sk.ciphersuite = pp.ciphersuite
  · by_cases hv : ValidTime pp.depth sk.time
    · rw [(e.2 hc1).2 hv, (e'.2 (hc ▸ hc1)).2 (ht ▸ hv), ht]
      congr 1
      generalize sk.ssk = l, sk'.ssk = l' at hs
      induction hs with
      | nil => rfl
      | cons h _ ih =>
        rw [List.map_cons, List.map_cons, ih]
        unfold good
        rw [h.1, h.2]
    · rw [(e.2 hc1).1 hv, (e'.2 (hc ▸ hc1)).1 (ht ▸ hv), ht]
  · rw [e.1 hc1, e'.1 (hc ▸ hc1)]

/-- C74: a time stamp of `2 ^ d`, one more than the last, is put down to the depth; other bad time
stamps are not. -/
theorem C74_blames_depth [DecidableEq GT] {E : Ext G1 G2 GT} (H : HashLaws E) {pp : PubParam G1 G2}
    (S : ParamShape pp) {sig : Signature G1 G2} (pk : PublicKey G2) (msg : Bytes)
    (hs : Supported pp.ciphersuite) (hc : sig.ciphersuite = pp.ciphersuite)
    (h1 : E.inSub2 sig.sigma1 = true) (h2 : E.inSub1 sig.sigma2 = true) :
    (sig.time = 2 ^ pp.depth → (verifyBytes E .debug sig pk pp msg).text =
      ascii "Error in time_to_vec: Invalid Time Depth\nError in verification: Invalid Time Depth\n") ∧
    (sig.time = 0 ∨ 2 ^ pp.depth < sig.time → (verifyBytes E .debug sig pk pp msg).text =
      ascii "Error in time_to_vec: Invalid Time Stamp\nError in verification: Invalid Time Stamp\n") := by
  rw [text_verifyBytes H S]
  have hd : pp.depth ≠ 0 := by have := S.depth_pos; omega
  unfold Says.verify
  rw [if_neg (by simp [hs, hc]), if_pos ⟨h1, h2⟩]
  unfold Says.badTime Says.timeWords
  constructor
  · intro h
    rw [if_neg (by rintro ⟨h3, h4⟩; omega), if_pos (Or.inr h)]
    decide +kernel
  · intro h
    have : 0 < 2 ^ pp.depth := by positivity
    rw [if_neg (by rintro ⟨h3, h4⟩; omega), if_neg (by omega)]
    decide +kernel

/-! ## proofs of possession and aggregation -/

/-- C74: making a public key, and validating one against its proof of possession, print the
ciphersuite of the parameter or key when they stop at it, and nothing else. -/
theorem C74_pop_text [DecidableEq GT] (E : Ext G1 G2 GT) (pp : PubParam G1 G2) (pk : PublicKey G2)
    (pop : ProofOfPossession G1) :
    ((pkInit .debug pp pk.pk).text = [] ↔ Supported pp.ciphersuite) ∧
    ((pkInit .debug pp pk.pk).text ≠ [] → (pkInit .debug pp pk.pk).text =
      Says.ln "Incorrect ciphersuite id: " (Debug.decimal pp.ciphersuite.toNat)) ∧
    ((pkValidate E .debug pk pop).text = [] ↔
      Supported pk.ciphersuite ∧ pop.ciphersuite = pk.ciphersuite) ∧
    ((pkValidate E .debug pk pop).text ≠ [] → (pkValidate E .debug pk pop).text =
      Says.ln "Incorrect ciphersuite id: " (Debug.decimal pk.ciphersuite.toNat)) := by
  have hm : ∀ c : UInt8, c ∈ validCiphersuite ↔ Supported c := by
    simp [validCiphersuite, Supported]
  unfold pkInit pkValidate
  refine ⟨?_, ?_, ?_, ?_⟩
  · by_cases h1 : Supported pp.ciphersuite
    · simp [hm, h1]
    · simp [hm, h1, text_line]
  · by_cases h1 : Supported pp.ciphersuite
    · simp [hm, h1]
    · simp [hm, h1, text_line, Says.ln]
  · by_cases h1 : Supported pk.ciphersuite
    · by_cases h2 : pop.ciphersuite = pk.ciphersuite
      · simp [hm, h1, h2]
      · rw [validCiphersuite_contains.2 h1, if_neg (by simp), if_pos (Ne.symm h2)]
        simp [h2, text_line]
    · simp [hm, h1, text_line]
  · by_cases h1 : Supported pk.ciphersuite
    · by_cases h2 : pop.ciphersuite = pk.ciphersuite
      · simp [hm, h1, h2]
      · rw [validCiphersuite_contains.2 h1, if_neg (by simp), if_pos (Ne.symm h2)]
        simp [text_line, Says.ln]
    · simp [hm, h1, text_line, Says.ln]

open Classical in
/-- C74: aggregation stops at the first signature whose ciphersuite or time differs from those of the
first, and says in both cases that the ciphersuites differ. -/
theorem C74_aggregate_text (s : Signature G1 G2) (l : List (Signature G1 G2)) :
    (aggregate .debug (s :: l)).text =
      if ∀ e ∈ l, e.ciphersuite = s.ciphersuite ∧ e.time = s.time then []
      else Says.ln "ciphersuite do not match" := by
  have e : aggregate .debug (s :: l) = (Say.quiet (.ok s) >>= fun res => do
      aggCheck .debug res l
      pure (l.foldl (fun res e =>
        { res with sigma1 := res.sigma1 + e.sigma1, sigma2 := res.sigma2 + e.sigma2 }) res)) := rfl
  rw [e, quiet_ok]
  split
  · rename_i h
    obtain ⟨h1, h2⟩ := (text_aggCheck s l).1 h
    rw [text_ok _ h1, h2]
    rfl
  · rename_i h
    obtain ⟨⟨e, h1⟩, h2⟩ := (text_aggCheck s l).2 h
    rw [text_err _ h1, h2]

/-! ### Concrete cases -/

section Examples
open Pixel.Toy

/-- an accepted signature, silent for its own and for another message -/
example : ∃ sig : Signature G G,
    sig.verifyBytes (ext sha0) .debug toyPk (param 5 1) [1, 2, 3] = .ok true ∧
    (verifyBytes (ext sha0) .debug sig toyPk (param 5 1) [1, 2, 3]).text = [] ∧
    (verifyBytes (ext sha0) .debug sig toyPk (param 5 1) [4]).text = [] := by
  have S := (param_wf sha0 (d := 5) (by omega) (by omega) 1).toParamShape
  obtain ⟨sig, _, ht, hv⟩ := toy_sig
  exact ⟨sig, hv, C74_accept_silent hashLaws S hv, C74_reject_silent hashLaws S hv⟩

/-- time 32 at depth 5, blamed on the depth, and time 33 -/
example :
    (verifyBytes (ext sha0) .debug ⟨1, 32, 0, 0⟩ toyPk (param 5 1) [4]).text =
      ascii "Error in time_to_vec: Invalid Time Depth\nError in verification: Invalid Time Depth\n" ∧
    (verifyBytes (ext sha0) .debug ⟨1, 33, 0, 0⟩ toyPk (param 5 1) [4]).text =
      ascii "Error in time_to_vec: Invalid Time Stamp\nError in verification: Invalid Time Stamp\n" := by
  have S := (param_wf sha0 (d := 5) (by omega) (by omega) 1).toParamShape
  exact ⟨(C74_blames_depth hashLaws S toyPk [4] (Or.inr rfl) rfl rfl rfl).1 (by decide),
    (C74_blames_depth hashLaws S toyPk [4] (Or.inr rfl) rfl rfl rfl).2 (Or.inr (by decide))⟩

/-- an element outside the subgroup -/
example : (verifyBytes (ext sha0) .debug ⟨1, 3, (0, 1), 0⟩ toyPk (param 5 1) [4]).text =
    ascii "Signature not it the correct subgroup\nsigma1: false, sigma2: true\n" := by
  have S := (param_wf sha0 (d := 5) (by omega) (by omega) 1).toParamShape
  rw [C74_verify_text hashLaws S]
  have h1 : (ext sha0).inSub2 ((0, 1) : G) = false := by decide +kernel
  have h2 : (ext sha0).inSub1 (0 : G) = true := by decide +kernel
  simp only [h1, h2]
  unfold Says.verify
  rw [if_neg (by simp [Supported, param]), if_neg (by simp)]
  decide +kernel

/-- a signature of ciphersuite 1 is turned down with the words that 0, the one of the parameter, is
incorrect -/
example : (verifyBytes (ext sha0) .debug ⟨1, 3, 0, 0⟩ toyPk (param 5 0) [4]).text =
    ascii "Incorrect ciphersuite id: 0\n" := by
  have S := (param_wf sha0 (d := 5) (by omega) (by omega) 0).toParamShape
  rw [C74_verify_text hashLaws S]
  unfold Says.verify
  rw [if_pos (Or.inr (by decide))]
  decide +kernel

/-- the honest key, the key without its sub keys: valid and silent -/
example (sk : SecretKey G G) (h : sk = sk0 5 1 ∨ sk = { sk0 5 1 with ssk := [] }) :
    (skValidate (ext sha0) .debug sk toyPk (param 5 1)).text = [] := by
  have W := param_wf sha0 (d := 5) (by omega) (by omega) 1
  have hv : SecretKey.validate (ext sha0) .debug (sk0 5 1) toyPk (param 5 1) = .ok true :=
    SecretKey.validate_honest (groupLaws sha0) W .debug (hkey_sk0 (by omega) 1) rfl rfl
  rcases h with rfl | rfl
  · exact (C74_validate_explains _ W.toParamShape _ _ hv).2 rfl
  · refine (C74_validate_explains _ W.toParamShape _ _ (b := true) ?_).2 rfl
    have := C48_truncation (ext sha0) .debug toyPk (param 5 1) (by decide) _ hv 0
    simpa using this

/-- the sub key of time 1 in a key of time 2 -/
example : (skValidate (ext sha0) .debug { sk0 5 1 with time := 2 } toyPk (param 5 1)).text =
    ascii ("Validation failed: time does not match the gamma_list\n" ++
      "Current time: 1\ntime from gamma list: 2\n") := by
  have W := param_wf sha0 (d := 5) (by omega) (by omega) 1
  have hs : SubSecretKey.validate (ext sha0) .debug (ssk0 5) toyPk (param 5 1) = .ok true :=
    SubSecretKey.validate_honest (groupLaws sha0) W (s := ssk0 5) (v := []) (rho := 5) (x := 3)
      ⟨by have := nodeAt_num (isNode_nil.2 (show 1 ≤ (param 5 1).depth by decide))
          simpa [ssk0] using this, rfl, rfl, rfl⟩ rfl
  obtain ⟨bits, hb, -, -, ht⟩ := C74_validate_text (ext sha0) W.toParamShape toyPk
    { sk0 5 1 with time := 2 }
  have hn : NodeAt 5 2 [1] := ⟨by omega, by decide⟩
  have hn17 : NodeAt 5 17 [2] := ⟨by omega, by decide⟩
  have hc : CoverList 5 2 [[1], [2]] := by
    rw [coverList_iff hn]; decide
  rw [ht rfl rfl [[1], [2]] [2, 17] hc (.cons hn (.cons hn17 .nil)) (nodeAt_iff.1 hn).1]
  have : bits = [true] := by
    cases hb with
    | cons h h' =>
      cases h'
      rw [hs] at h
      rw [Res.ok.inj h]
  rw [this]
  change Says.subKeys 5 0 [(1, true)] [2, 17] = _
  rw [Says.subKeys, if_neg (by decide)]
  decide +kernel

/-- two signatures of different times: the text speaks of the ciphersuites -/
example : (aggregate .debug [(⟨1, 3, 0, 0⟩ : Signature G G), ⟨1, 4, 0, 0⟩]).text =
    ascii "ciphersuite do not match\n" := by
  rw [C74_aggregate_text, if_neg (by simp)]
  decide +kernel

/-- a proof of possession of ciphersuite 0 for a key of ciphersuite 1 -/
example : (pkValidate (ext sha0) .debug toyPk ⟨0, 0⟩).text ≠ [] := by
  rw [Ne, (C74_pop_text (ext sha0) (param 5 1) toyPk ⟨0, 0⟩).2.2.1]
  rintro ⟨-, h⟩
  exact absurd h (by decide)

end Examples

end Pixel.Props
