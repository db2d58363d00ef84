import Verif.Spec.CGame
import Verif.Proof.Ffi
import Verif.Props.Script

/-! # The game against users of the C interface -/

namespace Pixel

open Spec Props

set_option linter.unusedSectionVars false

variable {G1 G2 GT : Type} [AddCommGroup G1] [AddCommGroup G2] [CommGroup GT] {N : Nat}

/-! ### reading strings -/

theorem parse_parsed {α : Type} {p : SM Bytes α} {b : Bytes} {x : α} :
    Ffi.parse p b = .ok x ↔ parsed p b = some x := by
  unfold Ffi.parse parsed
  rcases p.run b with ⟨r, rest⟩
  rcases r with a | e | e
  · show Res.ok a = Res.ok x ↔ some a = some x
    rw [Res.ok.injEq, Option.some.injEq]
  · constructor <;> intro h <;> cases h
  · constructor <;> intro h <;> cases h

theorem parseAll_parsed {α : Type} {p : SM Bytes α} {l : List Bytes} {xs : List α} :
    Ffi.parseAll p l = .ok xs ↔ List.Forall₂ (fun b x => parsed p b = some x) l xs := by
  constructor
  · intro h
    induction l generalizing xs with
    | nil => cases Res.ok.inj h; exact .nil
    | cons b l ih =>
      rw [Ffi.parseAll] at h
      rcases hb : Ffi.parse p b with x | e | e
      · rw [hb, Res.ok_bind] at h
        rcases hl : Ffi.parseAll p l with ys | e | e
        · rw [hl, Res.ok_bind] at h
          cases Res.ok.inj h
          exact .cons (parse_parsed.1 hb) (ih hl)
        · rw [hl] at h; cases h
        · rw [hl] at h; cases h
      · rw [hb] at h; cases h
      · rw [hb] at h; cases h
  · intro h
    exact Ffi.parseAll_eq_ok l xs (h.imp fun b x hx => parse_parsed.2 hx)

theorem keys_forall {E : Ext G1 G2 GT} {F : ByteClaim}
    {ks : List (PublicKey G2 × ProofOfPossession G1)} :
    F.keys E = some ks ↔ List.Forall₂ (fun s k => parsed (PublicKey.deserialize E true) s.1 = some k.1 ∧
      parsed (ProofOfPossession.deserialize E true) s.2 = some k.2) F.signers ks := by
  unfold ByteClaim.keys
  generalize F.signers = l
  induction l generalizing ks with
  | nil =>
    rw [List.mapM_nil]
    constructor
    · intro h; cases h; exact .nil
    · intro h; cases h; rfl
  | cons s l ih =>
    rw [List.mapM_cons]
    constructor
    · intro h
      obtain ⟨k, h1, h2⟩ := Option.bind_eq_some_iff.1 h
      obtain ⟨ks', h3, h4⟩ := Option.bind_eq_some_iff.1 h2
      obtain ⟨pk, h5, h6⟩ := Option.bind_eq_some_iff.1 h1
      obtain ⟨pop, h7, h8⟩ := Option.bind_eq_some_iff.1 h6
      cases h8
      cases h4
      exact .cons ⟨h5, h7⟩ (ih.1 h3)
    · intro h
      cases h with
      | cons h1 h2 =>
        rw [h1.1, h1.2, ih.2 h2]
        rfl

theorem pk_bytes {E : Ext G1 G2 GT} (C : CodecLaws E) {b : Bytes} {k : PublicKey G2}
    (hb : b.length = 49) (h : parsed (PublicKey.deserialize E true) b = some k) :
    b = pkLayout E true k ∧ PkValid E k := by
  obtain ⟨rest, h1⟩ := parsed_eq h
  obtain ⟨rfl, h2⟩ := PublicKey.deserialize_ok C h1
  refine ⟨?_, h2⟩
  have h3 : rest = [] := by
    rw [← List.length_eq_zero_iff]
    simp only [List.length_append, pkLayout, List.length_cons, C.enc2_len, if_true] at hb
    omega
  rw [h3, List.append_nil]

theorem sig_bytes {E : Ext G1 G2 GT} (C : CodecLaws E) {b : Bytes} {s : Signature G1 G2}
    (hb : b.length = 149) (h : parsed (Signature.deserialize E true) b = some s) :
    b = sigLayout E true s ∧ SigValid E s := by
  obtain ⟨rest, h1⟩ := parsed_eq h
  obtain ⟨_, rfl, h2⟩ := Signature.deserialize_ok C h1
  refine ⟨?_, h2⟩
  have h3 : rest = [] := by
    rw [← List.length_eq_zero_iff]
    simp only [List.length_append, sigLayout, List.length_cons, C.enc2_len, C.enc1_len, be32_length,
      if_true] at hb
    omega
  rw [h3, List.append_nil]

theorem parsed_pk {E : Ext G1 G2 GT} (C : CodecLaws E) {k : PublicKey G2} (h : PkValid E k) :
    parsed (PublicKey.deserialize E true) (pkLayout E true k) = some k := by
  have := Ffi.parse_pk C h []
  rw [List.append_nil] at this
  exact parse_parsed.1 this

theorem claim_time {E : Ext G1 G2 GT} {F : ByteClaim} {s : Signature G1 G2}
    (h : F.sig = sigLayout E true s) (hs : s.time < 2 ^ 32) : F.time = s.time := by
  unfold ByteClaim.time
  rw [h]
  show beNat ((be32 s.time ++ _).take 4) = _
  rw [List.take_append_of_le_length (by rw [be32_length]), List.take_of_length_le (by rw [be32_length])]
  exact beNat_be32_lt hs

theorem cPopInput_layout (E : Ext G1 G2 GT) (k : PublicKey G2) :
    cPopInput (pkLayout E true k) = popInput E k := by
  unfold cPopInput popInput pkLayout
  rfl

/-- winning through the C interface -/
theorem cWins_iff [DecidableEq GT] {E : Ext G1 G2 GT} (C : CodecLaws E) {pf : Profile}
    {pk : PublicKey G2} (hpk : PkValid E pk) {S : CSigner} {S' : CodeSigner G1 G2}
    (h1 : S.signed = S'.signed) (h2 : S.broken = S'.broken) {F : ByteClaim} :
    F.CWins E pf (pkLayout E true pk) S ↔ F.Fits ∧ F.Wins E pf E.defaultParam pk S' := by
  unfold ByteClaim.CWins ByteClaim.Wins
  refine and_congr_right fun hF => ?_
  rw [h1, h2]
  constructor
  · rintro ⟨hp, hv, hm, hb, hs⟩
    unfold Ffi.cVerifyAgg at hv
    rcases e1 : Ffi.parseAll (PublicKey.deserialize E true) (F.signers.map (·.1)) with ks | e | e
    case err => simp only [e1] at hv; cases hv
    case panic => simp only [e1] at hv; cases hv
    rcases e2 : Ffi.parse (Signature.deserialize E true) F.sig with sig | e | e
    case err => simp only [e1, e2] at hv; cases hv
    case panic => simp only [e1, e2] at hv; cases hv
    simp only [e1, e2, Res.ok_bind] at hv
    obtain ⟨b1, b2⟩ := sig_bytes C hF.1 (parse_parsed.1 e2)
    have b3 := claim_time b1 b2.time_lt
    -- the keys with their proofs
    have hpop : ∀ s ∈ F.signers, ∃ k : PublicKey G2 × ProofOfPossession G1,
        (parsed (PublicKey.deserialize E true) s.1 = some k.1 ∧
          parsed (ProofOfPossession.deserialize E true) s.2 = some k.2) ∧
        PublicKey.validate E k.1 k.2 = true := by
      intro s hs
      have h := hp s hs
      unfold Ffi.cVerifyPop at h
      rcases a1 : Ffi.parse (PublicKey.deserialize E true) s.1 with k | e | e
      case err => simp only [a1] at h; cases h
      case panic => simp only [a1] at h; cases h
      rcases a2 : Ffi.parse (ProofOfPossession.deserialize E true) s.2 with p | e | e
      case err => simp only [a1, a2] at h; cases h
      case panic => simp only [a1, a2] at h; cases h
      simp only [a1, a2, Res.ok_bind] at h
      exact ⟨(k, p), ⟨parse_parsed.1 a1, parse_parsed.1 a2⟩, Res.ok.inj h⟩
    have hall : ∃ l : List (PublicKey G2 × ProofOfPossession G1),
        List.Forall₂ (fun s k => (parsed (PublicKey.deserialize E true) s.1 = some k.1 ∧
          parsed (ProofOfPossession.deserialize E true) s.2 = some k.2) ∧
          PublicKey.validate E k.1 k.2 = true) F.signers l := by
      clear hm hv hF hp e1
      generalize F.signers = l at hpop
      induction l with
      | nil => exact ⟨[], .nil⟩
      | cons s l ih =>
        obtain ⟨k, hk⟩ := hpop s (by simp)
        obtain ⟨l', hl⟩ := ih fun s hs => hpop s (by simp [hs])
        exact ⟨k :: l', .cons hk hl⟩
    obtain ⟨l, hl⟩ := hall
    have hks : l.map (·.1) = ks := by
      have c1 := parseAll_parsed.1 e1
      rw [List.forall₂_map_left_iff] at c1
      have c2 : List.Forall₂ (fun s k => parsed (PublicKey.deserialize E true) s.1 = some k) F.signers
          (l.map (·.1)) := List.forall₂_map_right_iff.2 (hl.imp fun _ _ h => h.1.1)
      clear hm hv hF hp e1 hpop hl
      generalize F.signers = q at c1 c2
      generalize l.map (·.1) = l' at c2
      induction c1 generalizing l' with
      | nil => cases c2; rfl
      | cons h _ ih =>
        cases c2 with
        | cons h' hc => rw [ih _ hc, Option.some.inj (h'.symm.trans h)]
    refine ⟨sig, l, ⟨parse_parsed.1 e2, keys_forall.2 (hl.imp fun _ _ h => h.1), ?_, ?_⟩, ?_, ?_, ?_⟩
    · intro k hk
      obtain ⟨i, hi, rfl⟩ := List.mem_iff_getElem.1 hk
      have := hl.length_eq
      exact (List.forall₂_iff_get.1 hl).2 i (by omega) hi |>.2
    · rw [hks]; exact hv
    · obtain ⟨s, hs1, hs2⟩ := List.mem_map.1 hm
      obtain ⟨i, hi, rfl⟩ := List.mem_iff_getElem.1 hs1
      have hi' : i < l.length := by have := hl.length_eq; omega
      have hk := ((List.forall₂_iff_get.1 hl).2 i hi hi').1.1
      have hk' : parsed (PublicKey.deserialize E true) (F.signers[i]).1 = some (l[i]).1 := hk
      rw [hs2, parsed_pk C hpk] at hk'
      exact List.mem_map.2 ⟨l[i], List.getElem_mem hi', (Option.some.inj hk').symm⟩
    · rw [← b3]; exact hb
    · rw [← b3]; exact hs
  · rintro ⟨sig, ks, ⟨k1, k2, k3, k4⟩, hm, hb, hs⟩
    have hl := keys_forall.1 k2
    obtain ⟨b1, b2⟩ := sig_bytes C hF.1 k1
    have b3 := claim_time b1 b2.time_lt
    have hat : ∀ (i : Nat) (h : i < F.signers.length) (h' : i < ks.length),
        parsed (PublicKey.deserialize E true) (F.signers[i]).1 = some (ks[i]).1 ∧
          parsed (ProofOfPossession.deserialize E true) (F.signers[i]).2 = some (ks[i]).2 :=
      fun i h h' => (List.forall₂_iff_get.1 hl).2 i h h'
    have hlen := hl.length_eq
    refine ⟨?_, ?_, ?_, ?_, ?_⟩
    · intro s hs
      obtain ⟨i, hi, rfl⟩ := List.mem_iff_getElem.1 hs
      have hi' : i < ks.length := by omega
      obtain ⟨a1, a2⟩ := hat i hi hi'
      unfold Ffi.cVerifyPop
      simp only [parse_parsed.2 a1, parse_parsed.2 a2, Res.ok_bind]
      rw [k3 _ (List.getElem_mem hi')]
    · unfold Ffi.cVerifyAgg
      have e1 : Ffi.parseAll (PublicKey.deserialize E true) (F.signers.map (·.1)) =
          .ok (ks.map (·.1)) := parseAll_parsed.2 (by
        rw [List.forall₂_map_left_iff, List.forall₂_map_right_iff]
        exact hl.imp fun _ _ h => h.1)
      simp only [e1, parse_parsed.2 k1, Res.ok_bind]
      exact k4
    · obtain ⟨k, hk1, hk2⟩ := List.mem_map.1 hm
      obtain ⟨i, hi, rfl⟩ := List.mem_iff_getElem.1 hk1
      have hi' : i < F.signers.length := by omega
      have hin := List.getElem_mem hi'
      have := (pk_bytes C (hF.2 _ hin).1 (hat i hi' hi).1).1
      rw [hk2] at this
      exact List.mem_map.2 ⟨_, hin, this⟩
    · rw [b3]; exact hb
    · rw [b3]; exact hs

theorem wins_read [DecidableEq GT] {E : Ext G1 G2 GT} {sha : Bytes → Bytes} {f : Bytes → Bytes → G1}
    {pf : Profile} {pp : PubParam G1 G2} {pk : PublicKey G2} {S : CodeSigner G1 G2} {F : ByteClaim}
    (h : F.Wins { E with sha512 := sha, hashToG1 := f } pf pp pk S) :
    ∀ s ∈ F.signers, ∃ k, parsed (PublicKey.deserialize E true) s.1 = some k := by
  obtain ⟨sig, ks, ⟨_, h1, _⟩, _⟩ := h
  have h2 : F.keys E = some ks := h1
  have hl := keys_forall.1 h2
  intro s hs
  obtain ⟨i, hi, rfl⟩ := List.mem_iff_getElem.1 hs
  exact ⟨_, ((List.forall₂_iff_get.1 hl).2 i hi (by have := hl.length_eq; omega)).1⟩

theorem empty_wins [DecidableEq GT] {E : Ext G1 G2 GT} {pf : Profile} {pp : PubParam G1 G2}
    {pk : PublicKey G2} {S : CodeSigner G1 G2} : ¬ ByteClaim.Wins E pf pp pk S ⟨[], [], []⟩ := by
  rintro ⟨sig, ks, ⟨_, h1, _⟩, hm, _⟩
  have := (keys_forall.1 h1).length_eq
  rw [List.length_eq_zero_iff.1 this.symm] at hm
  cases hm

theorem codec_oracle {E : Ext G1 G2 GT} (C : CodecLaws E) (sha : Bytes → Bytes)
    (f : Bytes → Bytes → G1) : CodecLaws { E with sha512 := sha, hashToG1 := f } :=
  ⟨C.enc1_len, C.enc2_len, C.dec1_enc, C.dec2_enc, C.dec1_canon, C.dec2_canon, C.dec1_flag,
    C.dec2_flag, C.dec1_total, C.dec2_total⟩

theorem cWins_oracle [DecidableEq GT] {E : Ext G1 G2 GT} (C : CodecLaws E) {pf : Profile}
    {pk : PublicKey G2} (hpk : PkValid E pk) {S : CSigner} {S' : CodeSigner G1 G2}
    (h1 : S.signed = S'.signed) (h2 : S.broken = S'.broken) {F : ByteClaim} (sha : Bytes → Bytes)
    (f : Bytes → Bytes → G1) :
    F.CWins { E with sha512 := sha, hashToG1 := f } pf (pkLayout E true pk) S ↔
      F.Fits ∧ F.Wins { E with sha512 := sha, hashToG1 := f } pf E.defaultParam pk S' :=
  cWins_iff (codec_oracle C sha f) (pk := pk) ⟨hpk.suite, hpk.sub⟩ h1 h2

/-- the inputs of hash-to-curve, if all keys can be read -/
theorem inputs_bytes {E : Ext G1 G2 GT} (C : CodecLaws E) {F : ByteClaim} (hF : F.Fits)
    (h : ∀ s ∈ F.signers, ∃ k, parsed (PublicKey.deserialize E true) s.1 = some k) :
    F.inputs E = F.signers.map fun s => cPopInput s.1 := by
  unfold ByteClaim.inputs
  have hF := hF.2
  generalize F.signers = l at h hF
  induction l with
  | nil => rfl
  | cons s l ih =>
    obtain ⟨k, hk⟩ := h s (by simp)
    rw [List.filterMap_cons, hk, Option.map_some, List.map_cons,
      ih (fun s hs => h s (by simp [hs])) fun s hs => hF s (by simp [hs]),
      (pk_bytes C (hF s (by simp)).1 hk).1, cPopInput_layout]

/-! ### the calls -/

theorem signHashed_keyFor {E : Ext G1 G2 GT} (H : HashLaws E) (L : GroupLaws E) (pf : Profile)
    {pp : PubParam G1 G2} (W : ParamWF E pp) (hd : pp.depth = 32) (hsup : Supported pp.ciphersuite)
    {x t : Nat} {sk : SecretKey G1 G2} (h : KeyFor pp (x • pp.h) t sk) (msg : Bytes) (M : Fr) :
    ∃ sig, signHashed E.sha512 pf pp sk msg M = .ok sig ∧ SigValid E sig := by
  obtain ⟨v, hv, hk⟩ := keyFor_iff.1 h
  obtain ⟨sig, a, h1, h2, h3⟩ := Signature.signFr_eq W.toParamShape pf hk M
    (drawVal E.sha512 sk.prng (signInfo msg sk.time))
  refine ⟨sig, ?_, ?_⟩
  · unfold signHashed
    rw [sample_exec H.sha_len]
    exact h1
  · have ht := (nodeAt_iff.1 h2.node).1
    rw [hd] at ht
    refine ⟨by rw [h2.suite]; exact hsup, ht.1, by have := ht.2; omega, ?_, ?_⟩
    · rw [h2.sigma1, W.g2_gen]; exact L.sub2_nsmul L.gen2_sub _
    · rw [h2.sigma2]
      exact L.sub1_add _ _ (L.sub1_nsmul W.h_sub _) (L.sub1_nsmul (L.sub1_sigPoint W _ _) _)

/-- signing with the blob of an honest key -/
theorem cSignHashed_honest {E : Ext G1 G2 GT} (H : HashLaws E) (L : GroupLaws E) (C : CodecLaws E)
    (D : DefaultLaws E) (pf : Profile) {x t : Nat} {sk : SecretKey G1 G2}
    (h : KeyFor E.defaultParam (x • E.defaultParam.h) t sk) (msg : Bytes) (M : Fr) :
    ∃ sig, signHashed E.sha512 pf E.defaultParam sk msg M = .ok sig ∧
      cSignHashed E pf (skLayout E true sk) msg t M = .ok (sigLayout E true sig) ∧
      ∀ t', t ≠ t' → cSignHashed E pf (skLayout E true sk) msg t' M = .panic .explicit := by
  have hp := Ffi.parse_sk C (D.skValid L h) []
  rw [List.append_nil] at hp
  obtain ⟨sig, h1, h2⟩ := signHashed_keyFor H L pf D.wf D.depth D.suite h msg M
  have hser := (C36_signature C h2 []).1
  have hlen : (sigLayout E true sig).length = 149 := (C37_fixed_sizes C).2.1 sig _ hser
  refine ⟨sig, h1, ?_, fun t' ht => ?_⟩
  · unfold cSignHashed
    simp only [hp, Res.ok_bind, h.time, ne_eq, not_true_eq_false, if_false, h1, Ffi.unwrap, hser,
      Ffi.toArray_ok hlen]
  · unfold cSignHashed
    simp only [hp, Res.ok_bind, h.time, ne_eq, ht, not_false_eq_true, if_true]

/-- updating the blob of an honest key -/
theorem cSkUpdate_exact {E : Ext G1 G2 GT} (H : HashLaws E) (L : GroupLaws E) (C : CodecLaws E)
    (D : DefaultLaws E) (pf : Profile) {x t : Nat} {sk : SecretKey G1 G2}
    (h : KeyFor E.defaultParam (x • E.defaultParam.h) t sk) (seed : Bytes) (tar : Nat) :
    (¬ (t < tar ∧ tar ≤ 2 ^ 32 - 1) →
      Ffi.cSkUpdate E pf (skLayout E true sk) seed tar = .panic .explicit) ∧
    (t < tar ∧ tar ≤ 2 ^ 32 - 1 →
      (∃ sk', SecretKey.update E.sha512 pf E.defaultParam tar seed sk = (.ok (), sk') ∧
        KeyFor E.defaultParam (x • E.defaultParam.h) tar sk' ∧
        Ffi.cSkUpdate E pf (skLayout E true sk) seed tar = .ok (skLayout E true sk')) ∨
      (SecretKey.update E.sha512 pf E.defaultParam tar seed sk = (.panic .assertion, sk) ∧
        Ffi.cSkUpdate E pf (skLayout E true sk) seed tar = .panic .assertion)) := by
  have hp := Ffi.parse_sk C (D.skValid L h) []
  rw [List.append_nil] at hp
  have ho := C15_update_outcome H.sha_len pf D.wf.toParamShape h tar seed
  rw [D.depth] at ho
  unfold Ffi.cSkUpdate
  simp only [hp, Res.ok_bind]
  constructor
  · intro hn
    simp only [SM.exec, ho.1 hn, Ffi.unwrap, Res.panic_bind]
  · intro hn
    rcases ho.2 hn with ⟨sk', h1, h2⟩ | ⟨h1, _⟩
    · left
      refine ⟨sk', h1, h2, ?_⟩
      simp only [SM.exec, h1, Ffi.unwrap, Res.ok_bind, D.serialize_sk L C h2]
    · right
      refine ⟨h1, ?_⟩
      simp only [SM.exec, h1, Ffi.unwrap, Res.panic_bind]

theorem cKeygen_layout {E : Ext G1 G2 GT} (L : GroupLaws E) (C : CodecLaws E) (D : DefaultLaws E)
    {x : Nat} {seed : Bytes} {pk : PublicKey G2} {sk : SecretKey G1 G2} {pop : ProofOfPossession G1}
    (h : keygen E seed E.defaultParam = .ok (pk, sk, pop))
    (h1 : KeyFor E.defaultParam (x • E.defaultParam.h) 1 sk) (h2 : PkValid E pk) (h3 : PopValid E pop) :
    Ffi.cKeygen E seed = .ok ⟨pkLayout E true pk, skLayout E true sk, popLayout E true pop⟩ := by
  have s1 := (C36_public_key C true h2 []).1
  have s2 := D.serialize_sk L C h1
  have s3 := (C36_pop C true h3 []).1
  have l1 : (pkLayout E true pk).length = 49 := ((C37_fixed_sizes C).1 _ _ s1).1
  have l3 : (popLayout E true pop).length = 97 := (C37_fixed_sizes C).2.2 _ _ s3
  unfold Ffi.cKeygen
  simp only [h, Ffi.unwrap, Res.ok_bind, s1, s2, s3, Ffi.toArray_ok l1, Ffi.toArray_ok l3]

/-! ### the game -/

theorem curveOracles_zero {g : G1} (is : List (Bytes × Bytes)) {pts : Curve G1} {f : Curve G1 → ℚ}
    (h : ∀ q, f q = 0) : curveOracles g is pts f = 0 := by
  induction is generalizing pts with
  | nil => exact h _
  | cons i is ih =>
    simp only [curveOracles]
    unfold curveOracle
    rcases pts.lookup i with _ | p
    · exact (avg_congr fun r => ih).trans (avg_const (α := Fr) 0)
    · exact ih

/-- a signer of the C interface with its blob, and the signer it stands for -/
structure Holds (E : Ext G1 G2 GT) (S : CSigner) (S' : CodeSigner G1 G2) (t : Nat) : Prop where
  key : ∃ x : Nat, KeyFor E.defaultParam (x • E.defaultParam.h) t S'.sk
  blob : S.sk = skLayout E true S'.sk
  time : S.time = t
  signed : S.signed = S'.signed
  broken : S.broken = S'.broken

theorem holds_update {E : Ext G1 G2 GT} {S : Fin N → CSigner} {S' : Fin N → CodeSigner G1 G2}
    {T : Fin N → Nat} (h : ∀ i, Holds E (S i) (S' i) (T i)) (j : Fin N) {s : CSigner}
    {s' : CodeSigner G1 G2} {t : Nat} (hj : Holds E s s' t) :
    ∀ i, Holds E (Function.update S j s i) (Function.update S' j s' i) (Function.update T j t i) := by
  intro i
  by_cases hi : i = j
  · subst hi
    simp only [Function.update_self]
    exact hj
  · simp only [Function.update_of_ne hi]
    exact h i

theorem c_chance [DecidableEq GT] {E : Ext G1 G2 GT} (H : HashLaws E) (L : GroupLaws E)
    (C : CodecLaws E) (D : DefaultLaws E) {pf : Profile} {g : G1}
    {pk : Fin N → PublicKey G2} (hpk : ∀ i, PkValid E (pk i)) (P : CPlayer G1 N)
    {S : Fin N → CSigner} {S' : Fin N → CodeSigner G1 G2} {T : Fin N → Nat}
    (hS : ∀ i, Holds E (S i) (S' i) (T i)) (tab : Table) (pts : Curve G1) :
    P.chance E pf g (fun i => pkLayout E true (pk i)) S tab pts =
      (P.lower E T).chance E pf g E.defaultParam pk S' tab pts := by
  induction P generalizing S S' T tab pts with
  | toss n hn next ih => exact avg_congr fun c => ih c hS tab pts
  | hash msg next ih => exact oracle_congr fun D tab' => ih _ hS tab' pts
  | curve q next ih => exact curveOracle_congr fun p pts' => ih p hS tab pts'
  | sign j t msg next ih =>
    obtain ⟨x, hx⟩ := (hS j).key
    simp only [CPlayer.lower]
    by_cases ht : T j = t
    · rw [if_pos ht]
      simp only [CPlayer.chance, CrowdPlayer.chance]
      refine oracle_congr fun D' tab' => ?_
      obtain ⟨sig, h1, h2, _⟩ := cSignHashed_honest H L C D pf hx msg D'.field
      rw [← (hS j).blob] at h2
      rw [h1, ← ht, h2]
      simp only
      refine ih _ (fun i => ?_) tab' pts
      have := holds_update hS j (t := T j) (s := { S j with signed := (S j).signed ++ [(T j, msg)] })
        (s' := { S' j with signed := (S' j).signed ++ [((S' j).sk.time, msg)] })
        ⟨⟨x, hx⟩, (hS j).blob, (hS j).time, by
          show (S j).signed ++ _ = (S' j).signed ++ _
          rw [(hS j).signed, hx.time], (hS j).broken⟩ i
      rwa [Function.update_eq_self] at this
    · rw [if_neg ht]
      simp only [CPlayer.chance]
      have e : ∀ (D' : Digest), cSignHashed E pf (S j).sk msg t D'.field = .panic .explicit := by
        intro D'
        obtain ⟨sig, _, _, h3⟩ := cSignHashed_honest H L C D pf hx msg D'.field
        rw [(hS j).blob]
        exact h3 t ht
      simp only [e]
      rw [oracle_const]
      exact ih _ hS tab pts
  | update j tar seed next ih =>
    obtain ⟨x, hx⟩ := (hS j).key
    obtain ⟨h1, h2⟩ := cSkUpdate_exact H L C D pf hx seed tar
    rw [← (hS j).blob] at h1 h2
    simp only [CPlayer.lower]
    by_cases ht : T j < tar ∧ tar ≤ 2 ^ 32 - 1
    · rw [if_pos ht]
      simp only [CPlayer.chance, CrowdPlayer.chance]
      rcases h2 ht with ⟨sk', a1, a2, a3⟩ | ⟨a1, a2⟩
      · rw [a1, a3]
        simp only
        exact ih _ (holds_update hS j (s := { S j with sk := skLayout E true sk', time := tar })
          (s' := { S' j with sk := sk' }) ⟨⟨x, a2⟩, rfl, rfl, (hS j).signed, (hS j).broken⟩) tab pts
      · rw [a1, a2]
    · rw [if_neg ht]
      simp only [CPlayer.chance]
      rw [h1 ht]
      exact ih _ hS tab pts
  | breakIn j next ih =>
    obtain ⟨x, hx⟩ := (hS j).key
    simp only [CPlayer.lower, CPlayer.chance, CrowdPlayer.chance]
    rw [← (hS j).blob]
    refine ih _ (fun i => ?_) tab pts
    have := holds_update hS j (t := T j) (s := { S j with broken := (S j).broken ++ [(S j).time] })
      (s' := { S' j with broken := (S' j).broken ++ [(S' j).sk.time] })
      ⟨⟨x, hx⟩, (hS j).blob, (hS j).time, (hS j).signed, by
        show (S j).broken ++ _ = (S' j).broken ++ _
        rw [(hS j).broken, hx.time, (hS j).time]⟩ i
    rwa [Function.update_eq_self] at this
  | forge F =>
    simp only [CPlayer.lower]
    have hw : ∀ (q : Curve G1) (D' : Digest) (i : Fin N),
        F.CWins { E with sha512 := fun _ => D'.bytes, hashToG1 := q.hash } pf (pkLayout E true (pk i))
          (S i) ↔ F.Fits ∧ F.Wins { E with sha512 := fun _ => D'.bytes, hashToG1 := q.hash } pf
            E.defaultParam (pk i) (S' i) := fun q D' i =>
      cWins_oracle C (hpk i) (hS i).signed (hS i).broken _ _
    by_cases hF : F.Fits
    · rw [if_pos hF]
      simp only [CPlayer.chance, CrowdPlayer.chance]
      by_cases hr : ∀ s ∈ F.signers, ∃ k, parsed (PublicKey.deserialize E true) s.1 = some k
      · rw [inputs_bytes C hF hr]
        refine congrArg _ (funext fun q => oracle_congr fun D' tab' => ?_)
        have hw' := exists_congr (hw q D')
        by_cases h : ∃ i, F.Wins { E with sha512 := fun _ => D'.bytes, hashToG1 := q.hash } pf
            E.defaultParam (pk i) (S' i)
        · rw [if_pos h, if_pos (hw'.2 (h.imp fun i hi => ⟨hF, hi⟩))]
        · rw [if_neg h, if_neg (mt hw'.1 fun ⟨i, hi⟩ => h ⟨i, hi.2⟩)]
      · have hno : ∀ (q : Curve G1) (D' : Digest) (i : Fin N),
            ¬ F.Wins { E with sha512 := fun _ => D'.bytes, hashToG1 := q.hash } pf
              E.defaultParam (pk i) (S' i) := by
          exact fun q D' i hwin => hr (wins_read hwin)
        refine Eq.trans (b := 0) (curveOracles_zero _ fun q => oracle_zero fun D' tab' => if_neg ?_)
          (Eq.symm (curveOracles_zero _ fun q => oracle_zero fun D' tab' => if_neg ?_))
        · rintro ⟨i, hi⟩
          exact hno _ _ _ ((hw _ _ _).1 hi).2
        · rintro ⟨i, hi⟩
          exact hno _ _ _ hi
    · rw [if_neg hF]
      simp only [CPlayer.chance, CrowdPlayer.chance]
      refine Eq.trans (b := 0) (curveOracles_zero _ fun q => oracle_zero fun D' tab' => if_neg ?_)
        (Eq.symm (curveOracles_zero _ fun q => oracle_zero fun D' tab' => if_neg ?_))
      · rintro ⟨i, hi⟩
        exact hF hi.1
      · rintro ⟨i, hi⟩
        exact empty_wins hi

/-! ### the parameters -/

/-- all points are in the subgroup -/
def SubTable (E : Ext G1 G2 GT) (pts : Curve G1) : Prop := ∀ i p, pts.lookup i = some p → E.inSub1 p = true

theorem curveOracles_sub {E : Ext G1 G2 GT} (L : GroupLaws E) {g : G1} (hsub : E.inSub1 g = true)
    (is : List (Bytes × Bytes)) {pts : Curve G1} (hp : SubTable E pts) {f f' : Curve G1 → ℚ}
    (h : ∀ q, SubTable E q → f q = f' q) : curveOracles g is pts f = curveOracles g is pts f' := by
  induction is generalizing pts with
  | nil => exact h _ hp
  | cons i is ih =>
    simp only [curveOracles]
    unfold curveOracle
    rcases hi : pts.lookup i with _ | p
    · refine avg_congr fun r => ih fun j p hj => ?_
      rw [List.lookup_append] at hj
      rcases hl : pts.lookup j with _ | p'
      · rw [hl, Option.none_or, List.lookup_cons] at hj
        rcases hb : (j == i) with _ | _
        · rw [hb] at hj; cases hj
        · rw [hb] at hj
          cases hj
          exact L.sub1_nsmul hsub _
      · rw [hl, Option.some_or] at hj
        cases hj
        exact hp _ _ hl
    · exact ih hp

theorem SubTable.hash {E : Ext G1 G2 GT} (L : GroupLaws E) {pts : Curve G1} (h : SubTable E pts)
    (m c : Bytes) : E.inSub1 (pts.hash m c) = true := by
  unfold Curve.hash
  rcases hl : pts.lookup (m, c) with _ | p
  · exact L.sub1_zero
  · exact h _ _ hl

theorem group_with {E : Ext G1 G2 GT} (L : GroupLaws E) (pp : PubParam G1 G2) {f : Bytes → Bytes → G1}
    (h : ∀ m c, E.inSub1 (f m c) = true) : GroupLaws { E with defaultParam := pp, hashToG1 := f } :=
  ⟨L.sub1_zero, L.sub1_add, L.sub1_neg, L.sub1_order, L.sub2_zero, L.sub2_add, L.sub2_neg, L.sub2_order,
    L.gen2_sub, L.gen2_gen, h, L.pairing_prod, L.pair_add_left, L.pair_add_right, L.pair_nondeg⟩

theorem codec_with {E : Ext G1 G2 GT} (C : CodecLaws E) (pp : PubParam G1 G2) (f : Bytes → Bytes → G1) :
    CodecLaws { E with defaultParam := pp, hashToG1 := f } :=
  ⟨C.enc1_len, C.enc2_len, C.dec1_enc, C.dec2_enc, C.dec1_canon, C.dec2_canon, C.dec1_flag,
    C.dec2_flag, C.dec1_total, C.dec2_total⟩

theorem lower_default {E : Ext G1 G2 GT} {pp : PubParam G1 G2} (P : CPlayer G1 N) (T : Fin N → Nat) :
    P.lower { E with defaultParam := pp } T = P.lower E T := by
  induction P generalizing T with
  | toss n hn next ih => exact congrArg _ (funext fun c => ih c T)
  | hash msg next ih => exact congrArg _ (funext fun c => ih c T)
  | curve q next ih => exact congrArg _ (funext fun c => ih c T)
  | sign j t msg next ih =>
    simp only [CPlayer.lower, ih]
    rfl
  | update j tar seed next ih => simp only [CPlayer.lower, ih]
  | breakIn j next ih =>
    simp only [CPlayer.lower, ih]
    rfl
  | forge F => rfl

theorem chance_default [DecidableEq GT] {E : Ext G1 G2 GT} {dp : PubParam G1 G2} {pf : Profile} {g : G1}
    {pp : PubParam G1 G2} {pk : Fin N → PublicKey G2} (P : CrowdPlayer G1 G2 N)
    (S : Fin N → CodeSigner G1 G2) (tab : Table) (pts : Curve G1) :
    P.chance { E with defaultParam := dp } pf g pp pk S tab pts = P.chance E pf g pp pk S tab pts := by
  induction P generalizing S tab pts with
  | toss n hn next ih => exact avg_congr fun c => ih c S tab pts
  | hash msg next ih => exact oracle_congr fun D tab' => ih _ S tab' pts
  | curve q next ih => exact curveOracle_congr fun p pts' => ih p S tab pts'
  | sign j msg next ih =>
    simp only [CrowdPlayer.chance]
    refine oracle_congr fun D tab' => ?_
    rcases signHashed E.sha512 pf pp (S j).sk msg D.field with s | e | e
    · exact ih s _ tab' pts
    · rfl
    · rfl
  | update j tar seed next ih =>
    simp only [CrowdPlayer.chance]
    rcases SecretKey.update E.sha512 pf pp tar seed (S j).sk with ⟨⟨⟩ | e | e, sk⟩
    · exact ih _ tab pts
    · exact ih _ tab pts
    · rfl
  | breakIn j next ih => exact ih _ _ tab pts
  | forge F =>
    simp only [CrowdPlayer.chance]
    rfl

/-- the game of the C interface is the game with the parameters of the script -/
theorem c_eq [DecidableEq GT] {E : Ext G1 G2 GT} (H : HashLaws E) (L : GroupLaws E)
    (C : CodecLaws E) (pf : Profile) {g : G1} (hsub : E.inSub1 g = true) {seed : Bytes} {cs : UInt8}
    (hsup : Supported cs) {n : Nat} (hn : 32 ≤ n)
    (A : PubParam G1 G2 → (Fin N → Bytes) → (Fin N → Bytes) → CPlayer G1 N) :
    cForgeChance E pf g seed cs n N A = scriptForgeChance E pf g seed 32 cs n N (cLower E A) := by
  unfold cForgeChance scriptForgeChance
  refine curveOracles_sub L hsub _ (fun i p h => by cases h) fun pts0 hp0 => ?_
  obtain ⟨pp, e1, e2⟩ := (C65_generation { E with hashToG1 := pts0.hash } seed cs 32).1 (by omega)
  have e1' : Py.paramGen { E with hashToG1 := pts0.hash } seed cs Ffi.cGetDepth = .ok pp := e1
  rw [e1, e1']
  simp only
  have W0 : ParamWF { E with hashToG1 := pts0.hash } pp :=
    C65_well_formed (group_with L E.defaultParam (hp0.hash L)) (by omega) (by omega) e2
  have hW : ∀ f : Bytes → Bytes → G1, ParamWF { E with defaultParam := pp, hashToG1 := f } pp := fun f =>
    { W0.toParamShape with
      hlist_sub := W0.hlist_sub
      h_sub := W0.h_sub
      g2_gen := W0.g2_gen }
  have hcs : Supported pp.ciphersuite := by rw [e2.suite]; exact hsup
  have hD : ∀ f : Bytes → Bytes → G1, DefaultLaws { E with defaultParam := pp, hashToG1 := f } :=
    fun f => ⟨hW f, e2.depth, hcs⟩
  refine avg_congr fun s => ?_
  have hl : ∀ k, 32 ≤ (s k).bytes.length := by
    intro k; unfold Seed.bytes; rw [natToBE_length]; exact hn
  have hkg := fun k => keygen_all H W0.toParamShape W0.g2_gen (hl k) hcs
  choose x pr sk hin hk using hkg
  have hk0 : ∀ k, keygen E (s k).bytes pp = _ := fun k => hk k E.hashToG1
  have hkey : ∀ k, KeyFor pp ((x k).val • pp.h) 1 (sk k) := by
    intro k
    obtain ⟨sk', h1, h2, _⟩ := init_keyAs (E := { E with defaultParam := pp, hashToG1 := E.hashToG1 })
      ⟨H.sha_len⟩ (group_with L pp L.hash_sub) (hW _) hcs (x k) (pr k)
    have := Res.ok.inj ((hin k).symm.trans h1)
    subst this
    exact h2.keyFor
  have hpk : ∀ k, PkValid E (⟨pp.ciphersuite, (x k).val • E.gen2⟩ : PublicKey G2) := fun k =>
    ⟨hcs, L.sub2_nsmul L.gen2_sub _⟩
  have hc : ∀ (f : Bytes → Bytes → G1), (∀ m c, E.inSub1 (f m c) = true) → ∀ k,
      Ffi.cKeygen { E with defaultParam := pp, hashToG1 := f } (s k).bytes = _ := fun f hf k =>
    cKeygen_layout (E := { E with defaultParam := pp, hashToG1 := f }) (group_with L pp hf)
      (codec_with C pp f) (hD f) (hk k f) (hkey k) ⟨(hpk k).suite, (hpk k).sub⟩
      ⟨hcs, L.sub1_nsmul (hf _ _) _⟩
  have hc0 : ∀ k, Ffi.cKeygen { E with defaultParam := pp } (s k).bytes = _ := hc E.hashToG1 L.hash_sub
  rw [if_pos fun k => ⟨_, hc0 k⟩, if_pos fun k => ⟨_, hk0 k⟩]
  have hi : (List.ofFn fun i => cPopInput (cBorn { E with defaultParam := pp } (s i).bytes).pk) =
      List.ofFn fun i => popInput E (born E pp (s i).bytes).1 := by
    congr 1
    funext i
    rw [born_eq (hk0 i)]
    unfold cBorn
    rw [hc0 i]
    exact cPopInput_layout E _
  rw [hi]
  refine curveOracles_sub L hsub _ hp0 fun pts hp => ?_
  have hb : ∀ k, born { E with hashToG1 := pts.hash } pp (s k).bytes = _ :=
    fun k => born_eq (hk k pts.hash)
  have hcb : ∀ k, cBorn { E with defaultParam := pp, hashToG1 := pts.hash } (s k).bytes =
      ⟨pkLayout E true ⟨pp.ciphersuite, (x k).val • E.gen2⟩, skLayout E true (sk k),
        popLayout E true ⟨pp.ciphersuite, (x k).val • pts.hash
          (popInput E ⟨pp.ciphersuite, (x k).val • E.gen2⟩).1
          (popInput E ⟨pp.ciphersuite, (x k).val • E.gen2⟩).2⟩⟩ := by
    intro k
    unfold cBorn
    rw [hc pts.hash (hp.hash L) k]
    rfl
  simp only [hb, hcb]
  have h := c_chance (E := { E with defaultParam := pp, hashToG1 := E.hashToG1 }) ⟨H.sha_len⟩
    (group_with L pp L.hash_sub) (codec_with C pp _) (hD _) (pf := pf) (g := g)
    (pk := fun k => ⟨pp.ciphersuite, (x k).val • E.gen2⟩) (fun k => ⟨(hpk k).suite, (hpk k).sub⟩)
    (A pp (fun i => pkLayout E true ⟨pp.ciphersuite, (x i).val • E.gen2⟩) (fun i =>
      popLayout E true ⟨pp.ciphersuite, (x i).val • pts.hash
          (popInput E ⟨pp.ciphersuite, (x i).val • E.gen2⟩).1
          (popInput E ⟨pp.ciphersuite, (x i).val • E.gen2⟩).2⟩))
    (S := fun k => ⟨skLayout E true (sk k), 1, [], []⟩) (S' := fun k => ⟨sk k, [], []⟩)
    (T := fun _ => 1) (fun k => ⟨⟨_, hkey k⟩, rfl, rfl, rfl, rfl⟩) [] pts
  refine h.trans ?_
  refine (chance_default _ _ _ _).trans ?_
  unfold cLower
  exact congrArg (fun P => CrowdPlayer.chance E pf g pp _ P _ [] pts) (lower_default _ _)

/-! ### what the adversary does -/

theorem c_lower_legal (E : Ext G1 G2 GT) (P : CPlayer G1 N) (h : P.Legal) (T : Fin N → Nat) :
    (P.lower E T).Legal := by
  induction P generalizing T with
  | toss n hn next ih => exact fun c => ih c (h c) T
  | hash msg next ih => exact fun b => ih b (h b) T
  | curve q next ih => exact fun p => ih p (h p) T
  | sign j t msg next ih =>
    simp only [CPlayer.lower]
    by_cases ht : T j = t
    · rw [if_pos ht]
      exact fun s => ih _ (h _) T
    · rw [if_neg ht]
      exact ih _ (h _) T
  | update j tar seed next ih =>
    simp only [CPlayer.lower]
    by_cases ht : T j < tar ∧ tar ≤ 2 ^ 32 - 1
    · rw [if_pos ht]
      exact ih _ (h _) _
    · rw [if_neg ht]
      exact ih _ (h _) _
  | breakIn j next ih => exact fun sk => ih _ (h _) T
  | forge F =>
    simp only [CPlayer.lower]
    by_cases hF : F.Fits
    · rw [if_pos hF]; exact h
    · rw [if_neg hF]
      show 0 < rOrder
      norm_num [rOrder]

theorem c_lower_points (E : Ext G1 G2 GT) (P : CPlayer G1 N) {k : Nat} (h : P.Points k) (T : Fin N → Nat) :
    (P.lower E T).Points k := by
  induction P generalizing T k with
  | toss n hn next ih => exact fun c => ih c (h c) T
  | hash msg next ih => exact fun b => ih b (h b) T
  | curve q next ih => exact ⟨h.1, fun p => ih p (h.2 p) T⟩
  | sign j t msg next ih =>
    simp only [CPlayer.lower]
    by_cases ht : T j = t
    · rw [if_pos ht]
      exact fun s => ih _ (h _) T
    · rw [if_neg ht]
      exact ih _ (h _) T
  | update j tar seed next ih =>
    simp only [CPlayer.lower]
    by_cases ht : T j < tar ∧ tar ≤ 2 ^ 32 - 1
    · rw [if_pos ht]
      exact ih _ (h _) _
    · rw [if_neg ht]
      exact ih _ (h _) _
  | breakIn j next ih => exact fun sk => ih _ (h _) T
  | forge F =>
    simp only [CPlayer.lower]
    by_cases hF : F.Fits
    · rw [if_pos hF]; exact h
    · rw [if_neg hF]; exact Nat.zero_le k

theorem c_lower_hashes (E : Ext G1 G2 GT) (P : CPlayer G1 N) {k : Nat} (h : P.Hashes k) (T : Fin N → Nat) :
    (P.lower E T).Hashes k := by
  induction P generalizing T k with
  | toss n hn next ih => exact fun c => ih c (h c) T
  | hash msg next ih => exact ⟨h.1, fun b => ih b (h.2 b) T⟩
  | curve q next ih => exact fun p => ih p (h p) T
  | sign j t msg next ih =>
    simp only [CPlayer.lower]
    by_cases ht : T j = t
    · rw [if_pos ht]
      exact ⟨h.1, fun s => ih _ (h.2.1 _) T⟩
    · rw [if_neg ht]
      exact ih _ h.2.2 T
  | update j tar seed next ih =>
    simp only [CPlayer.lower]
    by_cases ht : T j < tar ∧ tar ≤ 2 ^ 32 - 1
    · rw [if_pos ht]
      exact ih _ (h _) _
    · rw [if_neg ht]
      exact ih _ (h _) _
  | breakIn j next ih => exact fun sk => ih _ (h _) T
  | forge F =>
    simp only [CPlayer.lower]
    by_cases hF : F.Fits
    · rw [if_pos hF]; exact h
    · rw [if_neg hF]; exact h

theorem c_lower_updates (E : Ext G1 G2 GT) (i : Fin N) (P : CPlayer G1 N) {k : Nat} (h : P.Updates i k)
    (T : Fin N → Nat) : (P.lower E T).Updates i k := by
  induction P generalizing T k with
  | toss n hn next ih => exact fun c => ih c (h c) T
  | hash msg next ih => exact fun b => ih b (h b) T
  | curve q next ih => exact fun p => ih p (h p) T
  | sign j t msg next ih =>
    simp only [CPlayer.lower]
    by_cases ht : T j = t
    · rw [if_pos ht]
      exact fun s => ih _ (h _) T
    · rw [if_neg ht]
      exact ih _ (h _) T
  | update j tar seed next ih =>
    simp only [CPlayer.lower]
    by_cases ht : T j < tar ∧ tar ≤ 2 ^ 32 - 1
    · rw [if_pos ht]
      have h1 := h.1
      simp only [CrowdPlayer.Updates]
      by_cases hj : j = i
      · rw [if_pos hj] at h1 ⊢
        exact ⟨h1.1, ih _ h1.2 _⟩
      · rw [if_neg hj] at h1 ⊢
        exact ih _ h1 _
    · rw [if_neg ht]
      exact ih _ h.2 _
  | breakIn j next ih => exact fun sk => ih _ (h _) T
  | forge F =>
    simp only [CPlayer.lower]
    by_cases hF : F.Fits
    · rw [if_pos hF]; trivial
    · rw [if_neg hF]; trivial

theorem c_lower_scalars (E : Ext G1 G2 GT) (i : Fin N) (d : Nat) (P : CPlayer G1 N) {k : Nat}
    (h : P.Scalars i d k) (T : Fin N → Nat) : (P.lower E T).Scalars i d k := by
  induction P generalizing T k with
  | toss n hn next ih => exact fun c => ih c (h c) T
  | hash msg next ih => exact fun b => ih b (h b) T
  | curve q next ih => exact fun p => ih p (h p) T
  | sign j t msg next ih =>
    simp only [CPlayer.lower]
    by_cases ht : T j = t
    · rw [if_pos ht]
      have h1 := h.1
      simp only [CrowdPlayer.Scalars]
      by_cases hj : j = i
      · rw [if_pos hj] at h1 ⊢
        exact ⟨h1.1, fun s => ih _ (h1.2 _) T⟩
      · rw [if_neg hj] at h1 ⊢
        exact fun s => ih _ (h1 _) T
    · rw [if_neg ht]
      exact ih _ h.2 T
  | update j tar seed next ih =>
    simp only [CPlayer.lower]
    by_cases ht : T j < tar ∧ tar ≤ 2 ^ 32 - 1
    · rw [if_pos ht]
      have h1 := h.1
      simp only [CrowdPlayer.Scalars]
      by_cases hj : j = i
      · rw [if_pos hj] at h1 ⊢
        exact ⟨h1.1, ih _ h1.2 _⟩
      · rw [if_neg hj] at h1 ⊢
        exact ih _ h1 _
    · rw [if_neg ht]
      exact ih _ h.2 _
  | breakIn j next ih => exact fun sk => ih _ (h _) T
  | forge F =>
    simp only [CPlayer.lower]
    by_cases hF : F.Fits
    · rw [if_pos hF]; trivial
    · rw [if_neg hF]; trivial

end Pixel
