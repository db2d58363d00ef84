import Verif.Props.Ffi
import Verif.Props.Keys
import Verif.Props.Sig

/-!
# Property C46, continued: exactly what the C functions accept

The theorems in `Verif/Props/Ffi.lean` say that honest blobs are accepted; these say that nothing
else is.
-/

namespace Pixel.Props

open Pixel Pixel.Spec

set_option linter.unusedSectionVars false

variable {G1 G2 GT : Type} [AddCommGroup G1] [AddCommGroup G2] [CommGroup GT]

/-- reading an object returns only if the parser succeeds -/
theorem parse_eq_ok {α : Type} {p : SM Bytes α} {b : Bytes} {x : α} (h : Ffi.parse p b = .ok x) :
    ∃ rest, p b = (.ok x, rest) := by
  unfold Ffi.parse at h
  rcases hr : p b with ⟨r, rest⟩
  rw [hr] at h
  cases r with
  | ok a => exact ⟨rest, by rw [Res.ok.inj h]⟩
  | err e => cases h
  | panic q => cases h

theorem parseAll_forall₂ {α : Type} {p : SM Bytes α} {l : List Bytes} {xs : List α}
    (h : Ffi.parseAll p l = .ok xs) : List.Forall₂ (fun b x => Ffi.parse p b = .ok x) l xs := by
  induction l generalizing xs with
  | nil => cases Res.ok.inj h; exact .nil
  | cons b l ih =>
    rw [Ffi.parseAll] at h
    obtain ⟨x, h1, h⟩ := Res.bind_eq_ok.1 h
    obtain ⟨ys, h2, h⟩ := Res.bind_eq_ok.1 h
    cases Res.ok.inj h
    exact .cons h1 (ih h2)

/-- C46: `c_verify_pop` returns true exactly for (a blob beginning with) the encoding of a public
key `x·g` with a supported ciphersuite, together with the encoding of the one proof for that key. -/
theorem C46_verify_pop_exact [DecidableEq GT] {E : Ext G1 G2 GT} (L : GroupLaws E)
    (C : CodecLaws E) (pk pop : Bytes) :
    Ffi.cVerifyPop E pk pop = .ok true ↔ ∃ (cs : UInt8) (x : Nat) (r r' : Bytes), Supported cs ∧
      pk = pkLayout E true { ciphersuite := cs, pk := x • E.gen2 } ++ r ∧
      pop = popLayout E true
        ⟨cs, x • E.hashToG1 (text "Pixel public key POP" ++ E.encG2 true (x • E.gen2)) [cs]⟩ ++ r'
        := by
  constructor
  · intro h
    unfold Ffi.cVerifyPop at h
    obtain ⟨k, h1, h⟩ := Res.bind_eq_ok.1 h
    obtain ⟨p, h2, h⟩ := Res.bind_eq_ok.1 h
    obtain ⟨r, h1⟩ := parse_eq_ok h1
    obtain ⟨r', h2⟩ := parse_eq_ok h2
    obtain ⟨h3, h4⟩ := PublicKey.deserialize_ok C h1
    obtain ⟨h5, _⟩ := ProofOfPossession.deserialize_ok C h2
    obtain ⟨x, hx⟩ := L.gen2_gen _ h4.sub
    obtain ⟨h6, h7, h8⟩ := (C13_pop_exact L hx p).1 (Res.ok.inj h)
    refine ⟨k.ciphersuite, x, r, r', h6, ?_, ?_⟩
    · rw [h3, ← hx]
    · rw [h5, ← hx, ← h8, ← h7]
  · rintro ⟨cs, x, r, r', hs, rfl, rfl⟩
    unfold Ffi.cVerifyPop
    rw [Ffi.parse_pk C ⟨hs, L.sub2_nsmul L.gen2_sub x⟩, Res.ok_bind,
      Ffi.parse_pop C ⟨hs, L.sub1_nsmul (L.hash_sub _ _) x⟩, Res.ok_bind]
    exact congrArg Res.ok ((C13_pop_exact L rfl _).2 ⟨hs, rfl, rfl⟩)

/-- C46: `c_verify` returns true exactly for the encoding of a public key `x·g` (with any supported
ciphersuite byte) and the encoding of a signature of the master secret `x·h` on the message. -/
theorem C46_verify_exact [DecidableEq GT] {E : Ext G1 G2 GT} (H : HashLaws E) (L : GroupLaws E)
    (C : CodecLaws E) (D : DefaultLaws E) (pf : Profile) (pk msg sig : Bytes) :
    Ffi.cVerify E pf pk msg sig = .ok true ↔
      ∃ (cs : UInt8) (x a : Nat) (v : List Nat) (s : Signature G1 G2) (r r' : Bytes),
        Supported cs ∧
        pk = pkLayout E true { ciphersuite := cs, pk := x • E.defaultParam.g2 } ++ r ∧
        sig = sigLayout E true s ++ r' ∧
        SigFor E.defaultParam (x • E.defaultParam.h) v
          (msgField E.sha512 E.defaultParam.ciphersuite msg) a s := by
  constructor
  · intro h
    unfold Ffi.cVerify at h
    obtain ⟨k, h1, h⟩ := Res.bind_eq_ok.1 h
    obtain ⟨s, h2, h⟩ := Res.bind_eq_ok.1 h
    obtain ⟨r, h1⟩ := parse_eq_ok h1
    obtain ⟨r', h2⟩ := parse_eq_ok h2
    obtain ⟨h3, h4⟩ := PublicKey.deserialize_ok C h1
    obtain ⟨_, h5, _⟩ := Signature.deserialize_ok C h2
    obtain ⟨x, hx⟩ := L.gen2_gen _ h4.sub
    rw [← D.wf.g2_gen] at hx
    obtain ⟨_, v, a, h6⟩ := (C24_accept_sigFor H L D.wf pf s hx msg).1 h
    exact ⟨k.ciphersuite, x, a, v, s, r, r', h4.suite, by rw [h3, ← hx], h5, h6⟩
  · rintro ⟨cs, x, a, v, s, r, r', hs, rfl, rfl, h⟩
    have hv := SigFor.verifies H L D.wf pf D.suite h
      (pk := { ciphersuite := cs, pk := x • E.defaultParam.g2 }) rfl
    have hval := C36_accepted_signature H D.wf.toParamShape (by rw [D.depth]) pf hv
    unfold Ffi.cVerify
    rw [Ffi.parse_pk C ⟨hs, by
        show E.inSub2 (x • E.defaultParam.g2) = true
        rw [D.wf.g2_gen]; exact L.sub2_nsmul L.gen2_sub x⟩, Res.ok_bind,
      Ffi.parse_sig C hval, Res.ok_bind, hv]

/-- C46: `c_verify_agg` on a non-empty list returns true exactly if every blob begins with the
encoding of a public key with the ciphersuite of the parameters, and the signature blob with that
of a signature of the sum of the master secrets. -/
theorem C46_verify_agg_exact [DecidableEq GT] {E : Ext G1 G2 GT} (H : HashLaws E) (L : GroupLaws E)
    (C : CodecLaws E) (D : DefaultLaws E) (pf : Profile) (pks : List Bytes) (hne : pks ≠ [])
    (msg sig : Bytes) :
    Ffi.cVerifyAgg E pf pks msg sig = .ok true ↔
      ∃ (xs : List Nat) (a : Nat) (v : List Nat) (s : Signature G1 G2) (r' : Bytes),
        List.Forall₂ (fun b x => ∃ r, b = pkLayout E true
          { ciphersuite := E.defaultParam.ciphersuite, pk := x • E.defaultParam.g2 } ++ r) pks xs ∧
        sig = sigLayout E true s ++ r' ∧
        SigFor E.defaultParam (xs.sum • E.defaultParam.h) v
          (msgField E.sha512 E.defaultParam.ciphersuite msg) a s := by
  have sumEq : ∀ xs : List Nat, (xs.map (fun x => (⟨E.defaultParam.ciphersuite,
      x • E.defaultParam.g2⟩ : PublicKey G2).pk)).sum = xs.sum • E.defaultParam.g2 := by
    intro xs
    induction xs with
    | nil => simp
    | cons x xs ih => rw [List.map_cons, List.sum_cons, List.sum_cons, add_smul, ih]
  constructor
  · intro h
    unfold Ffi.cVerifyAgg at h
    obtain ⟨ks, h1, h⟩ := Res.bind_eq_ok.1 h
    obtain ⟨s, h2, h⟩ := Res.bind_eq_ok.1 h
    obtain ⟨r', h2⟩ := parse_eq_ok h2
    obtain ⟨_, h3, _⟩ := Signature.deserialize_ok C h2
    have h4 := parseAll_forall₂ h1
    have hkne : ks ≠ [] := by
      intro e; subst e; cases h4; exact hne rfl
    have hcs : ∀ k ∈ ks, k.ciphersuite = E.defaultParam.ciphersuite := by
      by_contra hc
      push Not at hc
      obtain ⟨k, hk, hkc⟩ := hc
      unfold Signature.verifyBytesAggregated at h
      simp only at h
      rw [if_pos (List.any_eq_true.2 ⟨k, hk, by simpa using Ne.symm hkc⟩)] at h
      cases h
    rw [Signature.verifyBytesAggregated_eq E pf _ _ _ msg hkne hcs] at h
    have key : ∀ {l : List Bytes} {ks : List (PublicKey G2)},
        List.Forall₂ (fun b x => Ffi.parse (PublicKey.deserialize E true) b = .ok x) l ks →
        (∀ k ∈ ks, k.ciphersuite = E.defaultParam.ciphersuite) →
        ∃ xs : List Nat, ks = xs.map (fun x => ⟨E.defaultParam.ciphersuite,
            x • E.defaultParam.g2⟩) ∧
          List.Forall₂ (fun b x => ∃ r, b = pkLayout E true
            { ciphersuite := E.defaultParam.ciphersuite, pk := x • E.defaultParam.g2 } ++ r)
            l xs := by
      intro l ks hf
      induction hf with
      | nil => exact fun _ => ⟨[], rfl, .nil⟩
      | @cons b k l ks hb _ ih =>
        intro hc
        obtain ⟨xs, e1, e2⟩ := ih fun k hk => hc k (List.mem_cons_of_mem _ hk)
        obtain ⟨r, hb⟩ := parse_eq_ok hb
        obtain ⟨e3, e4⟩ := PublicKey.deserialize_ok C hb
        obtain ⟨x, hx⟩ := L.gen2_gen _ e4.sub
        rw [← D.wf.g2_gen] at hx
        have e5 : k = ⟨E.defaultParam.ciphersuite, x • E.defaultParam.g2⟩ := by
          rw [← hx, ← hc k (by simp)]
        exact ⟨x :: xs, by rw [List.map_cons, ← e1, ← e5], .cons ⟨r, by rw [e3, ← e5]⟩ e2⟩
    obtain ⟨xs, e1, e2⟩ := key h4 hcs
    rw [e1, List.map_map] at h
    obtain ⟨_, v, a, h6⟩ := (C24_accept_sigFor H L D.wf pf s (sumEq xs) msg).1 h
    exact ⟨xs, a, v, s, r', e2, h3, h6⟩
  · rintro ⟨xs, a, v, s, r', hf, rfl, h⟩
    have hxne : xs ≠ [] := by
      intro e; subst e; cases hf; exact hne rfl
    have hv := SigFor.verifies H L D.wf pf D.suite h
      (pk := { ciphersuite := E.defaultParam.ciphersuite, pk := _ }) (sumEq xs)
    have hval := C36_accepted_signature H D.wf.toParamShape (by rw [D.depth]) pf hv
    have hp : Ffi.parseAll (PublicKey.deserialize E true) pks = .ok (xs.map fun x =>
        ⟨E.defaultParam.ciphersuite, x • E.defaultParam.g2⟩) := by
      refine Ffi.parseAll_eq_ok _ _ ?_
      rw [List.forall₂_map_right_iff]
      refine hf.imp ?_
      rintro b x ⟨r, rfl⟩
      exact Ffi.parse_pk C ⟨D.suite, by
        show E.inSub2 (x • E.defaultParam.g2) = true
        rw [D.wf.g2_gen]; exact L.sub2_nsmul L.gen2_sub x⟩ r
    unfold Ffi.cVerifyAgg
    rw [hp, Res.ok_bind, Ffi.parse_sig C hval, Res.ok_bind,
      Signature.verifyBytesAggregated_eq E pf _ _ _ msg (by simpa using hxne) (by
        intro k hk
        obtain ⟨x, _, rfl⟩ := List.mem_map.1 hk
        rfl), List.map_map]
    exact hv

/-- C46: for the public key of a generated key pair, every other decodable proof than the generated
one is answered with false. -/
theorem C46_other_pop_refused [DecidableEq GT] {E : Ext G1 G2 GT} (H : HashLaws E)
    (L : GroupLaws E) (C : CodecLaws E) (D : DefaultLaws E) {seed : Bytes} {keys : Ffi.Keys}
    (hg : Ffi.cKeygen E seed = .ok keys) {p : ProofOfPossession G1} (hp : PopValid E p)
    (hne : popLayout E true p ≠ keys.pop) :
    Ffi.cVerifyPop E keys.pk (popLayout E true p) = .ok false := by
  have hl : 32 ≤ seed.length := by
    by_contra hc
    rw [(C46_keygen H L C D .debug seed).1 (by omega)] at hg
    cases hg
  obtain ⟨keys', x, h1, _, hlen, _, h2, _, h3⟩ := (C46_keygen H L C D .debug seed).2 hl
  rw [hg] at h1
  cases Res.ok.inj h1
  have hk : PkValid E (⟨E.defaultParam.ciphersuite, x • E.defaultParam.g2⟩ : PublicKey G2) :=
    ⟨D.suite, by
      show E.inSub2 (x • E.defaultParam.g2) = true
      rw [D.wf.g2_gen]; exact L.sub2_nsmul L.gen2_sub x⟩
  have hpk := Ffi.parse_pk C hk []
  rw [List.append_nil, ← h2] at hpk
  unfold Ffi.cVerifyPop at h3 ⊢
  rw [hpk, Res.ok_bind] at h3 ⊢
  have hpp := Ffi.parse_pop C hp []
  rw [List.append_nil] at hpp
  obtain ⟨q, h4, h3⟩ := Res.bind_eq_ok.1 h3
  obtain ⟨r, h4⟩ := parse_eq_ok h4
  obtain ⟨h5, h6⟩ := ProofOfPossession.deserialize_ok C h4
  have hr : r = [] := by
    have e := congrArg List.length h5
    have := C.enc1_len true q.pop
    rw [List.length_append, popLayout, List.length_cons, this, hlen] at e
    rw [if_pos rfl] at e
    exact List.length_eq_zero_iff.1 (by omega)
  rw [hr, List.append_nil] at h5
  rw [hpp, Res.ok_bind]
  cases hv : PublicKey.validate E ⟨E.defaultParam.ciphersuite, x • E.defaultParam.g2⟩ p with
  | false => rfl
  | true =>
    have := C13_pop_unique L hk.sub hv (Res.ok.inj h3)
    exact absurd (by rw [this, h5]) hne

/-! ### Concrete cases -/

section Examples
open Pixel.Toy

/-- C46: a generated key, whose own proof is accepted, and a decodable proof that is refused -/
example : ∃ (keys : Ffi.Keys) (p : ProofOfPossession G),
    Ffi.cKeygen (ext sha0) (List.replicate 32 7) = .ok keys ∧
    Ffi.cVerifyPop (ext sha0) keys.pk keys.pop = .ok true ∧
    Ffi.cVerifyPop (ext sha0) keys.pk (popLayout (ext sha0) true p) = .ok false := by
  have L := groupLaws sha0
  have C := codecLaws sha0
  have D := defaultLaws sha0
  obtain ⟨keys, x, h1, _, _, _, _, _, h2⟩ :=
    (C46_keygen hashLaws L C D .debug (List.replicate 32 7)).2 (by simp)
  have v0 : PopValid (ext sha0) (⟨0, (0, 0)⟩ : ProofOfPossession G) := ⟨Or.inl rfl, rfl⟩
  have v1 : PopValid (ext sha0) (⟨0, (1, 0)⟩ : ProofOfPossession G) := ⟨Or.inl rfl, rfl⟩
  have hne : popLayout (ext sha0) true (⟨0, (0, 0)⟩ : ProofOfPossession G) ≠
      popLayout (ext sha0) true ⟨0, (1, 0)⟩ := by decide +kernel
  by_cases h : popLayout (ext sha0) true (⟨0, (0, 0)⟩ : ProofOfPossession G) = keys.pop
  · exact ⟨keys, _, h1, h2, C46_other_pop_refused hashLaws L C D h1 v1 fun e => hne (h.trans e.symm)⟩
  · exact ⟨keys, _, h1, h2, C46_other_pop_refused hashLaws L C D h1 v0 h⟩

/-- C46: a non-empty list of key blobs and a signature accepted for it -/
example : ∃ (pks : List Bytes) (sig : Bytes), pks ≠ [] ∧
    Ffi.cVerifyAgg (ext sha0) .debug pks [1, 2] sig = .ok true := by
  obtain ⟨keys, blob, h1, h2⟩ := toy_c_run (tar := 9) (by omega) (by omega)
  obtain ⟨⟨sig, _, _, _, h3⟩, _⟩ := C46_end_to_end hashLaws (groupLaws sha0) (codecLaws sha0)
    (defaultLaws sha0) .debug h1 h2 [1, 2]
  obtain ⟨_, x, e1, _, _, _, e2, _, _⟩ := (C46_keygen hashLaws (groupLaws sha0) (codecLaws sha0)
    (defaultLaws sha0) .debug (List.replicate 32 7)).2 (by simp)
  rw [h1] at e1
  cases Res.ok.inj e1
  obtain ⟨agg, _, _, h4⟩ := C46_aggregate hashLaws (groupLaws sha0) (codecLaws sha0)
    (defaultLaws sha0) .debug [1, 2] _ [(keys.pk, sig)] (by simp)
    (by intro p hp; rw [List.mem_singleton.1 hp, e2]; rfl)
    (by intro p hp; rw [List.mem_singleton.1 hp])
    (by intro p hp; rw [List.mem_singleton.1 hp]; exact h3)
  exact ⟨_, agg, by simp, h4⟩

end Examples

end Pixel.Props
