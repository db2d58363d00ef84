import Verif.Proof.Serdes
import Verif.Props.Serdes
import Verif.Props.Agg
import Verif.Props.Update
import Verif.Props.Keys
import Verif.Spec.Ffi

/-!
# Lemmas about the C interface
-/

namespace Pixel

open Spec Props

set_option linter.unusedSectionVars false

variable {G1 G2 GT : Type} [AddCommGroup G1] [AddCommGroup G2] [CommGroup GT]

namespace Ffi

theorem parse_ok {α : Type} {p : SM Bytes α} {b rest : Bytes} {x : α} (h : p b = (.ok x, rest)) :
    parse p b = .ok x := by
  simp [parse, h, unwrap]

theorem parse_err {α : Type} {p : SM Bytes α} {b : Bytes} (h : (p b).1.isErr = true) :
    parse p b = .panic .explicit := by
  unfold parse
  rcases hr : (p b).1 with x | e | q
  · rw [hr] at h; cases h
  · rfl
  · rw [hr] at h; cases h

theorem parse_sk {E : Ext G1 G2 GT} (C : CodecLaws E) {sk : SecretKey G1 G2} (h : SkValid E sk)
    (rest : Bytes) :
    parse (SecretKey.deserialize E true) (skLayout E true sk ++ rest) = .ok sk :=
  parse_ok (SecretKey.deserialize_layout C true h rest)

theorem parse_pk {E : Ext G1 G2 GT} (C : CodecLaws E) {k : PublicKey G2} (h : PkValid E k)
    (rest : Bytes) : parse (PublicKey.deserialize E true) (pkLayout E true k ++ rest) = .ok k :=
  parse_ok (PublicKey.deserialize_layout C true h rest)

theorem parse_pop {E : Ext G1 G2 GT} (C : CodecLaws E) {k : ProofOfPossession G1}
    (h : PopValid E k) (rest : Bytes) :
    parse (ProofOfPossession.deserialize E true) (popLayout E true k ++ rest) = .ok k :=
  parse_ok (ProofOfPossession.deserialize_layout C true h rest)

theorem parse_sig {E : Ext G1 G2 GT} (C : CodecLaws E) {k : Signature G1 G2}
    (h : SigValid E k) (rest : Bytes) :
    parse (Signature.deserialize E true) (sigLayout E true k ++ rest) = .ok k :=
  parse_ok (Signature.deserialize_layout C h rest)

theorem parseAll_ok {α : Type} {p : SM Bytes α} {enc : α → Bytes} (l : List α)
    (h : ∀ x ∈ l, parse p (enc x) = .ok x) : parseAll p (l.map enc) = .ok l := by
  induction l with
  | nil => rfl
  | cons x l ih =>
    rw [List.map_cons, parseAll, h x (by simp), Res.ok_bind,
      ih fun y hy => h y (by simp [hy])]
    rfl

theorem parseAll_eq_ok {α : Type} {p : SM Bytes α} (l : List Bytes) (xs : List α)
    (h : List.Forall₂ (fun b x => parse p b = .ok x) l xs) : parseAll p l = .ok xs := by
  induction h with
  | nil => rfl
  | cons h _ ih => rw [parseAll, h, Res.ok_bind, ih]; rfl

end Ffi

variable {E : Ext G1 G2 GT}

theorem Spec.DefaultLaws.skValid (D : DefaultLaws E) (L : GroupLaws E) {x t : Nat}
    {sk : SecretKey G1 G2} (h : KeyFor E.defaultParam (x • E.defaultParam.h) t sk) :
    SkValid E sk :=
  KeyFor.skValid L D.wf (by rw [D.depth]) D.suite (L.sub1_nsmul D.wf.h_sub _) h

theorem Spec.DefaultLaws.serialize_sk (D : DefaultLaws E) (L : GroupLaws E) (C : CodecLaws E)
    {x t : Nat} {sk : SecretKey G1 G2}
    (h : KeyFor E.defaultParam (x • E.defaultParam.h) t sk) :
    sk.serialize E true = .ok (skLayout E true sk) :=
  (C36_secret_key C true (D.skValid L h) []).1

theorem Ffi.toArray_ok {n : Nat} {b : Bytes} (h : b.length = n) : Ffi.toArray n b = .ok b := by
  unfold Ffi.toArray; rw [if_pos h]

/-- `c_sk_update` on the blob of an honest key -/
theorem Ffi.cSkUpdate_honest (H : HashLaws E) (L : GroupLaws E) (C : CodecLaws E)
    (D : DefaultLaws E) (pf : Profile) {x t : Nat} {sk : SecretKey G1 G2}
    (h : KeyFor E.defaultParam (x • E.defaultParam.h) t sk) (seed : Bytes) (tar : Nat)
    (rest : Bytes) :
    (¬ (t < tar ∧ tar ≤ 2 ^ 32 - 1) →
      Ffi.cSkUpdate E pf (skLayout E true sk ++ rest) seed tar = .panic .explicit) ∧
    (t < tar ∧ tar ≤ 2 ^ 32 - 1 →
      (∃ sk', KeyFor E.defaultParam (x • E.defaultParam.h) tar sk' ∧
        Ffi.cSkUpdate E pf (skLayout E true sk ++ rest) seed tar = .ok (skLayout E true sk')) ∨
      (Ffi.cSkUpdate E pf (skLayout E true sk ++ rest) seed tar = .panic .assertion ∧
        ∃ k, 1 ≤ k ∧ k < 32 ∧
          afterDraws E.sha512 (reseeded E.sha512 sk.prng seed t) k = sk.prng)) := by
  have hp := Ffi.parse_sk C (D.skValid L h) rest
  have ho := C15_update_outcome H.sha_len pf D.wf.toParamShape h tar seed
  rw [D.depth] at ho
  unfold Ffi.cSkUpdate
  simp only [hp, Res.ok_bind]
  constructor
  · intro hn
    simp only [SM.exec, ho.1 hn, Ffi.unwrap, Res.panic_bind]
  · intro hn
    rcases ho.2 hn with ⟨sk', h1, h2⟩ | ⟨h1, h2⟩
    · left
      refine ⟨sk', h2, ?_⟩
      simp only [SM.exec, h1, Ffi.unwrap, Res.ok_bind, D.serialize_sk L C h2]
    · right
      refine ⟨?_, h2⟩
      simp only [SM.exec, h1, Ffi.unwrap, Res.panic_bind]

/-- `c_sign_present` on the blob of an honest key -/
theorem Ffi.cSignPresent_honest [DecidableEq GT] (H : HashLaws E) (L : GroupLaws E)
    (C : CodecLaws E) (D : DefaultLaws E) (pf : Profile) {x t : Nat} {sk : SecretKey G1 G2}
    (h : KeyFor E.defaultParam (x • E.defaultParam.h) t sk) (msg : Bytes) (rest : Bytes) :
    ∃ sig : Signature G1 G2, SigValid E sig ∧ sig.time = t ∧
      Ffi.cSignPresent E pf (skLayout E true sk ++ rest) msg t = .ok (sigLayout E true sig) ∧
      ∀ pk : PublicKey G2, pk.pk = x • E.defaultParam.g2 → ∀ pf',
        Signature.verifyBytes E pf' sig pk E.defaultParam msg = .ok true := by
  have hp := Ffi.parse_sk C (D.skValid L h) rest
  obtain ⟨sig, v, a, h1, h2, h3⟩ :=
    Signature.signBytes_keyFor H.sha_len pf D.wf.toParamShape D.suite h msg
  have hver : ∀ pk : PublicKey G2, pk.pk = x • E.defaultParam.g2 → ∀ pf',
        Signature.verifyBytes E pf' sig pk E.defaultParam msg = .ok true :=
    fun pk hpk pf' => SigFor.verifies H L D.wf pf' D.suite h2 hpk
  have hval : SigValid E sig := C36_accepted_signature H D.wf.toParamShape (by rw [D.depth]) .debug
    (hver ⟨0, x • E.defaultParam.g2⟩ rfl .debug)
  refine ⟨sig, hval, h3, ?_, hver⟩
  have hser := (C36_signature C hval []).1
  have hlen : (sigLayout E true sig).length = 149 := (C37_fixed_sizes C).2.1 sig _ hser
  unfold Ffi.cSignPresent
  simp only [hp, Res.ok_bind, Signature.signPresent_eq h.time, h1, Ffi.unwrap, hser,
    Ffi.toArray_ok hlen]

/-- a C program of updates keeps the blob honest -/
theorem cUpdates_blobFor (H : HashLaws E) (L : GroupLaws E) (C : CodecLaws E) (D : DefaultLaws E)
    (pf : Profile) {x t : Nat} {b b' : Bytes} {us : List (Nat × Bytes)}
    (h : BlobFor E (x • E.defaultParam.h) t b) (hu : cUpdates E pf b us = .ok b') :
    BlobFor E (x • E.defaultParam.h) (lastTime t us) b' ∧ Increasing (2 ^ 32 - 1) t us := by
  induction us generalizing t b with
  | nil =>
    cases Res.ok.inj hu
    exact ⟨h, trivial⟩
  | cons u us ih =>
    obtain ⟨tar, seed⟩ := u
    obtain ⟨sk, hk, rfl⟩ := h
    have hs := Ffi.cSkUpdate_honest H L C D pf hk seed tar []
    rw [List.append_nil] at hs
    rw [cUpdates] at hu
    by_cases hr : t < tar ∧ tar ≤ 2 ^ 32 - 1
    · rcases hs.2 hr with ⟨sk', h1, h2⟩ | ⟨h1, _⟩
      · rw [h2] at hu
        obtain ⟨h3, h4⟩ := ih ⟨sk', h1, rfl⟩ hu
        exact ⟨h3, hr.1, hr.2, h4⟩
      · rw [h1] at hu; cases hu
    · rw [hs.1 hr] at hu; cases hu

end Pixel
