import Verif.Proof.Signer
import Verif.Props.Schedule
import Verif.ToyKey

/-!
# Property C77: the signer, described by exponents

Vocabulary: `Verif/Spec/Signer.lean`.
-/

namespace Pixel.Props

open Pixel Pixel.Spec

set_option linter.unusedSectionVars false

variable {G1 G2 GT : Type} [AddCommGroup G1] [AddCommGroup G2] [CommGroup GT]
  {E : Ext G1 G2 GT} {pp : PubParam G1 G2}

/-! ## C77 -/

/-- C77: the keys with exponents are the keys for a time (`KeyFor`), no more and no fewer: one scalar
for each sub key says everything about the group elements of a secret key. -/
theorem C77_every_key (L : GroupLaws E) (W : ParamWF E pp) (x : Fr) (t : Nat)
    (sk : SecretKey G1 G2) :
    KeyFor pp (x.val • pp.h) t sk ↔ ∃ rho, KeyAs pp x t rho sk :=
  ⟨keyAs_of_keyFor L W, fun ⟨_, h⟩ => h.keyFor⟩

/-- C77: key generation: the master secret and the exponent of the root sub key are the two scalars
drawn from the seed. -/
theorem C77_keygen (H : HashLaws E) (L : GroupLaws E) (W : ParamWF E pp) {seed : Bytes}
    {pk : PublicKey G2} {sk : SecretKey G1 G2} {pop : ProofOfPossession G1}
    (h : keygen E seed pp = .ok (pk, sk, pop)) :
    pk.pk = (keyDraws E.sha512 seed pp.ciphersuite).1.val • pp.g2 ∧
      KeyAs pp (keyDraws E.sha512 seed pp.ciphersuite).1 1
        [(keyDraws E.sha512 seed pp.ciphersuite).2] sk :=
  keygen_exponents H L W h

/-- C77: key update: whenever it goes through, the exponents change as `stepExponents` says, with the
scalars drawn from the key's PRNG. -/
theorem C77_update (H : HashLaws E) (L : GroupLaws E) (pf : Profile) (W : ParamWF E pp)
    {x : Fr} {t : Nat} {rho : List Fr} {sk : SecretKey G1 G2} (h : KeyAs pp x t rho sk) (tar : Nat)
    (seed : Bytes) {sk' : SecretKey G1 G2}
    (hu : SecretKey.update E.sha512 pf pp tar seed sk = (.ok (), sk')) :
    t < tar ∧ tar ≤ 2 ^ pp.depth - 1 ∧
      KeyAs pp x tar (stepExponents pp.depth t tar rho
        (updateDraws E.sha512 pp.depth sk.prng t tar seed)) sk' ∧
      sk'.prng = afterDraws E.sha512 (reseeded E.sha512 sk.prng seed t)
        (drawsNeeded pp.depth t tar) := by
  have hr : t < tar ∧ tar ≤ 2 ^ pp.depth - 1 := by
    by_contra hc
    rw [(C15_update_outcome H.sha_len pf W.toParamShape h.keyFor tar seed).1 hc] at hu
    cases (Prod.mk.inj hu).1
  refine ⟨hr.1, hr.2, update_exponents H L pf W h hr.1 hr.2 seed hu, ?_⟩
  rcases update_exact H.sha_len pf W.toParamShape h.keyFor hr.1 hr.2 seed with ⟨_, e⟩ | ⟨_, s, e, _, e'⟩
  · rw [hu] at e
    cases (Prod.mk.inj e).1
  · rw [hu] at e
    rw [(Prod.mk.inj e).2, e']

/-- C77: a whole history of updates. -/
theorem C77_history (H : HashLaws E) (L : GroupLaws E) (pf : Profile) (W : ParamWF E pp)
    {x : Fr} {t : Nat} {rho : List Fr} {sk sk' : SecretKey G1 G2} (h : KeyAs pp x t rho sk)
    {us : List (Nat × Bytes)} (hu : Updates E.sha512 pf pp sk us sk') :
    KeyAs pp x (lastTime t us) (exponentsAfter E.sha512 pp.depth sk.prng t rho us) sk' := by
  induction us generalizing t rho sk with
  | nil =>
    cases hu
    exact h
  | cons u us ih =>
    cases hu with
    | cons h1 hs =>
      obtain ⟨_, _, h2, h3⟩ := C77_update H L pf W h _ _ h1
      have := ih h2 hs
      rw [h3] at this
      exact this

theorem updates_increasing (H : HashLaws E) (L : GroupLaws E) (pf : Profile) (W : ParamWF E pp)
    {x : Fr} {t : Nat} {rho : List Fr} {sk sk' : SecretKey G1 G2} (h : KeyAs pp x t rho sk)
    {us : List (Nat × Bytes)} (hu : Updates E.sha512 pf pp sk us sk') :
    Increasing (2 ^ pp.depth - 1) t us := by
  induction us generalizing t rho sk with
  | nil => trivial
  | cons u us ih =>
    cases hu with
    | cons h1 hs =>
      obtain ⟨a, b, c, _⟩ := C77_update H L pf W h _ _ h1
      exact ⟨a, b, ih c hs⟩

/-- C77: signing at the present time: the exponent of the signature is the sum of the exponent of the
first sub key and of a scalar that depends on the PRNG state, the message and the time; the key stays
as it is. -/
theorem C77_sign (H : HashLaws E) (L : GroupLaws E) (pf : Profile) (W : ParamWF E pp)
    (hc : Supported pp.ciphersuite) {x : Fr} {t : Nat} {rho : List Fr} {sk : SecretKey G1 G2}
    (h : KeyAs pp x t rho sk) (msg : Bytes) :
    Signature.signPresent E.sha512 pf t pp msg sk =
      (.ok (signatureOf pp x t (msgField E.sha512 pp.ciphersuite msg)
        (rho.headD 0 + signDraw E.sha512 sk.prng t msg)), sk) :=
  signPresent_exponents H L pf W hc h msg

/-- C77: so a signature made after key generation and any updates is a function, given in closed form,
of the parameters, the seeds, the times and the message. -/
theorem C77_from_seed (H : HashLaws E) (L : GroupLaws E) (pf : Profile) (W : ParamWF E pp)
    {seed : Bytes} {pk : PublicKey G2} {sk sk' : SecretKey G1 G2} {pop : ProofOfPossession G1}
    (h : keygen E seed pp = .ok (pk, sk, pop)) {us : List (Nat × Bytes)}
    (hu : Updates E.sha512 pf pp sk us sk') (msg : Bytes) :
    ∃ p, prngStream E.sha512 pp.depth (firstState E.sha512 seed pp.ciphersuite) 1 us = some p ∧
      Signature.signPresent E.sha512 pf (lastTime 1 us) pp msg sk' =
        (.ok (signatureOf pp (keyDraws E.sha512 seed pp.ciphersuite).1 (lastTime 1 us)
          (msgField E.sha512 pp.ciphersuite msg)
          ((exponentsAfter E.sha512 pp.depth (firstState E.sha512 seed pp.ciphersuite) 1
            [(keyDraws E.sha512 seed pp.ciphersuite).2] us).headD 0 +
            signDraw E.sha512 p (lastTime 1 us) msg)), sk') := by
  obtain ⟨-, hk⟩ := C77_keygen H L W h
  have hf := C62_first_state H W.toParamShape h
  have hk' := C77_history H L pf W hk hu
  have hs := C77_sign H L pf W (keygen_supported h) hk' msg
  rw [hf] at hs
  refine ⟨sk'.prng, ?_, hs⟩
  rw [← hf]
  exact ((C62_history_exact H.sha_len pf W.toParamShape hk.keyFor
    (updates_increasing H L pf W hk hu)).2 sk' hu).2

/-- C77: uniform scalars stay uniform: if the exponents of a key are uniform and independent and so
are the scalars drawn, the exponents after an update are uniform and independent again. -/
theorem C77_uniform {d t tar : Nat} (ht : ValidTime d t) (h1 : t < tar) (h2 : tar ≤ 2 ^ d - 1)
    (f : List Fr → ℚ) :
    (avgs (coverTimes d t).length fun rho => avgs (drawsNeeded d t tar) fun rs =>
      f (stepExponents d t tar rho rs)) = avgs (coverTimes d tar).length f :=
  stepExponents_uniform ht h1 h2 f

/-! ### Concrete cases -/

section Examples
open Pixel.Toy

/-- C77: the times of the sub keys are 1; then 3, 4, 5; then 4, 5; then 6, 7.  The first update adds
two scalars, the second drops one exponent, the third adds one scalar. -/
example (r a b c : Fr) : stepExponents 3 1 3 [r] [a, b] = [r, r + a, r + b] ∧
    stepExponents 3 3 4 [r, r + a, r + b] [] = [r + a, r + b] ∧
    stepExponents 3 4 6 [r + a, r + b] [c] = [r + b, r + b + c] := by
  have h1 : dropped 3 1 3 = 0 := by decide
  have h2 : dropped 3 3 4 = 1 := by decide
  have h3 : dropped 3 4 6 = 1 := by decide
  simp [stepExponents, h1, h2, h3]

/-- C77: a key given by hand has the exponent 5 -/
theorem keyAs_sk0 : ∃ rho, KeyAs (param 5 1) 3 1 rho (sk0 5 1) := by
  refine (C77_every_key (groupLaws sha0) (param_wf sha0 (by omega) (by omega) 1) 3 1 _).1 ?_
  have h3 : (3 : Fr).val = 3 := by decide +kernel
  rw [h3]
  exact keyFor_sk0 (by omega) 1

/-- C77: and it signs with the sum -/
example (msg : Bytes) : ∃ rho : List Fr, rho.length = 1 ∧
    Signature.signPresent sha0 .debug 1 (param 5 1) msg (sk0 5 1) =
      (.ok (signatureOf (param 5 1) 3 1 (msgField sha0 1 msg)
        (rho.headD 0 + signDraw sha0 ⟨List.replicate 64 9⟩ 1 msg)), sk0 5 1) := by
  obtain ⟨rho, h⟩ := keyAs_sk0
  exact ⟨rho, h.length, C77_sign (E := ext sha0) hashLaws (groupLaws sha0) .debug
    (param_wf sha0 (by omega) (by omega) 1) (Or.inr rfl) h msg⟩

/-- C77: a seed and a history of updates for which a signature comes out in closed form -/
example (msg : Bytes) : ∃ pk sk pop sk' p,
    keygen (ext sha0) (List.replicate 32 7) (param 5 0) = .ok (pk, sk, pop) ∧
    Updates sha0 .debug (param 5 0) sk [(2, [1]), (5, []), (6, [2, 3]), (19, []), (31, [])] sk' ∧
    Signature.signPresent sha0 .debug 31 (param 5 0) msg sk' =
      (.ok (signatureOf (param 5 0) (keyDraws sha0 (List.replicate 32 7) 0).1 31
        (msgField sha0 0 msg)
        ((exponentsAfter sha0 5 (firstState sha0 (List.replicate 32 7) 0) 1
          [(keyDraws sha0 (List.replicate 32 7) 0).2]
          [(2, [1]), (5, []), (6, [2, 3]), (19, []), (31, [])]).headD 0 +
          signDraw sha0 p 31 msg)), sk') := by
  have W : ParamWF (ext sha0) (param 5 0) := param_wf sha0 (by omega) (by omega) 0
  obtain ⟨pk, sk, pop, h1, _, _, ⟨x, _, h5⟩, _⟩ :=
    (C12_keygen_outcome hashLaws (groupLaws sha0) .debug W (List.replicate 32 7)).2.2 (by simp)
      (Or.inl rfl)
  have hp := C62_first_state hashLaws W.toParamShape h1
  obtain ⟨a, _⟩ := C62_history_exact (us := [(2, [1]), (5, []), (6, [2, 3]), (19, []), (31, [])])
    hashLaws.sha_len .debug W.toParamShape h5 (by simp [Increasing, param])
  rw [hp] at a
  obtain ⟨sk', h⟩ := a.2 toy_stream
  obtain ⟨p, _, hs⟩ := C77_from_seed hashLaws (groupLaws sha0) .debug W h1 h msg
  exact ⟨pk, sk, pop, sk', p, h1, h, hs⟩

/-- C77: averages before and after the update from 1 to 3 -/
example (f : List Fr → ℚ) : (avgs 1 fun rho => avgs 2 fun rs => f (stepExponents 3 1 3 rho rs)) =
    avgs 3 f :=
  C77_uniform (d := 3) (t := 1) (tar := 3) ⟨by omega, by omega⟩ (by omega) (by omega) f

end Examples

end Pixel.Props
