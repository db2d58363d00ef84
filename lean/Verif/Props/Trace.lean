import Verif.Proof.TraceAlike
import Verif.Proof.SecretKey
import Verif.ToyKey

/-!
# C68: what a run shows of the secrets

`Trace.f` is the function `f` of the model with a record of the outcomes of its conditions, of the
positions it accesses, of the lengths it handles, and of the operations it performs.
-/

namespace Pixel.Props

open Pixel Pixel.Spec Pixel.Trace

set_option linter.unusedSectionVars false

variable {G1 G2 GT : Type} [AddCommGroup G1] [AddCommGroup G2] [CommGroup GT]
  {E : Ext G1 G2 GT} {pp : PubParam G1 G2}

/-- C68: with the record left out, the recorded functions are the functions of the model. -/
theorem C68_same_function (E : Ext G1 G2 GT) (pf : Profile) (pp : PubParam G1 G2) :
    (∀ seed, (Trace.keygen E seed pp).out = Pixel.keygen E seed pp) ∧
    (∀ t seed sk, (Trace.update E.sha512 pf pp t seed sk).1 =
      SecretKey.update E.sha512 pf pp t seed sk) ∧
    (∀ t msg seed sk, (Trace.sign E.sha512 pf t pp msg seed sk).1 =
      Signature.sign E.sha512 pf t pp msg seed sk) ∧
    (∀ t msg sk, (Trace.signPresent E.sha512 pf t pp msg sk).1 =
      Signature.signPresent E.sha512 pf t pp msg sk) ∧
    (∀ t msg seed sk, (Trace.signThenUpdate E.sha512 pf t pp msg seed sk).1 =
      Signature.signThenUpdate E.sha512 pf t pp msg seed sk) ∧
    (∀ c sk, (Trace.skSerialize E c sk).out = SecretKey.serialize E c sk) := by
  have key : ∀ {σ α : Type} {x : TS σ α} {y : SM σ α}, x.forget = y → ∀ s, (x s).1 = y s := by
    intro σ α x y h s
    rw [← h]
    rfl
  exact ⟨fun _ => out_keygen _ _ _, fun _ _ => key (forget_update _ _ _ _ _),
    fun _ _ _ => key (forget_sign _ _ _ _ _ _), fun _ _ => key (forget_signPresent _ _ _ _ _),
    fun _ _ _ => key (forget_signThenUpdate _ _ _ _ _ _), fun _ _ => out_skSerialize _ _ _⟩

/-- C68: key generation shows nothing of the seed but its length: the two runs are indistinguishable,
end the same way, and yield keys of the same shape. -/
theorem C68_keygen (H : HashLaws E) (K : CodecLaws E) (pp : PubParam G1 G2) {seed seed' : Bytes}
    (hs : seed.length = seed'.length) :
    (Trace.keygen E seed pp).trace = (Trace.keygen E seed' pp).trace ∧
      SameKind (Trace.keygen E seed pp).out (Trace.keygen E seed' pp).out ∧
      ∀ x y, (Trace.keygen E seed pp).out = .ok x → (Trace.keygen E seed' pp).out = .ok y →
        SameShape x.2.1 y.2.1 := by
  obtain ⟨e1, e2⟩ := keygen_alike (c := false) H.sha_len
    (fun a b => by rw [K.enc2_len, K.enc2_len]) pp hs (by simp [Clear]) (by simp [Clear])
  refine ⟨e1, ?_, fun x y hx hy => ?_⟩
  · cases hx : (Trace.keygen E seed pp).out <;> cases hy : (Trace.keygen E seed' pp).out <;>
      rw [hx, hy] at e2 <;> simp_all [Rel, SameKind]
  · rw [hx, hy] at e2
    exact skRel_iff.1 e2

/-- C68: signing for the present time shows nothing of the key but its shape, and nothing of the
message but its length. -/
theorem C68_sign_present (H : HashLaws E) (pf : Profile) (pp : PubParam G1 G2) (t : Nat)
    {msg msg' : Bytes} (hm : msg.length = msg'.length) {sk sk' : SecretKey G1 G2}
    (h : SameShape sk sk') :
    (Trace.signPresent E.sha512 pf t pp msg sk).2 = (Trace.signPresent E.sha512 pf t pp msg' sk').2 ∧
      SameKind (Trace.signPresent E.sha512 pf t pp msg sk).1.1
        (Trace.signPresent E.sha512 pf t pp msg' sk').1.1 := by
  obtain ⟨e1, e2, _⟩ := signPresent_alike (c := false) H.sha_len pf t pp hm sk sk' (skRel_iff.2 h)
    (by simp [Clear]) (by simp [Clear])
  refine ⟨e1, ?_⟩
  cases hx : (Trace.signPresent E.sha512 pf t pp msg sk).1.1 <;>
    cases hy : (Trace.signPresent E.sha512 pf t pp msg' sk').1.1 <;>
      rw [hx, hy] at e2 <;> simp_all [Rel, SameKind]

/-- C68: serialising shows nothing of the key but its shape; the outputs have the same length. -/
theorem C68_serialize (K : CodecLaws E) (c : Bool) {sk sk' : SecretKey G1 G2}
    (h : SameShape sk sk') :
    (Trace.skSerialize E c sk).trace = (Trace.skSerialize E c sk').trace ∧
      SameKind (Trace.skSerialize E c sk).out (Trace.skSerialize E c sk').out ∧
      ∀ x y, (Trace.skSerialize E c sk).out = .ok x → (Trace.skSerialize E c sk').out = .ok y →
        x.length = y.length := by
  obtain ⟨e1, e2⟩ := skSerialize_alike (c := false) (E := E) (cm := c)
    (fun a b => by rw [K.enc1_len, K.enc1_len]) (fun a b => by rw [K.enc2_len, K.enc2_len])
    (skRel_iff.2 h) (by simp [Clear]) (by simp [Clear])
  refine ⟨e1, ?_, fun x y hx hy => ?_⟩
  · cases hx : (Trace.skSerialize E c sk).out <;> cases hy : (Trace.skSerialize E c sk').out <;>
      rw [hx, hy] at e2 <;> simp_all [Rel, SameKind]
  · rw [hx, hy] at e2
    exact e2

/-- C68: an update shows nothing of the key but its shape, and nothing of the seed but its length —
except through the comparison of the new PRNG state with the old one.  (A comparison that finds them
equal ends the run.) -/
theorem C68_update (H : HashLaws E) (pf : Profile) (pp : PubParam G1 G2) (t : Nat)
    {seed seed' : Bytes} (hs : seed.length = seed'.length) {sk sk' : SecretKey G1 G2}
    (h : SameShape sk sk') (c1 : Ev.compare 64 ∉ (Trace.update E.sha512 pf pp t seed sk).2)
    (c2 : Ev.compare 64 ∉ (Trace.update E.sha512 pf pp t seed' sk').2) :
    seen (Trace.update E.sha512 pf pp t seed sk).2 =
        seen (Trace.update E.sha512 pf pp t seed' sk').2 ∧
      (Trace.update E.sha512 pf pp t seed sk).1.1 = (Trace.update E.sha512 pf pp t seed' sk').1.1 ∧
      SameShape (Trace.update E.sha512 pf pp t seed sk).1.2
        (Trace.update E.sha512 pf pp t seed' sk').1.2 := by
  obtain ⟨e1, e2, e3⟩ := request_alike H.sha_len pf pp (.update (t := t) hs) (skRel_iff.2 h)
    (fun _ => c1) (fun _ => c2)
  exact ⟨e1, e2, skRel_iff.1 e3⟩

/-- C68: two honest keys for the same time have the same shape, whatever their master secrets. -/
theorem C68_honest {alpha alpha' : G1} {t : Nat} {sk sk' : SecretKey G1 G2}
    (h : KeyFor pp alpha t sk) (h' : KeyFor pp alpha' t sk') : SameShape sk sk' := by
  obtain ⟨v, hv, k⟩ := keyFor_iff.1 h
  obtain ⟨v', hv', k'⟩ := keyFor_iff.1 h'
  have : v = v' := (nodeAt_iff.1 hv).2.trans (nodeAt_iff.1 hv').2.symm
  subst this
  have key : ∀ {l : List (List Nat)} {m m' : List (SubSecretKey G1 G2)},
      List.Forall₂ (SubAt pp alpha) l m → List.Forall₂ (SubAt pp alpha') l m' →
        List.Forall₂ SskRel m m' := by
    intro l
    induction l with
    | nil => intro m m' h1 h2; cases h1; cases h2; exact .nil
    | cons a l ih =>
      intro m m' h1 h2
      cases h1 with
      | cons a1 b1 =>
        cases h2 with
        | cons a2 b2 =>
          refine .cons ⟨a1.time_eq.trans a2.time_eq.symm, ?_⟩ (ih b1 b2)
          obtain ⟨r1, s1⟩ := a1
          obtain ⟨r2, s2⟩ := a2
          rw [s1.hvector, s2.hvector, List.length_map, List.length_map]
  exact skRel_iff.1 ⟨k.suite.trans k'.suite.symm, k.time.trans k'.time.symm, key k.ssk k'.ssk,
    k.prng, k'.prng⟩

/-- C68: two signers with keys of the same shape, asked for the same things with messages and seeds of
the same lengths: as long as none of the runs panics, what is seen of the runs is the same, the
outcomes are the same, and the keys keep the same shape. -/
theorem C68_history (H : HashLaws E) (pf : Profile) (pp : PubParam G1 G2) {rs rs' : List Request}
    (hr : List.Forall₂ SameRequest rs rs') {sk sk' : SecretKey G1 G2} (h : SameShape sk sk')
    (h1 : ∀ x ∈ (serve E.sha512 pf pp rs sk).1, x.isPanic = false)
    (h2 : ∀ x ∈ (serve E.sha512 pf pp rs' sk').1, x.isPanic = false) :
    seen (serve E.sha512 pf pp rs sk).2.2 = seen (serve E.sha512 pf pp rs' sk').2.2 ∧
      (serve E.sha512 pf pp rs sk).1 = (serve E.sha512 pf pp rs' sk').1 ∧
      SameShape (serve E.sha512 pf pp rs sk).2.1 (serve E.sha512 pf pp rs' sk').2.1 := by
  obtain ⟨e1, e2, e3⟩ := serve_alike H.sha_len pf pp hr (skRel_iff.2 h)
    (fun _ => serve_clear _ _ _ _ _ h1) (fun _ => serve_clear _ _ _ _ _ h2)
  exact ⟨e1, e2, skRel_iff.1 e3⟩

/-! ## the exception -/

/-- a key for time 1 with the given PRNG state -/
def keyWith (seed : Bytes) : SecretKey Toy.G Toy.G :=
  { Toy.sk0 2 0 with prng := { seed := seed } }

/-- C68: the exception is real.  Two keys of the same shape whose updates both succeed and look the
same, but for the moment at which the comparison of the PRNG states stops: it shows how many leading
bytes the old and the new state have in common. -/
theorem C68_comparison_shows :
    ∃ (E : Ext Toy.G Toy.G Toy.T) (pp : PubParam Toy.G Toy.G) (sk sk' : SecretKey Toy.G Toy.G),
      HashLaws E ∧ ParamWF E pp ∧ SameShape sk sk' ∧
      (Trace.update E.sha512 .release pp 2 [] sk).1.1 = .ok () ∧
      (Trace.update E.sha512 .release pp 2 [] sk').1.1 = .ok () ∧
      (Trace.update E.sha512 .release pp 2 [] sk).2.filter (fun e => e ∉ seen [e]) = [.compare 0] ∧
      (Trace.update E.sha512 .release pp 2 [] sk').2.filter (fun e => e ∉ seen [e]) = [.compare 1] := by
  refine ⟨Toy.ext (fun _ => List.replicate 64 0), Toy.param 2 0, keyWith (List.replicate 64 1),
    keyWith (0 :: List.replicate 63 1), ⟨fun _ => by simp [Toy.ext_sha]⟩,
    Toy.param_wf _ (by decide) (by decide) 0,
    ⟨rfl, rfl, rfl, by simp [keyWith, Prng.WF], by simp [keyWith, Prng.WF]⟩, ?_, ?_, ?_, ?_⟩ <;>
  decide +kernel

/-! ## the hypotheses are met -/

/-- another key of the same shape -/
def otherKey : SecretKey Toy.G Toy.G where
  ciphersuite := 0
  time := 1
  ssk := [{ time := 1, g2r := 0, hpoly := 0, hvector := [0, 0] }]
  prng := { seed := List.replicate 64 77 }

/-- the two keys have the same shape -/
theorem example_shape : SameShape (keyWith (List.replicate 64 9)) otherKey :=
  ⟨rfl, rfl, rfl, by simp [keyWith, Prng.WF], by simp [otherKey, Prng.WF]⟩

/-- two histories: a signature, an update, a request that fails, a signature with update -/
def historyA : List Request :=
  [.sign 1 [1, 2, 3] [], .update 2 [4], .signPresent 1 [5], .signThenUpdate 2 [6, 7] [8]]

/-- the second history -/
def historyB : List Request :=
  [.sign 1 [8, 8, 8] [], .update 2 [9], .signPresent 1 [0], .signThenUpdate 2 [1, 1] [0]]

example : List.Forall₂ SameRequest historyA historyB :=
  .cons (.sign rfl rfl) (.cons (.update rfl) (.cons (.signPresent rfl) (.cons
    (.signThenUpdate rfl rfl) .nil)))

/-- none of the runs panics, and the third request fails -/
example :
    (serve Toy.sha0 .debug (Toy.param 2 0) historyA (keyWith (List.replicate 64 9))).1 =
      [.ok (), .ok (), .err .timeStamp, .ok ()] ∧
    (serve Toy.sha0 .debug (Toy.param 2 0) historyB otherKey).1 =
      [.ok (), .ok (), .err .timeStamp, .ok ()] := by
  decide +kernel

/-- in a single update no comparison finds the states equal, and there is one -/
example :
    (Trace.update Toy.sha0 .debug (Toy.param 2 0) 2 [] (keyWith (List.replicate 64 9))).2.filter
      (fun e => e ∉ seen [e]) = [.compare 0] := by
  decide +kernel

/-- keys of different shapes are told apart: the hypothesis is needed -/
example :
    (Trace.signPresent Toy.sha0 .debug 1 (Toy.param 2 0) [] (keyWith (List.replicate 64 9))).2 ≠
    (Trace.signPresent Toy.sha0 .debug 1 (Toy.param 2 0) []
      { keyWith (List.replicate 64 9) with ssk := [] }).2 := by
  decide +kernel

/-- an honest key -/
example : SameShape (Toy.sk0 3 1) (Toy.sk0 3 1) :=
  C68_honest (Toy.keyFor_sk0 (by decide) 1) (Toy.keyFor_sk0 (by decide) 1)

end Pixel.Props
