import Verif.Proof.Debug
import Verif.Proof.TraceAlike
import Verif.Props.Trace
import Verif.ToyKey

/-!
# C69: what is printed

What a build with `debug_assertions` prints, and what the `Debug` instances of the secret types show.
-/

namespace Pixel.Props

open Pixel Pixel.Spec Pixel.Trace

set_option linter.unusedSectionVars false

variable {G1 G2 GT : Type} [AddCommGroup G1] [AddCommGroup G2] [CommGroup GT]
  {E : Ext G1 G2 GT} {pp : PubParam G1 G2}

/-- What was printed. -/
def printed (l : List Ev) : List Ev :=
  l.filter (fun e => match e with
    | .print _ _ => true
    | _ => false)

/-- C69: whatever is asked of a key, well-formed or not: a call that prints something returns an
error.  Calls that succeed, and calls that panic, print nothing. -/
theorem C69_prints_only_errors (sha : Bytes → Bytes) (pf : Profile) (pp : PubParam G1 G2)
    (r : Request) (sk : SecretKey G1 G2) :
    printed (r.run sha pf pp sk).2 ≠ [] → (r.run sha pf pp sk).1.1.isErr = true := by
  intro h
  obtain ⟨e, he⟩ := List.exists_mem_of_ne_nil _ h
  rw [printed, List.mem_filter] at he
  refine request_safe (hE := endsPrint) sha pf pp r sk e he.1 ?_
  cases e <;> simp_all

/-- C69: the same for key generation. -/
theorem C69_keygen_prints_only_errors (E : Ext G1 G2 GT) (seed : Bytes) (pp : PubParam G1 G2) :
    printed (Trace.keygen E seed pp).trace ≠ [] → (Trace.keygen E seed pp).out.isErr = true := by
  intro h
  obtain ⟨e, he⟩ := List.exists_mem_of_ne_nil _ h
  rw [printed, List.mem_filter] at he
  refine keygen_safe (hE := endsPrint) E seed pp e he.1 ?_
  cases e <;> simp_all

theorem printed_seen (l : List Ev) : printed (seen l) = printed l := by
  unfold printed seen
  rw [List.filter_filter]
  congr 1
  funext e
  cases e <;> rfl

/-- C69: what is printed in the course of a history without panics is determined by the shape of the
key, the times, and the lengths of messages and seeds: it is the same for all secrets. -/
theorem C69_prints_no_secrets (H : HashLaws E) (pf : Profile) (pp : PubParam G1 G2)
    {rs rs' : List Request} (hr : List.Forall₂ SameRequest rs rs') {sk sk' : SecretKey G1 G2}
    (h : SameShape sk sk') (h1 : ∀ x ∈ (serve E.sha512 pf pp rs sk).1, x.isPanic = false)
    (h2 : ∀ x ∈ (serve E.sha512 pf pp rs' sk').1, x.isPanic = false) :
    printed (serve E.sha512 pf pp rs sk).2.2 = printed (serve E.sha512 pf pp rs' sk').2.2 := by
  rw [← printed_seen, (C68_history H pf pp hr h h1 h2).1, printed_seen]

/-- C69: the `Debug` text of a secret key shows its PRNG state in full, and its time, however the
points are written: keys with the same text agree in both. -/
theorem C69_debug_shows_state {show1 show1' : G1 → Bytes} {show2 show2' : G2 → Bytes}
    {a b : SecretKey G1 G2} (ha : a.prng.WF) (hb : b.prng.WF)
    (h : Debug.secretKey show1 show2 a = Debug.secretKey show1' show2' b) :
    a.time = b.time ∧ a.prng = b.prng :=
  Debug.secretKey_inj ha hb h

/-- C69: it does not show the ciphersuite: two keys that differ for `PartialEq` have one text. -/
theorem C69_debug_hides_suite : ∃ a b : SecretKey Toy.G Toy.G, a.eq b = false ∧ b.prng.WF ∧
    ∀ show1 show2, Debug.secretKey show1 show2 a = Debug.secretKey show1 show2 b := by
  refine ⟨Toy.sk0 2 0, { Toy.sk0 2 0 with ciphersuite := 1 }, by decide +kernel,
    (Toy.keyFor_sk0 (d := 2) (by decide) 0).prng, fun _ _ => rfl⟩

/-- C69: the message of the failed assertion in `update` shows the PRNG states it compares, whatever
words the standard library puts around them. -/
theorem C69_panic_shows_state {words : Bytes × Bytes × Bytes} {p p' q q' : Prng} (hp : p.WF)
    (hp' : p'.WF) (hq : q.WF) (hq' : q'.WF)
    (h : Debug.assertNe words p q = Debug.assertNe words p' q') : p = p' ∧ q = q' := by
  unfold Debug.assertNe at h
  simp only [List.append_assoc] at h
  obtain ⟨e1, h2⟩ := Debug.prng_inj hp hp' (List.append_cancel_left h)
  exact ⟨e1, (Debug.prng_inj hq hq' (List.append_cancel_left h2)).1⟩

/-! ## the hypotheses are met -/

/-- a request that prints and fails -/
example :
    printed ((Request.update 9 []).run Toy.sha0 .debug (Toy.param 2 0) (Toy.sk0 2 0)).2 =
      [.print "the input time is invalid" [9]] := by
  decide +kernel

/-- the text of a PRNG state -/
example : (Debug.prng { seed := (List.range 64).map UInt8.ofNat }).take 12 = ascii "0x00, 0x01, " := by
  decide +kernel

end Pixel.Props
