import Verif.Spec.Code

/-!
# The game from the seed on

The game of `Spec/Code.lean` with `keygen` of the model, called with a uniform seed of `n` bytes.
Hash-to-curve gives the point `q` of the honest key, so that the proof of possession is the one that
`keygen` returns.
-/

namespace Pixel.Spec

open Pixel Props

variable {G1 G2 GT : Type} [AddCommGroup G1] [AddCommGroup G2] [CommGroup GT]

/-- a seed of `n` bytes -/
abbrev Seed (n : Nat) := Fin (256 ^ n)

/-- its bytes -/
def Seed.bytes {n : Nat} (s : Seed n) : Bytes := natToBE n s.val

/-- The chance that the adversary wins, over the parameters, the point `q` and the seed. -/
noncomputable def seedForgeChance [DecidableEq GT] (E : Ext G1 G2 GT) (pf : Profile) (g : G1)
    (d : Nat) (cs : UInt8) (n : Nat) (A : World G1 G2 → CodePlayer G1 G2) : ℚ :=
  avg fun a : Secret d 0 → Fr => avg fun s : Seed n =>
    match keygen { E with hashToG1 := fun _ _ => (a .q).val • g } s.bytes (gameParam E g cs a) with
    | .ok (pk, sk, pop) =>
      (A ⟨gameParam E g cs a, pk, (a .q).val • g, pop.pop, []⟩).chance E pf g ⟨sk, [], []⟩ []
        ⟨gameParam E g cs a, pk, (a .q).val • g, pop.pop, []⟩
    | _ => 0

/-- How far a function of PRNG states is from its average when the state is made from a seed of `n`
bytes with HKDF-extract (HMAC with the salt as key). -/
noncomputable def extractGain (sha : Bytes → Bytes) (salt : Bytes) (n : Nat) (f : Prng → ℚ) : ℚ :=
  (avg fun s : Seed n => f ⟨hmac sha salt s.bytes⟩) - avg fun K : Digest => f ⟨K.bytes⟩

/-- The game of `Spec/Code.lean` with the PRNG starting in state `p`. -/
noncomputable def startChance [DecidableEq GT] (E : Ext G1 G2 GT) (pf : Profile) (g : G1)
    (d : Nat) (cs : UInt8) (A : World G1 G2 → CodePlayer G1 G2) (p : Prng) : ℚ :=
  avg fun a : Secret d 0 → Fr =>
    match Prng.sampleThenUpdate E.sha512 (ascii "key initialization") p with
    | (.ok x, p) =>
      match SecretKey.init E.sha512 (worldOf E g cs (Function.update a .x x) []).pp
        (mulFr x (worldOf E g cs (Function.update a .x x) []).pp.h) p with
      | .ok sk => (A (worldOf E g cs (Function.update a .x x) [])).chance E pf g ⟨sk, [], []⟩ []
          (worldOf E g cs (Function.update a .x x) [])
      | _ => 0
    | _ => 0

end Pixel.Spec
