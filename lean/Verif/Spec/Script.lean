import Verif.Spec.Crowd
import Verif.Spec.Param
import Verif.Model.PyParam

/-!
# The game with the parameters of the script

As in `Spec/Crowd.lean`, but the parameters are not drawn at random: they are made by
`/repo/pixel-python/param.py` (`Model/PyParam.lean`) from a fixed seed, with the same hash-to-curve
that the proofs of possession use.  It is the same random oracle, and the adversary may ask it for the
strings of the parameters as well.
-/

namespace Pixel.Spec

open Pixel Props

variable {G1 G2 GT : Type} [AddCommGroup G1] [AddCommGroup G2] [CommGroup GT] {N : Nat}

/-- the inputs of hash-to-curve for the parameters -/
def paramInputs (sha : Bytes → Bytes) (seed : Bytes) (cs : UInt8) (d : Nat) : List (Bytes × Bytes) :=
  (paramStrings sha seed d).map fun b => (b, [cs])

open Classical in
/-- The chance that the adversary wins, over the seeds and the oracles: hash-to-curve is asked for the
points of the parameters, the script makes the parameters, and the rest is as in `Spec/Crowd.lean`. -/
noncomputable def scriptForgeChance [DecidableEq GT] (E : Ext G1 G2 GT) (pf : Profile) (g : G1)
    (seed : Bytes) (d : Nat) (cs : UInt8) (n N : Nat)
    (A : PubParam G1 G2 → (Fin N → PublicKey G2) → (Fin N → ProofOfPossession G1) →
      CrowdPlayer G1 G2 N) : ℚ :=
  curveOracles g (paramInputs E.sha512 seed cs d) [] fun pts0 =>
    match Py.paramGen { E with hashToG1 := pts0.hash } seed cs d with
    | .ok pp => avg fun s : Fin N → Seed n =>
      if ∀ i, ∃ b, keygen E (s i).bytes pp = .ok b then
        curveOracles g (List.ofFn fun i => popInput E (born E pp (s i).bytes).1) pts0 fun pts =>
          let b := fun i => born { E with hashToG1 := pts.hash } pp (s i).bytes
          (A pp (fun i => (b i).1) (fun i => (b i).2.2)).chance E pf g pp (fun i => (b i).1)
            (fun i => ⟨(b i).2.1, [], []⟩) [] pts
      else 0
    | _ => 0

/-! ## How the adversary is used -/

/-- The adversary that does not ask for the points it knows. -/
def CrowdPlayer.knowing (known : Curve G1) : CrowdPlayer G1 G2 N → CrowdPlayer G1 G2 N
  | .toss m hm n => .toss m hm fun c => (n c).knowing known
  | .hash msg n => .hash msg fun b => (n b).knowing known
  | .curve q n => match known.lookup q with
    | some p => (n p).knowing known
    | none => .curve q fun p => (n p).knowing known
  | .sign j msg n => .sign j msg fun s => (n s).knowing known
  | .update j tar seed n => .update j tar seed (n.knowing known)
  | .breakIn j n => .breakIn j fun sk => (n sk).knowing known
  | .forge F => .forge F

/-- the points of the parameters with their inputs -/
def paramTable (sha : Bytes → Bytes) (seed : Bytes) (pp : PubParam G1 G2) : Curve G1 :=
  (paramInputs sha seed pp.ciphersuite pp.depth).zip (pp.h :: pp.hlist)

/-- The adversary of the game of `Spec/Crowd.lean`: questions for the strings of the parameters are
answered with the parameters. -/
def scriptLower (sha : Bytes → Bytes) (seed : Bytes)
    (A : PubParam G1 G2 → (Fin N → PublicKey G2) → (Fin N → ProofOfPossession G1) →
      CrowdPlayer G1 G2 N) (pp : PubParam G1 G2) (pk : Fin N → PublicKey G2)
    (pop : Fin N → ProofOfPossession G1) : CrowdPlayer G1 G2 N :=
  (A pp pk pop).knowing (paramTable sha seed pp)

end Pixel.Spec
