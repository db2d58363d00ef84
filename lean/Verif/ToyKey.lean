import Verif.Toy
import Verif.Proof.Update

/-! # A concrete secret key in the toy instance, for the examples -/

namespace Pixel.Toy

open Pixel Pixel.Spec

/-- the root sub key of depth `d` with randomness 5 and master secret `3·h` -/
def ssk0 (d : Nat) : SubSecretKey G G where
  time := 1
  g2r := 5 • (param d 0).g2
  hpoly := 3 • (param d 0).h + 5 • nodePoint (param d 0) []
  hvector := ((param d 0).hlist.drop 1).map (fun h => 5 • h)

/-- a key for time 1 with a fixed PRNG state -/
def sk0 (d : Nat) (cs : UInt8) : SecretKey G G where
  ciphersuite := cs
  time := 1
  ssk := [ssk0 d]
  prng := { seed := List.replicate 64 9 }

theorem hkey_sk0 {d : Nat} (hd : 1 ≤ d) (cs : UInt8) :
    HKey (param d cs) (3 • (param d cs).h) [] (sk0 d cs) where
  suite := rfl
  time := by simp [sk0]
  node := isNode_nil.2 hd
  prng := by simp [Prng.WF, sk0]
  ssk := by
    refine .cons ⟨5, ?_⟩ .nil
    exact { node := by
              have := nodeAt_num (isNode_nil.2 hd)
              simpa [ssk0, param] using this
            g2r := rfl
            hpoly := rfl
            hvector := rfl }

theorem keyFor_sk0 {d : Nat} (hd : 1 ≤ d) (cs : UInt8) :
    KeyFor (param d cs) (3 • (param d cs).h) 1 (sk0 d cs) := (hkey_sk0 hd cs).keyFor

/-- the PRNG states met in an update of `sk0` with the empty seed are not the initial one -/
theorem chain_sk0 (cs : UInt8) : ∀ k, 1 ≤ k → k < 5 →
    SecretKey.chain sha0 (mixed sha0 (sk0 5 cs).prng [] (SecretKey.reseedInfo 1)) k ≠
      (sk0 5 cs).prng := by
  have key : ∀ k < 5, 1 ≤ k →
    SecretKey.chain sha0 (mixed sha0 { seed := List.replicate 64 9 } [] (SecretKey.reseedInfo 1)) k ≠
      { seed := List.replicate 64 9 } := by decide +kernel
  exact fun k h1 h2 => key k h2 h1

/-- the same for a second update, from time 9, whatever number of draws the first one made -/
theorem chain2_sk0 (cs : UInt8) : ∀ j < 5, ∀ k, 1 ≤ k → k < 5 →
    SecretKey.chain sha0 (mixed sha0 (SecretKey.chain sha0 (mixed sha0 (sk0 5 cs).prng []
      (SecretKey.reseedInfo 1)) j) [] (SecretKey.reseedInfo 9)) k ≠
    SecretKey.chain sha0 (mixed sha0 (sk0 5 cs).prng [] (SecretKey.reseedInfo 1)) j := by
  have key : ∀ j < 5, ∀ k < 5, 1 ≤ k →
    SecretKey.chain sha0 (mixed sha0 (SecretKey.chain sha0 (mixed sha0
      { seed := List.replicate 64 9 } [] (SecretKey.reseedInfo 1)) j) []
      (SecretKey.reseedInfo 9)) k ≠
    SecretKey.chain sha0 (mixed sha0 { seed := List.replicate 64 9 } []
      (SecretKey.reseedInfo 1)) j := by decide +kernel
  exact fun j hj k h1 h2 => key j hj k h2 h1

end Pixel.Toy
