import Verif.Fast.Stream

/-!
# Checking that a stream of PRNG states is defined
-/

namespace Pixel.Fast

open Pixel Pixel.Sha512 Pixel.Spec Pixel.Props

/-- The HKDF infos and the numbers of draws, from times and numbers of draws. -/
def infos (l : List (Nat × Nat)) : List (Nat × Nat) :=
  l.map fun p => (Nat.add
    2620833974121289914212770902749827624277747545593104162426858896957693357390645738555117142016 p.1,
    p.2)

/-- A new key from the seed `sv` (`sl` bytes) and updates with the seed `uv` (`ul` bytes) end in the
state `f`. -/
def runN (cs sv sl uv ul : Nat) (l : List (Nat × Nat)) (f : Nat) : Bool :=
  firstN cs sv sl 106885872757599862096982367004615468409
    9355544118636751366852729970716781690056558
    504754263002759421337451318793627258305410851931944340422657
    (streamN uv ul 7701938827556753865622731304834400303732478594672325733 (infos l) fun q => Nat.beq q f)

theorem runN_eq (cs : UInt8) {seed useed : Bytes} (hs : seed.length < 2 ^ 63)
    (hu : useed.length < 2 ^ 63) (d : Nat) (ts : List Nat) {l : List (Nat × Nat)}
    {f : Nat} (hl : plan d 1 ts = infos l)
    (h : runN cs.toNat (beNat seed) seed.length (beNat useed) useed.length l f = true) :
    ∃ q, prngStream sha512 d (firstState sha512 seed cs) 1 (ts.map fun tar => (tar, useed)) = some q ∧
      beNat q.seed = f := by
  have e1 : beNat (text "Pixel master key") = 106885872757599862096982367004615468409 := by
    decide +kernel
  have e2 : beNat (text "key initialization") = 9355544118636751366852729970716781690056558 := by
    decide +kernel
  have e3 : beNat (text "Pixel secret key init" ++ be32 1) =
      504754263002759421337451318793627258305410851931944340422657 := by decide +kernel
  have e4 : updV = 7701938827556753865622731304834400303732478594672325733 := by decide +kernel
  rw [runN, ← e1, ← e2, ← e3, ← e4, ← hl, firstN_eq cs (by omega),
    streamN_eq d hu _ ts 1 (firstState_wf seed cs)] at h
  revert h
  rcases prngStream sha512 d (firstState sha512 seed cs) 1 (ts.map fun tar => (tar, useed)) with _ | q
  · intro h; cases h
  · intro h; exact ⟨q, rfl, Nat.eq_of_beq_eq_true h⟩

end Pixel.Fast
