import Verif.Spec.Sig
import Verif.Spec.Laws
import Verif.Model.Verbose

/-!
# What the checking functions say

A table of causes and texts, for builds with `debug_assertions`.
-/

namespace Pixel.Spec.Says

open Pixel Pixel.Spec

variable {G1 G2 : Type}

/-- a line of text -/
def ln (s : String) (rest : Bytes := []) : Bytes := ascii s ++ rest ++ [10]

/-- how a bad time stamp is described; `2 ^ d`, one too many, is blamed on the depth -/
def timeWords (d t : Nat) : Bytes :=
  if d = 0 ∨ t = 2 ^ d then ascii "Invalid Time Depth" else ascii "Invalid Time Stamp"

open Classical in
/-- two lines about a bad time stamp, nothing about a good one -/
noncomputable def badTime (who : String) (d t : Nat) : Bytes :=
  if ValidTime d t then []
  else ln "Error in time_to_vec: " (timeWords d t) ++ ln who (timeWords d t)

open Classical in
/-- verification of a signature with the given ciphersuites (of the parameter and of the signature),
subgroup tests and time -/
noncomputable def verify (pp sig : UInt8) (in1 in2 : Bool) (d t : Nat) : Bytes :=
  if ¬ Supported pp ∨ sig ≠ pp then ln "Incorrect ciphersuite id: " (Debug.decimal pp.toNat)
  else if in1 = true ∧ in2 = true then badTime "Error in verification: " d t
  else ln "Signature not it the correct subgroup" ++
    ascii "sigma1: " ++ (if in1 then ascii "true" else ascii "false") ++
    ascii ", sigma2: " ++ (if in2 then ascii "true" else ascii "false") ++ [10]

/-- the sub keys in order, given by their times and whether they are valid by themselves, against the
times they ought to have; `i` is the number of the first one -/
noncomputable def subKeys (d : Nat) : Nat → List (Nat × Bool) → List Nat → Bytes
  | _, [], _ => []
  | i, (t, false) :: _, _ => badTime "Error in ssk validation: " d t ++
      (ascii "Validation failed for " ++ Debug.decimal i ++ ascii "th SubSecretKey" ++ [10])
  | _, (_, true) :: _, [] => []
  | i, (t, true) :: l, g :: gs =>
    if t = g then subKeys d (i + 1) l gs
    else ln "Validation failed: time does not match the gamma_list" ++
      ln "Current time: " (Debug.decimal t) ++ ln "time from gamma list: " (Debug.decimal g)

end Pixel.Spec.Says
