import Verif.Spec.Random

/-!
# Keys that somebody foresees, and keys that meet

`keygen` draws the master secret from HKDF of its seed.  Here somebody who does not know the seed, but
may evaluate the hash function, names points before the key is made; and several signers make their keys
independently of each other.
-/

namespace Pixel.Spec

open Pixel Props

variable {G1 G2 GT : Type} [AddCommGroup G1] [AddCommGroup G2] [CommGroup GT]

/-- Someone who evaluates the hash function and names points in the end. -/
inductive Namer (G2 : Type) where
  | toss (n : Nat) (hn : 0 < n) (next : Fin n → Namer G2)
  | hash (m : Bytes) (next : Bytes → Namer G2)
  | names (l : List G2)

open Classical in
/-- the chance that `p` is among the points, with the hash function `sha` -/
noncomputable def Namer.hits (sha : Bytes → Bytes) (p : G2) : Namer G2 → ℚ
  | .toss _ _ n => avg fun c => (n c).hits sha p
  | .hash m n => (n (sha m)).hits sha p
  | .names l => if p ∈ l then 1 else 0

/-- At most `q` evaluations, of strings of at most `B` octets, and at most `k` points -/
def Namer.Within (B k : Nat) : Namer G2 → Nat → Prop
  | .toss _ _ n, q => ∀ c, (n c).Within B k q
  | .hash m n, q => m.length ≤ B ∧ 0 < q ∧ ∀ b : Bytes, b.length = 64 → (n b).Within B k (q - 1)
  | .names l, _ => l.length ≤ k

/-- The chance that the point of a public key from `keygen`, with a uniform seed of `n` octets, is one
of those that have been named. -/
noncomputable def foreseen (E : Ext G1 G2 GT) (pp : PubParam G1 G2) (n : Nat) (A : Namer G2) : ℚ :=
  avg fun s : Seed n =>
    match keygen E s.bytes pp with
    | .ok (pk, _, _) => A.hits E.sha512 pk.pk
    | _ => 0

/-- names the key that belongs to a seed: HKDF-extract, and the first block of HKDF-expand, taken modulo
the order -/
def keyOf (cs : UInt8) (g : G2) (seed : Bytes) : Namer G2 :=
  .hash (keyPad 0x36 (text "Pixel master key" ++ [cs]) ++ seed) fun a =>
  .hash (keyPad 0x5c (text "Pixel master key" ++ [cs]) ++ a) fun K =>
  .hash (keyPad 0x36 K ++ (text "key initialization" ++ [1])) fun a =>
  .hash (keyPad 0x5c K ++ a) fun o => .names [((beNat o : ℕ) : Fr).val • g]

/-- two of the seeds give the same public key -/
def Meet (E : Ext G1 G2 GT) (pp : PubParam G1 G2) {n m : Nat} (s : Fin m → Seed n) : Prop :=
  ∃ i j, i ≠ j ∧ ∃ a b, keygen E (s i).bytes pp = .ok a ∧ keygen E (s j).bytes pp = .ok b ∧
    a.1.pk = b.1.pk

open Classical in
/-- The chance that two of `m` signers, with independent seeds of `n` octets, have the same public key. -/
noncomputable def meetChance (E : Ext G1 G2 GT) (pp : PubParam G1 G2) (n m : Nat) : ℚ :=
  avg fun s : Fin m → Seed n => if Meet E pp s then 1 else 0

end Pixel.Spec
