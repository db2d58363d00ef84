import Verif.Spec.Sig
import Verif.Spec.Laws

/-!
# `/repo/spec.md`, transcribed

The repository describes its algorithms in prose and pseudo-code.  This file transcribes that text;
it shares with the model only the data types, HMAC, and the external functions.  Groups are written
additively (`x ^ r` is `r • x`), an error is `none`, `|` is `++`, time stamps enter strings as four
bytes.  Where the text leaves room, the comment says which reading is taken.
-/

namespace Pixel.Doc

open Pixel Pixel.Spec

variable {G1 G2 GT : Type} [AddCommGroup G1] [AddCommGroup G2] [CommGroup GT]

/-! ## HKDF-Expand to 64 or 128 bytes (RFC 5869, section 2.3) -/

/-- the first 64 bytes of HKDF-Expand -/
def expand1 (sha : Bytes → Bytes) (prk info : Bytes) : Bytes := hmac sha prk (info ++ [1])

/-- the next 64 bytes of HKDF-Expand -/
def expand2 (sha : Bytes → Bytes) (prk info : Bytes) : Bytes :=
  hmac sha prk (expand1 sha prk info ++ info ++ [2])

/-! ## Pseudo random generators, `/repo/spec.md` 85-144 -/

/-- "Initialization", `/repo/spec.md` 94-105: HKDF-Extract. -/
def prngInit (sha : Bytes → Bytes) (seed salt : Bytes) : Bytes := hmac sha salt seed

/-- "Sample and update", `/repo/spec.md` 107-119. -/
def sampleThenUpdate (sha : Bytes → Bytes) (prng info : Bytes) : Fr × Bytes :=
  ((natOfBytes (expand1 sha prng info) : Nat), expand2 sha prng info)

/-- "Sample (without update)", `/repo/spec.md` 121-131. -/
def sample (sha : Bytes → Bytes) (prng info : Bytes) : Fr :=
  (natOfBytes (expand1 sha prng info) : Nat)

/-- "The `prng_rerandomize` subroutine", `/repo/spec.md` 715-722.  The arguments of `HKDF-Extract`
are read in the order of lines 104 and 143 (seed, then salt), against line 645 (salt, then seed).
The earlier description, lines 133-144, with 64 bytes and an extra salt, is not followed. -/
def rerandomize (sha : Bytes → Bytes) (prng newseed info : Bytes) : Bytes :=
  hmac sha (expand2 sha prng info) (expand1 sha prng info ++ newseed)

/-! ## Time, `/repo/spec.md` 54-82 -/

/-- the time vector of a time stamp -/
def vecOf (d t : Nat) : Option (List Nat) := if t = 0 then none else (preorder d)[t - 1]?

/-- the time stamp of a time vector -/
def timeOf (d : Nat) (v : List Nat) : Nat := (preorder d).idxOf v + 1

/-- `gamma_list`, `/repo/spec.md` 72-82: the vector itself, and the right siblings of the path,
deepest first, as in the example given there. -/
def gammaList (v : List Nat) : List (List Nat) :=
  v :: (List.range v.length).reverse.filterMap
    (fun i => if v[i]? = some 1 then some (v.take i ++ [2]) else none)

/-! ## Master secret key, proof of possession, `/repo/spec.md` 147-208 -/

/-- `proof_of_possession`, `/repo/spec.md` 196-208; `BLSSignature::sign` multiplies the hash of the
message by the secret. -/
def proofOfPossession (E : Ext G1 G2 GT) (msk : Fr) (pk : G2) (cs : UInt8) :
    ProofOfPossession G1 :=
  { ciphersuite := cs
    pop := msk.val • E.hashToG1 (text "Pixel public key POP" ++ E.encG2 true pk) [cs] }

/-- `master_key_gen`, `/repo/spec.md` 149-167; the string for the draw is that of line 683 (line 162
has another one, which is the salt's label). -/
def masterKeyGen (E : Ext G1 G2 GT) (seed : Bytes) (pp : PubParam G1 G2) :
    Option (G2 × G1 × ProofOfPossession G1 × Bytes) :=
  if 32 ≤ seed.length ∧ (pp.ciphersuite = 0 ∨ pp.ciphersuite = 1) then
    let prng := prngInit E.sha512 seed (text "Pixel master key" ++ [pp.ciphersuite])
    let xp := sampleThenUpdate E.sha512 prng (text "key initialization")
    let pk := xp.1.val • pp.g2
    some (pk, xp.1.val • pp.h, proofOfPossession E xp.1 pk pp.ciphersuite, xp.2)
  else none

/-! ## Sub secret keys, `/repo/spec.md` 400-506 -/

/-- "Initialization", `/repo/spec.md` 443-455; `alpha` is the group element `h ^ x` that
`master_key_gen` returns (line 452 applies `h ^` once more). -/
def subKeyInit (pp : PubParam G1 G2) (alpha : G1) (r : Fr) : SubSecretKey G1 G2 :=
  { time := 1
    g2r := r.val • pp.g2
    hpoly := alpha + r.val • pp.hlist.headD 0
    hvector := pp.hlist.tail.map (fun h => r.val • h) }

/-- "Delegation", `/repo/spec.md` 457-475. -/
def delegate (d : Nat) (ssk : SubSecretKey G1 G2) (tar : Nat) : Option (SubSecretKey G1 G2) :=
  match vecOf d ssk.time, vecOf d tar with
  | some cur, some tv =>
    if cur <+: tv then
      let more := tv.drop cur.length
      some
        { time := tar
          g2r := ssk.g2r
          hpoly := ssk.hpoly + (List.zipWith (fun t h => t • h) more ssk.hvector).sum
          hvector := ssk.hvector.drop more.length }
    else none
  | _, _ => none

/-- "Randomization", `/repo/spec.md` 478-498. -/
def randomization (pp : PubParam G1 G2) (ssk : SubSecretKey G1 G2) (r : Fr) :
    Option (SubSecretKey G1 G2) :=
  match vecOf pp.depth ssk.time with
  | none => none
  | some tv =>
    some
      { time := ssk.time
        g2r := ssk.g2r + r.val • pp.g2
        hpoly := ssk.hpoly + r.val • nodePoint pp tv
        hvector := List.zipWith (fun a h => a + r.val • h) ssk.hvector
          (pp.hlist.drop (tv.length + 1)) }

/-! ## Secret keys, `/repo/spec.md` 270-398 -/

/-- "Initialization", `/repo/spec.md` 311-326. -/
def keyInit (sha : Bytes → Bytes) (pp : PubParam G1 G2) (alpha : G1) (prng : Bytes) :
    Option (SecretKey G1 G2) :=
  if pp.ciphersuite = 0 ∨ pp.ciphersuite = 1 then
    let rp := sampleThenUpdate sha prng (text "Pixel secret key init" ++ be32 1)
    some { ciphersuite := pp.ciphersuite, time := 1, ssk := [subKeyInit pp alpha rp.1],
           prng := { seed := rp.2 } }
  else none

/-- `find_ancestor`, `/repo/spec.md` 363-377: the greatest time stamp of a sub key that is no
greater than the target. -/
def findAncestor (sk : SecretKey G1 G2) (tar : Nat) : Option Nat :=
  ((sk.ssk.map SubSecretKey.time).filter (fun t => decide (t ≤ tar))).max?

/-- Step "for (i, TimeStamp) in Gammalist", `/repo/spec.md` 351-358, from index `i` on; `info` is the
string for the draws. -/
def updateLoop (sha : Bytes → Bytes) (pp : PubParam G1 G2) (info : Bytes)
    (dlg : SubSecretKey G1 G2) (dv : List Nat) :
    Nat → List (List Nat) → List (SubSecretKey G1 G2) × Bytes →
      Option (List (SubSecretKey G1 G2) × Bytes)
  | _, [], st => some st
  | i, tv :: rest, (ssks, prng) =>
    if dv <+: tv then
      match delegate pp.depth dlg (timeOf pp.depth tv) with
      | none => none
      | some new =>
        if i = 0 then
          updateLoop sha pp info dlg dv (i + 1) rest (ssks.insertIdx (i + 1) new, prng)
        else
          let rp := sampleThenUpdate sha prng info
          match randomization pp new rp.1 with
          | none => none
          | some new => updateLoop sha pp info dlg dv (i + 1) rest (ssks.insertIdx (i + 1) new, rp.2)
    else updateLoop sha pp info dlg dv (i + 1) rest (ssks, prng)

/-- "Update", `/repo/spec.md` 328-361.  The string for the draws is an argument: the text says
`"Pixel secret key update" | self.time()`. -/
def update (sha : Bytes → Bytes) (pp : PubParam G1 G2) (drawInfo : Bytes) (tar : Nat)
    (seed : Bytes) (sk : SecretKey G1 G2) : Option (SecretKey G1 G2) :=
  if sk.ciphersuite = pp.ciphersuite ∧ sk.time < tar ∧ tar ≤ 2 ^ pp.depth - 1 then
    let prng := rerandomize sha sk.prng.seed seed
      (text "Pixel secret key rerandomize expand" ++ be32 sk.time)
    match findAncestor sk tar with
    | none => none
    | some dt =>
      let ssks := sk.ssk.filter (fun s => decide (dt ≤ s.time))
      if dt = tar then
        some { sk with time := dt, ssk := ssks, prng := { seed := prng } }
      else
        match ssks.head?, vecOf pp.depth dt, vecOf pp.depth tar with
        | some dlg, some dv, some tv =>
          match updateLoop sha pp drawInfo dlg dv 0 (gammaList tv) (ssks, prng) with
          | none => none
          | some (ssks, prng) =>
            match ssks.drop 1 with
            | [] => none
            | first :: rest =>
              some { sk with time := first.time, ssk := first :: rest, prng := { seed := prng } }
        | _, _, _ => none
  else none

/-- `validate` of a sub key, `/repo/spec.md` 500-506. -/
def SubKeyValid (E : Ext G1 G2 GT) (pp : PubParam G1 G2) (pk : PublicKey G2)
    (ssk : SubSecretKey G1 G2) : Prop :=
  ∃ tv, vecOf pp.depth ssk.time = some tv ∧
    pair E pp.g2 ssk.hpoly = pair E pk.pk pp.h * pair E ssk.g2r (nodePoint pp tv)

/-- `validate` of a secret key, `/repo/spec.md` 391-398. -/
def KeyValid (E : Ext G1 G2 GT) (pp : PubParam G1 G2) (pk : PublicKey G2) (sk : SecretKey G1 G2) :
    Prop :=
  sk.ciphersuite = pk.ciphersuite ∧ pk.ciphersuite = pp.ciphersuite ∧
  (∀ s ∈ sk.ssk, SubKeyValid E pp pk s) ∧
  ∃ tv, vecOf pp.depth sk.time = some tv ∧
    sk.ssk.map (fun s => vecOf pp.depth s.time) = (gammaList tv).map some

/-! ## Signatures, `/repo/spec.md` 509-638 -/

/-- `hash_msg_into_fr`, `/repo/spec.md` 589-597. -/
def hashMsg (sha : Bytes → Bytes) (msg : Bytes) (cs : UInt8) : Fr :=
  (natOfBytes (sha (text "Pixel hash to message" ++ [cs] ++ msg)) : Nat)

/-- `sign_bytes`, `/repo/spec.md` 549-572; `hv[d]` is the last element of the sub key's vector.  (For
target times after the key's own, line 562 reports no error, and the text makes no signature that
verifies; the transcription signs only at the key's own time.) -/
def sign (sha : Bytes → Bytes) (sk : SecretKey G1 G2) (tar : Nat) (pp : PubParam G1 G2)
    (msg : Bytes) : Option (Signature G1 G2) :=
  if sk.time = tar ∧ sk.ciphersuite = pp.ciphersuite ∧
      (pp.ciphersuite = 0 ∨ pp.ciphersuite = 1) then
    match sk.ssk.head?, vecOf pp.depth tar with
    | some ssk, some tv =>
      let r := sample sha sk.prng.seed (text "Pixel randomness for signing" ++ msg ++ be32 tar)
      let m := hashMsg sha msg pp.ciphersuite
      let tmp := nodePoint pp tv + m.val • pp.hlist.getLastD 0
      some
        { ciphersuite := pp.ciphersuite
          time := tar
          sigma1 := ssk.g2r + r.val • pp.g2
          sigma2 := ssk.hpoly + m.val • ssk.hvector.getLastD 0 + r.val • tmp }
    | _, _ => none
  else none

/-- `verify_bytes`, `/repo/spec.md` 575-587. -/
def Verifies (E : Ext G1 G2 GT) (sig : Signature G1 G2) (pk : G2) (pp : PubParam G1 G2)
    (msg : Bytes) : Prop :=
  (pp.ciphersuite = 0 ∨ pp.ciphersuite = 1) ∧ sig.ciphersuite = pp.ciphersuite ∧
  E.inSub2 sig.sigma1 = true ∧ E.inSub1 sig.sigma2 = true ∧
  ∃ tv, vecOf pp.depth sig.time = some tv ∧
    let m := hashMsg E.sha512 msg pp.ciphersuite
    let hfx := nodePoint pp tv + m.val • pp.hlist.getLastD 0
    pair E (-pp.g2) sig.sigma2 * pair E sig.sigma1 hfx * pair E pk pp.h = 1

/-- `aggregate_without_validate`, `/repo/spec.md` 599-613. -/
def aggregate (sigs : List (Signature G1 G2)) : Option (Signature G1 G2) :=
  match sigs with
  | [] => none
  | s :: rest =>
    if (∀ e ∈ rest, e.ciphersuite = s.ciphersuite) ∧ (∀ e ∈ rest, e.time = s.time) then
      some { s with sigma1 := (sigs.map Signature.sigma1).sum
                    sigma2 := (sigs.map Signature.sigma2).sum }
    else none

/-- `verify_bytes_aggregated`, `/repo/spec.md` 615-638 (there is one signature only, so that line 630
says nothing). -/
def VerifiesAggregated (E : Ext G1 G2 GT) (sig : Signature G1 G2) (pks : List (PublicKey G2))
    (pp : PubParam G1 G2) (msg : Bytes) : Prop :=
  sig.ciphersuite = pp.ciphersuite ∧ (∀ pk ∈ pks, pk.ciphersuite = pp.ciphersuite) ∧
  Verifies E sig (pks.map PublicKey.pk).sum pp msg

/-- `PublicKey::validate`, `/repo/spec.md` 255-267; `BLSSignature::verify` is the pairing equation
with the subgroup tests. -/
def PopValid (E : Ext G1 G2 GT) (pk : PublicKey G2) (pop : ProofOfPossession G1) : Prop :=
  (pk.ciphersuite = 0 ∨ pk.ciphersuite = 1) ∧ pop.ciphersuite = pk.ciphersuite ∧
  E.inSub2 pk.pk = true ∧ E.inSub1 pop.pop = true ∧
  pair E E.gen2 pop.pop = pair E pk.pk
    (E.hashToG1 (text "Pixel public key POP" ++ E.encG2 true pk.pk) [pk.ciphersuite])

end Pixel.Doc
