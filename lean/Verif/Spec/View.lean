import Verif.Spec.Panic

/-!
# What a user of the API sees, and the ideal signer

Someone makes calls on a secret key and sees the outcomes.  The ideal signer has no sub keys, no
generator and no hash function for scalars: it has the master secret and a clock, and a signature is a
uniform one among those that are accepted; only a message signed twice at the same time gets the
same signature.
-/

namespace Pixel.Spec

open Pixel Props

variable {G1 G2 GT : Type} [AddCommGroup G1] [AddCommGroup G2] [CommGroup GT]

/-- Someone who uses a secret key through the API, sees the outcomes of the calls, panics included, and
outputs a number in the end. -/
inductive Watcher (G1 G2 : Type) where
  | toss (n : Nat) (hn : 0 < n) (next : Fin n → Watcher G1 G2)
  | call (c : Call) (next : Res (Option (Signature G1 G2)) → Watcher G1 G2)
  | stop (out : ℚ)

/-- at most `k` calls are made -/
def Watcher.Calls : Watcher G1 G2 → Nat → Prop
  | .toss _ _ n, k => ∀ c, (n c).Calls k
  | .call _ n, k => 0 < k ∧ ∀ o, (n o).Calls (k - 1)
  | .stop _, _ => True

/-- the number is between 0 and 1 -/
def Watcher.Bounded : Watcher G1 G2 → Prop
  | .toss _ _ n => ∀ c, (n c).Bounded
  | .call _ n => ∀ o, (n o).Bounded
  | .stop v => 0 ≤ v ∧ v ≤ 1

/-- the same watcher with the opposite verdict -/
def Watcher.flip : Watcher G1 G2 → Watcher G1 G2
  | .toss m hm n => .toss m hm fun c => (n c).flip
  | .call c n => .call c fun o => (n o).flip
  | .stop v => .stop (1 - v)

/-- The expected output with the functions of the model. -/
noncomputable def Watcher.sees (sha : Bytes → Bytes) (pf : Profile) (pp : PubParam G1 G2) :
    Watcher G1 G2 → SecretKey G1 G2 → ℚ
  | .toss _ _ n, sk => avg fun c => (n c).sees sha pf pp sk
  | .call c n, sk => (n (c.run sha pf pp sk).1).sees sha pf pp (c.run sha pf pp sk).2
  | .stop v, _ => v

/-! ## The ideal signer -/

/-- the exponent of a signature: the one given before for the message, or a uniform one -/
noncomputable def exponent (memo : List (Bytes × Fr)) (msg : Bytes)
    (f : Fr → List (Bytes × Fr) → ℚ) : ℚ :=
  match memo.lookup msg with
  | some r => f r memo
  | none => avg fun r : Fr => f r (memo ++ [(msg, r)])

/-- a call at time `t`; `memo` has the signatures given at this time; `k` goes on with the outcome,
the new time and the new `memo` -/
noncomputable def Call.imagine (sha : Bytes → Bytes) (pp : PubParam G1 G2) (x : Fr) (t : Nat)
    (memo : List (Bytes × Fr))
    (k : Res (Option (Signature G1 G2)) → Nat → List (Bytes × Fr) → ℚ) : Call → ℚ
  | .update tar _ =>
      if t < tar ∧ tar ≤ 2 ^ pp.depth - 1 then k (.ok none) tar [] else k (.err .timeStamp) t memo
  | .sign tar msg _ =>
      if t = tar then exponent memo msg fun r memo' =>
        k (.ok (some (signatureOf pp x t (msgField sha pp.ciphersuite msg) r))) t memo'
      else if t < tar ∧ tar ≤ 2 ^ pp.depth - 1 then exponent [] msg fun r memo' =>
        k (.ok (some (signatureOf pp x tar (msgField sha pp.ciphersuite msg) r))) tar memo'
      else k (.err .timeStamp) t memo
  | .signPresent tar msg =>
      if t = tar then exponent memo msg fun r memo' =>
        k (.ok (some (signatureOf pp x t (msgField sha pp.ciphersuite msg) r))) t memo'
      else k (.err .timeStamp) t memo
  | .signThenUpdate tar msg _ =>
      if t = tar then exponent memo msg fun r memo' =>
        if t < t + 1 ∧ t + 1 ≤ 2 ^ pp.depth - 1 then
          k (.ok (some (signatureOf pp x t (msgField sha pp.ciphersuite msg) r))) (t + 1) []
        else k (.err .timeStamp) t memo'
      else k (.err .timeStamp) t memo

/-- The expected output with the ideal signer. -/
noncomputable def Watcher.imagines (sha : Bytes → Bytes) (pp : PubParam G1 G2) (x : Fr) :
    Watcher G1 G2 → Nat → List (Bytes × Fr) → ℚ
  | .toss _ _ n, t, memo => avg fun c => (n c).imagines sha pp x t memo
  | .call c n, t, memo => c.imagine sha pp x t memo fun o t' memo' => (n o).imagines sha pp x t' memo'
  | .stop v, _, _ => v

/-! ## From key generation on -/

/-- The expected output over a uniform seed of `n` bytes for `keygen`; the watcher is given the public
key and the proof of possession. -/
noncomputable def seesFromSeed (E : Ext G1 G2 GT) (pf : Profile) (pp : PubParam G1 G2) (n : Nat)
    (U : PublicKey G2 → ProofOfPossession G1 → Watcher G1 G2) : ℚ :=
  avg fun s : Seed n =>
    match keygen E s.bytes pp with
    | .ok (pk, sk, pop) => (U pk pop).sees E.sha512 pf pp sk
    | _ => 0

/-- The same with the PRNG in state `p` when key generation draws the master secret. -/
noncomputable def seesFrom (E : Ext G1 G2 GT) (pf : Profile) (pp : PubParam G1 G2)
    (U : PublicKey G2 → ProofOfPossession G1 → Watcher G1 G2) (p : Prng) : ℚ :=
  match Prng.sampleThenUpdate E.sha512 (ascii "key initialization") p with
  | (.ok x, p) =>
    match SecretKey.init E.sha512 pp (mulFr x pp.h) p with
    | .ok sk => (U (publicOf E pp x).1 (publicOf E pp x).2).sees E.sha512 pf pp sk
    | _ => 0
  | _ => 0

/-- The expected output with the ideal signer and a uniform master secret. -/
noncomputable def imaginesAtAll (E : Ext G1 G2 GT) (pp : PubParam G1 G2)
    (U : PublicKey G2 → ProofOfPossession G1 → Watcher G1 G2) : ℚ :=
  avg fun x : Fr => (U (publicOf E pp x).1 (publicOf E pp x).2).imagines E.sha512 pp x 1 []

/-! ## How the watcher is used against HMAC -/

/-- as `User.watch` in `Spec/Panic.lean` -/
def Watcher.watch (sha : Bytes → Bytes) (pp : PubParam G1 G2) (x : Fr) :
    Watcher G1 G2 → Nat → List Fr → PrngPlayer
  | .toss m hm n, t, rho => .toss m hm fun c => (n c).watch sha pp x t rho
  | .call c n, t, rho => c.watch sha pp x t rho fun o t' rho' => (n o).watch sha pp x t' rho'
  | .stop v, _, _ => .stop v

/-- from key generation on -/
def viewGame (E : Ext G1 G2 GT) (pp : PubParam G1 G2)
    (U : PublicKey G2 → ProofOfPossession G1 → Watcher G1 G2) : PrngPlayer :=
  .draw (ascii "key initialization") fun x => .draw (DOM_SEP_SK_INIT ++ [0, 0, 0, 1]) fun r =>
    (U (publicOf E pp x).1 (publicOf E pp x).2).watch E.sha512 pp x 1 [r]

end Pixel.Spec
