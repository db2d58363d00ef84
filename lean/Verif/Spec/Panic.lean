import Verif.Spec.Seed

/-!
# The chance that a call panics

Key update stops with the panic "prng not updated" if its draws lead back to the old state of the
PRNG.  Someone makes keys with `keygen` from a uniform seed, and uses them through the API as they
like; their calls may depend on all that came out.  How likely is it that a call panics?
-/

namespace Pixel.Spec

open Pixel Props

variable {G1 G2 GT : Type} [AddCommGroup G1] [AddCommGroup G2] [CommGroup GT]

/-- Someone who uses a secret key through the API, and sees the outcomes of the calls. -/
inductive User (G1 G2 : Type) where
  | toss (n : Nat) (hn : 0 < n) (next : Fin n → User G1 G2)
  | call (c : Call) (next : Res (Option (Signature G1 G2)) → User G1 G2)
  | done

/-- at most `k` calls are made -/
def User.Calls : User G1 G2 → Nat → Prop
  | .toss _ _ n, k => ∀ c, (n c).Calls k
  | .call _ n, k => 0 < k ∧ ∀ o, (n o).Calls (k - 1)
  | .done, _ => True

/-- The chance that one of the calls panics. -/
noncomputable def User.panics (sha : Bytes → Bytes) (pf : Profile) (pp : PubParam G1 G2) :
    User G1 G2 → SecretKey G1 G2 → ℚ
  | .toss _ _ n, sk => avg fun c => (n c).panics sha pf pp sk
  | .call c n, sk =>
    match c.run sha pf pp sk with
    | (.ok s, sk') => (n (.ok s)).panics sha pf pp sk'
    | (.err e, sk') => (n (.err e)).panics sha pf pp sk'
    | (.panic _, _) => 1
  | .done, _ => 0

/-- The chance that one of the calls panics, over a uniform seed of `n` bytes for `keygen`.  The user is
given the public key and the proof of possession. -/
noncomputable def panicChance (E : Ext G1 G2 GT) (pf : Profile) (pp : PubParam G1 G2) (n : Nat)
    (U : PublicKey G2 → ProofOfPossession G1 → User G1 G2) : ℚ :=
  avg fun s : Seed n =>
    match keygen E s.bytes pp with
    | .ok (pk, sk, pop) => (U pk pop).panics E.sha512 pf pp sk
    | _ => 0

/-- The public key and the proof of possession for the secret `x`. -/
def publicOf (E : Ext G1 G2 GT) (pp : PubParam G1 G2) (x : Fr) : PublicKey G2 × ProofOfPossession G1 :=
  (⟨pp.ciphersuite, x.val • pp.g2⟩, ⟨pp.ciphersuite, x.val • E.hashToG1
    (DOM_SEP_POP ++ E.encG2 true (x.val • pp.g2)) [pp.ciphersuite]⟩)

/-- The chance that one of the calls panics if the PRNG is in state `p` when key generation draws the
master secret. -/
noncomputable def panicFrom (E : Ext G1 G2 GT) (pf : Profile) (pp : PubParam G1 G2)
    (U : PublicKey G2 → ProofOfPossession G1 → User G1 G2) (p : Prng) : ℚ :=
  match Prng.sampleThenUpdate E.sha512 (ascii "key initialization") p with
  | (.ok x, p) =>
    match SecretKey.init E.sha512 pp (mulFr x pp.h) p with
    | .ok sk => (U (publicOf E pp x).1 (publicOf E pp x).2).panics E.sha512 pf pp sk
    | _ => 0
  | _ => 0

/-! ## How the user is used against HMAC

The game is played by someone who knows all secrets but the PRNG, which is used as in `Spec/Prf.lean`.
Before an update they take a sample, and after each draw again: if the state has come back, so does the
sample. -/

/-- `n` draws of an update; the output is 1 if one of the states gives `z` as the first state did -/
def PrngPlayer.watched (z : Fr) : Nat → (List Fr → PrngPlayer) → PrngPlayer
  | 0, k => k []
  | n + 1, k => .draw DOM_SEP_SK_UPDATE fun r => .sample [] fun y =>
      if y = z then .stop 1 else PrngPlayer.watched z n fun l => k (r :: l)

/-- an update from time `t` to time `tar`, if there is one -/
def PrngPlayer.move (d t tar : Nat) (seed : Bytes) (rho : List Fr) (no : PrngPlayer)
    (yes : List Fr → PrngPlayer) : PrngPlayer :=
  if t < tar ∧ tar ≤ 2 ^ d - 1 then
    .sample [] fun z => .mix seed (DOM_SEP_SK_RERANDOMIZE_INFO ++ timeBytes t)
      (.watched z (drawsNeeded d t tar) fun rs => yes (stepExponents d t tar rho rs))
  else no

/-- a signature at time `t` -/
def PrngPlayer.autograph (sha : Bytes → Bytes) (pp : PubParam G1 G2) (x : Fr) (t : Nat) (rho : List Fr)
    (msg : Bytes) (k : Signature G1 G2 → PrngPlayer) : PrngPlayer :=
  .sample (signInfo msg t) fun r =>
    k (signatureOf pp x t (msgField sha pp.ciphersuite msg) (rho.headD 0 + r))

/-- A call on a key for time `t` with the exponents `rho`; `k` goes on with the outcome. -/
def Call.watch (sha : Bytes → Bytes) (pp : PubParam G1 G2) (x : Fr) (t : Nat) (rho : List Fr)
    (k : Res (Option (Signature G1 G2)) → Nat → List Fr → PrngPlayer) : Call → PrngPlayer
  | .update tar seed =>
      .move pp.depth t tar seed rho (k (.err .timeStamp) t rho) fun rho' => k (.ok none) tar rho'
  | .sign tar msg seed =>
      if t = tar then .autograph sha pp x t rho msg fun s => k (.ok (some s)) t rho
      else .move pp.depth t tar seed rho (k (.err .timeStamp) t rho) fun rho' =>
        .autograph sha pp x tar rho' msg fun s => k (.ok (some s)) tar rho'
  | .signPresent tar msg =>
      if t = tar then .autograph sha pp x t rho msg fun s => k (.ok (some s)) t rho
      else k (.err .timeStamp) t rho
  | .signThenUpdate tar msg seed =>
      if t = tar then .autograph sha pp x t rho msg fun s =>
        .move pp.depth t (t + 1) seed rho (k (.err .timeStamp) t rho) fun rho' =>
          k (.ok (some s)) (t + 1) rho'
      else k (.err .timeStamp) t rho

/-- The user at work, watched. -/
def User.watch (sha : Bytes → Bytes) (pp : PubParam G1 G2) (x : Fr) :
    User G1 G2 → Nat → List Fr → PrngPlayer
  | .toss m hm n, t, rho => .toss m hm fun c => (n c).watch sha pp x t rho
  | .call c n, t, rho => c.watch sha pp x t rho fun o t' rho' => (n o).watch sha pp x t' rho'
  | .done, _, _ => .stop 0

/-- From key generation on. -/
def panicGame (E : Ext G1 G2 GT) (pp : PubParam G1 G2)
    (U : PublicKey G2 → ProofOfPossession G1 → User G1 G2) : PrngPlayer :=
  .draw (ascii "key initialization") fun x => .draw (DOM_SEP_SK_INIT ++ [0, 0, 0, 1]) fun r =>
    (U (publicOf E pp x).1 (publicOf E pp x).2).watch E.sha512 pp x 1 [r]

end Pixel.Spec
