import Verif.Spec.Random
import Verif.Spec.Seed

/-!
# Forging when one random function serves for SHA-512 everywhere

The game of `Spec/Seed.lean`, with the hash function in the open: messages are hashed and scalars are
drawn with the same function, by the signer and by the verifier, and the adversary evaluates it where it
likes.  Nothing of the code is replaced by something ideal but the hash function itself, and hash-to-curve
(which does not use SHA-512).
-/

namespace Pixel.Spec

open Pixel Props

variable {G1 G2 GT : Type} [AddCommGroup G1] [AddCommGroup G2] [CommGroup GT]

/-- An adversary that evaluates the hash function. -/
inductive HashPlayer (G1 G2 : Type) where
  | toss (n : Nat) (hn : 0 < n) (next : Fin n → HashPlayer G1 G2)
  | eval (m : Bytes) (next : Bytes → HashPlayer G1 G2)
  | point (next : G1 → HashPlayer G1 G2)
  | sign (msg : Bytes) (next : Signature G1 G2 → HashPlayer G1 G2)
  | update (tar : Nat) (seed : Bytes) (next : HashPlayer G1 G2)
  | breakIn (next : SecretKey G1 G2 → HashPlayer G1 G2)
  | forge (F : Claim G1 G2)

/-- there are fewer than `r - 1` co-signers -/
def HashPlayer.Legal : HashPlayer G1 G2 → Prop
  | .toss _ _ n => ∀ c, (n c).Legal
  | .eval _ n => ∀ b, (n b).Legal
  | .point n => ∀ p, (n p).Legal
  | .sign _ n => ∀ s, (n s).Legal
  | .update _ _ n => n.Legal
  | .breakIn n => ∀ sk, (n sk).Legal
  | .forge F => F.cosigners.length + 1 < rOrder

/-- at most `k` random points are used -/
def HashPlayer.Points : HashPlayer G1 G2 → Nat → Prop
  | .toss _ _ n, k => ∀ c, (n c).Points k
  | .eval _ n, k => ∀ b, (n b).Points k
  | .point n, k => 0 < k ∧ ∀ p, (n p).Points (k - 1)
  | .sign _ n, k => ∀ s, (n s).Points k
  | .update _ _ n, k => n.Points k
  | .breakIn n, k => ∀ sk, (n sk).Points k
  | .forge _, _ => True

/-- At most `q` evaluations of the hash function, `s` signatures and `u` updates; strings that are
hashed have at most `B` octets, messages and seeds at most `B - 300`. -/
def HashPlayer.Within (B : Nat) : HashPlayer G1 G2 → Nat → Nat → Nat → Prop
  | .toss _ _ n, q, s, u => ∀ c, (n c).Within B q s u
  | .eval m n, q, s, u => m.length ≤ B ∧ 0 < q ∧ ∀ b, (n b).Within B (q - 1) s u
  | .point n, q, s, u => ∀ p, (n p).Within B q s u
  | .sign msg n, q, s, u => msg.length + 300 ≤ B ∧ 0 < s ∧ ∀ y, (n y).Within B q (s - 1) u
  | .update _ seed n, q, s, u => seed.length + 300 ≤ B ∧ 0 < u ∧ n.Within B q s (u - 1)
  | .breakIn n, q, s, u => ∀ sk, (n sk).Within B q s u
  | .forge F, _, _, _ => F.msg.length + 300 ≤ B

open Classical in
/-- The chance that the adversary wins.  If a call panics the adversary has lost; a refused update
changes nothing. -/
noncomputable def HashPlayer.chance [DecidableEq GT] (E : Ext G1 G2 GT) (pf : Profile) (g : G1) :
    HashPlayer G1 G2 → CodeSigner G1 G2 → World G1 G2 → ℚ
  | .toss _ _ n, S, W => avg fun c => (n c).chance E pf g S W
  | .eval m n, S, W => (n (E.sha512 m)).chance E pf g S W
  | .point n, S, W => avg fun r : Fr => (n (r.val • g)).chance E pf g S
      { W with answers := W.answers ++ [.point (r.val • g)] }
  | .sign msg n, S, W =>
      match Signature.signPresent E.sha512 pf S.sk.time W.pp msg S.sk with
      | (.ok s, sk) => (n s).chance E pf g
          { S with sk := sk, signed := S.signed ++ [(S.sk.time, msg)] } W
      | _ => 0
  | .update tar seed n, S, W =>
      match SecretKey.update E.sha512 pf W.pp tar seed S.sk with
      | (.ok (), sk) => n.chance E pf g { S with sk := sk } W
      | (.err _, sk) => n.chance E pf g { S with sk := sk } W
      | (.panic _, _) => 0
  | .breakIn n, S, W => (n S.sk).chance E pf g { S with broken := S.broken ++ [S.sk.time] } W
  | .forge F, S, W => if F.Accepted E pf W ∧ F.Counts S then 1 else 0

/-- The chance that the adversary wins, over the parameters, the point `q` and the seed, with the hash
function of `E`. -/
noncomputable def hashForgeChance [DecidableEq GT] (E : Ext G1 G2 GT) (pf : Profile) (g : G1)
    (d : Nat) (cs : UInt8) (n : Nat) (A : World G1 G2 → HashPlayer G1 G2) : ℚ :=
  avg fun a : Secret d 0 → Fr => avg fun s : Seed n =>
    match keygen { E with hashToG1 := fun _ _ => (a .q).val • g } s.bytes (gameParam E g cs a) with
    | .ok (pk, sk, pop) =>
      (A ⟨gameParam E g cs a, pk, (a .q).val • g, pop.pop, []⟩).chance E pf g ⟨sk, [], []⟩
        ⟨gameParam E g cs a, pk, (a .q).val • g, pop.pop, []⟩
    | _ => 0

/-- The chance over the hash function as well. -/
noncomputable def randomForgeChance [DecidableEq GT] (E : Ext G1 G2 GT) (pf : Profile) (g : G1)
    (d : Nat) (cs : UInt8) (n B : Nat) (A : World G1 G2 → HashPlayer G1 G2) : ℚ :=
  avg fun ω : HashFun B => hashForgeChance (withHash E ω.sha) pf g d cs n A

/-! ## How the adversary is used against the signer with uniform scalars -/

/-- the beginning of the strings that are hashed for messages -/
def msgTag (cs : UInt8) : Bytes := text "Pixel hash to message" ++ [cs]

/-- the message that the string is hashed for -/
def msgOf (cs : UInt8) (m : Bytes) : Option Bytes :=
  if msgTag cs <+: m then some (m.drop (msgTag cs).length) else none

/-- What is left of an adversary that runs the signer itself. -/
inductive HashTail (G1 G2 : Type) where
  | toss (n : Nat) (hn : 0 < n) (next : Fin n → HashTail G1 G2)
  | eval (m : Bytes) (next : Bytes → HashTail G1 G2)
  | point (next : G1 → HashTail G1 G2)
  | forge (F : Claim G1 G2)

/-- HMAC with a key of at most 128 octets, by evaluations of the hash function -/
def HashTail.mac (K m : Bytes) (k : Bytes → HashTail G1 G2) : HashTail G1 G2 :=
  .eval (keyPad 0x36 K ++ m) fun e => .eval (keyPad 0x5c K ++ e) k

/-- a seed is mixed into the state `K` -/
def HashTail.mix (K seed info : Bytes) (k : Bytes → HashTail G1 G2) : HashTail G1 G2 :=
  .mac K (info ++ [1]) fun t1 => .mac K (t1 ++ info ++ [2]) fun t2 => .mac t2 (t1 ++ seed) k

/-- `n` draws for an update from the state `K` -/
def HashTail.draws : Nat → Bytes → (List Fr → Bytes → HashTail G1 G2) → HashTail G1 G2
  | 0, K, k => k [] K
  | n + 1, K, k => .mac K (DOM_SEP_SK_UPDATE ++ [1]) fun t1 =>
      .mac K (t1 ++ DOM_SEP_SK_UPDATE ++ [2]) fun t2 =>
        HashTail.draws n t2 fun l K' => k ((natOfBytes t1 : Fr) :: l) K'

/-- The signer is run by evaluations of the hash function, with the sub keys `keys` for time `t` and
the state `K`. -/
def HashPlayer.tail (pf : Profile) (pp : PubParam G1 G2) : HashPlayer G1 G2 → Nat →
    List (SubSecretKey G1 G2) → Bytes → HashTail G1 G2
  | .toss m hm n, t, keys, K => .toss m hm fun c => (n c).tail pf pp t keys K
  | .eval m n, t, keys, K => .eval m fun b => (n b).tail pf pp t keys K
  | .point n, t, keys, K => .point fun p => (n p).tail pf pp t keys K
  | .sign msg n, t, keys, K => .eval (msgTag pp.ciphersuite ++ msg) fun b =>
      .mac K (signInfo msg t ++ [1]) fun y =>
        (n (signWith pf pp t keys (natOfBytes b) (natOfBytes y))).tail pf pp t keys K
  | .update tar seed n, t, keys, K =>
      if t < tar ∧ tar ≤ 2 ^ pp.depth - 1 then
        .mix K seed (DOM_SEP_SK_RERANDOMIZE_INFO ++ timeBytes t) fun K' =>
          .draws (drawsNeeded pp.depth t tar) K' fun rs K'' =>
            n.tail pf pp tar (stepKeys pf pp t tar keys rs) K''
      else n.tail pf pp t keys K
  | .breakIn n, t, keys, K =>
      (n { ciphersuite := pp.ciphersuite, time := t, ssk := keys, prng := ⟨K⟩ }).tail pf pp t keys K
  | .forge F, _, _, _ => .forge F

/-- An evaluation of the hash function: it is the oracle's for strings that belong to messages, and
tosses for the others, which are kept in a table. -/
def ApiPlayer.evaluate (cs : UInt8) (rest : Table) (m : Bytes) (k : Bytes → Table → ApiPlayer G1 G2) :
    ApiPlayer G1 G2 :=
  match msgOf cs m with
  | some msg => .hash msg fun b => k b rest
  | none => match rest.lookup m with
    | some D => k D.bytes rest
    | none => .toss (256 ^ 64) digests_pos fun D => k (Digest.bytes D) (rest ++ [(m, D)])

/-- After time `t0`. -/
def HashTail.lift (cs : UInt8) (t0 : Nat) : HashTail G1 G2 → Table → ApiPlayer G1 G2
  | .toss m hm n, rest => .toss m hm fun c => (n c).lift cs t0 rest
  | .eval m n, rest => .evaluate cs rest m fun b rest' => (n b).lift cs t0 rest'
  | .point n, rest => .point fun p => (n p).lift cs t0 rest
  | .forge F, _ => if F.time = t0 then .forge F else .forge .none

/-- Up to time `t0`: signatures are asked for, once for each message at each time.  When `t0` is
passed, there is a break-in, and the PRNG state is a toss. -/
def HashPlayer.lift (pf : Profile) (pp : PubParam G1 G2) (t0 : Nat) :
    HashPlayer G1 G2 → Nat → List (Bytes × Signature G1 G2) → Table → ApiPlayer G1 G2
  | .toss m hm n, t, memo, rest => .toss m hm fun c => (n c).lift pf pp t0 t memo rest
  | .eval m n, t, memo, rest => .evaluate pp.ciphersuite rest m fun b rest' =>
      (n b).lift pf pp t0 t memo rest'
  | .point n, t, memo, rest => .point fun p => (n p).lift pf pp t0 t memo rest
  | .sign msg n, t, memo, rest => match memo.lookup msg with
      | some s => (n s).lift pf pp t0 t memo rest
      | none => .sign msg fun s => (n s).lift pf pp t0 t (memo ++ [(msg, s)]) rest
  | .update tar _ n, t, memo, rest =>
      if t < tar ∧ tar ≤ 2 ^ pp.depth - 1 then
        .update tar (if tar ≤ t0 then n.lift pf pp t0 tar [] rest
          else .breakIn fun keys _ => .toss (256 ^ 64) digests_pos fun K =>
            (n.tail pf pp tar keys (Digest.bytes K)).lift pp.ciphersuite t0 rest)
      else n.lift pf pp t0 t memo rest
  | .breakIn _, _, _, _ => .forge .none
  | .forge F, _, _, _ => if F.time = t0 then .forge F else .forge .none

/-- The adversary of the game of `Spec/Api.lean` that bets on time `t0`.  (The depth is `d` in the
game.) -/
def hashLift (pf : Profile) (d t0 : Nat) (A : World G1 G2 → HashPlayer G1 G2) (W : World G1 G2) :
    ApiPlayer G1 G2 :=
  if W.pp.depth = d then (A W).lift pf W.pp t0 1 [] [] else .forge .none

end Pixel.Spec
