import Verif.Spec.Leak
import Verif.Spec.Recover
import Verif.Spec.Single

/-!
# Forging when the generator leaks and one random function serves for SHA-512

The game of `Spec/Single.lean` with the looks and the unseen seeds of `Spec/Leak.lean`: the adversary
evaluates the hash function, directs the signer of the code, looks at the PRNG state of the key, breaks
in, and claims a signature.  The rule for looks is the one of `Spec/Leak.lean`.
-/

namespace Pixel.Spec

open Pixel Props

variable {G1 G2 GT : Type} [AddCommGroup G1] [AddCommGroup G2] [CommGroup GT]

/-- An adversary that evaluates the hash function and looks at the PRNG state. -/
inductive SpillPlayer (G1 G2 : Type) where
  | toss (n : Nat) (hn : 0 < n) (next : Fin n → SpillPlayer G1 G2)
  | eval (m : Bytes) (next : Bytes → SpillPlayer G1 G2)
  | point (next : G1 → SpillPlayer G1 G2)
  | sign (msg : Bytes) (next : Signature G1 G2 → SpillPlayer G1 G2)
  /-- an update with a seed of its choice -/
  | update (tar : Nat) (seed : Bytes) (next : SpillPlayer G1 G2)
  /-- an update with an unseen seed -/
  | refresh (tar : Nat) (next : SpillPlayer G1 G2)
  /-- look at the PRNG state -/
  | look (next : Prng → SpillPlayer G1 G2)
  | breakIn (next : SecretKey G1 G2 → SpillPlayer G1 G2)
  | forge (F : Claim G1 G2)

namespace SpillPlayer

/-- there are fewer than `r - 1` co-signers -/
def Legal : SpillPlayer G1 G2 → Prop
  | .toss _ _ n => ∀ c, (n c).Legal
  | .eval _ n => ∀ b, (n b).Legal
  | .point n => ∀ p, (n p).Legal
  | .sign _ n => ∀ s, (n s).Legal
  | .update _ _ n => n.Legal
  | .refresh _ n => n.Legal
  | .look n => ∀ p, (n p).Legal
  | .breakIn n => ∀ sk, (n sk).Legal
  | .forge F => F.cosigners.length + 1 < rOrder

/-- at most `k` random points are used -/
def Points : SpillPlayer G1 G2 → Nat → Prop
  | .toss _ _ n, k => ∀ c, (n c).Points k
  | .eval _ n, k => ∀ b, (n b).Points k
  | .point n, k => 0 < k ∧ ∀ p, (n p).Points (k - 1)
  | .sign _ n, k => ∀ s, (n s).Points k
  | .update _ _ n, k => n.Points k
  | .refresh _ n, k => n.Points k
  | .look n, k => ∀ p, (n p).Points k
  | .breakIn n, k => ∀ sk, (n sk).Points k
  | .forge _, _ => True

/-- At most `q` evaluations of the hash function, `s` signatures and `u` updates, `c` of them with unseen
seeds; strings that are hashed have at most `B` octets, messages and seeds at most `B - 300`. -/
def Within (B : Nat) : SpillPlayer G1 G2 → Nat → Nat → Nat → Nat → Prop
  | .toss _ _ n, q, s, u, c => ∀ i, (n i).Within B q s u c
  | .eval m n, q, s, u, c => m.length ≤ B ∧ 0 < q ∧ ∀ b, (n b).Within B (q - 1) s u c
  | .point n, q, s, u, c => ∀ p, (n p).Within B q s u c
  | .sign msg n, q, s, u, c => msg.length + 300 ≤ B ∧ 0 < s ∧ ∀ y, (n y).Within B q (s - 1) u c
  | .update _ seed n, q, s, u, c => seed.length + 300 ≤ B ∧ 0 < u ∧ n.Within B q s (u - 1) c
  | .refresh _ n, q, s, u, c => 0 < u ∧ 0 < c ∧ n.Within B q s (u - 1) (c - 1)
  | .look n, q, s, u, c => ∀ p, (n p).Within B q s u c
  | .breakIn n, q, s, u, c => ∀ sk, (n sk).Within B q s u c
  | .forge F, _, _, _, _ => F.msg.length + 300 ≤ B

open Classical in
/-- The chance that the adversary wins, with unseen seeds of `n` octets.  If a call panics the adversary
has lost; a refused update changes nothing. -/
noncomputable def chance [DecidableEq GT] (E : Ext G1 G2 GT) (pf : Profile) (g : G1) (n : Nat) :
    SpillPlayer G1 G2 → LeakSigner G1 G2 → World G1 G2 → ℚ
  | .toss _ _ nx, S, W => avg fun c => (nx c).chance E pf g n S W
  | .eval m nx, S, W => (nx (E.sha512 m)).chance E pf g n S W
  | .point nx, S, W => avg fun r : Fr => (nx (r.val • g)).chance E pf g n S
      { W with answers := W.answers ++ [.point (r.val • g)] }
  | .sign msg nx, S, W =>
      match Signature.signPresent E.sha512 pf S.sk.time W.pp msg S.sk with
      | (.ok s, sk) => (nx s).chance E pf g n { S with sk := sk
                                                       signed := S.signed ++ [(S.sk.time, msg)]
                                                       broken := S.spoiled S.looked
                                                       used := true } W
      | _ => 0
  | .update tar seed nx, S, W =>
      match SecretKey.update E.sha512 pf W.pp tar seed S.sk with
      | (.ok (), sk) => nx.chance E pf g n { S with sk := sk
                                                    broken := S.spoiled S.looked
                                                    used := false } W
      | (.err _, sk) => nx.chance E pf g n { S with sk := sk } W
      | (.panic _, _) => 0
  | .refresh tar nx, S, W => avg fun s : Seed n =>
      match SecretKey.update E.sha512 pf W.pp tar s.bytes S.sk with
      | (.ok (), sk) => nx.chance E pf g n { S with sk := sk
                                                    looked := false
                                                    used := false } W
      | (.err _, sk) => nx.chance E pf g n { S with sk := sk } W
      | (.panic _, _) => 0
  | .look nx, S, W => (nx S.sk.prng).chance E pf g n { S with broken := S.spoiled S.used
                                                              looked := true } W
  | .breakIn nx, S, W => (nx S.sk).chance E pf g n { S with broken := S.spoiled true } W
  | .forge F, S, W => if F.Accepted E pf W ∧ F.Counts ⟨S.sk, S.signed, S.broken⟩ then 1 else 0

end SpillPlayer

/-- The chance that the adversary wins, over the parameters, the point `q` and the seed of `k` octets,
with the hash function of `E`. -/
noncomputable def spillForgeChance [DecidableEq GT] (E : Ext G1 G2 GT) (pf : Profile) (g : G1)
    (d : Nat) (cs : UInt8) (k n : Nat) (A : World G1 G2 → SpillPlayer G1 G2) : ℚ :=
  avg fun a : Secret d 0 → Fr => avg fun s : Seed k =>
    match keygen { E with hashToG1 := fun _ _ => (a .q).val • g } s.bytes (gameParam E g cs a) with
    | .ok (pk, sk, pop) =>
      (A ⟨gameParam E g cs a, pk, (a .q).val • g, pop.pop, []⟩).chance E pf g n
        ⟨sk, [], [], false, false⟩ ⟨gameParam E g cs a, pk, (a .q).val • g, pop.pop, []⟩
    | _ => 0

/-- The chance over the hash function as well. -/
noncomputable def randomSpillChance [DecidableEq GT] (E : Ext G1 G2 GT) (pf : Profile) (g : G1)
    (d : Nat) (cs : UInt8) (k n B : Nat) (A : World G1 G2 → SpillPlayer G1 G2) : ℚ :=
  avg fun ω : HashFun B => spillForgeChance (withHash E ω.sha) pf g d cs k n A

/-! ## How the adversary is used in the game without leaks

For a bet on `t0`: up to `t0` the first look since the last unseen seed is answered by a toss.  When the
signer has passed `t0`, looks are break-ins, and unseen seeds are tosses. -/

namespace SpillPlayer

/-- after `t0` -/
def freed (n : Nat) : SpillPlayer G1 G2 → HashPlayer G1 G2
  | .toss m hm nx => .toss m hm fun c => (nx c).freed n
  | .eval m nx => .eval m fun b => (nx b).freed n
  | .point nx => .point fun p => (nx p).freed n
  | .sign msg nx => .sign msg fun s => (nx s).freed n
  | .update tar seed nx => .update tar seed (nx.freed n)
  | .refresh tar nx => .toss (256 ^ n) (Nat.pow_pos (by decide)) fun s =>
      .update tar (Seed.bytes s) (nx.freed n)
  | .look nx => .breakIn fun sk => (nx sk.prng).freed n
  | .breakIn nx => .breakIn fun sk => (nx sk).freed n
  | .forge F => .forge F

/-- up to time `t0`; `seen` is the PRNG state, if the adversary has looked at it -/
def shield (n : Nat) (pp : PubParam G1 G2) (t0 : Nat) :
    SpillPlayer G1 G2 → (time : Nat) → (seen : Option Prng) → (used : Bool) → HashPlayer G1 G2
  | .toss m hm nx, t, se, us => .toss m hm fun c => (nx c).shield n pp t0 t se us
  | .eval m nx, t, se, us => .eval m fun b => (nx b).shield n pp t0 t se us
  | .point nx, t, se, us => .point fun p => (nx p).shield n pp t0 t se us
  | .sign msg nx, t, se, _ =>
      if se.isSome then .forge .none
      else .sign msg fun s => (nx s).shield n pp t0 t se true
  | .update tar seed nx, t, se, us =>
      if t < tar ∧ tar ≤ 2 ^ pp.depth - 1 then
        if se.isSome then .forge .none
        else .update tar seed (if tar ≤ t0 then nx.shield n pp t0 tar se false else nx.freed n)
      else .update tar seed (nx.shield n pp t0 t se us)
  | .refresh tar nx, t, se, us =>
      if t < tar ∧ tar ≤ 2 ^ pp.depth - 1 then
        .update tar [] (if tar ≤ t0 then nx.shield n pp t0 tar none false else nx.freed n)
      else .update tar [] (nx.shield n pp t0 t se us)
  | .look nx, t, se, us =>
      if us then .forge .none
      else match se with
        | some p => (nx p).shield n pp t0 t (some p) us
        | none => .toss (256 ^ 64) digests_pos fun K =>
            (nx ⟨Digest.bytes K⟩).shield n pp t0 t (some ⟨Digest.bytes K⟩) us
  | .breakIn _, _, _, _ => .forge .none
  | .forge F, _, _, _ => .forge F

end SpillPlayer

/-- The adversary of the game of `Spec/Single.lean` that bets on time `t0`. -/
def spillShield (n t0 : Nat) (A : World G1 G2 → SpillPlayer G1 G2) (W : World G1 G2) :
    HashPlayer G1 G2 :=
  (A W).shield n W.pp t0 1 none false

end Pixel.Spec
