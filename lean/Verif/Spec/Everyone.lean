import Verif.Spec.Single
import Verif.Spec.Crowd

/-!
# Many honest signers when one random function serves for SHA-512 everywhere

The game of `Spec/Crowd.lean` (many signers, claims are octets), with the hash function in the open as in
`Spec/Single.lean`: all signers, the verifier and the adversary evaluate the same function.  Hash-to-curve
is a random oracle of its own.
-/

namespace Pixel.Spec

open Pixel Props

variable {G1 G2 GT : Type} [AddCommGroup G1] [AddCommGroup G2] [CommGroup GT] {N : Nat}

/-- An adversary. -/
inductive HashCrowd (G1 G2 : Type) (N : Nat) where
  | toss (n : Nat) (hn : 0 < n) (next : Fin n → HashCrowd G1 G2 N)
  | eval (m : Bytes) (next : Bytes → HashCrowd G1 G2 N)
  | curve (input : Bytes × Bytes) (next : G1 → HashCrowd G1 G2 N)
  | sign (j : Fin N) (msg : Bytes) (next : Signature G1 G2 → HashCrowd G1 G2 N)
  | update (j : Fin N) (tar : Nat) (seed : Bytes) (next : HashCrowd G1 G2 N)
  | breakIn (j : Fin N) (next : SecretKey G1 G2 → HashCrowd G1 G2 N)
  | forge (F : ByteClaim)

/-- there are fewer than `r` signers in the claim -/
def HashCrowd.Legal : HashCrowd G1 G2 N → Prop
  | .toss _ _ n => ∀ c, (n c).Legal
  | .eval _ n => ∀ b, (n b).Legal
  | .curve _ n => ∀ p, (n p).Legal
  | .sign _ _ n => ∀ s, (n s).Legal
  | .update _ _ _ n => n.Legal
  | .breakIn _ n => ∀ sk, (n sk).Legal
  | .forge F => F.signers.length < rOrder

/-- at most `k` inputs are hashed to the curve: for the adversary, or to check the claim -/
def HashCrowd.Points : HashCrowd G1 G2 N → Nat → Prop
  | .toss _ _ n, k => ∀ c, (n c).Points k
  | .eval _ n, k => ∀ b, (n b).Points k
  | .curve _ n, k => 0 < k ∧ ∀ p, (n p).Points (k - 1)
  | .sign _ _ n, k => ∀ s, (n s).Points k
  | .update _ _ _ n, k => n.Points k
  | .breakIn _ n, k => ∀ sk, (n sk).Points k
  | .forge F, k => F.signers.length ≤ k

/-- At most `q` evaluations of the hash function, `s` signatures and `u` updates, of all signers
together; strings that are hashed have at most `B` octets, messages and seeds at most `B - 300`. -/
def HashCrowd.Within (B : Nat) : HashCrowd G1 G2 N → Nat → Nat → Nat → Prop
  | .toss _ _ n, q, s, u => ∀ c, (n c).Within B q s u
  | .eval m n, q, s, u => m.length ≤ B ∧ 0 < q ∧ ∀ b, (n b).Within B (q - 1) s u
  | .curve _ n, q, s, u => ∀ p, (n p).Within B q s u
  | .sign _ msg n, q, s, u => msg.length + 300 ≤ B ∧ 0 < s ∧ ∀ y, (n y).Within B q (s - 1) u
  | .update _ _ seed n, q, s, u => seed.length + 300 ≤ B ∧ 0 < u ∧ n.Within B q s (u - 1)
  | .breakIn _ n, q, s, u => ∀ sk, (n sk).Within B q s u
  | .forge F, _, _, _ => F.msg.length + 300 ≤ B

open Classical in
/-- The chance that the adversary wins against one of the signers in `who`.  If a call panics the
adversary has lost; a refused update changes nothing. -/
noncomputable def HashCrowd.chance [DecidableEq GT] (E : Ext G1 G2 GT) (pf : Profile) (g : G1)
    (pp : PubParam G1 G2) (pk : Fin N → PublicKey G2) (who : Fin N → Prop) :
    HashCrowd G1 G2 N → (Fin N → CodeSigner G1 G2) → Curve G1 → ℚ
  | .toss _ _ n, S, pts => avg fun c => (n c).chance E pf g pp pk who S pts
  | .eval m n, S, pts => (n (E.sha512 m)).chance E pf g pp pk who S pts
  | .curve i n, S, pts => curveOracle g pts i fun p pts' =>
      (n p).chance E pf g pp pk who S pts'
  | .sign j msg n, S, pts =>
      match Signature.signPresent E.sha512 pf (S j).sk.time pp msg (S j).sk with
      | (.ok s, sk) => (n s).chance E pf g pp pk who (Function.update S j
          { S j with sk := sk, signed := (S j).signed ++ [((S j).sk.time, msg)] }) pts
      | _ => 0
  | .update j tar seed n, S, pts =>
      match SecretKey.update E.sha512 pf pp tar seed (S j).sk with
      | (.ok (), sk) => n.chance E pf g pp pk who (Function.update S j { S j with sk := sk }) pts
      | (.err _, sk) => n.chance E pf g pp pk who (Function.update S j { S j with sk := sk }) pts
      | (.panic _, _) => 0
  | .breakIn j n, S, pts =>
      (n (S j).sk).chance E pf g pp pk who (Function.update S j
        { S j with broken := (S j).broken ++ [(S j).sk.time] }) pts
  | .forge F, S, pts => curveOracles g (F.inputs E) pts fun pts' =>
      if ∃ i, who i ∧ F.Wins { E with hashToG1 := pts'.hash } pf pp (pk i) (S i) then 1 else 0

open Classical in
/-- The chance that the adversary wins against one of the signers in `who`, over the parameters, the
seeds and hash-to-curve, with the hash function of `E`. -/
noncomputable def hashCrowdChance [DecidableEq GT] (E : Ext G1 G2 GT) (pf : Profile) (g : G1)
    (d : Nat) (cs : UInt8) (n N : Nat) (who : Fin N → Prop)
    (A : PubParam G1 G2 → (Fin N → PublicKey G2) → (Fin N → ProofOfPossession G1) →
      HashCrowd G1 G2 N) : ℚ :=
  avg fun a : Secret d 0 → Fr => avg fun s : Fin N → Seed n =>
    if ∀ i, ∃ b, keygen E (s i).bytes (gameParam E g cs a) = .ok b then
      curveOracles g (List.ofFn fun i => popInput E (born E (gameParam E g cs a) (s i).bytes).1) []
        fun pts =>
          let b := fun i => born { E with hashToG1 := pts.hash } (gameParam E g cs a) (s i).bytes
          (A (gameParam E g cs a) (fun i => (b i).1) (fun i => (b i).2.2)).chance E pf g
            (gameParam E g cs a) (fun i => (b i).1) who (fun i => ⟨(b i).2.1, [], []⟩) pts
    else 0

/-- The chance that the adversary wins against any signer, over the hash function as well. -/
noncomputable def everyoneForgeChance [DecidableEq GT] (E : Ext G1 G2 GT) (pf : Profile) (g : G1)
    (d : Nat) (cs : UInt8) (n B N : Nat)
    (A : PubParam G1 G2 → (Fin N → PublicKey G2) → (Fin N → ProofOfPossession G1) →
      HashCrowd G1 G2 N) : ℚ :=
  avg fun ω : HashFun B => hashCrowdChance (withHash E ω.sha) pf g d cs n N (fun _ => True) A

/-! ## How the adversary is used: the other signers are played by evaluations of the hash function -/

/-- a computation that evaluates the hash function -/
inductive Hashing (α : Type) where
  | done (a : α)
  | eval (m : Bytes) (next : Bytes → Hashing α)

/-- one computation after the other -/
def Hashing.andThen {α β : Type} : Hashing α → (α → Hashing β) → Hashing β
  | .done a, f => f a
  | .eval m n, f => .eval m fun b => (n b).andThen f

/-- HMAC with a key of at most 64 octets -/
def Hashing.mac (K m : Bytes) : Hashing Bytes :=
  .eval (keyPad 0x36 (K.take 64) ++ m) fun e => .eval (keyPad 0x5c (K.take 64) ++ e) .done

/-- a seed is mixed into the state `K` -/
def Hashing.mix (K seed info : Bytes) : Hashing Bytes :=
  (mac K (info ++ [1])).andThen fun t1 => (mac K (t1 ++ info ++ [2])).andThen fun t2 =>
    mac t2 (t1 ++ seed)

/-- a scalar is drawn from the state `K`; the next state -/
def Hashing.draw (K info : Bytes) : Hashing (Fr × Bytes) :=
  (mac K (info ++ [1])).andThen fun t1 => (mac K (t1 ++ info ++ [2])).andThen fun t2 =>
    .done ((natOfBytes t1 : Fr), t2)

/-- `n` draws for an update -/
def Hashing.draws : Nat → Bytes → Hashing (List Fr × Bytes)
  | 0, K => .done ([], K)
  | n + 1, K => (draw K (text "Pixel secret key update")).andThen fun r =>
      (draws n r.2).andThen fun l => .done (r.1 :: l.1, l.2)

/-- `keygen`: the master secret and the secret key -/
def Hashing.keys (pp : PubParam G1 G2) (seed : Bytes) : Hashing (Fr × SecretKey G1 G2) :=
  (mac (text "Pixel master key" ++ [pp.ciphersuite]) seed).andThen fun K =>
    (draw K (text "key initialization")).andThen fun x =>
      (draw x.2 (DOM_SEP_SK_INIT ++ [0, 0, 0, 1])).andThen fun r =>
        .done (x.1, { ciphersuite := pp.ciphersuite, time := 1, ssk := keysOf pp x.1 1 [r.1]
                      prng := ⟨r.2⟩ })

/-- a signature for the time of the key -/
def Hashing.sign (pf : Profile) (pp : PubParam G1 G2) (sk : SecretKey G1 G2) (msg : Bytes) :
    Hashing (Signature G1 G2) :=
  .eval (msgTag pp.ciphersuite ++ msg) fun b =>
    (mac sk.prng.seed (signInfo msg sk.time ++ [1])).andThen fun y =>
      .done (signWith pf pp sk.time sk.ssk (natOfBytes b) (natOfBytes y))

/-- an update -/
def Hashing.update (pf : Profile) (pp : PubParam G1 G2) (tar : Nat) (seed : Bytes)
    (sk : SecretKey G1 G2) : Hashing (SecretKey G1 G2) :=
  if sk.time < tar ∧ tar ≤ 2 ^ pp.depth - 1 then
    (mix sk.prng.seed seed (DOM_SEP_SK_RERANDOMIZE_INFO ++ timeBytes sk.time)).andThen fun K =>
      (draws (drawsNeeded pp.depth sk.time tar) K).andThen fun r =>
        .done { sk with time := tar, ssk := stepKeys pf pp sk.time tar sk.ssk r.1, prng := ⟨r.2⟩ }
  else .done sk

/-- several computations -/
def Hashing.all {α : Type} : {m : Nat} → (Fin m → Hashing α) → Hashing (Fin m → α)
  | 0, _ => .done finZeroElim
  | _ + 1, f => (f 0).andThen fun a => (all fun i => f i.succ).andThen fun l => .done (Fin.cons a l)

/-- an adversary that makes a computation -/
def HashPlayer.runs {α : Type} : Hashing α → (α → HashPlayer G1 G2) → HashPlayer G1 G2
  | .done a, f => f a
  | .eval m n, f => .eval m fun b => HashPlayer.runs (n (b.take 64)) f

/-- ask for the points of several inputs -/
def HashPlayer.points : List (Bytes × Bytes) → Curve G1 → (Curve G1 → HashPlayer G1 G2) →
    HashPlayer G1 G2
  | [], pts, f => f pts
  | i :: is, pts, f => match pts.lookup i with
    | some _ => HashPlayer.points is pts f
    | none => .point fun p => HashPlayer.points is (pts ++ [(i, p)]) f

/-- The adversary against signer `i` alone, whose key is `pk`: it plays the other signers itself, with
the secret keys `sk` (the entry for `i` is not used), and answers for hash-to-curve with its points. -/
noncomputable def HashCrowd.one (E : Ext G1 G2 GT) (pf : Profile) (pp : PubParam G1 G2)
    (pk : PublicKey G2) (i : Fin N) :
    HashCrowd G1 G2 N → (Fin N → SecretKey G1 G2) → Curve G1 → HashPlayer G1 G2
  | .toss m hm n, sk, pts => .toss m hm fun c => (n c).one E pf pp pk i sk pts
  | .eval m n, sk, pts => .eval m fun b => (n b).one E pf pp pk i sk pts
  | .curve q n, sk, pts => match pts.lookup q with
    | some p => (n p).one E pf pp pk i sk pts
    | none => .point fun p => (n p).one E pf pp pk i sk (pts ++ [(q, p)])
  | .sign j msg n, sk, pts =>
      if j = i then .sign msg fun s => (n s).one E pf pp pk i sk pts
      else .runs (.sign pf pp (sk j) msg) fun s => (n s).one E pf pp pk i sk pts
  | .update j tar seed n, sk, pts =>
      if j = i then .update tar seed (n.one E pf pp pk i sk pts)
      else .runs (.update pf pp tar seed (sk j)) fun k =>
        n.one E pf pp pk i (Function.update sk j k) pts
  | .breakIn j n, sk, pts =>
      if j = i then .breakIn fun s => (n s).one E pf pp pk i sk pts
      else (n (sk j)).one E pf pp pk i sk pts
  | .forge F, _, pts => .points (F.inputs E) pts fun pts' => .forge (F.lower E pk pts')

/-- The adversary of the game of `Spec/Single.lean` whose honest signer is signer `i`: it draws the
seeds of the other signers and calls `keygen`.  (The depth is `d` in the game.) -/
noncomputable def hashOne (E : Ext G1 G2 GT) (pf : Profile) (d n : Nat) (i : Fin N)
    (A : PubParam G1 G2 → (Fin N → PublicKey G2) → (Fin N → ProofOfPossession G1) →
      HashCrowd G1 G2 N) (W : World G1 G2) : HashPlayer G1 G2 :=
  if W.pp.depth = d then
    .toss ((256 ^ n) ^ N) (seeds_pos n N) fun c =>
      let s : Fin N → Seed n := finFunctionFinEquiv.symm c
      .runs (.all fun j => .keys W.pp (s j).bytes) fun k =>
        let pks : Fin N → PublicKey G2 :=
          Function.update (fun j => ⟨W.pp.ciphersuite, (k j).1.val • E.gen2⟩) i W.pk
        .points (List.ofFn fun j => popInput E (pks j)) [(popInput E W.pk, W.q)] fun pts =>
          (A W.pp pks (Function.update (fun j => ⟨W.pp.ciphersuite, (k j).1.val •
            pts.hash (popInput E (pks j)).1 (popInput E (pks j)).2⟩) i
              ⟨W.pp.ciphersuite, W.pop⟩)).one E pf W.pp W.pk i (fun j => (k j).2) pts
  else .forge .none

end Pixel.Spec
