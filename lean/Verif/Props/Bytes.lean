import Verif.Proof.Bytes
import Verif.Props.Seed

/-!
# Property C82: the game on bytes

Vocabulary: `Verif/Spec/Bytes.lean`.
-/

namespace Pixel.Props

open Pixel Pixel.Spec

set_option linter.unusedSectionVars false

variable {G1 G2 GT : Type} [AddCommGroup G1] [AddCommGroup G2] [CommGroup GT]

/-! ## C82 -/

/-- C82: an adversary that hands over bytes to a verifier, who reads them, checks the proofs of
possession and verifies the signature, wins no more often than an explicit adversary wins the game
of C81. -/
theorem C82_on_bytes [DecidableEq GT] {E : Ext G1 G2 GT} (H : HashLaws E) (L : GroupLaws E)
    (C : CodecLaws E) (pf : Profile) {g : G1} (hsub : E.inSub1 g = true) {d : Nat} (hd : 1 ≤ d)
    (hd' : d ≤ 63) (cs : UInt8) (n : Nat)
    (A : PubParam G1 G2 → PublicKey G2 → ProofOfPossession G1 → BytePlayer G1 G2) :
    byteForgeChance E pf g d cs n A ≤ seedForgeChance E pf g d cs n (byteLower E A) :=
  byteForgeChance_le H L C pf hsub hd hd' cs n A

/-- C82: the library is forward secure.  `keygen` is called on a uniform seed, the adversary directs
the signer, breaks in, asks the hash functions, and hands over a serialised signature and the
serialised keys and proofs of all signers.  If the problem of C75, HMAC and HKDF-extract are hard for
the explicit algorithms that use the adversary, up to `ε`, `ε'` and `δ`, the chance that the verifier
accepts, for a time before the first break-in and a message that was not signed, is at most the bound
of C80 plus `δ`. -/
theorem C82_hard_then_secure [DecidableEq GT] {E : Ext G1 G2 GT} (H : HashLaws E) (L : GroupLaws E)
    (C : CodecLaws E) (pf : Profile) {g : G1} (hsub : E.inSub1 g = true) {d : Nat} (hd : 1 ≤ d)
    (hd' : d ≤ 63) {cs : UInt8} (hsup : Supported cs) {n : Nat} (hn : 32 ≤ n)
    (A : PubParam G1 G2 → PublicKey G2 → ProofOfPossession G1 → BytePlayer G1 G2)
    (hA : ∀ pp pk pop, (A pp pk pop).Legal) {m : Nat} (hm : ∀ pp pk pop, (A pp pk pop).Points m)
    {Q : Nat} (hQ : ∀ pp pk pop, (A pp pk pop).Hashes Q) {u : Nat}
    (hu : ∀ pp pk pop, (A pp pk pop).Updates u) {k : Nat}
    (hk : ∀ pp pk pop, (A pp pk pop).Scalars d k) {ε ε' δ : ℚ}
    (hε : ∀ t i, ValidTime d t → i < Q → solveChance E g d (roReduction E cs d (path d t) i
      (apiBet pf d t (codeLift E.sha512 pf t (byteLower E A)))) ≤ ε)
    (hε' : ∀ t j, ValidTime d t → j < u * (d + 2) + 3 →
      prfGain E.sha512 (prfAttack E.sha512 (codeGame E pf g d cs (byteLower E A) t) j) ≤ ε')
    (hδ : extractGain E.sha512 (text "Pixel master key" ++ [cs]) n
      (startChance E pf g d cs (byteLower E A)) ≤ δ) :
    byteForgeChance E pf g d cs n A ≤
      (2 ^ d - 1) * (Q * (ε + ((m + 1) / rOrder + Q / 2 ^ 254)) + (u * (d + 2) + 3) * ε' +
        (k + 2) * (1 / 2 ^ 257)) + δ :=
  (C82_on_bytes H L C pf hsub hd hd' cs n A).trans
    (C81_hard_then_secure H L pf hsub hd hd' hsup (byteLower E A) hn
      (fun _ => lower_legal E _ _ _ (hA _ _ _)) (fun _ => lower_points E _ _ _ (hm _ _ _))
      (fun _ => lower_hashes E _ _ _ (hQ _ _ _)) (fun _ => lower_updates E _ _ _ (hu _ _ _))
      (fun _ => lower_scalars E _ _ _ (hk _ _ _)) hε hε' hδ)

/-- the adversary that lets the signer go on to time `tar`, breaks in, and hands over a signature for
time `t` made with the discrete logarithm of the public key -/
def byteLogForger (E : Ext G1 G2 GT) (log : G2 → Fr) (t tar : Nat) (seed msg : Bytes)
    (pp : PubParam G1 G2) (pk : PublicKey G2) (pop : ProofOfPossession G1) : BytePlayer G1 G2 :=
  .update tar seed (.breakIn fun _ => .forge
    { msg := msg
      sig := sigLayout E true ⟨pp.ciphersuite, t, 0, (log pk.pk).val • pp.h⟩
      signers := [(pkLayout E true pk, popLayout E true pop)] })

theorem hashed_laws {E : Ext G1 G2 GT} (L : GroupLaws E) {f : Bytes → Bytes → G1}
    (hf : ∀ m c, E.inSub1 (f m c) = true) (sha : Bytes → Bytes) :
    GroupLaws { E with sha512 := sha, hashToG1 := f } where
  sub1_zero := L.sub1_zero
  sub1_add := L.sub1_add
  sub1_neg := L.sub1_neg
  sub1_order := L.sub1_order
  sub2_zero := L.sub2_zero
  sub2_add := L.sub2_add
  sub2_neg := L.sub2_neg
  sub2_order := L.sub2_order
  gen2_sub := L.gen2_sub
  gen2_gen := L.gen2_gen
  hash_sub := hf
  pairing_prod := L.pairing_prod
  pair_add_left := L.pair_add_left
  pair_add_right := L.pair_add_right
  pair_nondeg := L.pair_nondeg

theorem parsed_ok {α : Type} {p : SM Bytes α} {b : Bytes} {a : α} {rest : Bytes}
    (h : p b = (.ok a, rest)) : parsed p b = some a := by
  unfold parsed
  change (match p b with | (.ok a, _) => some a | _ => none) = some a
  rw [h]

/-- the bytes of the honest key -/
def honestClaim (E : Ext G1 G2 GT) (cs : UInt8) (x : Fr) (q : G1) (sig : Signature G1 G2) (msg : Bytes) :
    ByteClaim where
  msg := msg
  sig := sigLayout E true sig
  signers := [(pkLayout E true ⟨cs, x.val • E.gen2⟩, popLayout E true ⟨cs, x.val • q⟩)]

section Honest

variable {E : Ext G1 G2 GT} (L : GroupLaws E) (C : CodecLaws E) {cs : UInt8} (hsup : Supported cs)
  (x : Fr) {q : G1} (hq : E.inSub1 q = true)

include L C hsup in
theorem parsed_pk : parsed (PublicKey.deserialize E true) (pkLayout E true ⟨cs, x.val • E.gen2⟩) =
    some ⟨cs, x.val • E.gen2⟩ := by
  refine parsed_ok (rest := []) ?_
  rw [← List.append_nil (pkLayout E true ⟨cs, x.val • E.gen2⟩)]
  exact PublicKey.deserialize_layout C true ⟨hsup, L.sub2_nsmul L.gen2_sub _⟩ []

include L C hsup hq in
theorem parsed_pop : parsed (ProofOfPossession.deserialize E true) (popLayout E true ⟨cs, x.val • q⟩) =
    some ⟨cs, x.val • q⟩ := by
  refine parsed_ok (rest := []) ?_
  rw [← List.append_nil (popLayout E true ⟨cs, x.val • q⟩)]
  exact ProofOfPossession.deserialize_layout C true ⟨hsup, L.sub1_nsmul hq _⟩ []

include C in
theorem parsed_sig {sig : Signature G1 G2} (hs : SigValid E sig) :
    parsed (Signature.deserialize E true) (sigLayout E true sig) = some sig := by
  refine parsed_ok (rest := []) ?_
  rw [← List.append_nil (sigLayout E true sig)]
  exact Signature.deserialize_layout C hs []

include L C hsup in
theorem honest_inputs (sig : Signature G1 G2) (msg : Bytes) :
    (honestClaim E cs x q sig msg).inputs E = [popInput E ⟨cs, x.val • E.gen2⟩] := by
  unfold ByteClaim.inputs honestClaim
  simp only [List.filterMap_cons, parsed_pk L C hsup x, Option.map_some, List.filterMap_nil]

theorem honest_lookup (q : G1) : List.lookup (popInput E (⟨cs, x.val • E.gen2⟩ : PublicKey G2))
    [(popInput E ⟨cs, x.val • E.gen2⟩, q)] = some q := by simp

include L C hsup hq in
theorem honest_wins [DecidableEq GT] {pf : Profile} {pp : PubParam G1 G2} {sha : Bytes → Bytes}
    {sig : Signature G1 G2} {msg : Bytes} (hs : SigValid E sig)
    (hv : Signature.verifyBytesAggregated { E with sha512 := sha } pf sig [⟨cs, x.val • E.gen2⟩] pp msg =
      .ok true) {S : CodeSigner G1 G2} (hb : ∀ t ∈ S.broken, sig.time < t)
    (hn : (sig.time, msg) ∉ S.signed) {pts : Curve G1}
    (hl : pts.lookup (popInput E ⟨cs, x.val • E.gen2⟩) = some q)
    (hp : ∀ i p, pts.lookup i = some p → E.inSub1 p = true) :
    (honestClaim E cs x q sig msg).Wins { E with sha512 := sha, hashToG1 := pts.hash } pf pp
      ⟨cs, x.val • E.gen2⟩ S := by
  refine ⟨sig, [(⟨cs, x.val • E.gen2⟩, ⟨cs, x.val • q⟩)], ⟨parsed_sig C hs, ?_, ?_, hv⟩, by simp, hb, hn⟩
  · unfold ByteClaim.keys honestClaim
    simp only [List.mapM_cons, List.mapM_nil]
    have r1 := parsed_pk L C hsup x
    have r2 := parsed_pop L C hsup x hq
    unfold PublicKey.deserialize at r1 ⊢
    unfold ProofOfPossession.deserialize at r2 ⊢
    unfold pkLayout at r1 ⊢
    unfold popLayout at r2 ⊢
    simp only [] at r1 r2 ⊢
    rw [r1, r2]
    rfl
  · intro k hk
    rw [List.mem_singleton.1 hk]
    have hf : ∀ m c, E.inSub1 (pts.hash m c) = true := by
      intro m c
      unfold Curve.hash
      rcases h : pts.lookup (m, c) with _ | p
      · exact L.sub1_zero
      · exact hp _ _ h
    refine (PublicKey.validate_iff (x := x.val) (hashed_laws L hf sha) rfl _).2 ⟨hsup, rfl, ?_⟩
    show x.val • q = x.val • Curve.hash _ (popInput E _).1 (popInput E _).2
    unfold Curve.hash
    rw [hl]
    rfl

end Honest

/-- C82: the game can be won: whoever can take discrete logarithms in `G2` wins always, with bytes the
verifier accepts. -/
theorem C82_logarithms_forge [DecidableEq GT] {E : Ext G1 G2 GT} (H : HashLaws E) (L : GroupLaws E)
    (C : CodecLaws E) (pf : Profile) {g : G1} (hsub : E.inSub1 g = true) {d : Nat} (hd : 1 ≤ d)
    (hd' : d ≤ 63) {cs : UInt8} (hsup : Supported cs) {t tar : Nat} (h1 : 1 ≤ t) (h2 : t < tar)
    (h3 : tar ≤ 2 ^ d - 1) (ht : t < 2 ^ 32) (h4 : drawsNeeded d 1 tar = 0) (seed msg : Bytes)
    (log : G2 → Fr) (hlog : ∀ x : Fr, log (x.val • E.gen2) = x) {n : Nat} (hn : 32 ≤ n) :
    byteForgeChance E pf g d cs n (byteLogForger E log t tar seed msg) = 1 := by
  unfold byteForgeChance
  refine (avg_congr fun a => (avg_congr fun s => ?_).trans (avg_const (α := Seed n) (1 : ℚ))).trans
    (avg_const 1)
  have WF : ParamWF E (gameParam E g cs a) := viewOf_wf (E := E) (cs := cs) L hsub hd hd' (toVar a)
  have hl : 32 ≤ s.bytes.length := by unfold Seed.bytes; rw [natToBE_length]; exact hn
  obtain ⟨x, p, sk, e1, e2⟩ := keygen_game H WF.toParamShape WF.g2_gen hl hsup ((a .q).val • g)
  rw [e2]
  obtain ⟨sk', e3, e4, _⟩ := init_keyAs H L WF hsup x p
  have e5 : sk = sk' := Res.ok.inj (e1.symm.trans e3)
  subst e5
  have hdep : (gameParam E g cs a).depth = d := rfl
  have hup := update_exact H.sha_len pf WF.toParamShape e4.keyFor
    (show 1 < tar by omega) (by rw [hdep]; exact h3) seed
  rcases hup with ⟨⟨j, hj, _⟩, _⟩ | ⟨_, sk2, e6, e7, _⟩
  · rw [hdep, h4] at *
    omega
  have hacc := fun D : Digest => logClaim_accepted (digest_laws E D)
    (GroupLaws.withSha L fun _ => D.bytes) pf (g := g) hsub hd hd' hsup
    (nodeAt_iff.2 ⟨⟨h1, by omega⟩, rfl⟩ : NodeAt d t (path d t)) msg log hlog (Function.update a .x x)
  simp only [worldOf_sha] at hacc
  rw [worldOf_update] at hacc
  have hq : E.inSub1 ((a .q).val • g) = true := L.sub1_nsmul hsub _
  have hsig : SigValid E (⟨cs, t, 0, x.val • (gameParam E g cs a).h⟩ : Signature G1 G2) :=
    ⟨hsup, h1, ht, L.sub2_zero, L.sub1_nsmul WF.h_sub _⟩
  have hlog' := hlog x
  have hplay : byteLogForger E log t tar seed msg (gameParam E g cs a) ⟨cs, x.val • E.gen2⟩
      ⟨cs, x.val • (a .q).val • g⟩ = .update tar seed (.breakIn fun _ => .forge
        (honestClaim E cs x ((a .q).val • g) ⟨cs, t, 0, x.val • (gameParam E g cs a).h⟩ msg)) := by
    unfold byteLogForger honestClaim
    simp only [hlog']
    rfl
  have hacc' := fun D => (hacc D).2
  simp only [hlog'] at hacc'
  simp only []
  change BytePlayer.chance E pf g (gameParam E g cs a) ⟨cs, x.val • E.gen2⟩
    (byteLogForger E log t tar seed msg (gameParam E g cs a) ⟨cs, x.val • E.gen2⟩
      ⟨cs, x.val • (a .q).val • g⟩) ⟨sk, [], []⟩ []
      [(popInput E ⟨cs, x.val • E.gen2⟩, (a .q).val • g)] = 1
  rw [hplay]
  simp only [BytePlayer.chance, e6, honest_inputs L C hsup x, curveOracles, curveOracle, honest_lookup,
    oracle, List.lookup_nil]
  refine (avg_congr fun D => ?_).trans (avg_const (α := Digest) (1 : ℚ))
  rw [if_pos]
  refine honest_wins L C hsup x hq hsig (hacc' D) ?_ (by simp) (honest_lookup x _) (fun i p hp => by
    rw [List.lookup_cons] at hp
    split at hp
    · cases hp; exact hq
    · cases hp)
  intro b hb
  simp only [List.nil_append, List.mem_singleton] at hb
  rw [hb, e7.time]
  exact h2

/-! ### Concrete cases -/

section Examples
open Pixel.Toy

/-- an adversary with a key of its own (secret 3) and a proof of possession for it, that has a message
signed at the times 1 and 5, lets the signer go on to time 9, breaks in, and hands over the serialised
sum of what it got from the honest signer and its own part, with both keys -/
def toyBytePlayer (pp : PubParam G G) (pk : PublicKey G) (pop : ProofOfPossession G) : BytePlayer G G :=
  .curve (popInput (ext sha0) ⟨1, (3, 0)⟩) fun p => .hash [1] fun b => .sign b fun s1 =>
    .update 5 [7] (.sign [2] fun s2 => .update 9 b (.breakIn fun sk => .forge
      { msg := [3]
        sig := sigLayout (ext sha0) true ⟨1, 1 + sk.ssk.length, s1.sigma1 + s2.sigma1, s1.sigma2 + 3 • pp.h⟩
        signers := [(pkLayout (ext sha0) true ⟨1, (3, 0)⟩, popLayout (ext sha0) true ⟨1, 3 • p⟩),
          (pkLayout (ext sha0) true pk, popLayout (ext sha0) true pop)] }))

/-- C82: the hypotheses are met by this adversary: two signers, three inputs of hash-to-curve, four
hashed messages, two updates, twelve scalars -/
example {ε ε' δ : ℚ}
    (hε : ∀ t i, ValidTime 5 t → i < 4 → solveChance (ext sha0) ((1, 0) : G) 5
      (roReduction (ext sha0) 1 5 (path 5 t) i
        (apiBet .debug 5 t (codeLift (ext sha0).sha512 .debug t (byteLower (ext sha0) toyBytePlayer)))) ≤ ε)
    (hε' : ∀ t j, ValidTime 5 t → j < 2 * (5 + 2) + 3 → prfGain (ext sha0).sha512
      (prfAttack (ext sha0).sha512
        (codeGame (ext sha0) .debug ((1, 0) : G) 5 1 (byteLower (ext sha0) toyBytePlayer) t) j) ≤ ε')
    (hδ : extractGain (ext sha0).sha512 (text "Pixel master key" ++ [1]) 32
      (startChance (ext sha0) .debug ((1, 0) : G) 5 1 (byteLower (ext sha0) toyBytePlayer)) ≤ δ) :
    byteForgeChance (ext sha0) .debug ((1, 0) : G) 5 1 32 toyBytePlayer ≤
      (2 ^ 5 - 1) * ((4 : Nat) * (ε + (((3 : Nat) + 1) / rOrder + (4 : Nat) / 2 ^ 254)) +
        ((2 : Nat) * ((5 : Nat) + 2) + 3) * ε' + ((12 : Nat) + 2) * (1 / 2 ^ 257)) + δ :=
  C82_hard_then_secure hashLaws (groupLaws sha0) (codecLaws sha0) .debug (g := ((1, 0) : G))
    (by decide) (d := 5) (by omega) (by omega) (Or.inr rfl) (by omega) toyBytePlayer
    (fun _ _ _ => fun _ _ _ _ _ => (by decide +kernel : (2 : Nat) < rOrder)) (m := 3)
    (fun _ _ _ => ⟨by omega, fun _ _ _ _ _ => (by omega : 2 ≤ 3 - 1)⟩) (Q := 4)
    (fun _ _ _ => fun _ => ⟨by omega, fun _ => ⟨by omega, fun _ => ⟨by omega, fun _ _ =>
      (by omega : 0 < 4 - 1 - 1 - 1)⟩⟩⟩) (u := 2)
    (fun _ _ _ => fun _ _ _ => ⟨by omega, fun _ => ⟨by omega, fun _ => trivial⟩⟩) (k := 12)
    (fun _ _ _ => fun _ _ => ⟨by omega, fun _ => ⟨by omega, ⟨by omega, fun _ => ⟨by omega, fun _ =>
      trivial⟩⟩⟩⟩) hε hε' hδ

/-- C82: with logarithms, which are easy in the toy groups, the game on bytes is won -/
example : byteForgeChance (ext sha0) .debug ((1, 0) : G) 5 1 32
    (byteLogForger (ext sha0) (fun p : G => p.1) 4 17 [9] [1]) = 1 :=
  C82_logarithms_forge hashLaws (groupLaws sha0) (codecLaws sha0) .debug (g := ((1, 0) : G))
    (by decide) (d := 5) (by omega) (by omega) (cs := 1) (Or.inr rfl) (by omega) (by omega) (by omega)
    (by omega) (by decide +kernel) [9] [1] (fun p : G => p.1) (by
      intro x
      simp [ext]) (by omega)

end Examples

end Pixel.Props
