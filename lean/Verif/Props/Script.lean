import Verif.Proof.Script
import Verif.Props.Crowd
import Verif.Props.Curve

/-!
# Property C87: the game with the parameters of the script, on the real curves

Vocabulary: `Verif/Spec/Script.lean`.
-/

namespace Pixel.Props

open Pixel Pixel.Spec Pixel.Curve

set_option linter.unusedSectionVars false

variable {G1 G2 GT : Type} [AddCommGroup G1] [AddCommGroup G2] [CommGroup GT] {N : Nat}

/-! ## C87 -/

/-- C87: if the strings that the script hashes to the curve are different, the game with its parameters
is the game of C84 with random parameters, for the explicit adversary that answers questions for these
strings itself. -/
theorem C87_script_parameters [DecidableEq GT] {E : Ext G1 G2 GT} (H : HashLaws E) (L : GroupLaws E)
    (C : CodecLaws E) (pf : Profile) {g : G1} (hsub : E.inSub1 g = true) {seed : Bytes} {d : Nat}
    (hd : 1 ≤ d) (hd' : d ≤ 63) (hnd : (paramStrings E.sha512 seed d).Nodup) {cs : UInt8}
    (hsup : Supported cs) {n : Nat} (hn : 32 ≤ n)
    (A : PubParam G1 G2 → (Fin N → PublicKey G2) → (Fin N → ProofOfPossession G1) →
      CrowdPlayer G1 G2 N) :
    scriptForgeChance E pf g seed d cs n N A =
      crowdForgeChance E pf g d cs n N (scriptLower E.sha512 seed A) :=
  script_eq H L C pf hsub hd hd' hnd hsup hn A

/-- C87: so the library is forward secure with parameters made by the script: the bound is that of
C84. -/
theorem C87_hard_then_secure [DecidableEq GT] {E : Ext G1 G2 GT} (H : HashLaws E) (L : GroupLaws E)
    (C : CodecLaws E) (pf : Profile) {g : G1} (hsub : E.inSub1 g = true) {seed : Bytes} {d : Nat}
    (hd : 1 ≤ d) (hd' : d ≤ 63) (hnd : (paramStrings E.sha512 seed d).Nodup) {cs : UInt8}
    (hsup : Supported cs) {n : Nat} (hn : 32 ≤ n)
    (A : PubParam G1 G2 → (Fin N → PublicKey G2) → (Fin N → ProofOfPossession G1) →
      CrowdPlayer G1 G2 N)
    (hA : ∀ pp pk pop, (A pp pk pop).Legal) {m : Nat} (hm : ∀ pp pk pop, (A pp pk pop).Points m)
    {Q : Nat} (hQ : ∀ pp pk pop, (A pp pk pop).Hashes Q) {u : Nat}
    (hu : ∀ i pp pk pop, (A pp pk pop).Updates i u) {k : Nat}
    (hk : ∀ i pp pk pop, (A pp pk pop).Scalars i d k) {ε ε' δ : ℚ}
    (hε : ∀ i t l, ValidTime d t → l < Q → solveChance E g d (roReduction E cs d (path d t) l
      (apiBet pf d t (codeLift E.sha512 pf t (byteLower E (crowdOne E pf n i
        (scriptLower E.sha512 seed A)))))) ≤ ε)
    (hε' : ∀ i t j, ValidTime d t → j < u * (d + 2) + 3 → prfGain E.sha512
      (prfAttack E.sha512 (codeGame E pf g d cs (byteLower E (crowdOne E pf n i
        (scriptLower E.sha512 seed A))) t) j) ≤ ε')
    (hδ : ∀ i, extractGain E.sha512 (text "Pixel master key" ++ [cs]) n
      (startChance E pf g d cs (byteLower E (crowdOne E pf n i (scriptLower E.sha512 seed A)))) ≤ δ) :
    scriptForgeChance E pf g seed d cs n N A ≤
      N * ((2 ^ d - 1) * (Q * (ε + (((m + N : Nat) + 1) / rOrder + Q / 2 ^ 254)) +
        (u * (d + 2) + 3) * ε' + (k + 2) * (1 / 2 ^ 257)) + δ) :=
  (C87_script_parameters H L C pf hsub hd hd' hnd hsup hn A).trans_le
    (C84_hard_then_secure H L C pf hsub hd hd' hsup hn _ (fun _ _ _ => knowing_legal _ _ (hA _ _ _))
      (fun _ _ _ => knowing_points _ _ (hm _ _ _)) (fun _ _ _ => knowing_hashes _ _ (hQ _ _ _))
      (fun i _ _ _ => knowing_updates _ i _ (hu i _ _ _))
      (fun i _ _ _ => knowing_scalars _ i _ _ (hk i _ _ _)) hε hε' hδ)

/-! ## on the real curves -/

/-- C87: `r · gen1` for a uniform scalar `r` is a uniform point of the subgroup. -/
theorem C87_uniform_points (R : Rest GT) (p : P1) (hp : (bls R).inSub1 p = true) :
    ∃! r : Fr, r.val • gen1 = p := by
  obtain ⟨n, rfl⟩ := torsion1 ((inSub1_iff R p).1 hp)
  refine ⟨(n : Fr), ?_, fun r hr => ?_⟩
  · show (n : Fr).val • gen1 = n • gen1
    rw [ZMod.val_natCast]
    conv_rhs => rw [← Nat.div_add_mod n rOrder, add_nsmul, mul_comm, mul_nsmul', gen1_order, nsmul_zero,
      zero_add]
  · have h := dlog_unique gen1_order gen1_isPt.ne_zero hr
    rwa [ZMod.natCast_zmod_val] at h

/-- C87: the library with its own parameters, on BLS12-381 with SHA-512.  Hash-to-curve is a random
oracle with points of the subgroup; the default parameters (depth 32, ciphersuite 0) come from it by
the script with its seed; the game is that of C84.  What is left of the assumptions is that the
pairing is additive and not trivial. -/
theorem C87_real [DecidableEq GT] {R : Rest GT} (hs : R.sha512 = Sha512.sha512)
    (P : PairingOk R) (hh : ∀ m c, rOrder • R.hashToG1 m c = 0) (pf : Profile) {n : Nat} (hn : 32 ≤ n)
    (A : PubParam P1 P2 → (Fin N → PublicKey P2) → (Fin N → ProofOfPossession P1) →
      CrowdPlayer P1 P2 N)
    (hA : ∀ pp pk pop, (A pp pk pop).Legal) {m : Nat} (hm : ∀ pp pk pop, (A pp pk pop).Points m)
    {Q : Nat} (hQ : ∀ pp pk pop, (A pp pk pop).Hashes Q) {u : Nat}
    (hu : ∀ i pp pk pop, (A pp pk pop).Updates i u) {k : Nat}
    (hk : ∀ i pp pk pop, (A pp pk pop).Scalars i 32 k) {ε ε' δ : ℚ}
    (hε : ∀ i t l, ValidTime 32 t → l < Q → solveChance (bls R) gen1 32 (roReduction (bls R) 0 32
      (path 32 t) l (apiBet pf 32 t (codeLift Sha512.sha512 pf t (byteLower (bls R) (crowdOne (bls R) pf n i
        (scriptLower Sha512.sha512 Py.paramSeed A)))))) ≤ ε)
    (hε' : ∀ i t j, ValidTime 32 t → j < u * 34 + 3 → prfGain Sha512.sha512
      (prfAttack Sha512.sha512 (codeGame (bls R) pf gen1 32 0 (byteLower (bls R) (crowdOne (bls R) pf n i
        (scriptLower Sha512.sha512 Py.paramSeed A))) t) j) ≤ ε')
    (hδ : ∀ i, extractGain Sha512.sha512 (text "Pixel master key" ++ [0]) n
      (startChance (bls R) pf gen1 32 0 (byteLower (bls R) (crowdOne (bls R) pf n i
        (scriptLower Sha512.sha512 Py.paramSeed A)))) ≤ δ) :
    scriptForgeChance (bls R) pf gen1 Py.paramSeed 32 0 n N A ≤
      N * ((2 ^ 32 - 1) * (Q * (ε + (((m + N : Nat) + 1) / rOrder + Q / 2 ^ 254)) +
        (u * 34 + 3) * ε' + (k + 2) * (1 / 2 ^ 257)) + δ) := by
  have hs' : (bls R).sha512 = Sha512.sha512 := hs
  have hl : ∀ m, ((bls R).sha512 m).length = 64 := fun m => by rw [hs']; exact Kat.sha512_length m
  rw [← hs'] at hε hε' hδ
  have h := C87_hard_then_secure (E := bls R) ⟨hl⟩ (bls_group P hh) (bls_codec R) pf (g := gen1)
    ((inSub1_iff R gen1).2 gen1_order) (seed := Py.paramSeed) (d := 32) (by omega) (by omega)
    (by rw [hs']; exact C65_default_strings) (cs := 0) (Or.inl rfl) hn A hA hm hQ hu hk hε hε' hδ
  norm_num at h ⊢
  exact h

/-- C87: in numbers: for up to `2^20` signers, and up to `2^64` questions to each of the hash functions
and scalars of a signer, what does not depend on the hardness of the problems is less than `2^-70`. -/
theorem C87_numbers {Nn Q m k : Nat} (hN : Nn ≤ 2 ^ 20) (hQ : Q ≤ 2 ^ 64) (hm : m ≤ 2 ^ 64)
    (hk : k ≤ 2 ^ 64) (u : Nat) (ε ε' δ : ℚ) :
    (Nn : ℚ) * ((2 ^ 32 - 1) * (Q * (ε + (((m + Nn : Nat) + 1) / rOrder + Q / 2 ^ 254)) +
        (u * 34 + 3) * ε' + (k + 2) * (1 / 2 ^ 257)) + δ) ≤
      Nn * ((2 ^ 32 - 1) * (Q * ε + (u * 34 + 3) * ε') + δ) + 1 / 2 ^ 70 := by
  have hN' : (Nn : ℚ) ≤ 2 ^ 20 := by exact_mod_cast hN
  have hQ' : (Q : ℚ) ≤ 2 ^ 64 := by exact_mod_cast hQ
  have hm' : (m : ℚ) ≤ 2 ^ 64 := by exact_mod_cast hm
  have hk' : (k : ℚ) ≤ 2 ^ 64 := by exact_mod_cast hk
  have h0 : (0 : ℚ) ≤ Nn := Nat.cast_nonneg _
  have h1 : (0 : ℚ) ≤ Q := Nat.cast_nonneg _
  have e : (Nn : ℚ) * ((2 ^ 32 - 1) * (Q * (ε + (((m + Nn : Nat) + 1) / rOrder + Q / 2 ^ 254)) +
        (u * 34 + 3) * ε' + (k + 2) * (1 / 2 ^ 257)) + δ) =
      Nn * ((2 ^ 32 - 1) * (Q * ε + (u * 34 + 3) * ε') + δ) +
        Nn * ((2 ^ 32 - 1) * (Q * (((m + Nn : Nat) + 1) / rOrder + Q / 2 ^ 254) +
          (k + 2) * (1 / 2 ^ 257))) := by ring
  rw [e]
  refine add_le_add le_rfl ?_
  have a1 : (((m + Nn : Nat) : ℚ) + 1) / rOrder ≤ 1 / 2 ^ 189 := by
    rw [div_le_div_iff₀ (by norm_num [rOrder]) (by positivity)]
    push_cast
    have : (rOrder : ℚ) ≥ (2 ^ 64 + 2 ^ 20 + 1) * 2 ^ 189 := by norm_num [rOrder]
    nlinarith
  have a2 : (Q : ℚ) / 2 ^ 254 ≤ 1 / 2 ^ 190 := by
    rw [div_le_div_iff₀ (by positivity) (by positivity)]
    linarith [show (2 : ℚ) ^ 64 * 2 ^ 190 = 1 * 2 ^ 254 by norm_num]
  have a3 : (Q : ℚ) * ((((m + Nn : Nat) : ℚ) + 1) / rOrder + Q / 2 ^ 254) ≤
      2 ^ 64 * (1 / 2 ^ 189 + 1 / 2 ^ 190) :=
    mul_le_mul hQ' (add_le_add a1 a2) (by positivity) (by positivity)
  have a4 : ((k : ℚ) + 2) * (1 / 2 ^ 257) ≤ (2 ^ 64 + 2) * (1 / 2 ^ 257) :=
    mul_le_mul_of_nonneg_right (by linarith) (by positivity)
  have a5 : (2 ^ 32 - 1 : ℚ) * (Q * ((((m + Nn : Nat) : ℚ) + 1) / rOrder + Q / 2 ^ 254) +
      (k + 2) * (1 / 2 ^ 257)) ≤
      (2 ^ 32 - 1) * (2 ^ 64 * (1 / 2 ^ 189 + 1 / 2 ^ 190) + (2 ^ 64 + 2) * (1 / 2 ^ 257)) :=
    mul_le_mul_of_nonneg_left (add_le_add a3 a4) (by norm_num)
  refine (mul_le_mul hN' a5 (mul_nonneg (by norm_num) (by positivity)) (by positivity)).trans ?_
  rw [show (2 : ℚ) ^ 257 = 2 ^ 256 * 2 from pow_succ 2 256]
  norm_num

/-- C87: the game can be won: whoever can take discrete logarithms in `G2` wins always. -/
theorem C87_logarithms_forge [DecidableEq GT] {E : Ext G1 G2 GT} (H : HashLaws E) (L : GroupLaws E)
    (C : CodecLaws E) (pf : Profile) {g : G1} (hsub : E.inSub1 g = true) {pseed : Bytes} {d : Nat}
    (hd : 1 ≤ d) (hd' : d ≤ 63) (hnd : (paramStrings E.sha512 pseed d).Nodup) {cs : UInt8}
    (hsup : Supported cs) {t tar : Nat} (h1 : 1 ≤ t) (h2 : t < tar)
    (h3 : tar ≤ 2 ^ d - 1) (ht : t < 2 ^ 32) (h4 : drawsNeeded d 1 tar = 0) (seed msg : Bytes)
    (log : G2 → Fr) (hlog : ∀ x : Fr, log (x.val • E.gen2) = x) {n : Nat} (hn : 32 ≤ n) {i j : Fin N}
    (hij : i ≠ j) :
    scriptForgeChance E pf g pseed d cs n N (crowdLogForger E log i j t tar seed msg) = 1 :=
  (C87_script_parameters H L C pf hsub hd hd' hnd hsup hn _).trans
    (C84_logarithms_forge H L C pf hsub hd hd' hsup h1 h2 h3 ht h4 seed msg log hlog hn hij)

/-! ## why the strings have to be different -/

/-- the master secret behind the first sub key, if all elements of the parameter are the same -/
def sameSecret (d : Nat) (sk : SecretKey G1 G2) : G1 :=
  match sk.ssk with
  | s :: _ => s.hpoly - (1 + (path d s.time).sum) • s.hvector.headD 0
  | [] => 0

/-- the adversary that lets signer `i` go on to time `tar`, breaks in, finds `x·h` in the first sub key
as if all elements of the parameter were the same, and makes a signature for time `t` with it -/
def sameForger (E : Ext G1 G2 GT) (i : Fin N) (t tar : Nat) (seed msg : Bytes)
    (pp : PubParam G1 G2) (pk : Fin N → PublicKey G2) (pop : Fin N → ProofOfPossession G1) :
    CrowdPlayer G1 G2 N :=
  .update i tar seed (.breakIn i fun sk => .forge
    { msg := msg
      sig := sigLayout E true ⟨pp.ciphersuite, t, 0, sameSecret pp.depth sk⟩
      signers := [(pkLayout E true (pk i), popLayout E true (pop i))] })

theorem zip_same (p : G1) : ∀ {v : List Nat} {k : Nat}, v.length ≤ k →
    (List.zipWith (fun (t : Nat) h => t • h) v (List.replicate k p)).sum = v.sum • p
  | [], _, _ => by simp
  | t :: v, 0, h => by simp at h
  | t :: v, k + 1, h => by
    rw [List.replicate_succ, List.zipWith_cons_cons, List.sum_cons, List.sum_cons, add_nsmul,
      zip_same p (by simpa using h)]

/-- with all elements the same, a sub key gives `x·h` away -/
theorem same_secret {pp : PubParam G1 G2} {p alpha : G1} (hp : pp.hlist = List.replicate (pp.depth + 1) p)
    {v : List Nat} {rho : Nat} {s : SubSecretKey G1 G2} (h : SubKeyFor pp alpha v rho s) :
    s.hpoly - (1 + (path pp.depth s.time).sum) • s.hvector.headD 0 = alpha := by
  have hv := (nodeAt_iff.1 h.node).2
  have hl := (nodeAt_isNode h.node).1
  rw [← hv]
  have e1 : s.hvector.headD 0 = rho • p := by
    rw [h.hvector, hp, List.drop_replicate, List.map_replicate]
    obtain ⟨k, hk⟩ : ∃ k, pp.depth + 1 - (v.length + 1) = k + 1 := ⟨pp.depth - v.length - 1, by omega⟩
    rw [hk, List.replicate_succ]
    rfl
  have e2 : nodePoint pp v = (1 + v.sum) • p := by
    unfold nodePoint
    rw [hp, List.replicate_succ, List.headD_cons, List.tail_cons, zip_same p (by omega), add_nsmul, one_nsmul]
  rw [h.hpoly, e1, e2, nsmul_left_comm, add_sub_cancel_right]

theorem curveOracles_again {g : G1} {i : Bytes × Bytes} {p : G1} {pts : Curve G1}
    (h : pts.lookup i = some p) (f : Curve G1 → ℚ) (k : Nat) :
    curveOracles g (List.replicate k i) pts f = f pts := by
  induction k with
  | zero => rfl
  | succ k ih =>
    rw [List.replicate_succ]
    simp only [curveOracles]
    unfold curveOracle
    rw [h]
    exact ih

theorem keygen_all {E : Ext G1 G2 GT} (H : HashLaws E) {pp : PubParam G1 G2} (S : ParamShape pp)
    (hg : pp.g2 = E.gen2) {seed : Bytes} (h : 32 ≤ seed.length) (hc : Supported pp.ciphersuite) :
    ∃ (x : Fr) (p : Prng) (sk : SecretKey G1 G2), SecretKey.init E.sha512 pp (mulFr x pp.h) p = .ok sk ∧
      ∀ f : Bytes → Bytes → G1,
      keygen { E with hashToG1 := f } seed pp = .ok (⟨pp.ciphersuite, x.val • E.gen2⟩, sk,
        ⟨pp.ciphersuite, x.val • f (popInput E ⟨pp.ciphersuite, x.val • E.gen2⟩).1
          (popInput E ⟨pp.ciphersuite, x.val • E.gen2⟩).2⟩) := by
  obtain ⟨sk, h1, _⟩ := keygen_init H S h hc
  refine ⟨kgSecret E.sha512 seed pp.ciphersuite, _, sk, h1, fun f => ?_⟩
  obtain ⟨sk', h2, h3⟩ := keygen_init (E := { E with hashToG1 := f }) ⟨H.sha_len⟩ S h hc
  have e : sk' = sk := Res.ok.inj (h2.symm.trans h1)
  rw [h3, e, hg, text_pop]
  rfl

/-- `(0, x·h)` is a signature for every time and message -/
theorem secret_signs [DecidableEq GT] {E : Ext G1 G2 GT} (H : HashLaws E) (L : GroupLaws E)
    (pf : Profile) {pp : PubParam G1 G2} (W : ParamWF E pp) (hsup : Supported pp.ciphersuite) {t : Nat}
    {w : List Nat} (hw : NodeAt pp.depth t w) (x : Fr) (msg : Bytes) :
    Signature.verifyBytesAggregated E pf ⟨pp.ciphersuite, t, 0, x.val • pp.h⟩
      [⟨pp.ciphersuite, x.val • E.gen2⟩] pp msg = .ok true := by
  rw [Signature.verifyBytesAggregated_eq _ _ _ _ _ _ (by simp) (by simp)]
  have hs2 : E.inSub1 (x.val • pp.h) = true := L.sub1_nsmul W.h_sub _
  rw [Signature.verifyBytes_eq H W.toParamShape]
  refine congrArg Res.ok (@decide_eq_true _ (_) ⟨hsup, rfl, L.sub2_zero, hs2, w, hw, ?_⟩)
  refine (L.sig_check W hs2 (a := 0) (x := x.val) ?_ ?_).2 ?_
  · simp
  · simp [W.g2_gen]
  · simp

/-- C87: the strings have to be different: if they are all the same, as without the index in `info`,
the adversary that breaks in once, later, wins always. -/
theorem C87_same_strings_break [DecidableEq GT] {E : Ext G1 G2 GT} (H : HashLaws E) (L : GroupLaws E)
    (C : CodecLaws E) (pf : Profile) {g : G1} (hsub : E.inSub1 g = true) {pseed : Bytes} {d : Nat}
    (hd : 1 ≤ d) (hd' : d ≤ 63) {b : Bytes} (hb : ∀ s ∈ paramStrings E.sha512 pseed d, s = b)
    {cs : UInt8} (hsup : Supported cs) {t tar : Nat} (h1 : 1 ≤ t) (h2 : t < tar)
    (h3 : tar ≤ 2 ^ d - 1) (ht : t < 2 ^ 32) (h4 : drawsNeeded d 1 tar = 0) (seed msg : Bytes)
    {n : Nat} (hn : 32 ≤ n) (i : Fin N) :
    scriptForgeChance E pf g pseed d cs n N (sameForger E i t tar seed msg) = 1 := by
  have hne : Nonempty (Seed n) := ⟨⟨0, Nat.pow_pos (by omega)⟩⟩
  have hi : paramInputs E.sha512 pseed cs d = List.replicate (d + 2) (b, [cs]) := by
    rw [List.eq_replicate_iff]
    refine ⟨by simp [paramInputs, paramStrings, paramInfos], fun q hq => ?_⟩
    obtain ⟨s, hs, rfl⟩ := List.mem_map.1 hq
    rw [hb s hs]
  unfold scriptForgeChance
  rw [hi, List.replicate_succ]
  simp only [curveOracles]
  unfold curveOracle
  simp only [List.lookup_nil, List.nil_append]
  refine (avg_congr fun r => ?_).trans (avg_const (α := Fr) (1 : ℚ))
  rw [curveOracles_again (p := r.val • g) (by simp)]
  -- the parameters
  obtain ⟨a, ha⟩ : ∃ a : Secret d 0 → Fr, a = fun _ => r := ⟨_, rfl⟩
  have hgen : Py.paramGen { E with hashToG1 := Curve.hash [((b, [cs]), r.val • g)] } pseed cs d =
      .ok (gameParam E g cs a) := by
    obtain ⟨pp, e1, e2⟩ := (C65_generation
      { E with hashToG1 := Curve.hash [((b, [cs]), r.val • g)] } pseed cs d).1 (by omega)
    rw [e1]
    congr 1
    have e3 := e2.elements
    have e4 : paramElements { E with hashToG1 := Curve.hash [((b, [cs]), r.val • g)] } pseed cs d =
        List.replicate (d + 2) (r.val • g) := by
      rw [List.eq_replicate_iff]
      refine ⟨by simp [paramElements, paramInfos], fun q hq => ?_⟩
      obtain ⟨s, hs, rfl⟩ := List.mem_map.1 hq
      show Curve.hash [((b, [cs]), r.val • g)] (paramString E.sha512 pseed s) [cs] = _
      rw [hb _ (List.mem_map.2 ⟨s, hs, rfl⟩)]
      simp [Curve.hash]
    rw [e4, List.replicate_succ] at e3
    obtain ⟨e5, e6⟩ := List.cons.inj e3
    obtain ⟨p1, p2, p3, p4, p5⟩ := pp
    have h6 := e2.depth
    have h7 := e2.suite
    have h8 := e2.gen
    simp only at e5 e6 h6 h7 h8
    subst e5 e6 h6 h7 h8 ha
    unfold gameParam
    congr 1
    rw [List.ofFn_const]
  rw [hgen]
  simp only
  refine (avg_congr fun s => ?_).trans (avg_const (α := Fin N → Seed n) (1 : ℚ))
  have WF : ParamWF E (gameParam E g cs a) := viewOf_wf (E := E) (cs := cs) L hsub hd hd' (toVar a)
  have hl : ∀ k, 32 ≤ (s k).bytes.length := by
    intro k; unfold Seed.bytes; rw [natToBE_length]; exact hn
  have hkg := fun k => keygen_all H WF.toParamShape WF.g2_gen (hl k) hsup
  choose x pr sk hin1 hk using hkg
  have hk0 : ∀ k, keygen E (s k).bytes (gameParam E g cs a) = _ := fun k => hk k E.hashToG1
  rw [if_pos fun k => ⟨_, hk0 k⟩]
  have hb : ∀ (f : Bytes → Bytes → G1) k,
      born { E with hashToG1 := f } (gameParam E g cs a) (s k).bytes = _ := fun f k => born_eq (hk k f)
  simp only [hb]
  refine curveOracles_one L hsub _ [] (fun j p h => ?_) (by simp) fun q hq hin => ?_
  · simp only [List.lookup_cons, List.lookup_nil] at h
    split at h
    · cases h; exact L.sub1_nsmul hsub _
    · cases h
  obtain ⟨qi, hqi⟩ := hin (popInput E ⟨cs, (x i).val • E.gen2⟩) (by
    rw [List.nil_append, List.mem_ofFn]
    exact ⟨i, rfl⟩)
  have hqi' : q.hash (popInput E (⟨cs, (x i).val • E.gen2⟩ : PublicKey G2)).1
      (popInput E (⟨cs, (x i).val • E.gen2⟩ : PublicKey G2)).2 = qi := by
    unfold Curve.hash
    rw [hqi]
    rfl
  obtain ⟨sk', e5, e6, _⟩ := init_keyAs H L WF hsup (x i) (pr i)
  have e7 := Res.ok.inj ((hin1 i).symm.trans e5)
  subst e7
  have hdep : (gameParam E g cs a).depth = d := rfl
  have hup := update_exact H.sha_len pf WF.toParamShape e6.keyFor
    (show 1 < tar by omega) (by rw [hdep]; exact h3) seed
  rcases hup with ⟨⟨l, hl, _⟩, _⟩ | ⟨_, sk2, e8, e9, _⟩
  · rw [hdep, h4] at *
    omega
  have hacc := fun D : Digest => secret_signs (digest_laws E D) (GroupLaws.withSha L fun _ => D.bytes) pf
    (pp := gameParam E g cs a) (t := t) (w := path d t)
    { WF.toParamShape with
      hlist_sub := WF.hlist_sub
      h_sub := WF.h_sub
      g2_gen := WF.g2_gen } hsup
    (nodeAt_iff.2 ⟨⟨h1, by rw [hdep]; omega⟩, rfl⟩) (x i) msg
  have hsig : SigValid E (⟨cs, t, 0, (x i).val • (gameParam E g cs a).h⟩ : Signature G1 G2) :=
    ⟨hsup, h1, ht, L.sub2_zero, L.sub1_nsmul WF.h_sub _⟩
  have hsec : sameSecret (gameParam E g cs a).depth sk2 = (x i).val • (gameParam E g cs a).h := by
    obtain ⟨v, _, hkey⟩ := keyFor_iff.1 e9
    have hssk := hkey.ssk
    unfold gam at hssk
    unfold sameSecret
    rcases hs2 : sk2.ssk with _ | ⟨s0, rest⟩
    · rw [hs2] at hssk
      cases hssk
    · rw [hs2] at hssk
      obtain ⟨⟨rho, hr⟩, _⟩ := List.forall₂_cons.1 hssk
      exact same_secret (p := r.val • g) (by subst ha; exact List.ofFn_const _ _) hr
  have hplay : ∀ (pk : Fin N → PublicKey G2) (pop : Fin N → ProofOfPossession G1),
      pk i = ⟨cs, (x i).val • E.gen2⟩ → pop i = ⟨cs, (x i).val • qi⟩ →
      sameForger E i t tar seed msg (gameParam E g cs a) pk pop =
        .update i tar seed (.breakIn i fun sk => .forge
          (honestClaim E cs (x i) qi ⟨cs, t, 0,
            sameSecret (gameParam E g cs a).depth sk⟩ msg)) := by
    intro pk pop hpk hpop
    unfold sameForger honestClaim
    rw [hpk, hpop]
    rfl
  rw [hplay _ _ rfl (by show _ = _; rw [← hqi']; rfl)]
  have e8' : SecretKey.update E.sha512 pf (gameParam E g cs a) tar seed (sk i) = (.ok (), sk2) := e8
  simp only [CrowdPlayer.chance, e8', Function.update_self, hsec, honest_inputs L C hsup (x i),
    curveOracles, curveOracle, hqi, oracle, List.lookup_nil]
  refine (avg_congr fun D => ?_).trans (avg_const (α := Digest) (1 : ℚ))
  rw [if_pos]
  refine ⟨i, ?_⟩
  simp only [Function.update_self, hsec]
  refine honest_wins L C hsup (x i) (hq _ _ hqi) hsig (hacc D) ?_ ?_ hqi hq
  · intro b hb
    simp only [List.nil_append, List.mem_singleton] at hb
    rw [hb, e9.time]
    exact h2
  · simp

/-! ### Concrete cases -/

section Examples
open Pixel.Toy

/-- C87: the hypotheses of the bound on the real curves are met, for some pairing, by an adversary against
two signers that asks for the string of `h`, has a message signed, breaks in later, and hands over
what it got -/
noncomputable def realPlayer (pp : PubParam P1 P2) (pk : Fin 2 → PublicKey P2)
    (pop : Fin 2 → ProofOfPossession P1) : CrowdPlayer P1 P2 2 :=
  .curve (paramString Sha512.sha512 Py.paramSeed (text "H2G_h"), [0]) fun h => .sign 0 [1] fun s =>
    .update 0 9 [7] (.breakIn 0 fun _ => .forge
      { msg := [2]
        sig := sigLayout (bls restGen) true ⟨0, 3, s.sigma1, s.sigma2 + pp.h - h⟩
        signers := [(pkLayout (bls restGen) true (pk 0), popLayout (bls restGen) true (pop 0)),
          (pkLayout (bls restGen) true (pk 1), popLayout (bls restGen) true (pop 1))] })

example {ε ε' δ : ℚ}
    (hε : ∀ i t l, ValidTime 32 t → l < 2 → solveChance (bls restGen) gen1 32 (roReduction
      (bls restGen) 0 32 (path 32 t) l (apiBet .release 32 t (codeLift Sha512.sha512 .release t (byteLower
        (bls restGen) (crowdOne (bls restGen) .release 32 i
          (scriptLower Sha512.sha512 Py.paramSeed realPlayer)))))) ≤ ε)
    (hε' : ∀ i t j, ValidTime 32 t → j < 1 * 34 + 3 → prfGain Sha512.sha512
      (prfAttack Sha512.sha512 (codeGame (bls restGen) .release gen1 32 0 (byteLower (bls restGen)
        (crowdOne (bls restGen) .release 32 i
          (scriptLower Sha512.sha512 Py.paramSeed realPlayer))) t) j) ≤ ε')
    (hδ : ∀ i, extractGain Sha512.sha512 (text "Pixel master key" ++ [0]) 32
      (startChance (bls restGen) .release gen1 32 0 (byteLower (bls restGen) (crowdOne (bls restGen)
        .release 32 i (scriptLower Sha512.sha512 Py.paramSeed realPlayer)))) ≤ δ) :
    scriptForgeChance (bls restGen) .release gen1 Py.paramSeed 32 0 32 2 realPlayer ≤
      (2 : Nat) * ((2 ^ 32 - 1) * ((2 : Nat) * ε + ((1 : Nat) * 34 + 3) * ε') + δ) + 1 / 2 ^ 70 :=
  (C87_real (R := restGen) (N := 2) rfl restGen_pairing (fun m c => tors_nsmul gen1_order _) .release
    (n := 32) (by omega) realPlayer
    (fun _ _ _ => by
      simp only [realPlayer, CrowdPlayer.Legal, List.length_cons, List.length_nil]
      exact fun _ _ _ => by decide +kernel) (m := 3)
    (fun _ _ _ => by
      simp only [realPlayer, CrowdPlayer.Points, List.length_cons, List.length_nil]
      exact ⟨by omega, fun _ _ _ => by omega⟩) (Q := 2)
    (fun _ _ _ => by
      simp only [realPlayer, CrowdPlayer.Hashes]
      exact fun _ => ⟨by omega, fun _ _ => by omega⟩) (u := 1)
    (fun i _ _ _ => by
      simp only [realPlayer, CrowdPlayer.Updates]
      intro _ _
      split
      · exact ⟨by omega, fun _ => trivial⟩
      · exact fun _ => trivial) (k := 33)
    (fun i _ _ _ => by
      simp only [realPlayer, CrowdPlayer.Scalars]
      intro _
      split
      · exact ⟨by omega, fun _ => ⟨by omega, fun _ => trivial⟩⟩
      · exact fun _ _ => trivial) hε hε' hδ).trans
    (C87_numbers (by norm_num) (by norm_num) (by norm_num) (by norm_num) 1 ε ε' δ)

/-- C87: a hash function with one value only, for which the strings are all the same -/
example : scriptForgeChance (ext fun _ => List.replicate 64 3) .debug ((1, 0) : G) [5] 5 1 32 2
    (sameForger (ext fun _ => List.replicate 64 3) 1 4 17 [9] [1]) = 1 :=
  C87_same_strings_break (E := ext fun _ => List.replicate 64 3) ⟨fun _ => List.length_replicate⟩
    (groupLaws _) (codecLaws _) .debug (g := ((1, 0) : G)) (by decide) (d := 5) (by omega) (by omega)
    (b := List.replicate 32 3)
    (by
      intro s hs
      obtain ⟨i, _, rfl⟩ := List.mem_map.1 hs
      unfold paramString hmac
      rfl) (cs := 1) (Or.inr rfl) (by omega) (by omega) (by omega) (by omega) (by decide +kernel) [9] [1]
    (by omega) 1

end Examples

end Pixel.Props
