import Verif.Spec.CallGame
import Verif.Proof.CGame

/-! # The game with all functions of the trait -/

namespace Pixel

open Spec Props

set_option linter.unusedSectionVars false

variable {G1 G2 GT : Type} [AddCommGroup G1] [AddCommGroup G2] [CommGroup GT] {N : Nat}

/-! ### the calls -/

theorem call_sign {sha : Bytes → Bytes} (hsha : ∀ m, (sha m).length = 64) (pf : Profile)
    {pp : PubParam G1 G2} (W : ParamShape pp) {alpha : G1} {t : Nat} {sk : SecretKey G1 G2}
    (h : KeyFor pp alpha t sk) (msg : Bytes) (M : Fr) :
    ∃ sig, signHashed sha pf pp sk msg M = .ok sig ∧ sig.time = sk.time := by
  obtain ⟨v, hv, hk⟩ := keyFor_iff.1 h
  obtain ⟨sig, a, h1, _, h3⟩ := Signature.signFr_eq W pf hk M (drawVal sha sk.prng (signInfo msg sk.time))
  refine ⟨sig, ?_, h3⟩
  unfold signHashed
  rw [sample_exec hsha]
  exact h1

theorem add64_next {pf : Profile} {d t : Nat} (hd : d ≤ 63) (h : t ≤ 2 ^ d - 1) :
    add64 pf t 1 = .ok (t + 1) := by
  have : 2 ^ d ≤ 2 ^ 63 := Nat.pow_le_pow_right (by omega) hd
  have h0 : 0 < 2 ^ d := Nat.pow_pos (by omega)
  unfold add64
  rw [if_pos (by omega)]
  cases pf
  · rfl
  · simp only [Res.ok.injEq]
    exact Nat.mod_eq_of_lt (by omega)

theorem signBytes_hashed {sha : Bytes → Bytes} (hsha : ∀ m, (sha m).length = 64) (pf : Profile)
    {pp : PubParam G1 G2} (hsup : Supported pp.ciphersuite) {alpha : G1} {t : Nat} {sk : SecretKey G1 G2}
    (h : KeyFor pp alpha t sk) (msg : Bytes) :
    Signature.signBytes sha pf sk sk.time pp msg =
      signHashed sha pf pp sk msg (msgField sha pp.ciphersuite msg) := by
  unfold Signature.signBytes signHashed
  simp only [validCiphersuite_contains.2 hsup, Bool.not_true, Bool.false_eq_true, if_false,
    h.suite, ne_eq, not_true_eq_false, decide_true, assertRes_true, Res.ok_bind]
  rw [sample_exec hsha]
  simp only [Res.ok_bind]
  rw [hashMsg_eq hsha, Res.ok_bind]

/-- a call with the hash of its message is the call of the code -/
theorem runHashed_eq {sha : Bytes → Bytes} (hsha : ∀ m, (sha m).length = 64) (pf : Profile)
    {pp : PubParam G1 G2} (W : ParamShape pp) (hsup : Supported pp.ciphersuite) {alpha : G1} {t : Nat}
    {sk : SecretKey G1 G2} (h : KeyFor pp alpha t sk) (c : Call) :
    c.run sha pf pp sk = c.runHashed sha pf pp (msgField sha pp.ciphersuite c.msg) sk := by
  cases c with
  | update tar seed =>
    simp only [Call.run, Call.runHashed]
    rcases SecretKey.update sha pf pp tar seed sk with ⟨⟨⟩ | e | e, sk'⟩ <;> rfl
  | sign tar msg seed =>
    simp only [Call.run, Call.runHashed, Call.msg]
    rcases Nat.lt_trichotomy sk.time tar with h1 | h1 | h1
    · rw [Signature.sign_future h1, if_neg (by omega), if_neg (by omega)]
      have ho := C15_update_outcome hsha pf W h tar seed
      by_cases hb : t < tar ∧ tar ≤ 2 ^ pp.depth - 1
      · rcases ho.2 hb with ⟨sk', e1, e2⟩ | ⟨e1, _⟩
        · rw [e1]
          simp only
          rw [show tar = sk'.time from e2.time.symm, signBytes_hashed hsha pf hsup e2]
        · rw [e1]; rfl
      · rw [ho.1 hb]; rfl
    · rw [Signature.sign_now h1, if_neg (by omega), if_pos h1.symm, ← h1,
        signBytes_hashed hsha pf hsup h]
    · rw [Signature.sign_past h1, if_pos h1]; rfl
  | signPresent tar msg =>
    simp only [Call.run, Call.runHashed, Call.msg]
    by_cases h1 : sk.time = tar
    · rw [Signature.signPresent_eq h1, if_pos h1.symm, ← h1, signBytes_hashed hsha pf hsup h]
    · rw [Signature.signPresent_ne h1, if_neg (Ne.symm h1)]; rfl
  | signThenUpdate tar msg seed =>
    simp only [Call.run, Call.runHashed, Call.msg]
    by_cases h1 : sk.time = tar
    · rw [Signature.signThenUpdate_eq h1, if_pos h1.symm, ← h1, signBytes_hashed hsha pf hsup h]
      rcases signHashed sha pf pp sk msg (msgField sha pp.ciphersuite msg) with s | e | e
      · rcases add64 pf sk.time 1 with m | e | e
        · simp only
          rcases SecretKey.update sha pf pp m seed sk with ⟨⟨⟩ | e | e, sk'⟩ <;> rfl
        · rfl
        · rfl
      · rfl
      · rfl
    · rw [Signature.signThenUpdate_ne h1, if_neg (Ne.symm h1)]; rfl

/-! ### the game -/

/-- every signer has a key for its time -/
def Alive (pp : PubParam G1 G2) (S : Fin N → CodeSigner G1 G2) (T : Fin N → Nat) : Prop :=
  ∀ i, ∃ alpha, KeyFor pp alpha (T i) (S i).sk

theorem Alive.update {pp : PubParam G1 G2} {S : Fin N → CodeSigner G1 G2} {T : Fin N → Nat}
    (h : Alive pp S T) (j : Fin N) {s : CodeSigner G1 G2} {t : Nat} {alpha : G1}
    (hs : KeyFor pp alpha t s.sk) : Alive pp (Function.update S j s) (Function.update T j t) := by
  intro i
  by_cases hi : i = j
  · subst hi
    simp only [Function.update_self]
    exact ⟨alpha, hs⟩
  · simp only [Function.update_of_ne hi]
    exact h i

theorem Alive.same {pp : PubParam G1 G2} {S : Fin N → CodeSigner G1 G2} {T : Fin N → Nat}
    (h : Alive pp S T) (j : Fin N) {s : CodeSigner G1 G2} (hs : s.sk = (S j).sk) :
    Alive pp (Function.update S j s) T := by
  obtain ⟨a, ha⟩ := h j
  have := h.update j (s := s) (t := T j) (by rw [hs]; exact ha)
  rwa [Function.update_eq_self] at this

theorem call_chance [DecidableEq GT] {E : Ext G1 G2 GT} (H : HashLaws E) {pf : Profile} {g : G1}
    {pp : PubParam G1 G2} (W : ParamShape pp) {pk : Fin N → PublicKey G2} (P : CallPlayer G1 G2 N)
    {S : Fin N → CodeSigner G1 G2} {T : Fin N → Nat} (hS : Alive pp S T) (tab : Table)
    (pts : Curve G1) :
    P.chance E pf g pp pk S tab pts = (P.lower pp.depth T).chance E pf g pp pk S tab pts := by
  induction P generalizing S T tab pts with
  | toss n hn next ih => exact avg_congr fun c => ih c hS tab pts
  | hash msg next ih => exact oracle_congr fun D tab' => ih _ hS tab' pts
  | curve q next ih => exact curveOracle_congr fun p pts' => ih p hS tab pts'
  | breakIn j next ih =>
    simp only [CallPlayer.lower, CallPlayer.chance, CrowdPlayer.chance]
    refine ih _ (hS.same j ?_) tab pts
    rfl
  | forge F => rfl
  | call j c next ih =>
    obtain ⟨alpha, hk⟩ := hS j
    have htime := hk.time
    have hself : Function.update S j { S j with sk := (S j).sk } = S := Function.update_eq_self j S
    -- the call is refused
    have hno : (∀ M, c.runHashed E.sha512 pf pp M (S j).sk = (.err .timeStamp, (S j).sk)) →
        (CallPlayer.call j c next).chance E pf g pp pk S tab pts =
          ((next (.err .timeStamp)).lower pp.depth T).chance E pf g pp pk S tab pts := by
      intro h
      simp only [CallPlayer.chance, h]
      rw [oracle_const, hself]
      exact ih _ hS tab pts
    -- a signature at the present time
    have hyes : (∀ M, c.runHashed E.sha512 pf pp M (S j).sk =
          (some <$> signHashed E.sha512 pf pp (S j).sk c.msg M, (S j).sk)) →
        (CallPlayer.call j c next).chance E pf g pp pk S tab pts =
          (CrowdPlayer.sign j c.msg fun s => (next (.ok (some s))).lower pp.depth T).chance E pf g pp pk
            S tab pts := by
      intro h
      simp only [CallPlayer.chance, CrowdPlayer.chance, h]
      refine oracle_congr fun D tab' => ?_
      obtain ⟨s, h1, h2⟩ := call_sign H.sha_len pf W hk c.msg D.field
      rw [h1]
      simp only [Res.map_ok]
      rw [h2]
      refine ih _ (hS.same j ?_) tab' pts
      rfl
    cases c with
    | update tar seed =>
      have ho := C15_update_outcome H.sha_len pf W hk tar seed
      simp only [CallPlayer.lower]
      by_cases ht : T j < tar ∧ tar ≤ 2 ^ pp.depth - 1
      · rw [if_pos ht]
        simp only [CallPlayer.chance, CrowdPlayer.chance, Call.runHashed]
        rcases ho.2 ht with ⟨sk', e1, e2⟩ | ⟨e1, _⟩
        · simp only [e1]
          rw [oracle_const]
          exact ih _ (hS.update j e2) tab pts
        · simp only [e1]
          rw [oracle_const]
      · rw [if_neg ht]
        refine hno fun M => ?_
        simp only [Call.runHashed, ho.1 ht]
    | signPresent tar msg =>
      simp only [CallPlayer.lower]
      by_cases ht : T j = tar
      · rw [if_pos ht]
        exact hyes fun M => by simp only [Call.runHashed, htime, ht, if_true, Call.msg]
      · rw [if_neg ht]
        exact hno fun M => by simp only [Call.runHashed, htime, Ne.symm ht, if_false]
    | sign tar msg seed =>
      have ho := C15_update_outcome H.sha_len pf W hk tar seed
      simp only [CallPlayer.lower]
      by_cases ht : T j = tar
      · rw [if_pos ht]
        exact hyes fun M => by simp only [Call.runHashed, htime, ht, if_true, Call.msg, lt_irrefl, if_false]
      · rw [if_neg ht]
        by_cases hb : T j < tar ∧ tar ≤ 2 ^ pp.depth - 1
        · rw [if_pos hb]
          simp only [CallPlayer.chance, CrowdPlayer.chance, Call.runHashed, htime, Ne.symm ht, if_false,
            show ¬ tar < T j by omega, Call.msg]
          rcases ho.2 hb with ⟨sk', e1, e2⟩ | ⟨e1, _⟩
          · simp only [e1, Function.update_self]
            refine oracle_congr fun D tab' => ?_
            obtain ⟨s, h1, h2⟩ := call_sign H.sha_len pf W e2 msg D.field
            rw [h1]
            simp only [Res.map_ok, Function.update_idem]
            rw [h2]
            exact ih _ (hS.update j e2) tab' pts
          · simp only [e1]
            rw [oracle_const]
        · rw [if_neg hb]
          refine hno fun M => ?_
          simp only [Call.runHashed, htime, ho.1 hb, Ne.symm ht, if_false]
          split <;> rfl
    | signThenUpdate tar msg seed =>
      have ho := C15_update_outcome H.sha_len pf W hk (tar + 1) seed
      simp only [CallPlayer.lower]
      by_cases ht : T j = tar
      · subst ht
        have hval : T j ≤ 2 ^ pp.depth - 1 := hk.valid.2
        have ha := add64_next (pf := pf) W.depth_le hval
        by_cases hb : T j + 1 ≤ 2 ^ pp.depth - 1
        · rw [if_pos ⟨rfl, hb⟩]
          simp only [CallPlayer.chance, CrowdPlayer.chance, Call.runHashed, htime, if_true, Call.msg]
          refine oracle_congr fun D tab' => ?_
          obtain ⟨s, h1, h2⟩ := call_sign H.sha_len pf W hk msg D.field
          simp only [h1, ha, Function.update_self]
          rcases ho.2 ⟨by omega, hb⟩ with ⟨sk', e1, e2⟩ | ⟨e1, _⟩
          · simp only [e1, Function.update_idem]
            rw [h2, htime]
            exact ih _ (hS.update j e2) tab' pts
          · simp only [e1]
        · rw [if_neg fun h => hb h.2]
          refine hno fun M => ?_
          obtain ⟨s, h1, h2⟩ := call_sign H.sha_len pf W hk msg M
          simp only [Call.runHashed, htime, if_true, h1, ha, ho.1 fun h => hb h.2]
      · rw [if_neg fun h => ht h.1]
        exact hno fun M => by simp only [Call.runHashed, htime, Ne.symm ht, if_false]

/-- the games agree if the adversaries do as long as the signers have keys for time 1 -/
theorem call_games [DecidableEq GT] {E : Ext G1 G2 GT} (H : HashLaws E) (L : GroupLaws E) (pf : Profile)
    {g : G1} (hsub : E.inSub1 g = true) {seed : Bytes} {d : Nat} (hd : 1 ≤ d) (hd' : d ≤ 63) {cs : UInt8}
    (hsup : Supported cs) {n : Nat} (hn : 32 ≤ n)
    (A : PubParam G1 G2 → (Fin N → PublicKey G2) → (Fin N → ProofOfPossession G1) →
      CallPlayer G1 G2 N)
    (B : PubParam G1 G2 → (Fin N → PublicKey G2) → (Fin N → ProofOfPossession G1) →
      CrowdPlayer G1 G2 N)
    (h : ∀ pp pk pop S pts, pp.depth = d → ParamShape pp → Alive pp S (fun _ => 1) →
      (A pp pk pop).chance E pf g pp pk S [] pts = (B pp pk pop).chance E pf g pp pk S [] pts) :
    callForgeChance E pf g seed d cs n N A = scriptForgeChance E pf g seed d cs n N B := by
  unfold callForgeChance scriptForgeChance
  refine curveOracles_sub L hsub _ (fun i p h => by cases h) fun pts0 hp0 => ?_
  obtain ⟨pp, e1, e2⟩ := (C65_generation { E with hashToG1 := pts0.hash } seed cs d).1 (by omega)
  rw [e1]
  simp only
  have W0 : ParamWF { E with hashToG1 := pts0.hash } pp :=
    C65_well_formed (group_with L E.defaultParam (hp0.hash L)) hd hd' e2
  have W : ParamWF E pp :=
    { W0.toParamShape with
      hlist_sub := W0.hlist_sub
      h_sub := W0.h_sub
      g2_gen := W0.g2_gen }
  have hcs : Supported pp.ciphersuite := by rw [e2.suite]; exact hsup
  refine avg_congr fun s => ?_
  have hl : ∀ k, 32 ≤ (s k).bytes.length := by
    intro k; unfold Seed.bytes; rw [natToBE_length]; exact hn
  have hkg := fun k => keygen_all H W.toParamShape W.g2_gen (hl k) hcs
  choose x pr sk hin hk using hkg
  have hk0 : ∀ k, keygen E (s k).bytes pp = _ := fun k => hk k E.hashToG1
  have hkey : ∀ k, KeyFor pp ((x k).val • pp.h) 1 (sk k) := by
    intro k
    obtain ⟨sk', h1, h2, _⟩ := init_keyAs H L W hcs (x k) (pr k)
    have := Res.ok.inj ((hin k).symm.trans h1)
    subst this
    exact h2.keyFor
  rw [if_pos fun k => ⟨_, hk0 k⟩, if_pos fun k => ⟨_, hk0 k⟩]
  refine congrArg _ (funext fun pts => ?_)
  have hb : ∀ k, born { E with hashToG1 := pts.hash } pp (s k).bytes = _ :=
    fun k => born_eq (hk k pts.hash)
  simp only [hb]
  exact h _ _ _ _ pts e2.depth W.toParamShape fun k => ⟨_, hkey k⟩

/-- the game with the functions of the trait is the game with the parameters of the script -/
theorem call_eq [DecidableEq GT] {E : Ext G1 G2 GT} (H : HashLaws E) (L : GroupLaws E) (pf : Profile)
    {g : G1} (hsub : E.inSub1 g = true) {seed : Bytes} {d : Nat} (hd : 1 ≤ d) (hd' : d ≤ 63) {cs : UInt8}
    (hsup : Supported cs) {n : Nat} (hn : 32 ≤ n)
    (A : PubParam G1 G2 → (Fin N → PublicKey G2) → (Fin N → ProofOfPossession G1) →
      CallPlayer G1 G2 N) :
    callForgeChance E pf g seed d cs n N A = scriptForgeChance E pf g seed d cs n N (callLower d A) :=
  call_games H L pf hsub hd hd' hsup hn A _ fun pp pk pop S pts e W hS => by
    subst e
    exact call_chance H W _ hS [] pts

theorem raise_chance [DecidableEq GT] {E : Ext G1 G2 GT} (H : HashLaws E) {pf : Profile} {g : G1}
    {pp : PubParam G1 G2} (W : ParamShape pp) {pk : Fin N → PublicKey G2} (P : CrowdPlayer G1 G2 N)
    {S : Fin N → CodeSigner G1 G2} {T : Fin N → Nat} (hS : Alive pp S T) (tab : Table)
    (pts : Curve G1) :
    (P.raise pp.depth T).chance E pf g pp pk S tab pts = P.chance E pf g pp pk S tab pts := by
  induction P generalizing S T tab pts with
  | toss n hn next ih => exact avg_congr fun c => ih c hS tab pts
  | hash msg next ih => exact oracle_congr fun D tab' => ih _ hS tab' pts
  | curve q next ih => exact curveOracle_congr fun p pts' => ih p hS tab pts'
  | breakIn j next ih =>
    simp only [CrowdPlayer.raise, CallPlayer.chance, CrowdPlayer.chance]
    refine ih _ (hS.same j ?_) tab pts
    rfl
  | forge F => rfl
  | sign j msg next ih =>
    obtain ⟨alpha, hk⟩ := hS j
    simp only [CrowdPlayer.raise, CallPlayer.chance, CrowdPlayer.chance, Call.runHashed, hk.time, if_true,
      Call.msg]
    refine oracle_congr fun D tab' => ?_
    obtain ⟨s, h1, h2⟩ := call_sign H.sha_len pf W hk msg D.field
    rw [h1]
    simp only [Res.map_ok]
    rw [h2, hk.time]
    refine ih _ (hS.same j ?_) tab' pts
    rfl
  | update j tar seed next ih =>
    obtain ⟨alpha, hk⟩ := hS j
    have ho := C15_update_outcome H.sha_len pf W hk tar seed
    simp only [CrowdPlayer.raise, CallPlayer.chance, CrowdPlayer.chance, Call.runHashed, Call.msg]
    by_cases ht : T j < tar ∧ tar ≤ 2 ^ pp.depth - 1
    · rw [if_pos ht]
      rcases ho.2 ht with ⟨sk', e1, e2⟩ | ⟨e1, _⟩
      · simp only [e1]
        rw [oracle_const]
        exact ih (hS.update j e2) tab pts
      · simp only [e1]
        rw [oracle_const]
    · rw [if_neg ht]
      simp only [ho.1 ht]
      rw [oracle_const]
      refine ih (hS.same j ?_) tab pts
      rfl

/-- and the other way round -/
theorem raise_eq [DecidableEq GT] {E : Ext G1 G2 GT} (H : HashLaws E) (L : GroupLaws E) (pf : Profile)
    {g : G1} (hsub : E.inSub1 g = true) {seed : Bytes} {d : Nat} (hd : 1 ≤ d) (hd' : d ≤ 63) {cs : UInt8}
    (hsup : Supported cs) {n : Nat} (hn : 32 ≤ n)
    (B : PubParam G1 G2 → (Fin N → PublicKey G2) → (Fin N → ProofOfPossession G1) →
      CrowdPlayer G1 G2 N) :
    callForgeChance E pf g seed d cs n N (callRaise d B) = scriptForgeChance E pf g seed d cs n N B :=
  call_games H L pf hsub hd hd' hsup hn _ B fun pp pk pop S pts e W hS => by
    subst e
    exact raise_chance H W _ hS [] pts

/-! ### what the adversary does -/

theorem call_lower_legal (d : Nat) (P : CallPlayer G1 G2 N) (h : P.Legal) (T : Fin N → Nat) :
    (P.lower d T).Legal := by
  induction P generalizing T with
  | toss n hn next ih => exact fun c => ih c (h c) T
  | hash msg next ih => exact fun b => ih b (h b) T
  | curve q next ih => exact fun p => ih p (h p) T
  | breakIn j next ih => exact fun sk => ih _ (h _) T
  | forge F => exact h
  | call j c next ih =>
    have h' : ∀ o T, ((next o).lower d T).Legal := fun o T => ih o (h o) T
    cases c <;> simp only [CallPlayer.lower] <;> (repeat' split) <;>
      simp only [CrowdPlayer.Legal, h', implies_true]

theorem call_lower_points (d : Nat) (P : CallPlayer G1 G2 N) {k : Nat} (h : P.Points k)
    (T : Fin N → Nat) : (P.lower d T).Points k := by
  induction P generalizing T k with
  | toss n hn next ih => exact fun c => ih c (h c) T
  | hash msg next ih => exact fun b => ih b (h b) T
  | curve q next ih => exact ⟨h.1, fun p => ih p (h.2 p) T⟩
  | breakIn j next ih => exact fun sk => ih _ (h _) T
  | forge F => exact h
  | call j c next ih =>
    have h' : ∀ o T, ((next o).lower d T).Points k := fun o T => ih o (h o) T
    cases c <;> simp only [CallPlayer.lower] <;> (repeat' split) <;>
      simp only [CrowdPlayer.Points, h', implies_true]

theorem Spec.CallPlayer.Hashes.mono {P : CallPlayer G1 G2 N} {k k' : Nat} (h : P.Hashes k) (hk : k ≤ k') :
    P.Hashes k' := by
  induction P generalizing k k' with
  | toss n hn next ih => exact fun c => ih c (h c) hk
  | hash msg next ih => exact ⟨lt_of_lt_of_le h.1 hk, fun b => ih b (h.2 b) (by omega)⟩
  | curve q next ih => exact fun p => ih p (h p) hk
  | breakIn j next ih => exact fun sk => ih _ (h _) hk
  | forge F => exact lt_of_lt_of_le h hk
  | call j c next ih => exact ⟨h.1.trans hk, fun o => ih o (h.2 o) (by omega)⟩

theorem Spec.CallPlayer.Updates.mono {i : Fin N} {P : CallPlayer G1 G2 N} {k k' : Nat} (h : P.Updates i k)
    (hk : k ≤ k') : P.Updates i k' := by
  induction P generalizing k k' with
  | toss n hn next ih => exact fun c => ih c (h c) hk
  | hash msg next ih => exact fun b => ih b (h b) hk
  | curve q next ih => exact fun p => ih p (h p) hk
  | breakIn j next ih => exact fun sk => ih _ (h _) hk
  | forge F => trivial
  | call j c next ih =>
    simp only [CallPlayer.Updates] at h ⊢
    by_cases hj : j = i
    · rw [if_pos hj] at h ⊢
      exact ⟨h.1.trans hk, fun o => ih o (h.2 o) (by omega)⟩
    · rw [if_neg hj] at h ⊢
      exact fun o => ih o (h o) hk

theorem Spec.CallPlayer.Scalars.mono {i : Fin N} {d : Nat} {P : CallPlayer G1 G2 N} {k k' : Nat}
    (h : P.Scalars i d k) (hk : k ≤ k') : P.Scalars i d k' := by
  induction P generalizing k k' with
  | toss n hn next ih => exact fun c => ih c (h c) hk
  | hash msg next ih => exact fun b => ih b (h b) hk
  | curve q next ih => exact fun p => ih p (h p) hk
  | breakIn j next ih => exact fun sk => ih _ (h _) hk
  | forge F => trivial
  | call j c next ih =>
    simp only [CallPlayer.Scalars] at h ⊢
    by_cases hj : j = i
    · rw [if_pos hj] at h ⊢
      exact ⟨h.1.trans hk, fun o => ih o (h.2 o) (by omega)⟩
    · rw [if_neg hj] at h ⊢
      exact fun o => ih o (h o) hk

theorem call_lower_hashes (d : Nat) (P : CallPlayer G1 G2 N) {k : Nat} (h : P.Hashes k)
    (T : Fin N → Nat) : (P.lower d T).Hashes k := by
  induction P generalizing T k with
  | toss n hn next ih => exact fun c => ih c (h c) T
  | hash msg next ih => exact ⟨h.1, fun b => ih b (h.2 b) T⟩
  | curve q next ih => exact fun p => ih p (h p) T
  | breakIn j next ih => exact fun sk => ih _ (h _) T
  | forge F => exact h
  | call j c next ih =>
    have h0 := h.1
    have h1 : ∀ o T, ((next o).lower d T).Hashes (k - c.hashes) := fun o T => ih o (h.2 o) T
    have h2 : ∀ o T, ((next o).lower d T).Hashes k := fun o T =>
      ih o ((h.2 o).mono (Nat.sub_le _ _)) T
    cases c <;> simp only [Call.hashes] at h0 h1 <;> simp only [CallPlayer.lower] <;>
      (repeat' split) <;> simp only [CrowdPlayer.Hashes, h1, h2, implies_true, and_true] <;> exact h0

theorem call_lower_updates (d : Nat) (i : Fin N) (P : CallPlayer G1 G2 N) {k : Nat} (h : P.Updates i k)
    (T : Fin N → Nat) : (P.lower d T).Updates i k := by
  induction P generalizing T k with
  | toss n hn next ih => exact fun c => ih c (h c) T
  | hash msg next ih => exact fun b => ih b (h b) T
  | curve q next ih => exact fun p => ih p (h p) T
  | breakIn j next ih => exact fun sk => ih _ (h _) T
  | forge F => trivial
  | call j c next ih =>
    simp only [CallPlayer.Updates] at h
    by_cases hj : j = i
    · rw [if_pos hj] at h
      have h0 := h.1
      have h1 : ∀ o T, ((next o).lower d T).Updates i (k - c.updates) := fun o T => ih o (h.2 o) T
      have h2 : ∀ o T, ((next o).lower d T).Updates i k := fun o T =>
        ih o ((h.2 o).mono (Nat.sub_le _ _)) T
      cases c <;> simp only [Call.updates] at h0 h1 <;> simp only [CallPlayer.lower] <;>
        (repeat' split) <;>
        simp only [CrowdPlayer.Updates, hj, if_true, h1, h2, implies_true, and_true] <;> first | exact h0 | exact fun _ => h0
    · rw [if_neg hj] at h
      have h2 : ∀ o T, ((next o).lower d T).Updates i k := fun o T => ih o (h o) T
      cases c <;> simp only [CallPlayer.lower] <;> (repeat' split) <;>
        simp only [CrowdPlayer.Updates, hj, if_false, h2, implies_true]

theorem call_lower_scalars (d : Nat) (i : Fin N) (P : CallPlayer G1 G2 N) {k : Nat}
    (h : P.Scalars i d k) (T : Fin N → Nat) : (P.lower d T).Scalars i d k := by
  induction P generalizing T k with
  | toss n hn next ih => exact fun c => ih c (h c) T
  | hash msg next ih => exact fun b => ih b (h b) T
  | curve q next ih => exact fun p => ih p (h p) T
  | breakIn j next ih => exact fun sk => ih _ (h _) T
  | forge F => trivial
  | call j c next ih =>
    simp only [CallPlayer.Scalars] at h
    by_cases hj : j = i
    · rw [if_pos hj] at h
      have h0 := h.1
      have h1 : ∀ o T k', k - c.scalars d ≤ k' → ((next o).lower d T).Scalars i d k' := fun o T k' hk =>
        ih o ((h.2 o).mono hk) T
      have h2 : ∀ o T, ((next o).lower d T).Scalars i d k := fun o T => h1 o T k (Nat.sub_le _ _)
      cases c <;> simp only [Call.scalars] at h0 h1 <;> simp only [CallPlayer.lower] <;>
        (repeat' split) <;>
        simp only [CrowdPlayer.Scalars, hj, if_true, h2] <;>
        (repeat' constructor) <;> first
          | omega
          | exact fun s => h1 _ _ _ (by omega)
          | exact h1 _ _ _ (by omega)
          | exact fun s => ⟨by omega, h1 _ _ _ (by omega)⟩
    · rw [if_neg hj] at h
      have h2 : ∀ o T, ((next o).lower d T).Scalars i d k := fun o T => ih o (h o) T
      cases c <;> simp only [CallPlayer.lower] <;> (repeat' split) <;>
        simp only [CrowdPlayer.Scalars, hj, if_false, h2, implies_true]

end Pixel
