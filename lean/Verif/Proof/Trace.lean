import Verif.Spec.Trace
import Verif.Proof.Prng
import Verif.Proof.Memory
import Verif.Spec.Laws

/-! # Helper lemmas: the recorded functions compute the same, and alike runs look alike -/

set_option linter.unusedSectionVars false

namespace Pixel.Trace

open Pixel Spec

variable {G1 G2 GT : Type} [AddCommGroup G1] [AddCommGroup G2] [CommGroup GT]

/-! ## forgetting the record -/

/-- the function without its record -/
def TS.forget {σ α : Type} (x : TS σ α) : SM σ α := ⟨fun s => (x s).1⟩

section forget

variable {σ α β : Type}

@[simp] theorem out_pure (a : α) : (pure a : TR α).out = .ok a := rfl

@[simp] theorem out_bind (x : TR α) (f : α → TR β) :
    (x >>= f).out = (x.out >>= fun a => (f a).out) := by
  change (TR.bind x f).out = _
  unfold TR.bind
  cases x.out <;> rfl

@[simp] theorem out_tick (e : Ev) : (TR.tick e).out = .ok () := rfl

@[simp] theorem out_res (x : Res α) : (TR.res x).out = x := rfl

@[simp] theorem out_fail (e : Err) (t : String) (l : List Nat) :
    (TR.fail e t l : TR α).out = .err e := rfl

@[simp] theorem out_sayErr (t : String) (x : Res α) : (sayErr t x).out = x := by cases x <;> rfl

@[simp] theorem out_ite (c : Prop) [Decidable c] (x y : TR α) :
    (if c then x else y).out = if c then x.out else y.out := by split <;> rfl

@[simp] theorem out_foldlM (f : β → α → TR β) (b : β) (l : List α) :
    (l.foldlM f b).out = l.foldlM (fun b a => (f b a).out) b := by
  induction l generalizing b with
  | nil => rfl
  | cons a l ih => simp only [List.foldlM_cons, out_bind, ih]

theorem bind_assoc' {γ : Type} (x : TR α) (f : α → TR β) (g : β → TR γ) :
    (x >>= f) >>= g = x >>= fun a => f a >>= g := by
  rcases x with ⟨o, t⟩
  cases o with
  | ok a =>
    change TR.bind (TR.bind _ _) _ = TR.bind _ (fun a => TR.bind _ _)
    unfold TR.bind
    simp only
    rcases (f a) with ⟨o', t'⟩
    cases o' <;> simp
  | err e => rfl
  | panic p => rfl

instance : LawfulMonad TR := LawfulMonad.mk'
  (id_map := fun x => by
    rcases x with ⟨o, t⟩
    cases o <;> simp [Functor.map, TR.bind])
  (pure_bind := fun a f => by
    change TR.bind ⟨.ok a, []⟩ f = _
    simp [TR.bind])
  (bind_assoc := fun x f g => bind_assoc' x f g)

theorem out_mapM_pure {γ : Type} {f : α → TR γ} {g : α → γ} (h : ∀ a, (f a).out = .ok (g a))
    (l : List α) : (l.mapM f).out = .ok (l.map g) := by
  induction l with
  | nil => simp
  | cons a l ih => rw [List.mapM_cons, out_bind, h, Res.ok_bind, out_bind, ih]; rfl

@[simp] theorem forget_pure (a : α) : (pure a : TS σ α).forget = pure a := rfl

@[simp] theorem forget_bind (x : TS σ α) (f : α → TS σ β) :
    (x >>= f).forget = (x.forget >>= fun a => (f a).forget) := by
  refine SM.ext' fun s => ?_
  change (TS.bind x f s).1 = SM.bind x.forget (fun a => (f a).forget) s
  unfold TS.bind SM.bind TS.forget
  rcases h : x s with ⟨⟨r, s'⟩, t⟩
  cases r <;> simp [h]

@[simp] theorem forget_get : (TS.get : TS σ σ).forget = SM.get := rfl
@[simp] theorem forget_set (s : σ) : (TS.set s).forget = SM.set s := rfl
@[simp] theorem forget_lift (x : TR α) : (TS.lift x : TS σ α).forget = SM.lift x.out := rfl
@[simp] theorem forget_err (e : Err) : (TS.err e : TS σ α).forget = SM.err e := rfl

@[simp] theorem forget_ite (c : Prop) [Decidable c] (x y : TS σ α) :
    (if c then x else y).forget = if c then x.forget else y.forget := by split <;> rfl

@[simp] theorem forget_forM (f : α → TS σ PUnit) (l : List α) :
    (l.forM f).forget = l.forM (fun a => (f a).forget) := by
  induction l with
  | nil => rfl
  | cons a l ih =>
    change (f a >>= fun _ => l.forM f).forget = ((f a).forget >>= fun _ => l.forM _)
    rw [forget_bind, ih]

@[simp] theorem out_exec (x : TS σ α) (s : σ) : (x.exec s).out = x.forget.exec s := rfl

end forget

@[simp] theorem out_branch (b : Bool) : (branch b).out = .ok b := rfl
@[simp] theorem out_check (b : Bool) : (check b).out = assertRes b := by simp [check]
@[simp] theorem out_idx {α : Type} (l : List α) (i : Nat) : (idx l i).out = Pixel.idx l i := by
  simp [idx]
@[simp] theorem out_vecInsert {α : Type} (l : List α) (i : Nat) (x : α) :
    (vecInsert l i x).out = Pixel.vecInsert l i x := by simp [vecInsert]
@[simp] theorem out_removeFirst {α : Type} (l : List α) :
    (removeFirst l).out = Pixel.removeFirst l := by simp [removeFirst]
@[simp] theorem out_mul {G : Type} [AddMonoid G] (r : Fr) (p : G) :
    (mul r p).out = .ok (mulFr r p) := rfl
@[simp] theorem out_add {G : Type} [Add G] (p q : G) : (add p q).out = .ok (p + q) := rfl
@[simp] theorem out_timeVec (pf : Profile) (t d : Nat) :
    (timeVec pf t d).out = TimeVec.init pf t d := by simp [timeVec]
@[simp] theorem out_extract (sha : Bytes → Bytes) (salt ikm : Bytes) :
    (extract sha salt ikm).out = .ok (hkdfExtract sha salt ikm) := rfl
@[simp] theorem out_expand (sha : Bytes → Bytes) (prk info : Bytes) (n : Nat) :
    (expand sha prk info n).out = expandAsserted sha prk info n := by simp [expand]
@[simp] theorem out_slice (b : Bytes) (i j : Nat) : (slice b i j).out = Pixel.slice b i j := by
  simp [slice]
@[simp] theorem out_prngEq (a b : Prng) : (prngEq a b).out = .ok (a.eq b) := rfl
@[simp] theorem out_gammaList (pf : Profile) (v : TimeVec) (d : Nat) :
    (gammaList pf v d).out = v.gammaList pf d := by simp [gammaList]

theorem bind_of {α β : Type} {x : TR α} {a : α} {t : List Ev} (h : x = ⟨.ok a, t⟩)
    (f : α → TR β) : (x >>= f) = ⟨(f a).out, t ++ (f a).trace⟩ := by
  subst h; rfl

theorem bind_cons {α β : Type} {x : TR α} {a : α} {e : Ev} {f : α → TR β} {y : Res β}
    {u : List Ev} (h : x = ⟨.ok a, [e]⟩) (h2 : f a = ⟨y, u⟩) : (x >>= f) = ⟨y, e :: u⟩ := by
  rw [bind_of h, h2]; rfl

theorem slice_of {b o : Bytes} {i j : Nat} (h : Pixel.slice b i j = .ok o) :
    slice b i j = ⟨.ok o, [.call "slice" [b.length, i, j]]⟩ := by
  unfold slice
  rw [h]; rfl

/-- the record of `os2ip_mod_p` -/
def os2ipTrace (n : Nat) : List Ev :=
  [.branch true, .call "mod" [n], .call "slice" [64, 0, 32], .branch true,
    .call "slice" [64, 56, 64], .call "slice" [64, 48, 56], .call "slice" [64, 40, 48],
    .call "slice" [64, 32, 40], .branch true]

theorem fromBytes64_of {B Z B0 B1 B2 B3 : Bytes} {v : Fr} (l : B.length = 64)
    (s0 : Pixel.slice B 0 32 = .ok Z) (hz : (Z == List.replicate 32 0) = true)
    (s4 : Pixel.slice B 56 64 = .ok B0) (s1 : Pixel.slice B 48 56 = .ok B1)
    (s2 : Pixel.slice B 40 48 = .ok B2) (s3 : Pixel.slice B 32 40 = .ok B3)
    (hf : frFromRepr (beNat B0) (beNat B1) (beNat B2) (beNat B3) = some v) :
    fromBytes64 B = ⟨.ok v, [.call "slice" [64, 0, 32], .branch true,
      .call "slice" [64, 56, 64], .call "slice" [64, 48, 56], .call "slice" [64, 40, 48],
      .call "slice" [64, 32, 40], .branch true]⟩ := by
  unfold fromBytes64
  refine bind_cons (l ▸ slice_of s0) (bind_cons (a := ()) (by rw [hz]; rfl)
    (bind_cons (l ▸ slice_of s4) (bind_cons (l ▸ slice_of s1) (bind_cons (l ▸ slice_of s2)
    (bind_cons (l ▸ slice_of s3) ?_)))))
  rw [hf]
  rfl

theorem os2ipModP_of {b : Bytes} (h : b.length ≤ 64) :
    os2ipModP b = ⟨.ok ((beNat b : Nat) : Fr), os2ipTrace b.length⟩ := by
  obtain ⟨t, ht⟩ : ∃ t, t = beNat b % rOrder := ⟨_, rfl⟩
  have htr : t < rOrder := ht ▸ Nat.mod_lt _ (Nat.pos_of_ne_zero (NeZero.ne _))
  have ht32 : t < 256 ^ 32 := lt_trans htr rOrder_lt
  have e64 : natToBE 64 t = natToBE 32 (t / 256 ^ 32) ++ natToBE 32 t := natToBE_add 32 32 t
  have ez : natToBE 32 (t / 256 ^ 32) = List.replicate 32 0 :=
    natToBE_small _ _ (Nat.div_eq_of_lt ht32)
  have e32 : natToBE 32 t = natToBE 8 (t / 256 ^ 24) ++ natToBE 24 t := natToBE_add 8 24 t
  have e24 : natToBE 24 t = natToBE 8 (t / 256 ^ 16) ++ natToBE 16 t := natToBE_add 8 16 t
  have e16 : natToBE 16 t = natToBE 8 (t / 256 ^ 8) ++ natToBE 8 t := natToBE_add 8 8 t
  rw [ez] at e64
  have l8 : ∀ n, (natToBE 8 n).length = 8 := natToBE_length 8
  have s0 : Pixel.slice (natToBE 64 t) 0 32 = .ok (List.replicate 32 0) :=
    slice_mid' (a := []) (c := natToBE 32 t) (by rw [e64, List.nil_append]) List.length_nil
      (by rw [List.length_nil, List.length_replicate])
  have s3 : Pixel.slice (natToBE 64 t) 32 40 = .ok (natToBE 8 (t / 256 ^ 24)) :=
    slice_mid' (a := List.replicate 32 0) (c := natToBE 24 t) (by rw [e64, e32]) (by simp)
      (by simp [l8])
  have s2 : Pixel.slice (natToBE 64 t) 40 48 = .ok (natToBE 8 (t / 256 ^ 16)) :=
    slice_mid' (a := List.replicate 32 0 ++ natToBE 8 (t / 256 ^ 24)) (c := natToBE 16 t)
      (by rw [e64, e32, e24]; simp only [List.append_assoc]) (by simp [l8]) (by simp [l8])
  have s1 : Pixel.slice (natToBE 64 t) 48 56 = .ok (natToBE 8 (t / 256 ^ 8)) :=
    slice_mid' (a := List.replicate 32 0 ++ natToBE 8 (t / 256 ^ 24) ++ natToBE 8 (t / 256 ^ 16))
      (c := natToBE 8 t)
      (by rw [e64, e32, e24, e16]; simp only [List.append_assoc]) (by simp [l8]) (by simp [l8])
  have s4 : Pixel.slice (natToBE 64 t) 56 64 = .ok (natToBE 8 t) :=
    slice_mid' (a := List.replicate 32 0 ++ natToBE 8 (t / 256 ^ 24) ++ natToBE 8 (t / 256 ^ 16)
      ++ natToBE 8 (t / 256 ^ 8)) (c := [])
      (by rw [e64, e32, e24, e16]; simp only [List.append_assoc, List.append_nil])
      (by simp [l8]) (by simp [l8])
  have hf : frFromRepr (beNat (natToBE 8 t)) (beNat (natToBE 8 (t / 256 ^ 8)))
      (beNat (natToBE 8 (t / 256 ^ 16))) (beNat (natToBE 8 (t / 256 ^ 24))) =
        some ((beNat b : Nat) : Fr) := by
    rw [beNat_natToBE, beNat_natToBE, beNat_natToBE, beNat_natToBE,
      frFromRepr_eq (limbs_eq ht32) htr, ht, ZMod.natCast_mod]
  have key := fromBytes64_of (natToBE_length 64 t) s0 (beq_self_eq_true _) s4 s1 s2 s3 hf
  have e : os2ipModP b = (check (decide (b.length ≤ 64)) >>= fun _ =>
      TR.tick (.call "mod" [b.length]) >>= fun _ => fromBytes64 (natToBE 64 t)) := by
    unfold os2ipModP
    simp only [rOrder_eq]
    rw [ht]
  rw [e, decide_eq_true h, key]
  rfl

@[simp] theorem out_os2ipModP (b : Bytes) : (os2ipModP b).out = Pixel.os2ipModP b := by
  by_cases h : b.length ≤ 64
  · rw [os2ipModP_of h, os2ipModP_eq h]
  · unfold os2ipModP Pixel.os2ipModP
    simp only [h, decide_false]
    rfl

@[simp] theorem out_prngInit (sha : Bytes → Bytes) (seed salt : Bytes) :
    (prngInit sha seed salt).out = Prng.init sha seed salt := by
  simp only [prngInit, Prng.init, out_bind, out_extract, out_slice, out_res, Res.ok_bind, out_pure]

@[simp] theorem forget_sampleThenUpdate (sha : Bytes → Bytes) (info : Bytes) :
    (sampleThenUpdate sha info).forget = Prng.sampleThenUpdate sha info := by
  simp [sampleThenUpdate, Prng.sampleThenUpdate]

@[simp] theorem forget_sample (sha : Bytes → Bytes) (info : Bytes) :
    (sample sha info).forget = Prng.sample sha info := by
  simp [sample, Prng.sample]

@[simp] theorem forget_rerandomize (sha : Bytes → Bytes) (seed info : Bytes) :
    (rerandomize sha seed info).forget = Prng.rerandomize sha seed info := by
  simp only [rerandomize, Prng.rerandomize, forget_bind, forget_get, forget_lift, out_expand,
    out_slice, out_extract, out_res, forget_set, forget_lift]
  rfl

@[simp] theorem out_doubleIf (b : Bool) (x : G1) :
    (doubleIf b x).out = .ok (if b = true then x + x else x) := by
  cases b <;> rfl

theorem out_nodeSum (hlist : List G1) (tv : List Nat) (h0 : G1) :
    (nodeSum hlist tv h0).out = (List.range tv.length).foldlM (fun tmp3 i => do
      let tmp2 ← Pixel.idx hlist (i + 1)
      let ti ← Pixel.idx tv i
      let tmp2 := if ti = 2 then tmp2 + tmp2 else tmp2
      Res.ok (tmp3 + tmp2)) h0 := by
  unfold nodeSum
  rw [out_foldlM]
  congr 1; funext a i
  simp only [out_bind, out_idx, out_branch, Res.ok_bind, out_doubleIf, out_add, decide_eq_true_eq]

@[simp] theorem out_sskInit (pp : PubParam G1 G2) (alpha : G1) (r : Fr) :
    (sskInit pp alpha r).out = SubSecretKey.init pp alpha r := by
  unfold sskInit SubSecretKey.init
  simp only [out_bind, out_mul, out_idx, out_add, Res.ok_bind, out_pure,
    out_mapM_pure (out_mul r)]

@[simp] theorem forget_randomization (pf : Profile) (pp : PubParam G1 G2) (r : Fr) :
    (randomization pf pp r).forget = SubSecretKey.randomization pf pp r := by
  unfold randomization SubSecretKey.randomization
  simp only [forget_bind, forget_get, forget_lift, out_mul,
    out_add, forget_set, out_timeVec, out_idx, out_nodeSum, forget_forM, SubSecretKey.timeVec]
  rfl

theorem _root_.Pixel.SM.lift_err {σ α : Type} (e : Err) : (SM.lift (Res.err e) : SM σ α) = SM.err e := rfl

theorem _root_.Pixel.SM.lift_ok {σ α β : Type} (a : α) (f : α → SM σ β) :
    (SM.lift (Res.ok a) >>= f) = f a := rfl

@[simp] theorem forget_delegate (pf : Profile) (tar d : Nat) :
    (delegate pf tar d : TS (SubSecretKey G1 G2) Unit).forget = SubSecretKey.delegate pf tar d := by
  unfold delegate SubSecretKey.delegate
  simp only [forget_bind, forget_get, forget_lift, out_timeVec, out_branch, forget_ite, SM.lift_err,
    out_fail, forget_forM, out_idx, out_add, forget_set, out_removeFirst, SM.lift_ok, out_doubleIf,
    decide_eq_true_eq]

/-! ## `/repo/src/secret_key.rs` -/

@[simp] theorem out_skInit (sha : Bytes → Bytes) (pp : PubParam G1 G2) (alpha : G1) (prng : Prng) :
    (skInit sha pp alpha prng).out = SecretKey.init sha pp alpha prng := by
  unfold skInit SecretKey.init
  simp only [out_bind, out_branch, Res.ok_bind, out_ite, out_fail, out_exec, forget_sampleThenUpdate,
    out_sskInit, out_pure]

@[simp] theorem out_findAncestor (sk : SecretKey G1 G2) (tar : Nat) :
    (findAncestor sk tar).out = sk.findAncestor tar := by
  unfold findAncestor SecretKey.findAncestor
  simp only [out_bind, out_branch, Res.ok_bind, out_ite, out_fail, out_idx, out_foldlM, out_pure,
    decide_eq_true_eq]

@[simp] theorem out_dropUntil (t : Nat) (l : List (SubSecretKey G1 G2)) :
    (dropUntil t l).out = SecretKey.dropUntil t l := by
  induction l with
  | nil => rfl
  | cons s l ih =>
    unfold dropUntil SecretKey.dropUntil
    simp only [out_bind, out_branch, out_tick, Res.ok_bind, out_ite, out_pure, ih, decide_eq_true_eq]

@[simp] theorem out_scanDup (pf : Profile) (d : Nat) (v : TimeVec) (ssk : List (SubSecretKey G1 G2))
    (l : List Nat) : (scanDup pf d v ssk l).out = SecretKey.scanDup pf d v ssk l := by
  induction l with
  | nil => rfl
  | cons s l ih =>
    unfold scanDup SecretKey.scanDup
    simp only [out_bind, out_branch, out_idx, out_timeVec, Res.ok_bind, out_ite, out_pure, ih,
      decide_eq_true_eq, SubSecretKey.timeVec]

@[simp] theorem out_updateLoop (sha : Bytes → Bytes) (pf : Profile) (pp : PubParam G1 G2)
    (p : Prng) (i : Nat) (l : List TimeVec) (sk : SecretKey G1 G2) :
    (updateLoop sha pf pp p i l sk).out = SecretKey.updateLoop sha pf pp p i l sk := by
  induction l generalizing i sk with
  | nil => rfl
  | cons v l ih =>
    unfold updateLoop SecretKey.updateLoop
    simp only [out_bind, out_branch, out_idx, out_scanDup, out_exec, forget_delegate, Res.ok_bind,
      out_ite, out_pure, ih, decide_eq_true_eq, out_vecInsert, rerandStep, forget_sampleThenUpdate,
      out_prngEq, out_res, forget_randomization]

@[simp] theorem forget_update (sha : Bytes → Bytes) (pf : Profile) (pp : PubParam G1 G2)
    (tar : Nat) (seed : Bytes) :
    (update sha pf pp tar seed).forget = SecretKey.update sha pf pp tar seed := by
  unfold update SecretKey.update
  simp only [forget_bind, forget_get, forget_lift, out_branch, forget_ite, forget_err, SM.lift_ok, SM.lift_err, out_fail,
    decide_eq_true_eq, out_res, out_findAncestor, out_exec, forget_rerandomize, out_dropUntil,
    forget_set, forget_pure, out_timeVec, out_gammaList, out_updateLoop, out_removeFirst, out_idx]

/-! ## `/repo/src/key_pair.rs`, `/repo/src/sig.rs`, `/repo/src/serdes.rs` -/

@[simp] theorem out_masterKeyGen (E : Ext G1 G2 GT) (seed : Bytes) (pp : PubParam G1 G2) :
    (masterKeyGen E seed pp).out = Pixel.masterKeyGen E seed pp := by
  unfold masterKeyGen Pixel.masterKeyGen
  simp only [out_bind, out_branch, Res.ok_bind, out_ite, out_fail, out_exec, forget_sampleThenUpdate,
    out_prngInit, out_mul, out_tick, out_pure, decide_eq_true_eq, proofOfPossession, blsCoreSign]

@[simp] theorem out_keygen (E : Ext G1 G2 GT) (seed : Bytes) (pp : PubParam G1 G2) :
    (keygen E seed pp).out = Pixel.keygen E seed pp := by
  unfold keygen Pixel.keygen PublicKey.init
  simp only [out_bind, out_branch, Res.ok_bind, out_ite, out_fail, out_masterKeyGen, out_skInit,
    out_pure, decide_eq_true_eq]
  congr 1
  by_cases h : (!validCiphersuite.contains pp.ciphersuite) = true
  · simp only [h, if_true]; rfl
  · simp only [h]; rfl

@[simp] theorem out_signFr (pf : Profile) (sk : SecretKey G1 G2) (tar : Nat) (pp : PubParam G1 G2)
    (msg r : Fr) : (signFr pf sk tar pp msg r).out = Signature.signFr pf sk tar pp msg r := by
  unfold signFr Signature.signFr SecretKey.firstSsk SubSecretKey.lastHvectorCoeff SubSecretKey.timeVec
    firstSsk lastHvectorCoeff
  simp only [out_bind, out_check, out_branch, Res.ok_bind, out_ite, out_res, out_fail, out_idx, out_timeVec,
    out_mul, out_add, out_nodeSum, out_pure]

@[simp] theorem out_signBytes (sha : Bytes → Bytes) (pf : Profile) (sk : SecretKey G1 G2) (tar : Nat)
    (pp : PubParam G1 G2) (msg : Bytes) :
    (signBytes sha pf sk tar pp msg).out = Signature.signBytes sha pf sk tar pp msg := by
  unfold signBytes Signature.signBytes hashMsgIntoFr
  simp only [out_bind, out_check, out_branch, Res.ok_bind, out_ite, out_fail, out_exec, forget_sample,
    out_tick, out_os2ipModP, out_signFr, decide_eq_true_eq]

@[simp] theorem forget_sign (sha : Bytes → Bytes) (pf : Profile) (tar : Nat) (pp : PubParam G1 G2)
    (msg seed : Bytes) : (sign sha pf tar pp msg seed).forget = Signature.sign sha pf tar pp msg seed := by
  unfold sign Signature.sign
  simp only [forget_bind, forget_get, forget_lift, out_branch, forget_ite, SM.lift_ok, SM.lift_err, out_fail,
    decide_eq_true_eq, forget_update, out_signBytes]

@[simp] theorem forget_signPresent (sha : Bytes → Bytes) (pf : Profile) (tar : Nat)
    (pp : PubParam G1 G2) (msg : Bytes) :
    (signPresent sha pf tar pp msg).forget = Signature.signPresent sha pf tar pp msg := by
  unfold signPresent Signature.signPresent
  simp only [forget_bind, forget_get, forget_lift, out_branch, forget_ite, SM.lift_ok, SM.lift_err, out_fail,
    decide_eq_true_eq, out_signBytes]

@[simp] theorem forget_signThenUpdate (sha : Bytes → Bytes) (pf : Profile) (tar : Nat)
    (pp : PubParam G1 G2) (msg seed : Bytes) :
    (signThenUpdate sha pf tar pp msg seed).forget =
      Signature.signThenUpdate sha pf tar pp msg seed := by
  unfold signThenUpdate Signature.signThenUpdate
  simp only [forget_bind, forget_get, forget_lift, out_branch, forget_ite, SM.lift_ok, SM.lift_err, out_fail,
    decide_eq_true_eq, forget_update, forget_pure, out_signBytes, out_res]

@[simp] theorem out_sskSerialize (E : Ext G1 G2 GT) (c : Bool) (s : SubSecretKey G1 G2) :
    (sskSerialize E c s).out = s.serialize E c := by
  unfold sskSerialize SubSecretKey.serialize
  have h : ∀ e : G1, (TR.tick (.call "serialize_g1" []) >>= fun _ =>
      (pure (E.encG1 c e) : TR Bytes)).out = .ok (E.encG1 c e) := fun _ => rfl
  simp only [out_bind, out_branch, Res.ok_bind, out_ite, out_res, out_tick, out_pure,
    decide_eq_true_eq, out_mapM_pure h]

@[simp] theorem out_serializeSsks (E : Ext G1 G2 GT) (c : Bool) (l : List (SubSecretKey G1 G2))
    (buf : Bytes) : (serializeSsks E c l buf).out = SecretKey.serializeSsks E c l buf := by
  induction l generalizing buf with
  | nil => rfl
  | cons s l ih =>
    unfold serializeSsks SecretKey.serializeSsks
    simp only [out_bind, out_sskSerialize, ih]

@[simp] theorem out_skSerialize (E : Ext G1 G2 GT) (c : Bool) (sk : SecretKey G1 G2) :
    (skSerialize E c sk).out = sk.serialize E c := by
  unfold skSerialize SecretKey.serialize
  simp only [out_bind, out_branch, Res.ok_bind, out_ite, out_res, out_serializeSsks, out_tick,
    out_pure]
  split
  · rfl
  · cases SecretKey.serializeSsks E c sk.ssk _ <;> rfl

end Pixel.Trace
