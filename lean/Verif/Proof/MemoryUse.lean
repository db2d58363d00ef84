import Verif.Proof.Memory
import Verif.Proof.Prime
import Verif.Proof.History
import Mathlib.Algebra.Field.ZMod

/-! # Helper lemmas: what can be made of the memory contents -/

set_option linter.unusedSectionVars false

namespace Pixel

open Spec MM

variable {G1 G2 GT : Type} [AddCommGroup G1] [AddCommGroup G2] [CommGroup GT]

theorem Ends.leaves {α : Type} {f : MM G1 G2 α} {x : Res α} {l : List (Cell G1 G2)}
    (h : Ends f x l) : Leaves f l := fun m => by rw [h m]; exact ⟨rfl, rfl⟩

theorem Leaves.unique {α : Type} {f : MM G1 G2 α} {l l' : List (Cell G1 G2)}
    (h : Leaves f l) (h' : Leaves f l') : l = l' := by
  have h1 := (h ⟨[], []⟩).2
  have h2 := (h' ⟨[], []⟩).2
  rw [h1] at h2
  simpa using h2

theorem osLeft_shows {r : Fr} {c : Cell G1 G2} (h : c ∈ osLeft r) : ShowsOnly r c := by
  unfold osLeft at h
  rcases List.mem_cons.1 h with h | h
  · exact Or.inr (Or.inl h)
  · exact Or.inr (Or.inr (List.mem_singleton.1 h))

theorem drawLeft_shows {sha : Bytes → Bytes} {p : Prng} {k : Nat} {c : Cell G1 G2}
    (h : c ∈ SecretKey.drawLeft sha p k) :
    ShowsOnly (drawVal sha (SecretKey.chain sha p k) DOM_SEP_SK_UPDATE) c := by
  rcases List.mem_append.1 h with h | h
  · exact osLeft_shows h
  · exact Or.inl (List.mem_singleton.1 h)

/-! ### undoing an update -/

theorem zipWith_undo {a b : List G1} (n : Nat) (h : a.length ≤ b.length) :
    List.zipWith (fun a h => a - n • h) (List.zipWith (fun a h => a + n • h) a b) b = a := by
  induction a generalizing b with
  | nil => simp
  | cons x a ih =>
    cases b with
    | nil => simp at h
    | cons y b =>
      rw [List.zipWith_cons_cons, List.zipWith_cons_cons, ih (by simpa using h),
        add_sub_cancel_right]

theorem unrandomise_rerand (pp : PubParam G1 G2) (v : List Nat) (r : Fr) (s : SubSecretKey G1 G2)
    (h : s.hvector.length ≤ (pp.hlist.drop (v.length + 1)).length) :
    unrandomise pp v r (s.rerand pp v r.val) = s := by
  unfold unrandomise SubSecretKey.rerand
  simp only [add_sub_cancel_right]
  rw [zipWith_undo _ h]

theorem undo_eq (pp : PubParam G1 G2) (v w : List Nat) (r : Fr) (s : SubSecretKey G1 G2)
    {y : G1} {hv : List G1} (hs : s.hvector = y :: hv)
    (hl : hv.length ≤ (pp.hlist.drop (v.length + 2)).length) (t1 t2 : Nat) :
    undo pp s.time v w r (s.delegated t1 (1 :: w))
      ((s.delegated t2 [2]).rerand pp (v ++ [2]) r.val) = s := by
  have e1 : (s.delegated t2 [2]).hvector = hv := by
    simp [SubSecretKey.delegated, hs]
  unfold undo
  rw [unrandomise_rerand _ _ _ _ (by
    rw [e1]; simpa using hl)]
  simp only [e1]
  have e2 : (s.delegated t2 [2]).hpoly = s.hpoly + 2 • y := by
    simp [SubSecretKey.delegated, hs]
  have e3 : (s.delegated t1 (1 :: w)).hpoly = s.hpoly + (y + wsum w hv) := by
    simp [SubSecretKey.delegated, hs]
  have e4 : (s.delegated t1 (1 :: w)).g2r = s.g2r := rfl
  rw [e2, e3, e4]
  have e5 : (List.zipWith (fun t h => t • h) w hv).sum = wsum w hv := rfl
  rw [e5]
  have e6 : s.hpoly + (y + wsum w hv) - wsum w hv = s.hpoly + y := by abel
  have e7 : s.hpoly + 2 • y - (s.hpoly + y) = y := by rw [two_nsmul]; abel
  rw [e6, e7, add_sub_cancel_right]
  cases s
  simp only at hs
  rw [hs]

/-- what an update to a time below the left child makes of the key -/
theorem update_below_left {sha : Bytes → Bytes} (hsha : ∀ m, (sha m).length = 64) {pf : Profile}
    {pp : PubParam G1 G2} (S : ParamShape pp) {alpha : G1} {v w : List Nat}
    {sk sk' : SecretKey G1 G2} (h : HKey pp alpha v sk) (hu : IsNode pp.depth (v ++ 1 :: w))
    {seed : Bytes}
    (hup : SecretKey.update sha pf pp (num pp.depth (v ++ 1 :: w)) seed sk = (.ok (), sk')) :
    ∃ s SB l, sk.ssk = s :: SB ∧ SubAt pp alpha v s ∧ l.length = (sibs w).length ∧
      sk'.ssk = s.delegated (num pp.depth (v ++ 1 :: w)) (1 :: w) ::
        (l ++ (s.delegated (num pp.depth (v ++ [2])) [2]).rerand pp (v ++ [2])
          (drawVal sha (SecretKey.chain sha (mixed sha sk.prng seed
            (SecretKey.reseedInfo sk.time)) (sibs w).length) DOM_SEP_SK_UPDATE).val :: SB) := by
  have hlt : num pp.depth v < num pp.depth (v ++ 1 :: w) :=
    num_lt_of_append hu (by simp)
  obtain ⟨A, g, SA, sg, SB, h1, h2, h3, h4, h5, h6⟩ :=
    SecretKey.update_eq hsha (pf := pf) S h hu hlt seed
  rw [hup] at h6
  -- the delegator is the present node
  have hgm : g ∈ gam v := by rw [h1]; simp
  have hgp : g <+: v ++ 1 :: w := by
    rcases h6 with ⟨h6, _⟩ | ⟨w0, _, h6, _⟩
    · rw [h6]
    · rw [h6]; exact List.prefix_append _ _
  have hgv : g = v := gam_unique h.node hu hgm (by simp [gam]) hgp (List.prefix_append _ _)
  subst hgv
  have hA : A = [] := by
    have := congrArg List.length h1
    rw [gam, List.length_append, List.length_cons] at this
    exact List.length_eq_zero_iff.1 (by omega)
  subst hA
  cases h3
  rcases h6 with ⟨h6, _⟩ | ⟨w0, _, h6, h7⟩
  · have := congrArg List.length h6
    simp at this
  · have hw0 : w0 = 1 :: w := (List.append_cancel_left h6).symm
    subst hw0
    obtain ⟨hf1, hf2⟩ := SecretKey.freshLoop_ok_iff (sha := sha) (pp := pp) (p0 := sk.prng) (g := g)
      (s := sg) (sibs (1 :: w)) (mixed sha sk.prng seed (SecretKey.reseedInfo sk.time))
    by_cases hex : ∃ k, 1 ≤ k ∧ k ≤ (sibs (1 :: w)).length ∧
        SecretKey.chain sha (mixed sha sk.prng seed (SecretKey.reseedInfo sk.time)) k = sk.prng
    · rw [hf2 hex] at h7
      cases (Prod.mk.inj h7).1
    · obtain ⟨l, h8, h9⟩ := hf1 (fun k h1 h2 h3 => hex ⟨k, h1, h2, h3⟩)
      rw [h8] at h7
      have h10 := (Prod.mk.inj h7).2
      rw [sibs_one, List.zipIdx_append] at h9
      obtain ⟨l1, l2, h11, h12, h13⟩ := forall₂_append_left h9
      have hl1 := h12.length_eq
      simp only [List.length_zipIdx, List.length_map] at hl1
      simp only [List.length_map, Nat.zero_add, List.zipIdx_singleton] at h13
      cases h13 with
      | cons he hnil =>
      cases hnil
      refine ⟨sg, SB, l1, h2, h4, hl1.symm, ?_⟩
      rw [h10, h11, he]
      simp

/-! ### mixing signatures -/

theorem mix_eq {a : G1} (h : rOrder • a = 0) (M1 M2 M : Fr) (hne : M1 ≠ M2) :
    M1.val • a + ((M - M1) * (M2 - M1)⁻¹ : Fr).val • (M2.val • a - M1.val • a) = M.val • a := by
  have : Fact rOrder.Prime := ⟨rOrder_prime⟩
  have hd : M2 - M1 ≠ 0 := sub_ne_zero.2 (Ne.symm hne)
  have e1 : M2.val • a = M1.val • a + (M2 - M1).val • a := by
    have := mulFr_add h M1 (M2 - M1)
    rw [add_sub_cancel] at this
    exact this
  rw [e1, add_sub_cancel_left]
  have e2 := mulFr_mul h ((M - M1) * (M2 - M1)⁻¹) (M2 - M1)
  rw [mul_assoc, inv_mul_cancel₀ hd, mul_one] at e2
  have e3 := mulFr_add h M1 (M - M1)
  rw [add_sub_cancel] at e3
  unfold mulFr at e2 e3
  rw [← e2, ← e3]

/-- the combination of two signatures made with the same sub key is a signature with its
randomness -/
theorem mixSignatures_sigFor {pp : PubParam G1 G2} {alpha : G1} {v : List Nat} {rho : Nat}
    (hz : rOrder • (rho • pp.hlist.getLastD 0) = 0) {M1 M2 r1 r2 : Fr} (hne : M1 ≠ M2)
    {s1 s2 : Signature G1 G2} (hc : s1.ciphersuite = pp.ciphersuite)
    (hn : NodeAt pp.depth s1.time v)
    (h1 : s1.sigma1 = rho • pp.g2 + r1.val • pp.g2)
    (h2 : s1.sigma2 = alpha + (rho • sigPoint pp v M1 + r1.val • sigPoint pp v M1))
    (h3 : s2.sigma2 = alpha + (rho • sigPoint pp v M2 + r2.val • sigPoint pp v M2)) (M : Fr) :
    SigFor pp alpha v M rho (mixSignatures pp v M1 r1 s1 M2 r2 s2 M) where
  suite := hc
  node := hn
  sigma1 := by
    show s1.sigma1 - r1.val • pp.g2 = _
    rw [h1, add_sub_cancel_right]
  sigma2 := by
    show s1.sigma2 - r1.val • sigPoint pp v M1 + _ • (s2.sigma2 - r2.val • sigPoint pp v M2 -
      (s1.sigma2 - r1.val • sigPoint pp v M1)) = _
    have e1 : s1.sigma2 - r1.val • sigPoint pp v M1 = alpha + rho • sigPoint pp v M1 := by
      rw [h2]; abel
    have e2 : s2.sigma2 - r2.val • sigPoint pp v M2 = alpha + rho • sigPoint pp v M2 := by
      rw [h3]; abel
    rw [e1, e2]
    have e3 : ∀ N : Fr, rho • sigPoint pp v N =
        rho • nodePoint pp v + N.val • (rho • pp.hlist.getLastD 0) := by
      intro N
      rw [sigPoint, smul_add, smul_comm rho]
    rw [e3 M1, e3 M2, e3 M, ← mix_eq hz M1 M2 M hne]
    have e4 : alpha + (rho • nodePoint pp v + M2.val • (rho • pp.hlist.getLastD 0)) -
        (alpha + (rho • nodePoint pp v + M1.val • (rho • pp.hlist.getLastD 0))) =
        M2.val • (rho • pp.hlist.getLastD 0) - M1.val • (rho • pp.hlist.getLastD 0) := by abel
    rw [e4]
    abel

/-! ### serialisation -/

namespace SecretKey

theorem serLoop_agrees (E : Ext G1 G2 GT) (c : Bool) (l : List (SubSecretKey G1 G2)) (buf : Bytes)
    {g : Bytes → MM G1 G2 Bytes} {y : Bytes → Res Bytes} (hg : ∀ b, Agrees (g b) (y b)) :
    Agrees (l.foldlM (fun buf e => do
      let b ← e.serializeM E c true
      setv "buf" (.bytes (buf ++ b))
      pure (buf ++ b)) buf >>= g) (serializeSsks E c l buf >>= y) := by
  induction l generalizing buf with
  | nil => exact hg buf
  | cons e l ih =>
    have he := SubSecretKey.serializeM_ends E c e
    unfold serializeSsks
    rw [List.foldlM_cons, bind_assoc, bind_assoc]
    cases hx : e.serialize E c with
    | err x => rw [hx] at he; exact fun m => by rw [SM.bind_run_err (he m)]; rfl
    | panic x => rw [hx] at he; exact fun m => by rw [SM.bind_run_panic (he m)]; rfl
    | ok b =>
      rw [hx] at he
      refine Agrees.call he ?_
      rw [bind_assoc]
      exact Agrees.local (ih (buf ++ b))

theorem serializeM_fst (E : Ext G1 G2 GT) (c : Bool) (sk : SecretKey G1 G2) (m : Mem G1 G2) :
    (serializeM E c true sk m).1 = serialize E c sk := by
  suffices H : Agrees (serializeM E c true sk) (serialize E c sk) from H m
  refine Agrees.scope ?_
  unfold serialize
  by_cases hc : (!validCiphersuite.contains sk.ciphersuite) = true
  · rw [if_pos hc, if_pos hc]; exact fun m => rfl
  rw [if_neg hc, if_neg hc]
  refine Agrees.local ?_
  have := serLoop_agrees E c sk.ssk ([sk.ciphersuite] ++ [UInt8.ofNat sk.ssk.length] ++ sk.prng.seed)
    (g := fun buf => if !true then SM.err .codec else do
      zeroize "buf"
      pure buf) (y := fun b => .ok b) (fun b m => rfl)
  rw [show ∀ x : Res Bytes, (x >>= fun b => .ok b) = x from fun x => by cases x <;> rfl] at this
  exact this

theorem _root_.Pixel.Agrees.bind {α β : Type} {f : MM G1 G2 α} {x : Res α} {g : α → MM G1 G2 β}
    {y : α → Res β} (h : Agrees f x) (hg : ∀ a, Agrees (g a) (y a)) :
    Agrees (f >>= g) (x >>= y) := by
  intro m
  rcases hx : f m with ⟨r, m'⟩
  have := h m
  rw [hx] at this
  subst this
  cases r with
  | ok a => rw [SM.bind_run_ok hx]; exact hg a m'
  | err e => rw [SM.bind_run_err hx]; rfl
  | panic e => rw [SM.bind_run_panic hx]; rfl

theorem _root_.Pixel.SubSecretKey.deserializeM_fst (E : Ext G1 G2 GT) (c : Bool) (inp : Bytes) :
    Agrees (SubSecretKey.deserializeM E c inp : MM G1 G2 _)
      ((SubSecretKey.deserialize E c).exec inp) := by
  refine Agrees.scope ?_
  unfold SubSecretKey.deserialize
  rw [SM.exec_bind]
  refine Agrees.lift fun q _ => ?_
  obtain ⟨time, i1⟩ := q
  simp only
  by_cases ht : beNat time = 0
  · rw [if_pos ht, if_pos ht]; exact fun m => rfl
  rw [if_neg ht, if_neg ht, SM.exec_bind]
  refine Agrees.lift fun q _ => ?_
  rw [SM.exec_bind]
  refine Agrees.lift fun q _ => Agrees.local ?_
  rw [SM.exec_bind]
  refine Agrees.lift fun q _ => Agrees.local ?_
  rw [SM.exec_bind]
  refine Agrees.lift fun q _ => ?_
  exact fun m => rfl

theorem deserializeSsksM_fst (E : Ext G1 G2 GT) (c : Bool) (n : Nat) (inp : Bytes) :
    Agrees (deserializeSsksM E c n inp : MM G1 G2 _)
      ((readMany (SubSecretKey.deserialize E c) n).exec inp) := by
  induction n generalizing inp with
  | zero => exact fun m => rfl
  | succ n ih =>
    unfold readMany deserializeSsksM
    rw [SM.exec_bind]
    refine Agrees.bind (SubSecretKey.deserializeM_fst E c inp) fun q => ?_
    rw [SM.exec_bind]
    exact Agrees.bind (ih _) fun q m => rfl

theorem deserializeM_fst (E : Ext G1 G2 GT) (c : Bool) (inp : Bytes) (m : Mem G1 G2) :
    (deserializeM E c inp m).1 = (deserialize E c).exec inp := by
  suffices H : Agrees (deserializeM E c inp : MM G1 G2 _) ((deserialize E c).exec inp) from H m
  refine Agrees.scope ?_
  unfold deserialize
  rw [SM.exec_bind]
  refine Agrees.lift fun q _ => Agrees.local ?_
  rw [SM.exec_bind]
  refine Agrees.lift fun q' _ => Agrees.local ?_
  rw [SM.exec_lift]
  refine Agrees.lift fun c0 _ => ?_
  by_cases hc : (!validCiphersuite.contains c0) = true
  · rw [if_pos hc, if_pos hc]; exact fun m => rfl
  rw [if_neg hc, if_neg hc, SM.exec_lift]
  refine Agrees.lift fun c1 _ => ?_
  by_cases hz : c1 = 0
  · rw [if_pos hz, if_pos hz]; exact fun m => rfl
  rw [if_neg hz, if_neg hz, SM.exec_bind]
  refine Agrees.bind (SubSecretKey.deserializeM_fst E c _) fun q => ?_
  rw [SM.exec_bind]
  refine Agrees.bind (deserializeSsksM_fst E c _ _) fun q => ?_
  exact fun m => rfl

end SecretKey

end Pixel
