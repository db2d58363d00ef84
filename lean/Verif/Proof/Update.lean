import Verif.Proof.SecretKey

/-! # Lemmas about `update` on arbitrary keys, and the details of what it writes -/

namespace Pixel

open Spec

set_option linter.unusedSectionVars false

variable {G1 G2 GT : Type} [AddCommGroup G1] [AddCommGroup G2] [CommGroup GT]

/-! ### atomicity -/

/-- from state `s`, a call that does not return `Ok` leaves the state alone -/
def AtomicAt {σ α : Type} (x : SM σ α) (s : σ) : Prop := (x s).1.isOk = false → (x s).2 = s

theorem atomicAt_err {σ α : Type} (e : Err) (s : σ) : AtomicAt (SM.err e : SM σ α) s := fun _ => rfl

theorem atomicAt_lift_bind {σ α β : Type} {x : Res α} {f : α → SM σ β} {s : σ}
    (h : ∀ a, x = .ok a → AtomicAt (f a) s) : AtomicAt (SM.lift x >>= f) s := by
  cases x with
  | ok a => rw [SM.lift_ok_bind]; exact h a rfl
  | err e => exact fun _ => rfl
  | panic p => exact fun _ => rfl

theorem atomicAt_set {σ : Type} (s' s : σ) :
    AtomicAt (SM.set s' >>= fun _ => (pure () : SM σ Unit)) s := fun h => by
  cases h

theorem atomicAt_ite {σ α : Type} {c : Prop} [Decidable c] {x y : SM σ α} {s : σ}
    (hx : c → AtomicAt x s) (hy : ¬ c → AtomicAt y s) : AtomicAt (if c then x else y) s := by
  by_cases h : c
  · rw [if_pos h]; exact hx h
  · rw [if_neg h]; exact hy h

namespace SecretKey

theorem update_atomic (sha : Bytes → Bytes) (pf : Profile) (pp : PubParam G1 G2) (tar : Nat)
    (seed : Bytes) (sk : SecretKey G1 G2) : AtomicAt (update sha pf pp tar seed) sk := by
  unfold update
  intro hok
  rw [SM.get_bind] at hok ⊢
  revert hok
  change AtomicAt _ sk
  refine atomicAt_ite (fun _ => atomicAt_err _ _) fun _ => ?_
  refine atomicAt_lift_bind fun _ _ => atomicAt_lift_bind fun _ _ => ?_
  refine atomicAt_ite (fun _ => atomicAt_err _ _) fun _ => ?_
  refine atomicAt_lift_bind fun _ _ => atomicAt_lift_bind fun _ _ => atomicAt_lift_bind fun _ _ => ?_
  refine atomicAt_ite (fun _ => atomicAt_err _ _) fun _ => ?_
  refine atomicAt_ite (fun _ => atomicAt_set _ _) fun _ => ?_
  refine atomicAt_lift_bind fun _ _ => atomicAt_lift_bind fun _ _ => atomicAt_lift_bind fun _ _ => ?_
  exact atomicAt_lift_bind fun _ _ => atomicAt_lift_bind fun _ _ => atomicAt_set _ _

/-! ### the draws of an update -/

/-- the PRNG state after `k` update draws -/
def chain (sha : Bytes → Bytes) (p : Prng) (k : Nat) : Prng :=
  (fun q => drawNext sha q DOM_SEP_SK_UPDATE)^[k] p

theorem chain_succ' (sha : Bytes → Bytes) (p : Prng) (k : Nat) :
    chain sha (drawNext sha p DOM_SEP_SK_UPDATE) k = chain sha p (k + 1) := by
  simp [chain, Function.iterate_succ_apply]

/-- the loop panics exactly when one of the PRNG states after a draw is the old state -/
theorem freshLoop_ok_iff {sha : Bytes → Bytes} {pp : PubParam G1 G2} {p0 : Prng} {g : List Nat}
    {s : SubSecretKey G1 G2} (ws : List (List Nat)) (p : Prng) :
    ((∀ k, 1 ≤ k → k ≤ ws.length → chain sha p k ≠ p0) →
      ∃ l, freshLoop sha pp p0 g s p ws = .ok (l, chain sha p ws.length) ∧
        List.Forall₂ (fun wk e => e = (s.delegated (num pp.depth (g ++ wk.1)) wk.1).rerand pp
          (g ++ wk.1) (drawVal sha (chain sha p wk.2) DOM_SEP_SK_UPDATE).val)
          (ws.zipIdx) l) ∧
    ((∃ k, 1 ≤ k ∧ k ≤ ws.length ∧ chain sha p k = p0) →
      freshLoop sha pp p0 g s p ws = .panic .assertion) := by
  induction ws generalizing p with
  | nil =>
    refine ⟨fun _ => ⟨[], rfl, by simp⟩, ?_⟩
    rintro ⟨k, h1, h2, _⟩
    simp at h2; omega
  | cons w ws ih =>
    obtain ⟨ih1, ih2⟩ := ih (drawNext sha p DOM_SEP_SK_UPDATE)
    rw [freshLoop]
    constructor
    · intro h
      have h0 := h 1 (le_refl _) (by simp)
      have h0' : drawNext sha p DOM_SEP_SK_UPDATE ≠ p0 := h0
      rw [if_neg h0']
      obtain ⟨l, hl, hf⟩ := ih1 (fun k hk1 hk2 => by
        rw [chain_succ']; exact h (k + 1) (by omega) (by simp; omega))
      rw [hl, chain_succ']
      refine ⟨_, rfl, ?_⟩
      rw [List.zipIdx_cons, Nat.zero_add]
      refine .cons rfl ?_
      have hz : ws.zipIdx 1 = (ws.zipIdx).map (fun q => (q.1, q.2 + 1)) := List.zipIdx_succ
      rw [hz, List.forall₂_map_left_iff]
      refine hf.imp ?_
      rintro ⟨a, k⟩ e he
      rw [he, chain_succ']
    · rintro ⟨k, h1, h2, h3⟩
      by_cases hc : drawNext sha p DOM_SEP_SK_UPDATE = p0
      · rw [if_pos hc]
      · rw [if_neg hc]
        have hk : k ≠ 1 := by rintro rfl; exact hc h3
        obtain ⟨k', rfl⟩ : ∃ k', k = k' + 1 := ⟨k - 1, by omega⟩
        rw [ih2 ⟨k', by omega, by simp at h2; omega, by rw [chain_succ']; exact h3⟩]

/-! ### `update` on a key whose sub keys have distinct times -/

/-- what is needed for the time stamp to be meaningful: the first sub key is the one for the
current time, and no time stamp occurs twice -/
structure TimeInv (sk : SecretKey G1 G2) : Prop where
  head : (sk.ssk.map SubSecretKey.time).head? = some sk.time
  nodup : (sk.ssk.map SubSecretKey.time).Nodup

theorem scanDup_false {pf : Profile} {d : Nat} (hd : d ≤ 63) {u : List Nat} (hu : IsNode d u)
    {pre B : List (SubSecretKey G1 G2)} {b : Bool}
    (h : scanDup pf d (tvOf d u) (pre ++ B) (List.range' pre.length B.length) = .ok b) :
    b = true ∨ num d u ∉ B.map SubSecretKey.time := by
  induction B generalizing pre with
  | nil => simp
  | cons s B ih =>
    have hi : idx (pre ++ s :: B) pre.length = .ok s := by
      rw [idx_eq_ok, List.getElem?_append_right (le_refl _), Nat.sub_self]; rfl
    rw [List.length_cons, List.range'_succ, scanDup, hi, Res.ok_bind, SubSecretKey.timeVec] at h
    cases hv : TimeVec.init pf s.time d with
    | err e => rw [hv] at h; cases h
    | panic p => rw [hv] at h; cases h
    | ok tv =>
      rw [hv, Res.ok_bind] at h
      by_cases hc : tvOf d u = tv
      · rw [if_pos hc] at h; cases h; exact Or.inl rfl
      · rw [if_neg hc] at h
        have h' : scanDup pf d (tvOf d u) ((pre ++ [s]) ++ B)
            (List.range' (pre ++ [s]).length B.length) = .ok b := by
          rw [List.length_append, List.append_assoc]; exact h
        rcases ih h' with h1 | h1
        · exact Or.inl h1
        · right
          rw [List.map_cons, List.mem_cons]
          rintro (h2 | h2)
          · rw [← h2, init_num hd hu] at hv
            exact hc (Res.ok.inj hv)
          · exact h1 h2

theorem scanDup_true {pf : Profile} {d : Nat} (hd : d ≤ 63) {u : List Nat}
    {pre B : List (SubSecretKey G1 G2)}
    (h : scanDup pf d (tvOf d u) (pre ++ B) (List.range' pre.length B.length) = .ok true) :
    num d u ∈ B.map SubSecretKey.time := by
  induction B generalizing pre with
  | nil => cases h
  | cons s B ih =>
    have hi : idx (pre ++ s :: B) pre.length = .ok s := by
      rw [idx_eq_ok, List.getElem?_append_right (le_refl _), Nat.sub_self]; rfl
    rw [List.length_cons, List.range'_succ, scanDup, hi, Res.ok_bind, SubSecretKey.timeVec] at h
    cases hv : TimeVec.init pf s.time d with
    | err e => rw [hv] at h; cases h
    | panic p => rw [hv] at h; cases h
    | ok tv =>
      rw [hv, Res.ok_bind] at h
      by_cases hc : tvOf d u = tv
      · obtain ⟨_, rfl⟩ := (init_eq_ok hd).1 hv
        rw [List.map_cons, List.mem_cons]
        exact Or.inl (congrArg TimeVec.time hc)
      · rw [if_neg hc] at h
        have h' : scanDup pf d (tvOf d u) ((pre ++ [s]) ++ B)
            (List.range' (pre ++ [s]).length B.length) = .ok true := by
          rw [List.length_append, List.append_assoc]; exact h
        rw [List.map_cons, List.mem_cons]
        exact Or.inr (ih h')

theorem updateLoop_times {sha : Bytes → Bytes} {pf : Profile} {pp : PubParam G1 G2} {p0 : Prng}
    (hd : pp.depth ≤ 63) (us : List (List Nat)) (hus : ∀ u ∈ us, IsNode pp.depth u)
    (pre B : List (SubSecretKey G1 G2)) (i : Nat) (hi : pre.length = i + 1)
    (sk sk' : SecretKey G1 G2) (hs : sk.ssk = pre ++ B)
    (h : updateLoop sha pf pp p0 i (us.map (tvOf pp.depth)) sk = .ok sk') :
    sk'.ciphersuite = sk.ciphersuite ∧
    ∃ N n, sk'.ssk = pre ++ (N ++ B) ∧
      N.map SubSecretKey.time = (us.take n).map (num pp.depth) ∧
      (∀ t ∈ N.map SubSecretKey.time, t ∉ B.map SubSecretKey.time) ∧
      (n = 0 → us = [] ∨ ∃ u ∈ us.head?, num pp.depth u ∈ B.map SubSecretKey.time) := by
  induction us generalizing pre i sk with
  | nil =>
    rw [List.map_nil, updateLoop] at h
    cases h
    exact ⟨rfl, [], 0, by simp [hs], rfl, by simp, by simp⟩
  | cons u us ih =>
    have hu := hus u (by simp)
    rw [List.map_cons, updateLoop] at h
    simp only at h
    have hl : sk.ssk.length - (i + 1) = B.length := by rw [hs, List.length_append]; omega
    rw [hl, hs, ← hi] at h
    rw [Res.bind_eq_ok] at h
    obtain ⟨b, hb, h⟩ := h
    cases b with
    | true =>
      rw [if_pos rfl] at h
      cases h
      refine ⟨rfl, [], 0, by simp [hs], rfl, by simp, fun _ => Or.inr ⟨u, rfl, ?_⟩⟩
      exact scanDup_true hd hb
    | false =>
      have hnot : num pp.depth u ∉ B.map SubSecretKey.time := by
        rcases scanDup_false hd hu hb with h1 | h1
        · cases h1
        · exact h1
      rw [if_neg (by simp)] at h
      rw [Res.bind_eq_ok] at h
      obtain ⟨s0, _, h⟩ := h
      rw [Res.bind_eq_ok] at h
      obtain ⟨⟨_, s1⟩, h1, h⟩ := h
      rw [SM.exec_eq_ok] at h1
      have ht1 : s1.time = num pp.depth u := by
        obtain ⟨_, w, _, _, _, _, rfl⟩ := (SubSecretKey.delegate_ok_iff hd).1 h1
        rfl
      rw [Res.bind_eq_ok] at h
      obtain ⟨⟨sk2, s2⟩, h2, h⟩ := h
      have h2' : s2.time = num pp.depth u ∧ sk2.ssk = sk.ssk ∧ sk2.ciphersuite = sk.ciphersuite := by
        by_cases hi0 : i ≠ 0
        · rw [if_pos hi0] at h2
          rw [Res.bind_eq_ok] at h2
          obtain ⟨⟨r, p⟩, _, h2⟩ := h2
          simp only at h2
          rw [Res.bind_eq_ok] at h2
          obtain ⟨_, _, h2⟩ := h2
          rw [Res.bind_eq_ok] at h2
          obtain ⟨⟨_, s3⟩, h3, h2⟩ := h2
          rw [SM.exec_eq_ok] at h3
          have hfr := SubSecretKey.randomization_frame pf pp r s1
          rw [h3] at hfr
          cases h2
          exact ⟨by rw [hfr.1, ht1], hs.symm, rfl⟩
        · rw [if_neg hi0] at h2
          cases h2
          exact ⟨ht1, rfl, rfl⟩
      obtain ⟨ht2, hs2, hc2⟩ := h2'
      simp only at h
      rw [hs2, hs] at h
      have hins : vecInsert (pre ++ B) pre.length s2 = .ok ((pre ++ [s2]) ++ B) := by
        unfold vecInsert
        rw [if_pos (by simp), List.take_left, List.drop_left]
        simp
      rw [hins, Res.ok_bind, hi] at h
      obtain ⟨h3, N, n, h4, h5, h6, _⟩ := ih (fun u hu => hus u (by simp [hu])) (pre ++ [s2]) (i + 1)
        (by simp [hi]) _ rfl h
      refine ⟨by rw [h3]; exact hc2, s2 :: N, n + 1, ?_, ?_, ?_, by omega⟩
      · rw [h4]; simp
      · rw [List.map_cons, h5, ht2, List.take_succ_cons, List.map_cons]
      · intro t ht
        rw [List.map_cons, List.mem_cons] at ht
        rcases ht with rfl | ht
        · rw [ht2]; exact hnot
        · exact h6 t ht

/-- the last sub key not after `tar` -/
theorem exists_last {tar : Nat} (l : List (SubSecretKey G1 G2))
    (h : ∃ s ∈ l, s.time ≤ tar) :
    ∃ A g B, l = A ++ g :: B ∧ g.time ≤ tar ∧ ∀ b ∈ B, tar < SubSecretKey.time b := by
  induction l with
  | nil => obtain ⟨s, hs, _⟩ := h; cases hs
  | cons a l ih =>
    by_cases hl : ∃ s ∈ l, s.time ≤ tar
    · obtain ⟨A, g, B, rfl, h1, h2⟩ := ih hl
      exact ⟨a :: A, g, B, rfl, h1, h2⟩
    · obtain ⟨s, hs, ht⟩ := h
      rcases List.mem_cons.1 hs with rfl | hs
      · refine ⟨[], s, l, rfl, ht, fun b hb => ?_⟩
        by_contra hc
        exact hl ⟨b, hb, by omega⟩
      · exact absurd ⟨s, hs, ht⟩ hl

/-- a successful update of a key with the invariant lands on the target -/
theorem update_times {sha : Bytes → Bytes} {pf : Profile} {pp : PubParam G1 G2}
    (hd : pp.depth ≤ 63) {tar : Nat} {seed : Bytes} {sk sk' : SecretKey G1 G2} (hI : TimeInv sk)
    (h : update sha pf pp tar seed sk = (.ok (), sk')) :
    sk.time < tar ∧ ValidTime pp.depth tar ∧ sk.ciphersuite = pp.ciphersuite ∧
      sk'.ciphersuite = sk.ciphersuite ∧ sk'.time = tar ∧ TimeInv sk' := by
  have hsuite : sk.ciphersuite = pp.ciphersuite := by
    by_contra hc
    rw [update_suite hc] at h
    cases (Prod.mk.inj h).1
  have htime : sk.time < tar ∧ tar ≤ 2 ^ pp.depth - 1 := by
    by_contra hc
    rw [update_time hd hsuite (by omega)] at h
    cases (Prod.mk.inj h).1
  have hval : ValidTime pp.depth tar := ⟨by omega, htime.2⟩
  have hu := path_isNode hval
  refine ⟨htime.1, hval, hsuite, ?_⟩
  cases hssk : sk.ssk with
  | nil => have := hI.head; rw [hssk] at this; cases this
  | cons s0 rest =>
  have hs0 : s0.time = sk.time := by
    have := hI.head; rw [hssk] at this; simpa using this
  obtain ⟨A, g, B, hAB, hg, hB⟩ := exists_last (tar := tar) sk.ssk
    ⟨s0, by rw [hssk]; simp, by omega⟩
  have hfa : findAncestor sk tar = .ok g.time := findAncestor_eq hAB hg hB (by
    intro s hs
    rw [hssk] at hs
    cases hs
    omega)
  have hnd := hI.nodup
  rw [hAB, List.map_append, List.map_cons, List.nodup_append] at hnd
  have hdrop : dropUntil g.time sk.ssk = .ok (g :: B) := by
    rw [hAB]
    refine dropUntil_eq (fun s hs => ?_) rfl
    exact hnd.2.2 _ (List.mem_map_of_mem hs) _ (by simp)
  have hndB := hnd.2.1
  unfold update at h
  rw [SM.get_bind, if_neg (by simp [hsuite])] at h
  simp only at h
  rw [(maxTime_eq pf hd).1, SM.lift_ok_bind, (maxTime_eq pf hd).2, SM.lift_ok_bind,
    if_neg (by omega), hfa, SM.lift_ok_bind] at h
  cases hr : (Prng.rerandomize sha seed (DOM_SEP_SK_RERANDOMIZE_INFO ++ timeBytes sk.time)).exec
      sk.prng with
  | err e => rw [hr] at h; cases (Prod.mk.inj h).1
  | panic e => rw [hr] at h; cases (Prod.mk.inj h).1
  | ok q =>
    rw [hr, SM.lift_ok_bind] at h
    rw [hdrop, SM.lift_ok_bind] at h
    simp only [List.isEmpty_cons, Bool.false_eq_true, if_false] at h
    by_cases hgt : g.time = tar
    · rw [if_pos hgt] at h
      have h2 := (Prod.mk.inj h).2
      subst h2
      exact ⟨rfl, hgt, by simp, hndB⟩
    · rw [if_neg hgt, init_valid hd hval, SM.lift_ok_bind] at h
      have htv : ({ time := tar, vec := path pp.depth tar } : TimeVec) =
          tvOf pp.depth (path pp.depth tar) := by simp [tvOf, num_path hval]
      rw [htv, gammaList_eq hd hu, SM.lift_ok_bind] at h
      cases hl : updateLoop sha pf pp sk.prng 0 ((gam (path pp.depth tar)).map (tvOf pp.depth))
        { ciphersuite := sk.ciphersuite, time := g.time, ssk := g :: B, prng := q.2 } with
      | err e => rw [hl] at h; cases (Prod.mk.inj h).1
      | panic e => rw [hl] at h; cases (Prod.mk.inj h).1
      | ok sk2 =>
        rw [hl, SM.lift_ok_bind] at h
        obtain ⟨h1, N, n, h2, h3, h4, h5⟩ := updateLoop_times hd (gam (path pp.depth tar))
          (fun u hu' => gam_isNode hu hu') [g] B 0 rfl _ _ rfl hl
        rw [List.singleton_append] at h2
        rw [h2] at h
        simp only [removeFirst] at h
        rw [SM.lift_ok_bind] at h
        have hn : n ≠ 0 := by
          intro hn
          rcases h5 hn with h5 | ⟨u, h5, h6⟩
          · simp [gam] at h5
          · have : u = path pp.depth tar := by simpa [gam] using h5.symm
            subst this
            rw [num_path hval, List.mem_map] at h6
            obtain ⟨b, hb, hbt⟩ := h6
            have := hB b hb
            omega
        obtain ⟨n, rfl⟩ : ∃ m, n = m + 1 := ⟨n - 1, by omega⟩
        cases N with
        | nil => simp [gam] at h3
        | cons s1 N =>
          rw [List.cons_append, idx_zero_cons, SM.lift_ok_bind] at h
          have h6 := (Prod.mk.inj h).2
          subst h6
          have h3' := h3
          rw [gam, List.take_succ_cons, List.map_cons, List.map_cons, num_path hval] at h3'
          have hst : s1.time = tar := (List.cons.inj h3').1
          refine ⟨h1, hst, by simp, ?_⟩
          simp only
          rw [← List.cons_append, List.map_append, List.nodup_append]
          refine ⟨?_, (List.nodup_cons.1 hndB).2, ?_⟩
          · rw [h3]
            have hp := (gam_sorted hu)
            have hp' : ((gam (path pp.depth tar)).map (num pp.depth)).Pairwise (· < ·) := by
              rw [List.pairwise_map]; exact hp
            have := hp'.sublist ((List.take_sublist (n + 1) (gam (path pp.depth tar))).map
              (num pp.depth))
            exact this.imp (fun hab => Nat.ne_of_lt hab)
          · intro a ha b hb hab
            subst hab
            exact h4 a ha hb

end SecretKey

end Pixel
