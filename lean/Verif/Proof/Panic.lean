import Verif.Spec.Panic
import Verif.Proof.Seed

/-! # The chance that a call panics: proofs -/

namespace Pixel

open Spec Props

set_option linter.unusedSectionVars false

variable {G1 G2 GT : Type} [AddCommGroup G1] [AddCommGroup G2] [CommGroup GT]
  {E : Ext G1 G2 GT} {pp : PubParam G1 G2} {sha : Bytes → Bytes}

/-! ## With the functions of the model -/

theorem watched_real (h : ∀ m, (sha m).length = 64) (z : Fr) (n : Nat) (k : List Fr → PrngPlayer)
    (p : Prng) :
    ((∃ j, 1 ≤ j ∧ j ≤ n ∧ drawVal sha (afterDraws sha p j) [] = z) ∧
      (PrngPlayer.watched z n k).real sha p = 1) ∨
    (PrngPlayer.watched z n k).real sha p = (k ((List.range n).map fun j =>
      drawn sha (text "Pixel secret key update") (afterDraws sha p j))).real sha
        (afterDraws sha p n) ∧
    ¬ ∃ j, 1 ≤ j ∧ j ≤ n ∧ drawVal sha (afterDraws sha p j) [] = z := by
  induction n generalizing k p with
  | zero =>
    refine Or.inr ⟨rfl, ?_⟩
    rintro ⟨j, h1, h2, _⟩
    omega
  | succ n ih =>
    have e1 : afterDraw sha p = drawNext sha p DOM_SEP_SK_UPDATE := afterDraw_eq h p
    rw [PrngPlayer.watched, real_draw h, real_sample h, ← e1]
    by_cases hz : drawVal sha (afterDraw sha p) [] = z
    · rw [if_pos hz]
      exact Or.inl ⟨⟨1, le_rfl, by omega, hz⟩, rfl⟩
    · rw [if_neg hz]
      rcases ih (fun l => k (drawVal sha p DOM_SEP_SK_UPDATE :: l)) (afterDraw sha p) with
        ⟨⟨j, h1, h2, h3⟩, h4⟩ | ⟨h1, h2⟩
      · refine Or.inl ⟨⟨j + 1, by omega, by omega, ?_⟩, h4⟩
        rw [afterDraws_succ]
        exact h3
      · refine Or.inr ⟨?_, ?_⟩
        · rw [h1, afterDraws_succ, List.range_succ_eq_map, List.map_cons, List.map_map]
          congr 3
          · show _ = drawn sha _ p
            rw [drawn_eq h, text_update]
          · refine List.map_congr_left fun j _ => ?_
            simp only [Function.comp_apply]
            rw [afterDraws_succ]
        · rintro ⟨j, h3, h4, h5⟩
          obtain ⟨i, rfl⟩ := Nat.exists_eq_add_of_le' h3
          rw [afterDraws_succ] at h5
          rcases i with _ | i
          · exact hz h5
          · exact h2 ⟨i + 1, by omega, by omega, h5⟩

/-- an update of the code, and the one that is watched -/
theorem move_real (H : HashLaws E) (L : GroupLaws E) (pf : Profile) (W : ParamWF E pp) {x : Fr}
    {t : Nat} {rho : List Fr} {sk : SecretKey G1 G2} (hk : KeyAs pp x t rho sk) (tar : Nat)
    (seed : Bytes) (no : PrngPlayer) (yes : List Fr → PrngPlayer) :
    (SecretKey.update E.sha512 pf pp tar seed sk = (.err .timeStamp, sk) ∧
      PrngPlayer.move pp.depth t tar seed rho no yes = no) ∨
    ((∃ e, SecretKey.update E.sha512 pf pp tar seed sk = (.panic e, sk)) ∧
      (PrngPlayer.move pp.depth t tar seed rho no yes).real E.sha512 sk.prng = 1) ∨
    (∃ sk' rho', SecretKey.update E.sha512 pf pp tar seed sk = (.ok (), sk') ∧
      KeyAs pp x tar rho' sk' ∧
      ((PrngPlayer.move pp.depth t tar seed rho no yes).real E.sha512 sk.prng = 1 ∨
        (PrngPlayer.move pp.depth t tar seed rho no yes).real E.sha512 sk.prng =
          (yes rho').real E.sha512 sk'.prng)) := by
  unfold PrngPlayer.move
  by_cases h1 : t < tar ∧ tar ≤ 2 ^ pp.depth - 1
  · refine Or.inr ?_
    rw [if_pos h1, real_sample H.sha_len, real_mix H.sha_len]
    have hre : mixed E.sha512 sk.prng seed (DOM_SEP_SK_RERANDOMIZE_INFO ++ timeBytes t) =
        reseeded E.sha512 sk.prng seed t := (reseeded_eq H.sha_len _ _ _).symm
    rw [hre]
    have hw := watched_real H.sha_len (drawVal E.sha512 sk.prng []) (drawsNeeded pp.depth t tar)
      (fun rs => yes (stepExponents pp.depth t tar rho rs)) (reseeded E.sha512 sk.prng seed t)
    rcases update_exact H.sha_len pf W.toParamShape hk.keyFor h1.1 h1.2 seed with
      ⟨⟨j, j1, j2, j3⟩, e⟩ | ⟨_, sk', e, _⟩
    · refine Or.inl ⟨⟨_, e⟩, ?_⟩
      rcases hw with ⟨_, h⟩ | ⟨_, h⟩
      · exact h
      · exact absurd ⟨j, j1, j2, by rw [j3]⟩ h
    · obtain ⟨_, _, hk', hp⟩ := C77_update H L pf W hk tar seed e
      refine Or.inr ⟨sk', _, e, hk', ?_⟩
      rcases hw with ⟨_, h⟩ | ⟨h, _⟩
      · exact Or.inl h
      · refine Or.inr ?_
        rw [h, hp]
        rfl
  · rw [if_neg h1]
    exact Or.inl ⟨(C15_update_outcome H.sha_len pf W.toParamShape hk.keyFor tar seed).1 h1, rfl⟩

theorem signBytes_real (H : HashLaws E) (L : GroupLaws E) (pf : Profile) (W : ParamWF E pp)
    (hc : Supported pp.ciphersuite) {x : Fr} {t : Nat} {rho : List Fr} {sk : SecretKey G1 G2}
    (hk : KeyAs pp x t rho sk) (msg : Bytes) (k : Signature G1 G2 → PrngPlayer) :
    ∃ s, Signature.signBytes E.sha512 pf sk t pp msg = .ok s ∧
      (PrngPlayer.autograph E.sha512 pp x t rho msg k).real E.sha512 sk.prng =
        (k s).real E.sha512 sk.prng := by
  have h1 := C77_sign H L pf W hc hk msg
  rw [Signature.signPresent_eq hk.time, signDraw_eq H.sha_len] at h1
  refine ⟨_, (Prod.mk.inj h1).1, ?_⟩
  rw [PrngPlayer.autograph, real_sample H.sha_len]

/-- a call: refused or done as in the game, or with a panic, or with a false alarm -/
theorem call_real (H : HashLaws E) (L : GroupLaws E) (pf : Profile) (W : ParamWF E pp)
    (hc : Supported pp.ciphersuite) {x : Fr} {t : Nat} {rho : List Fr} {sk : SecretKey G1 G2}
    (hk : KeyAs pp x t rho sk) (c : Call)
    (k : Res (Option (Signature G1 G2)) → Nat → List Fr → PrngPlayer) :
    ((∃ e, (c.run E.sha512 pf pp sk).1 = .panic e) ∧
      (c.watch E.sha512 pp x t rho k).real E.sha512 sk.prng = 1) ∨
    ∃ o t' rho' sk', c.run E.sha512 pf pp sk = (o, sk') ∧ KeyAs pp x t' rho' sk' ∧
      (∀ e, o ≠ .panic e) ∧
      ((c.watch E.sha512 pp x t rho k).real E.sha512 sk.prng = 1 ∨
        (c.watch E.sha512 pp x t rho k).real E.sha512 sk.prng =
          (k o t' rho').real E.sha512 sk'.prng) := by
  rcases c with ⟨tar, seed⟩ | ⟨tar, msg, seed⟩ | ⟨tar, msg⟩ | ⟨tar, msg, seed⟩
  · simp only [Call.watch, Call.run]
    rcases move_real H L pf W hk tar seed (k (.err .timeStamp) t rho) (fun rho' => k (.ok none) tar rho')
      with ⟨e, h⟩ | ⟨⟨a, e⟩, h⟩ | ⟨sk', rho', e, h1, h⟩
    · rw [e, h]
      exact Or.inr ⟨_, t, rho, sk, rfl, hk, (fun _ hc => by cases hc), Or.inr rfl⟩
    · rw [e, h]
      exact Or.inl ⟨⟨a, rfl⟩, rfl⟩
    · rw [e]
      exact Or.inr ⟨_, tar, rho', sk', rfl, h1, (fun _ hc => by cases hc), h⟩
  · simp only [Call.watch, Call.run]
    by_cases ht : t = tar
    · subst ht
      rw [if_pos rfl, Signature.sign_now hk.time]
      obtain ⟨s, h1, h2⟩ := signBytes_real H L pf W hc hk msg fun s => k (.ok (some s)) t rho
      rw [h1, h2]
      exact Or.inr ⟨_, t, rho, sk, rfl, hk, (fun _ hc => by cases hc), Or.inr rfl⟩
    · rw [if_neg ht]
      by_cases hlt : t < tar
      · rw [Signature.sign_future (by rw [hk.time]; exact hlt)]
        rcases move_real H L pf W hk tar seed (k (.err .timeStamp) t rho) (fun rho' =>
            .autograph E.sha512 pp x tar rho' msg fun s => k (.ok (some s)) tar rho')
          with ⟨e, h⟩ | ⟨⟨a, e⟩, h⟩ | ⟨sk', rho', e, h1, h⟩
        · rw [e, h]
          exact Or.inr ⟨_, t, rho, sk, rfl, hk, (fun _ hc => by cases hc), Or.inr rfl⟩
        · rw [e, h]
          exact Or.inl ⟨⟨a, rfl⟩, rfl⟩
        · rw [e]
          obtain ⟨s, h2, h3⟩ := signBytes_real H L pf W hc h1 msg fun s => k (.ok (some s)) tar rho'
          rw [h3] at h
          simp only [h2]
          exact Or.inr ⟨_, tar, rho', sk', rfl, h1, (fun _ hc => by cases hc), h⟩
      · rw [Signature.sign_past (by rw [hk.time]; omega), PrngPlayer.move, if_neg fun h => hlt h.1]
        exact Or.inr ⟨_, t, rho, sk, rfl, hk, (fun _ hc => by cases hc), Or.inr rfl⟩
  · simp only [Call.watch, Call.run]
    by_cases ht : t = tar
    · subst ht
      rw [if_pos rfl, Signature.signPresent_eq hk.time]
      obtain ⟨s, h1, h2⟩ := signBytes_real H L pf W hc hk msg fun s => k (.ok (some s)) t rho
      rw [h1, h2]
      exact Or.inr ⟨_, t, rho, sk, rfl, hk, (fun _ hc => by cases hc), Or.inr rfl⟩
    · rw [if_neg ht, Signature.signPresent_ne (by rw [hk.time]; exact ht)]
      exact Or.inr ⟨_, t, rho, sk, rfl, hk, (fun _ hc => by cases hc), Or.inr rfl⟩
  · simp only [Call.watch, Call.run]
    by_cases ht : t = tar
    · subst ht
      rw [if_pos rfl, Signature.signThenUpdate_eq hk.time]
      obtain ⟨s, h1, h2⟩ := signBytes_real H L pf W hc hk msg fun s =>
        .move pp.depth t (t + 1) seed rho (k (.err .timeStamp) t rho) fun rho' =>
          k (.ok (some s)) (t + 1) rho'
      have hadd : add64 pf t 1 = .ok (t + 1) := by
        refine add64_lt ?_
        have h3 := hk.valid.2
        have h4 : 2 ^ pp.depth ≤ 2 ^ 63 := Nat.pow_le_pow_right (by omega) W.depth_le
        norm_num at h4 ⊢
        omega
      rw [h1, h2]
      simp only [hadd]
      rcases move_real H L pf W hk (t + 1) seed (k (.err .timeStamp) t rho) (fun rho' =>
            k (.ok (some s)) (t + 1) rho')
          with ⟨e, h⟩ | ⟨⟨a, e⟩, h⟩ | ⟨sk', rho', e, h1, h⟩
      · rw [e, h]
        exact Or.inr ⟨_, t, rho, sk, rfl, hk, (fun _ hc => by cases hc), Or.inr rfl⟩
      · rw [e, h]
        exact Or.inl ⟨⟨a, rfl⟩, rfl⟩
      · rw [e]
        exact Or.inr ⟨_, t + 1, rho', sk', rfl, h1, (fun _ hc => by cases hc), h⟩
    · rw [if_neg ht, Signature.signThenUpdate_ne (by rw [hk.time]; exact ht)]
      exact Or.inr ⟨_, t, rho, sk, rfl, hk, (fun _ hc => by cases hc), Or.inr rfl⟩

theorem Spec.User.panics_le_one (pf : Profile) (U : User G1 G2) (sk : SecretKey G1 G2) :
    U.panics sha pf pp sk ≤ 1 := by
  induction U generalizing sk with
  | toss n hn next ih =>
    have : Nonempty (Fin n) := ⟨⟨0, hn⟩⟩
    exact avg_le_one fun c => ih c sk
  | call c next ih =>
    simp only [User.panics]
    rcases c.run sha pf pp sk with ⟨_ | e | e, sk'⟩
    · exact ih _ _
    · exact ih _ _
    · exact le_rfl
  | done => exact zero_le_one

theorem panics_le_watch (H : HashLaws E) (L : GroupLaws E) (pf : Profile) (W : ParamWF E pp)
    (hc : Supported pp.ciphersuite) {x : Fr} (U : User G1 G2) {t : Nat} {rho : List Fr}
    {sk : SecretKey G1 G2} (hk : KeyAs pp x t rho sk) :
    U.panics E.sha512 pf pp sk ≤ (U.watch E.sha512 pp x t rho).real E.sha512 sk.prng := by
  induction U generalizing t rho sk with
  | toss n hn next ih => exact avg_mono fun c => ih c hk
  | call c next ih =>
    have hle := User.panics_le_one (sha := E.sha512) (pp := pp) pf (.call c next) sk
    rw [User.watch]
    rcases call_real H L pf W hc hk c fun o t' rho' => (next o).watch E.sha512 pp x t' rho' with
      ⟨_, h⟩ | ⟨o, t', rho', sk', h1, h2, h3, h | h⟩
    · rw [h]; exact hle
    · rw [h]; exact hle
    · rw [h]
      refine le_trans ?_ (ih o h2)
      simp only [User.panics]
      rw [h1]
      rcases o with s | e | e
      · exact le_rfl
      · exact le_rfl
      · exact absurd rfl (h3 e)
  | done => exact le_rfl

/-! ## With uniform strings -/

theorem oracle_below {tab : Table} {b : Bytes} {f : Digest → Table → ℚ} {v : ℚ}
    (h : ∀ D tab', f D tab' ≤ v) : oracle tab b f ≤ v :=
  (oracle_mono h).trans (oracle_const tab b v).le

theorem watched_ideal (z : Fr) (n : Nat) {k : List Fr → PrngPlayer} {c : ℚ} (hc : 0 ≤ c)
    (h : ∀ l tab, (k l).ideal tab ≤ c) (tab : Table) :
    (PrngPlayer.watched z n k).ideal tab ≤ n * (1 / rOrder + 1 / 2 ^ 512) + c := by
  induction n generalizing k tab with
  | zero =>
    rw [PrngPlayer.watched, Nat.cast_zero, zero_mul, zero_add]
    exact h [] tab
  | succ n ih =>
    rw [PrngPlayer.watched, PrngPlayer.ideal]
    refine oracle_below fun D _ => ?_
    rw [PrngPlayer.ideal, oracle_new]
    have h1 : ∀ D' : Digest, (if D'.field = z then PrngPlayer.stop 1 else
        PrngPlayer.watched z n fun l => k (D.field :: l)).ideal [([], D')] ≤
          (if D'.field = z then 1 else 0) + (n * (1 / rOrder + 1 / 2 ^ 512) + c) := by
      intro D'
      split_ifs
      · rw [PrngPlayer.ideal]
        have : (0 : ℚ) ≤ n * (1 / rOrder + 1 / 2 ^ 512) + c := by positivity
        linarith
      · rw [zero_add]
        exact ih (fun l tab => h _ _) _
    refine (avg_mono h1).trans ?_
    rw [avg_add_const]
    have h2 := digest_share' z
    rw [Nat.cast_add, Nat.cast_one]
    generalize (1 : ℚ) / rOrder + 1 / 2 ^ 512 = δ at *
    linarith

theorem move_ideal {d t tar : Nat} (seed : Bytes) (rho : List Fr) {no : PrngPlayer}
    {yes : List Fr → PrngPlayer} {c : ℚ} (hc : 0 ≤ c) (h0 : ∀ tab, no.ideal tab ≤ c)
    (h : ∀ l tab, (yes l).ideal tab ≤ c) (tab : Table) :
    (PrngPlayer.move d t tar seed rho no yes).ideal tab ≤ d * (1 / rOrder + 1 / 2 ^ 512) + c := by
  unfold PrngPlayer.move
  have hδ : (0 : ℚ) ≤ 1 / rOrder + 1 / 2 ^ 512 := by positivity
  split_ifs
  · rw [PrngPlayer.ideal]
    refine oracle_below fun D tab' => ?_
    rw [PrngPlayer.ideal]
    refine (watched_ideal _ _ hc (fun l tab => h _ _) _).trans (add_le_add_left ?_ c)
    refine mul_le_mul_of_nonneg_right ?_ hδ
    exact_mod_cast drawsNeeded_le d t tar
  · refine (h0 tab).trans ?_
    have : (0 : ℚ) ≤ d * (1 / rOrder + 1 / 2 ^ 512) := mul_nonneg (Nat.cast_nonneg d) hδ
    linarith

theorem autograph_ideal {x : Fr} {t : Nat} {rho : List Fr} {msg : Bytes}
    {k : Signature G1 G2 → PrngPlayer} {c : ℚ} (h : ∀ s tab, (k s).ideal tab ≤ c) (tab : Table) :
    (PrngPlayer.autograph sha pp x t rho msg k).ideal tab ≤ c := by
  rw [PrngPlayer.autograph, PrngPlayer.ideal]
  exact oracle_below fun D tab' => h _ _

theorem call_ideal {x : Fr} {t : Nat} {rho : List Fr}
    {k : Res (Option (Signature G1 G2)) → Nat → List Fr → PrngPlayer} {c : ℚ} (hc : 0 ≤ c)
    (h : ∀ o t' rho' tab, (k o t' rho').ideal tab ≤ c) (cl : Call) (tab : Table) :
    (cl.watch sha pp x t rho k).ideal tab ≤ pp.depth * (1 / rOrder + 1 / 2 ^ 512) + c := by
  have hδ : c ≤ (pp.depth : ℚ) * (1 / rOrder + 1 / 2 ^ 512) + c := by
    have : (0 : ℚ) ≤ pp.depth * (1 / rOrder + 1 / 2 ^ 512) := by positivity
    linarith
  rcases cl with ⟨tar, seed⟩ | ⟨tar, msg, seed⟩ | ⟨tar, msg⟩ | ⟨tar, msg, seed⟩
  · rw [Call.watch]
    exact move_ideal seed rho hc (fun tab => h _ _ _ _) (fun l tab => h _ _ _ _) tab
  · simp only [Call.watch]
    split_ifs
    · exact (autograph_ideal (fun s tab => h _ _ _ _) tab).trans hδ
    · exact move_ideal seed rho hc (fun tab => h _ _ _ _)
        (fun l tab => autograph_ideal (fun s tab => h _ _ _ _) tab) tab
  · simp only [Call.watch]
    split_ifs
    · exact (autograph_ideal (fun s tab => h _ _ _ _) tab).trans hδ
    · exact (h _ _ _ _).trans hδ
  · simp only [Call.watch]
    split_ifs
    · exact autograph_ideal (fun s tab => move_ideal seed rho hc (fun tab => h _ _ _ _)
        (fun l tab => h _ _ _ _) tab) tab
    · exact (h _ _ _ _).trans hδ

theorem watch_ideal {x : Fr} (U : User G1 G2) {u : Nat} (hu : U.Calls u) (t : Nat) (rho : List Fr)
    (tab : Table) :
    (U.watch sha pp x t rho).ideal tab ≤ u * (pp.depth * (1 / rOrder + 1 / 2 ^ 512)) := by
  induction U generalizing u t rho tab with
  | toss n hn next ih =>
    have : Nonempty (Fin n) := ⟨⟨0, hn⟩⟩
    rw [User.watch, PrngPlayer.ideal]
    exact (avg_mono fun c => ih c (hu c) t rho tab).trans (avg_const _).le
  | call c next ih =>
    obtain ⟨h1, h2⟩ := hu
    rw [User.watch]
    have hδ : (0 : ℚ) ≤ pp.depth * (1 / rOrder + 1 / 2 ^ 512) := by positivity
    refine (call_ideal (c := ((u - 1 : Nat) : ℚ) * (pp.depth * (1 / rOrder + 1 / 2 ^ 512)))
      (mul_nonneg (Nat.cast_nonneg _) hδ) (fun o t' rho' tab => ih o (h2 o) t' rho' tab) c tab).trans ?_
    obtain ⟨v, rfl⟩ := Nat.exists_eq_add_of_le' h1
    rw [Nat.add_sub_cancel]
    refine le_of_eq ?_
    push_cast
    ring
  | done =>
    rw [User.watch, PrngPlayer.ideal]
    positivity

/-! ## How the generator is used -/

theorem watched_careful (z : Fr) (n : Nat) {k : List Fr → PrngPlayer} (h : ∀ l b, (k l).Careful b)
    (b : Bool) : (PrngPlayer.watched z n k).Careful b := by
  induction n generalizing k b with
  | zero => exact h [] b
  | succ n ih =>
    intro r y
    show (if y = z then PrngPlayer.stop 1 else _).Careful true
    split_ifs
    · trivial
    · exact ih (fun l b => h _ _) _

theorem move_careful {d t tar : Nat} {seed : Bytes} {rho : List Fr} {no : PrngPlayer}
    {yes : List Fr → PrngPlayer} (h0 : ∀ b, no.Careful b) (h : ∀ l b, (yes l).Careful b) (b : Bool) :
    (PrngPlayer.move d t tar seed rho no yes).Careful b := by
  unfold PrngPlayer.move
  split_ifs
  · exact fun z => watched_careful z _ (fun l b => h _ _) _
  · exact h0 b

theorem call_careful {x : Fr} {t : Nat} {rho : List Fr}
    {k : Res (Option (Signature G1 G2)) → Nat → List Fr → PrngPlayer}
    (h : ∀ o t' rho' b, (k o t' rho').Careful b) (cl : Call) (b : Bool) :
    (cl.watch sha pp x t rho k).Careful b := by
  rcases cl with ⟨tar, seed⟩ | ⟨tar, msg, seed⟩ | ⟨tar, msg⟩ | ⟨tar, msg, seed⟩
  · rw [Call.watch]
    exact move_careful (fun b => h _ _ _ b) (fun l b => h _ _ _ b) b
  · simp only [Call.watch]
    split_ifs
    · exact fun r => h _ _ _ _
    · refine move_careful (fun b => h _ _ _ b) (fun l b => ?_) b
      exact fun r => h _ _ _ _
  · simp only [Call.watch]
    split_ifs
    · exact fun r => h _ _ _ _
    · exact h _ _ _ _
  · simp only [Call.watch]
    split_ifs
    · exact fun r => move_careful (fun b => h _ _ _ b) (fun l b => h _ _ _ b) _
    · exact h _ _ _ _

theorem watch_careful {x : Fr} (U : User G1 G2) (t : Nat) (rho : List Fr) (b : Bool) :
    (U.watch sha pp x t rho).Careful b := by
  induction U generalizing t rho b with
  | toss n hn next ih => exact fun c => ih c t rho b
  | call c next ih => exact call_careful (fun o t' rho' b => ih o t' rho' b) c b
  | done => trivial

theorem watched_keys (z : Fr) {n m j : Nat} (hj : n + m ≤ j) {k : List Fr → PrngPlayer}
    (h : ∀ l, (k l).Keys m) : (PrngPlayer.watched z n k).Keys j := by
  induction n generalizing k j with
  | zero => exact keys_mono (h []) (by omega)
  | succ n ih =>
    refine ⟨by omega, fun r y => ?_⟩
    show (if y = z then PrngPlayer.stop 1 else _).Keys (j - 1)
    split_ifs
    · trivial
    · exact ih (by omega) fun l => h _

theorem move_keys {d t tar m : Nat} {seed : Bytes} {rho : List Fr} {no : PrngPlayer}
    {yes : List Fr → PrngPlayer} (h0 : no.Keys m) (h : ∀ l, (yes l).Keys m) :
    (PrngPlayer.move d t tar seed rho no yes).Keys (d + 2 + m) := by
  unfold PrngPlayer.move
  have := drawsNeeded_le d t tar
  split_ifs
  · exact fun z => ⟨by omega, watched_keys z (m := m) (by omega) fun l => h _⟩
  · exact keys_mono h0 (by omega)

theorem call_keys {x : Fr} {t m : Nat} {rho : List Fr}
    {k : Res (Option (Signature G1 G2)) → Nat → List Fr → PrngPlayer}
    (h : ∀ o t' rho', (k o t' rho').Keys m) (cl : Call) :
    (cl.watch sha pp x t rho k).Keys (pp.depth + 2 + m) := by
  rcases cl with ⟨tar, seed⟩ | ⟨tar, msg, seed⟩ | ⟨tar, msg⟩ | ⟨tar, msg, seed⟩
  · exact move_keys (h _ _ _) fun l => h _ _ _
  · simp only [Call.watch]
    split_ifs
    · exact fun r => keys_mono (h _ _ _) (by omega)
    · exact move_keys (h _ _ _) fun l r => h _ _ _
  · simp only [Call.watch]
    split_ifs
    · exact fun r => keys_mono (h _ _ _) (by omega)
    · exact keys_mono (h _ _ _) (by omega)
  · simp only [Call.watch]
    split_ifs
    · exact fun r => move_keys (h _ _ _) fun l => h _ _ _
    · exact keys_mono (h _ _ _) (by omega)

theorem watch_keys {x : Fr} (U : User G1 G2) {u : Nat} (hu : U.Calls u) (t : Nat) (rho : List Fr) :
    (U.watch sha pp x t rho).Keys (u * (pp.depth + 2)) := by
  induction U generalizing u t rho with
  | toss n hn next ih => exact fun c => ih c (hu c) t rho
  | call c next ih =>
    obtain ⟨h1, h2⟩ := hu
    obtain ⟨v, rfl⟩ := Nat.exists_eq_add_of_le' h1
    rw [Nat.add_sub_cancel] at h2
    rw [show (v + 1) * (pp.depth + 2) = pp.depth + 2 + v * (pp.depth + 2) by ring]
    exact call_keys (fun o t' rho' => ih o (h2 o) t' rho') c
  | done => trivial

theorem uses_mono {P : PrngPlayer} {k k' : Nat} (h : P.Uses k) (hk : k ≤ k') : P.Uses k' := by
  induction P generalizing k k' with
  | toss n hn next ih => exact fun c => ih c (h c) hk
  | sample info next ih => exact ⟨by have := h.1; omega, fun r => ih r (h.2 r) (by omega)⟩
  | draw info next ih => exact ⟨by have := h.1; omega, fun r => ih r (h.2 r) (by omega)⟩
  | mix seed info next ih => exact ⟨by have := h.1; omega, ih h.2 (by omega)⟩
  | reveal out => trivial
  | stop out => trivial

theorem watched_uses (z : Fr) {n m j : Nat} (hj : 2 * n + m ≤ j) {k : List Fr → PrngPlayer}
    (h : ∀ l, (k l).Uses m) : (PrngPlayer.watched z n k).Uses j := by
  induction n generalizing k j with
  | zero => exact uses_mono (h []) (by omega)
  | succ n ih =>
    refine ⟨by omega, fun r => ⟨by omega, fun y => ?_⟩⟩
    show (if y = z then PrngPlayer.stop 1 else _).Uses (j - 1 - 1)
    split_ifs
    · trivial
    · exact ih (by omega) fun l => h _

theorem move_uses {d t tar m j : Nat} (hj : 2 * d + 2 + m ≤ j) {seed : Bytes} {rho : List Fr}
    {no : PrngPlayer} {yes : List Fr → PrngPlayer} (h0 : no.Uses m) (h : ∀ l, (yes l).Uses m) :
    (PrngPlayer.move d t tar seed rho no yes).Uses j := by
  unfold PrngPlayer.move
  have := drawsNeeded_le d t tar
  split_ifs
  · exact ⟨by omega, fun z => ⟨by omega, watched_uses z (m := m) (by omega) fun l => h _⟩⟩
  · exact uses_mono h0 (by omega)

theorem call_uses {x : Fr} {t m : Nat} {rho : List Fr}
    {k : Res (Option (Signature G1 G2)) → Nat → List Fr → PrngPlayer}
    (h : ∀ o t' rho', (k o t' rho').Uses m) (cl : Call) :
    (cl.watch sha pp x t rho k).Uses (2 * pp.depth + 3 + m) := by
  rcases cl with ⟨tar, seed⟩ | ⟨tar, msg, seed⟩ | ⟨tar, msg⟩ | ⟨tar, msg, seed⟩
  · exact move_uses (by omega) (h _ _ _) fun l => h _ _ _
  · simp only [Call.watch]
    split_ifs
    · exact ⟨by omega, fun r => uses_mono (h _ _ _) (by omega)⟩
    · refine move_uses (m := m + 1) (by omega) (uses_mono (h _ _ _) (by omega)) fun l => ?_
      exact ⟨by omega, fun r => h _ _ _⟩
  · simp only [Call.watch]
    split_ifs
    · exact ⟨by omega, fun r => uses_mono (h _ _ _) (by omega)⟩
    · exact uses_mono (h _ _ _) (by omega)
  · simp only [Call.watch]
    split_ifs
    · exact ⟨by omega, fun r => move_uses (by omega) (h _ _ _) fun l => h _ _ _⟩
    · exact uses_mono (h _ _ _) (by omega)

theorem watch_uses {x : Fr} (U : User G1 G2) {u : Nat} (hu : U.Calls u) (t : Nat) (rho : List Fr) :
    (U.watch sha pp x t rho).Uses (u * (2 * pp.depth + 3)) := by
  induction U generalizing u t rho with
  | toss n hn next ih => exact fun c => ih c (hu c) t rho
  | call c next ih =>
    obtain ⟨h1, h2⟩ := hu
    obtain ⟨v, rfl⟩ := Nat.exists_eq_add_of_le' h1
    rw [Nat.add_sub_cancel] at h2
    rw [show (v + 1) * (2 * pp.depth + 3) = 2 * pp.depth + 3 + v * (2 * pp.depth + 3) by ring]
    exact call_uses (fun o t' rho' => ih o (h2 o) t' rho') c
  | done => trivial

/-! ## From key generation on -/

theorem panicFrom_le (H : HashLaws E) (L : GroupLaws E) (pf : Profile) (W : ParamWF E pp)
    (hc : Supported pp.ciphersuite) (U : PublicKey G2 → ProofOfPossession G1 → User G1 G2) (p : Prng) :
    panicFrom E pf pp U p ≤ (panicGame E pp U).real E.sha512 p := by
  unfold panicFrom panicGame
  rw [sampleThenUpdate_eq H.sha_len, real_draw H.sha_len, real_draw H.sha_len]
  simp only []
  obtain ⟨sk, e1, e2, e3⟩ := init_keyAs H L W hc (drawVal E.sha512 p (ascii "key initialization"))
    (drawNext E.sha512 p (ascii "key initialization"))
  rw [e1, ← e3]
  exact panics_le_watch H L pf W hc _ e2

theorem panicGame_ideal (U : PublicKey G2 → ProofOfPossession G1 → User G1 G2) {u : Nat}
    (hu : ∀ pk pop, (U pk pop).Calls u) :
    (panicGame E pp U).ideal [] ≤ u * (pp.depth * (1 / rOrder + 1 / 2 ^ 512)) := by
  unfold panicGame
  rw [PrngPlayer.ideal]
  refine oracle_below fun D _ => ?_
  rw [PrngPlayer.ideal]
  exact oracle_below fun D' _ => watch_ideal _ (hu _ _) _ _ _

theorem panicGame_careful (U : PublicKey G2 → ProofOfPossession G1 → User G1 G2) :
    (panicGame E pp U).Careful false :=
  fun _ _ => watch_careful _ _ _ _

theorem panicGame_keys (U : PublicKey G2 → ProofOfPossession G1 → User G1 G2) {u : Nat}
    (hu : ∀ pk pop, (U pk pop).Calls u) : (panicGame E pp U).Keys (u * (pp.depth + 2) + 2) :=
  ⟨by omega, fun _ => ⟨by omega, fun _ => watch_keys _ (hu _ _) _ _⟩⟩

theorem panicGame_uses (U : PublicKey G2 → ProofOfPossession G1 → User G1 G2) {u : Nat}
    (hu : ∀ pk pop, (U pk pop).Calls u) : (panicGame E pp U).Uses (u * (2 * pp.depth + 3) + 2) :=
  ⟨by omega, fun _ => ⟨by omega, fun _ => watch_uses _ (hu _ _) _ _⟩⟩

theorem seed_panics (H : HashLaws E) (pf : Profile) (S : ParamShape pp)
    (hc : Supported pp.ciphersuite) (U : PublicKey G2 → ProofOfPossession G1 → User G1 G2)
    {seed : Bytes} (hs : 32 ≤ seed.length) :
    (match keygen E seed pp with
      | .ok (pk, sk, pop) => (U pk pop).panics E.sha512 pf pp sk
      | _ => 0) =
    panicFrom E pf pp U ⟨hmac E.sha512 (text "Pixel master key" ++ [pp.ciphersuite]) seed⟩ := by
  obtain ⟨sk, h1, h2⟩ := keygen_init H S hs hc
  unfold panicFrom
  rw [h2, sampleThenUpdate_eq H.sha_len,
    show (⟨hmac E.sha512 (text "Pixel master key" ++ [pp.ciphersuite]) seed⟩ : Prng) =
      kgState E.sha512 seed pp.ciphersuite by rw [← text_masterSalt]; rfl]
  simp only []
  erw [h1]
  rfl

end Pixel
