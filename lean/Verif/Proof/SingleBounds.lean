import Verif.Proof.Single

/-! # Forging with one random function: what is used how often -/

namespace Pixel

open Spec Props

set_option linter.unusedSectionVars false

variable {G1 G2 GT : Type} [AddCommGroup G1] [AddCommGroup G2] [CommGroup GT]
  {E : Ext G1 G2 GT} {g : G1} {pp : PubParam G1 G2}

/-! ## After `t0` -/

/-- the strings that are hashed are short -/
def Spec.HashTail.Short (B : Nat) : HashTail G1 G2 → Prop
  | .toss _ _ n => ∀ c, (n c).Short B
  | .eval m n => m.length ≤ B ∧ ∀ b, b.length = 64 → (n b).Short B
  | .point n => ∀ p, (n p).Short B
  | .forge F => F.msg.length + 300 ≤ B

/-- at most `k` evaluations of the hash function -/
def Spec.HashTail.Evals : HashTail G1 G2 → Nat → Prop
  | .toss _ _ n, k => ∀ c, (n c).Evals k
  | .eval _ n, k => 0 < k ∧ ∀ b, (n b).Evals (k - 1)
  | .point n, k => ∀ p, (n p).Evals k
  | .forge _, _ => True

def Spec.HashTail.Legal : HashTail G1 G2 → Prop
  | .toss _ _ n => ∀ c, (n c).Legal
  | .eval _ n => ∀ b, (n b).Legal
  | .point n => ∀ p, (n p).Legal
  | .forge F => F.cosigners.length + 1 < rOrder

def Spec.HashTail.Points : HashTail G1 G2 → Nat → Prop
  | .toss _ _ n, k => ∀ c, (n c).Points k
  | .eval _ n, k => ∀ b, (n b).Points k
  | .point n, k => 0 < k ∧ ∀ p, (n p).Points (k - 1)
  | .forge _, _ => True

theorem evals_mono {T : HashTail G1 G2} {k k' : Nat} (h : T.Evals k) (hk : k ≤ k') : T.Evals k' := by
  induction T generalizing k k' with
  | toss n hn next ih => exact fun c => ih c (h c) hk
  | eval m next ih => exact ⟨by have := h.1; omega, fun b => ih b (h.2 b) (by omega)⟩
  | point n ih => exact fun p => ih p (h p) hk
  | forge F => trivial

theorem macT_short {B : Nat} (hB : 192 ≤ B) {K m : Bytes} (hK : K.length = 64) (hm : m.length + 128 ≤ B)
    {k : Bytes → HashTail G1 G2} (h : ∀ b, b.length = 64 → (k b).Short B) : (HashTail.mac K m k).Short B := by
  refine ⟨?_, fun e he => ⟨?_, h⟩⟩
  · rw [List.length_append, keyPad_length (by omega)]
    omega
  · rw [List.length_append, keyPad_length (by omega)]
    omega

theorem macT_evals {j j' : Nat} (hj : j + 2 ≤ j') {K m : Bytes} {k : Bytes → HashTail G1 G2}
    (h : ∀ b, (k b).Evals j) : (HashTail.mac K m k).Evals j' :=
  ⟨by omega, fun _ => ⟨by omega, fun b => evals_mono (h b) (by omega)⟩⟩

theorem macT_legal {K m : Bytes} {k : Bytes → HashTail G1 G2}
    (h : ∀ b, (k b).Legal) : (HashTail.mac K m k).Legal := fun _ b => h b

theorem macT_points {j : Nat} {K m : Bytes} {k : Bytes → HashTail G1 G2}
    (h : ∀ b, (k b).Points j) : (HashTail.mac K m k).Points j := fun _ b => h b

theorem drawsT_short {B : Nat} (hB : 300 ≤ B) {n : Nat} {K : Bytes} (hK : K.length = 64)
    {k : List Fr → Bytes → HashTail G1 G2} (h : ∀ l b, b.length = 64 → (k l b).Short B) :
    (HashTail.draws n K k).Short B := by
  have hlen : DOM_SEP_SK_UPDATE.length + 193 ≤ 300 := by decide +kernel
  induction n generalizing k K with
  | zero => exact h [] K hK
  | succ n ih =>
    refine macT_short (by omega) hK (by simp; omega) fun t1 h1 => macT_short (by omega) hK ?_ fun t2 h2 =>
      ih h2 fun l b hb => h _ b hb
    simp only [List.length_append, List.length_singleton]
    omega

theorem drawsT_evals {j j' n : Nat} (hj : j + 4 * n ≤ j') {K : Bytes}
    {k : List Fr → Bytes → HashTail G1 G2} (h : ∀ l b, (k l b).Evals j) :
    (HashTail.draws n K k).Evals j' := by
  induction n generalizing k K j' with
  | zero => exact evals_mono (h [] K) hj
  | succ n ih =>
    exact macT_evals (j := j + 4 * n + 2) (by omega) fun t1 => macT_evals le_rfl fun t2 =>
      ih le_rfl fun l b => h _ b

theorem drawsT_legal {n : Nat} {K : Bytes} {k : List Fr → Bytes → HashTail G1 G2}
    (h : ∀ l b, (k l b).Legal) : (HashTail.draws n K k).Legal := by
  induction n generalizing k K with
  | zero => exact h [] K
  | succ n ih => exact macT_legal fun t1 => macT_legal fun t2 => ih fun l b => h _ b

theorem drawsT_points {n j : Nat} {K : Bytes} {k : List Fr → Bytes → HashTail G1 G2}
    (h : ∀ l b, (k l b).Points j) : (HashTail.draws n K k).Points j := by
  induction n generalizing k K with
  | zero => exact h [] K
  | succ n ih => exact macT_points fun t1 => macT_points fun t2 => ih fun l b => h _ b

theorem msgTag_length (cs : UInt8) (msg : Bytes) : (msgTag cs ++ msg).length = 22 + msg.length := by
  unfold msgTag
  rw [List.length_append, List.length_append]
  have : (text "Pixel hash to message").length = 21 := by decide +kernel
  rw [this]
  rfl

theorem signInfo_length (msg : Bytes) (t : Nat) : (signInfo msg t).length = 32 + msg.length := by
  unfold signInfo
  rw [List.length_append, List.length_append]
  have : DOM_SEP_SIG.length = 28 := by decide +kernel
  have : (timeBytes t).length = 4 := rfl
  omega

theorem rerandomize_length (t : Nat) : (DOM_SEP_SK_RERANDOMIZE_INFO ++ timeBytes t).length = 39 := by
  rw [List.length_append]
  have : DOM_SEP_SK_RERANDOMIZE_INFO.length = 35 := by decide +kernel
  have : (timeBytes t).length = 4 := rfl
  omega

theorem tail_short {B : Nat} (hB : 300 ≤ B) {pf : Profile} (P : HashPlayer G1 G2) {q s u : Nat}
    (h : P.Within B q s u) (t : Nat) (keys : List (SubSecretKey G1 G2)) {K : Bytes}
    (hK : K.length = 64) : (P.tail pf pp t keys K).Short B := by
  induction P generalizing q s u t keys K with
  | toss m hm n ih => exact fun c => ih c (h c) t keys hK
  | eval m n ih => exact ⟨h.1, fun b _ => ih b (h.2.2 b) t keys hK⟩
  | point n ih => exact fun p => ih p (h p) t keys hK
  | sign msg n ih =>
    obtain ⟨h1, _, h2⟩ := h
    refine ⟨?_, fun b _ => macT_short (by omega) hK ?_ fun y _ => ih _ (h2 _) t keys hK⟩
    · rw [msgTag_length]
      omega
    · rw [List.length_append, signInfo_length, List.length_singleton]
      omega
  | update tar seed n ih =>
    obtain ⟨h1, _, h2⟩ := h
    simp only [HashPlayer.tail]
    have hi := rerandomize_length t
    split_ifs
    · refine macT_short (by omega) hK ?_ fun t1 ht1 => macT_short (by omega) hK ?_ fun t2 ht2 =>
        macT_short (by omega) ht2 ?_ fun K' hK' => drawsT_short hB hK' fun l K'' hK'' => ih h2 _ _ hK''
      · rw [List.length_append, hi, List.length_singleton]
        omega
      · rw [List.length_append, List.length_append, hi, List.length_singleton]
        omega
      · rw [List.length_append]
        omega
    · exact ih h2 _ _ hK
  | breakIn n ih => exact ih _ (h _) t keys hK
  | forge F => exact h

theorem tail_evals {B : Nat} {pf : Profile} (P : HashPlayer G1 G2) {q s u : Nat}
    (h : P.Within B q s u) (t : Nat) (keys : List (SubSecretKey G1 G2)) (K : Bytes) {e : Nat}
    (he : q + 3 * s + u * (4 * pp.depth + 6) ≤ e) :
    (P.tail pf pp t keys K).Evals e := by
  induction P generalizing q s u t keys K e with
  | toss m hm n ih => exact fun c => ih c (h c) t keys K he
  | eval m n ih =>
    obtain ⟨_, h1, h2⟩ := h
    exact ⟨by omega, fun b => ih b (h2 b) t keys K (by omega)⟩
  | point n ih => exact fun p => ih p (h p) t keys K he
  | sign msg n ih =>
    obtain ⟨_, h1, h2⟩ := h
    exact ⟨by omega, fun b => macT_evals (j := e - 3) (by omega) fun y =>
      ih _ (h2 _) t keys K (by omega)⟩
  | update tar seed n ih =>
    obtain ⟨_, h1, h2⟩ := h
    obtain ⟨v, rfl⟩ : ∃ v, u = v + 1 := ⟨u - 1, by omega⟩
    rw [Nat.add_sub_cancel] at h2
    rw [Nat.add_mul, Nat.one_mul] at he
    simp only [HashPlayer.tail]
    have hd := drawsNeeded_le pp.depth t tar
    split_ifs
    · exact macT_evals (j := e - 2) (by omega) fun t1 => macT_evals (j := e - 4) (by omega) fun t2 =>
        macT_evals (j := e - 6) (by omega) fun K' =>
          drawsT_evals (j := e - 6 - 4 * pp.depth) (by omega) fun l K'' => ih h2 _ _ _ (by omega)
    · exact ih h2 _ _ _ (by omega)
  | breakIn n ih => exact ih _ (h _) t keys K he
  | forge F => trivial

theorem tail_legal {pf : Profile} (P : HashPlayer G1 G2) (h : P.Legal) (t : Nat)
    (keys : List (SubSecretKey G1 G2)) (K : Bytes) : (P.tail pf pp t keys K).Legal := by
  induction P generalizing t keys K with
  | toss m hm n ih => exact fun c => ih c (h c) t keys K
  | eval m n ih => exact fun b => ih b (h b) t keys K
  | point n ih => exact fun p => ih p (h p) t keys K
  | sign msg n ih => exact fun b => macT_legal fun y => ih _ (h _) t keys K
  | update tar seed n ih =>
    simp only [HashPlayer.tail]
    split_ifs
    · exact macT_legal fun t1 => macT_legal fun t2 => macT_legal fun K' => drawsT_legal fun l K'' =>
        ih h _ _ _
    · exact ih h _ _ _
  | breakIn n ih => exact ih _ (h _) t keys K
  | forge F => exact h

theorem tail_points {pf : Profile} (P : HashPlayer G1 G2) {k : Nat} (h : P.Points k) (t : Nat)
    (keys : List (SubSecretKey G1 G2)) (K : Bytes) : (P.tail pf pp t keys K).Points k := by
  induction P generalizing t keys K k with
  | toss m hm n ih => exact fun c => ih c (h c) t keys K
  | eval m n ih => exact fun b => ih b (h b) t keys K
  | point n ih => exact ⟨h.1, fun p => ih p (h.2 p) t keys K⟩
  | sign msg n ih => exact fun b => macT_points fun y => ih _ (h _) t keys K
  | update tar seed n ih =>
    simp only [HashPlayer.tail]
    split_ifs
    · exact macT_points fun t1 => macT_points fun t2 => macT_points fun K' => drawsT_points fun l K'' =>
        ih h _ _ _
    · exact ih h _ _ _
  | breakIn n ih => exact ih _ (h _) t keys K
  | forge F => trivial

theorem check_short [DecidableEq GT] {B : Nat} (pf : Profile) (t0 : Nat) (sg : List (Nat × Bytes))
    (T : HashTail G1 G2) (h : T.Short B) (W : World G1 G2) : (T.check E pf g t0 sg W).Short B := by
  induction T generalizing W with
  | toss m hm n ih => exact fun c => ih c (h c) W
  | eval m n ih => exact ⟨h.1, fun b hb => ih b (h.2 b hb) W⟩
  | point n ih => exact fun c => ih _ (h _) _
  | forge F =>
    simp only [HashTail.check, claimProbe]
    split_ifs
    · refine ⟨?_, fun _ _ => trivial⟩
      rw [msgTag_length]
      have : F.msg.length + 300 ≤ B := h
      omega
    · trivial

theorem check_hashes [DecidableEq GT] (pf : Profile) (t0 : Nat) (sg : List (Nat × Bytes))
    (T : HashTail G1 G2) {k : Nat} (h : T.Evals k) (W : World G1 G2) :
    (T.check E pf g t0 sg W).Hashes (k + 1) := by
  induction T generalizing W k with
  | toss m hm n ih => exact fun c => ih c (h c) W
  | eval m n ih =>
    obtain ⟨h1, h2⟩ := h
    refine ⟨by omega, fun b hb => ?_⟩
    have := ih b (h2 b) W
    rwa [show k - 1 + 1 = k + 1 - 1 by omega] at this
  | point n ih => exact fun c => ih _ (h _) _
  | forge F =>
    simp only [HashTail.check, claimProbe]
    split_ifs
    · exact ⟨by omega, fun _ _ => trivial⟩
    · trivial

/-! ## The game with the generator -/

theorem drawsQ_careful {n : Nat} {k : List Fr → PrngProber} (h : ∀ l, (k l).Careful false) :
    (drawsQ n k).Careful false := by
  induction n generalizing k with
  | zero => exact h []
  | succ n ih => exact fun r => ih fun l => h _

theorem playQ_careful [DecidableEq GT] (pf : Profile) (t0 : Nat) (x : Fr) (P : HashPlayer G1 G2)
    (S : Known0) (W : World G1 G2) (b : Bool) : (P.playQ E pf g t0 x S W).Careful b := by
  induction P generalizing S W b with
  | toss m hm n ih => exact fun c => ih c _ _ _
  | eval m n ih => exact fun b => ih b _ _ _
  | point n ih => exact fun c => ih _ _ _ _
  | sign msg n ih => exact fun b r => ih _ _ _ _
  | update tar seed n ih =>
    simp only [HashPlayer.playQ]
    split_ifs
    · exact drawsQ_careful fun l => ih _ _ _
    · exact drawsQ_careful fun l => rfl
    · exact ih _ _ _
  | breakIn n ih => trivial
  | forge F =>
    simp only [HashPlayer.playQ]
    split_ifs
    · exact fun b => trivial
    · trivial

theorem hashGame_careful [DecidableEq GT] (pf : Profile) (d : Nat) (cs : UInt8)
    (A : World G1 G2 → HashPlayer G1 G2) (t0 : Nat) : (hashGame E pf g d cs A t0).Careful false :=
  fun _ _ _ => playQ_careful pf t0 _ _ _ _ _

theorem drawsQ_within {B : Nat} (hB : 300 ≤ B) {n q m j : Nat} (hj : n + m ≤ j)
    {k : List Fr → PrngProber} (h : ∀ l, (k l).Within B q m) : (drawsQ n k).Within B q j := by
  induction n generalizing k j with
  | zero => exact prng_within_mono (h []) le_rfl (by omega)
  | succ n ih =>
    have hlen : DOM_SEP_SK_UPDATE.length + 193 ≤ 300 := by decide +kernel
    exact ⟨by omega, by omega, fun r => ih (by omega) fun l => h _⟩

theorem playQ_within [DecidableEq GT] {B : Nat} (hB : 300 ≤ B) (pf : Profile) (t0 : Nat) (x : Fr)
    (P : HashPlayer G1 G2) {q s u : Nat} (h : P.Within B q s u) (S : Known0) (W : World G1 G2)
    (hW : W.pp = pp) {e m : Nat} (he : q + 3 * s + u * (4 * pp.depth + 6) + 1 ≤ e)
    (hm : s + u * (pp.depth + 1) ≤ m) : (P.playQ E pf g t0 x S W).Within B e m := by
  induction P generalizing q s u S W e m with
  | toss m hm' n ih => exact fun c => ih c (h c) S W hW he hm
  | eval m n ih =>
    obtain ⟨h0, h1, h2⟩ := h
    exact ⟨h0, by omega, fun b _ => ih b (h2 b) S W hW (by omega) (by omega)⟩
  | point n ih =>
    exact fun c => ih ((c.val : Fr).val • g) (h _) S
      { W with answers := W.answers ++ [.point ((c.val : Fr).val • g)] } hW he hm
  | sign msg n ih =>
    obtain ⟨h0, h1, h2⟩ := h
    refine ⟨?_, by omega, fun b _ => ⟨?_, by omega, fun r => ih _ (h2 _) _ W hW (by omega) (by omega)⟩⟩
    · rw [msgTag_length]
      omega
    · rw [signInfo_length]
      omega
  | update tar seed n ih =>
    obtain ⟨h0, h1, h2⟩ := h
    obtain ⟨v, rfl⟩ : ∃ v, u = v + 1 := ⟨u - 1, by omega⟩
    rw [Nat.add_sub_cancel] at h2
    rw [Nat.add_mul, Nat.one_mul] at he hm
    simp only [HashPlayer.playQ]
    rw [hW]
    have hd := drawsNeeded_le pp.depth S.time tar
    have hi := rerandomize_length S.time
    by_cases hc : S.time < tar ∧ tar ≤ 2 ^ pp.depth - 1
    · rw [if_pos hc]
      refine ⟨by omega, by omega, by omega, ?_⟩
      refine drawsQ_within hB (m := m - 1 - pp.depth) (by omega) fun l => ?_
      by_cases h3 : tar ≤ t0
      · rw [if_pos h3]
        exact ih h2 _ W hW (by omega) (by omega)
      · rw [if_neg h3]
        refine fun K hK => ⟨check_short pf t0 _ _ (tail_short hB n h2 _ _ hK) W, ?_⟩
        exact probe_hashes_mono (check_hashes pf t0 _ _ (tail_evals n h2 _ _ _ le_rfl) W) (by omega)
    · rw [if_neg hc]
      exact ih h2 S W hW (by omega) (by omega)
  | breakIn n ih => trivial
  | forge F =>
    simp only [HashPlayer.playQ]
    split_ifs
    · refine ⟨?_, by omega, fun _ _ => trivial⟩
      rw [msgTag_length]
      have : F.msg.length + 300 ≤ B := h
      omega
    · trivial

/-- evaluations of the hash function -/
def hashUses (d q s u : Nat) : Nat := q + 3 * s + u * (4 * d + 6) + 1

/-- uses of the generator -/
def prngUses (d s u : Nat) : Nat := s + u * (d + 1) + 2

theorem hashGame_within [DecidableEq GT] {B : Nat} (hB : 300 ≤ B) (pf : Profile) (d : Nat) (cs : UInt8)
    (A : World G1 G2 → HashPlayer G1 G2) {q s u : Nat} (h : ∀ W, (A W).Within B q s u) (t0 : Nat) :
    (hashGame E pf g d cs A t0).Within B (hashUses d q s u) (prngUses d s u) := by
  have h1 : (ascii "key initialization").length + 193 ≤ 300 := by decide +kernel
  have h2 : (DOM_SEP_SK_INIT ++ [0, 0, 0, 1]).length + 193 ≤ 300 := by decide +kernel
  unfold hashUses prngUses
  refine fun c => ⟨by omega, by omega, fun x => ⟨by omega, by omega, fun r => ?_⟩⟩
  exact playQ_within hB pf t0 x _ (h _) _ _ rfl le_rfl (by simp; exact le_rfl)

end Pixel
