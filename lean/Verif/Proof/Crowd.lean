import Verif.Spec.Crowd
import Verif.Proof.Bytes

/-! # The game with many honest signers, played against one of them -/

namespace Pixel

open Spec Props

set_option linter.unusedSectionVars false

variable {G1 G2 GT : Type} [AddCommGroup G1] [AddCommGroup G2] [CommGroup GT] {N : Nat}

/-! ### tables that answer alike -/

/-- the tables give the same points -/
def Same (pts pts' : Curve G1) : Prop := ∀ i, pts.lookup i = pts'.lookup i

theorem Same.add {pts pts' : Curve G1} (h : Same pts pts') (i : Bytes × Bytes) (p : G1) :
    Same (pts ++ [(i, p)]) (pts' ++ [(i, p)]) := by
  intro j
  rw [List.lookup_append, List.lookup_append, h j]

theorem Same.hash {pts pts' : Curve G1} (h : Same pts pts') : pts.hash = pts'.hash := by
  funext m c
  unfold Curve.hash
  rw [h]

theorem curveOracle_same {g : G1} {pts pts' : Curve G1} (h : Same pts pts') {i : Bytes × Bytes}
    {f f' : G1 → Curve G1 → ℚ} (hf : ∀ p q q', Same q q' → f p q = f' p q') :
    curveOracle g pts i f = curveOracle g pts' i f' := by
  unfold curveOracle
  rw [h i]
  rcases pts'.lookup i with _ | p
  · exact avg_congr fun r => hf _ _ _ (h.add _ _)
  · exact hf _ _ _ h

theorem curveOracles_same {g : G1} (is : List (Bytes × Bytes)) {pts pts' : Curve G1}
    (h : Same pts pts') {f f' : Curve G1 → ℚ} (hf : ∀ q q', Same q q' → f q = f' q') :
    curveOracles g is pts f = curveOracles g is pts' f' := by
  induction is generalizing pts pts' with
  | nil => exact hf _ _ h
  | cons i is ih =>
    unfold curveOracles
    exact curveOracle_same h fun p q q' hq => ih hq

theorem curveOracle_mono {g : G1} {pts : Curve G1} {i : Bytes × Bytes} {f f' : G1 → Curve G1 → ℚ}
    (h : ∀ p q, f p q ≤ f' p q) : curveOracle g pts i f ≤ curveOracle g pts i f' := by
  unfold curveOracle
  rcases pts.lookup i with _ | p
  · exact avg_mono fun r => h _ _
  · exact h _ _

theorem curveOracles_mono {g : G1} (is : List (Bytes × Bytes)) {pts : Curve G1} {f f' : Curve G1 → ℚ}
    (h : ∀ q, f q ≤ f' q) : curveOracles g is pts f ≤ curveOracles g is pts f' := by
  induction is generalizing pts with
  | nil => exact h _
  | cons i is ih => exact curveOracle_mono fun p q => ih

theorem curveOracle_sum {ι : Type} {s : Finset ι} {g : G1} {pts : Curve G1} {i : Bytes × Bytes}
    (f : ι → G1 → Curve G1 → ℚ) :
    curveOracle g pts i (fun p q => ∑ k ∈ s, f k p q) = ∑ k ∈ s, curveOracle g pts i (f k) := by
  unfold curveOracle
  rcases pts.lookup i with _ | p
  · exact avg_sum s fun k r => f k _ _
  · rfl

theorem curveOracles_sum {ι : Type} {s : Finset ι} {g : G1} (is : List (Bytes × Bytes))
    {pts : Curve G1} (f : ι → Curve G1 → ℚ) :
    curveOracles g is pts (fun q => ∑ k ∈ s, f k q) = ∑ k ∈ s, curveOracles g is pts (f k) := by
  induction is generalizing pts with
  | nil => rfl
  | cons i is ih =>
    simp only [curveOracles]
    rw [← curveOracle_sum]
    congr 1
    funext p q
    exact ih

theorem curveOracle_congr {g : G1} {pts : Curve G1} {i : Bytes × Bytes} {f f' : G1 → Curve G1 → ℚ}
    (h : ∀ p q, f p q = f' p q) : curveOracle g pts i f = curveOracle g pts i f' := by
  rw [show f = f' from funext fun p => funext fun q => h p q]

theorem curveOracle_nonneg {g : G1} {pts : Curve G1} {i : Bytes × Bytes} {f : G1 → Curve G1 → ℚ}
    (h : ∀ p q, 0 ≤ f p q) : 0 ≤ curveOracle g pts i f := by
  unfold curveOracle
  rcases pts.lookup i with _ | p
  · exact avg_nonneg fun r => h _ _
  · exact h _ _

theorem curveOracles_nonneg {g : G1} (is : List (Bytes × Bytes)) {pts : Curve G1} {f : Curve G1 → ℚ}
    (h : ∀ q, 0 ≤ f q) : 0 ≤ curveOracles g is pts f := by
  induction is generalizing pts with
  | nil => exact h _
  | cons i is ih => exact curveOracle_nonneg fun p q => ih

theorem lookup_add_ne {pts : Curve G1} {i j : Bytes × Bytes} (h : j ≠ i) (p : G1) :
    (pts ++ [(i, p)]).lookup j = pts.lookup j := by
  rw [List.lookup_append]
  have h1 : (j == i) = false := by simpa using h
  simp [List.lookup_cons, h1]

/-- the order of two questions does not matter -/
theorem curveOracle_swap {g : G1} {pts : Curve G1} {i j : Bytes × Bytes} (hij : i ≠ j)
    {f : Curve G1 → ℚ} (hf : ∀ q q', Same q q' → f q = f q') :
    (curveOracle g pts i fun _ q => curveOracle g q j fun _ q' => f q') =
      curveOracle g pts j fun _ q => curveOracle g q i fun _ q' => f q' := by
  unfold curveOracle
  rcases hi : pts.lookup i with _ | p <;> rcases hj : pts.lookup j with _ | p'
  · simp only [lookup_add_ne hij, lookup_add_ne hij.symm, hi, hj]
    rw [avg_comm]
    refine avg_congr fun r => avg_congr fun r' => hf _ _ ?_
    intro k
    simp only [List.append_assoc, List.lookup_append, List.singleton_append]
    congr 1
    simp only [List.lookup_cons, List.lookup_nil]
    by_cases h1 : k = i
    · subst h1
      have h2 : (k == j) = false := by simpa using hij
      simp [h2]
    · have h2 : (k == i) = false := by simpa using h1
      rw [h2]
  · simp only [lookup_add_ne hij.symm, hi, hj]
  · simp only [lookup_add_ne hij, hi, hj]
  · simp only [hi, hj]

/-- a question that is asked later anyway can be left out -/
theorem curveOracles_absorb {g : G1} (is : List (Bytes × Bytes)) {i : Bytes × Bytes} (hi : i ∈ is)
    {pts : Curve G1} {f : Curve G1 → ℚ} (hf : ∀ q q', Same q q' → f q = f q') :
    curveOracles g (i :: is) pts f = curveOracles g is pts f := by
  induction is generalizing pts with
  | nil => cases hi
  | cons j is ih =>
    by_cases hij : i = j
    · subst hij
      simp only [curveOracles]
      unfold curveOracle
      rcases h : pts.lookup i with _ | p
      · simp only [lookup_append_new h]
      · simp only [h]
    · have hi' : i ∈ is := by
        rcases List.mem_cons.1 hi with h | h
        · exact absurd h hij
        · exact h
      simp only [curveOracles]
      rw [curveOracle_swap hij fun q q' hq => curveOracles_same is hq hf]
      exact curveOracle_congr fun p q => ih hi'

theorem chance_same [DecidableEq GT] {E : Ext G1 G2 GT} {pf : Profile} {g : G1} {pp : PubParam G1 G2}
    {pk : PublicKey G2} (P : BytePlayer G1 G2) (S : CodeSigner G1 G2) (tab : Table)
    {pts pts' : Curve G1} (h : Same pts pts') :
    P.chance E pf g pp pk S tab pts = P.chance E pf g pp pk S tab pts' := by
  induction P generalizing S tab pts pts' with
  | toss n hn next ih => exact avg_congr fun c => ih c S tab h
  | hash msg next ih => exact oracle_congr fun D tab' => ih _ S tab' h
  | curve i next ih => exact curveOracle_same h fun p q q' hq => ih _ S tab hq
  | sign msg next ih =>
    simp only [BytePlayer.chance]
    refine oracle_congr fun D tab' => ?_
    rcases signHashed E.sha512 pf pp S.sk msg D.field with s | e | e
    · exact ih s _ tab' h
    · rfl
    · rfl
  | update tar seed next ih =>
    simp only [BytePlayer.chance]
    rcases SecretKey.update E.sha512 pf pp tar seed S.sk with ⟨⟨⟩ | e | e, sk⟩
    · exact ih _ tab h
    · exact ih _ tab h
    · rfl
  | breakIn next ih => exact ih _ _ tab h
  | forge F =>
    simp only [BytePlayer.chance]
    refine curveOracles_same _ h fun q q' hq => oracle_congr fun D tab' => ?_
    rw [hq.hash]

theorem Spec.BytePlayer.chance_nonneg [DecidableEq GT] {E : Ext G1 G2 GT} {pf : Profile} {g : G1}
    {pp : PubParam G1 G2} {pk : PublicKey G2} (P : BytePlayer G1 G2) (S : CodeSigner G1 G2)
    (tab : Table) (pts : Curve G1) : 0 ≤ P.chance E pf g pp pk S tab pts := by
  induction P generalizing S tab pts with
  | toss n hn next ih =>
    simp only [BytePlayer.chance]
    exact avg_nonneg fun c => ih c S tab pts
  | hash msg next ih =>
    simp only [BytePlayer.chance]
    exact oracle_nonneg fun D tab' => ih _ S tab' pts
  | curve i next ih =>
    simp only [BytePlayer.chance]
    exact curveOracle_nonneg fun p q => ih _ S tab q
  | sign msg next ih =>
    simp only [BytePlayer.chance]
    refine oracle_nonneg fun D tab' => ?_
    rcases signHashed E.sha512 pf pp S.sk msg D.field with s | e | e
    · exact ih s _ tab' pts
    · exact le_rfl
    · exact le_rfl
  | update tar seed next ih =>
    simp only [BytePlayer.chance]
    rcases SecretKey.update E.sha512 pf pp tar seed S.sk with ⟨⟨⟩ | e | e, sk⟩
    · exact ih _ tab pts
    · exact ih _ tab pts
    · exact le_rfl
  | breakIn next ih =>
    simp only [BytePlayer.chance]
    exact ih _ _ tab pts
  | forge F =>
    simp only [BytePlayer.chance]
    refine curveOracles_nonneg _ fun q => oracle_nonneg fun D tab' => ?_
    split <;> norm_num

/-! ### the other signers are played -/

theorem field_bytes (D : Digest) : (beNat D.bytes : Fr) = D.field := by
  unfold Digest.bytes Digest.field
  rw [beNat_natToBE, Nat.mod_eq_of_lt D.isLt]

theorem one_chance [DecidableEq GT] {E : Ext G1 G2 GT} {pf : Profile} {g : G1} {pp : PubParam G1 G2}
    {pk : Fin N → PublicKey G2} (P : CrowdPlayer G1 G2 N) (S : Fin N → CodeSigner G1 G2)
    (tab : Table) (pts : Curve G1) (sk : Fin N → Fin N → SecretKey G1 G2)
    (h : ∀ i j, j ≠ i → sk i j = (S j).sk) :
    P.chance E pf g pp pk S tab pts ≤
      ∑ i, (P.one E.sha512 pf pp i (sk i)).chance E pf g pp (pk i) (S i) tab pts := by
  induction P generalizing S tab pts sk with
  | toss n hn next ih =>
    simp only [CrowdPlayer.chance, CrowdPlayer.one, BytePlayer.chance]
    rw [← avg_sum]
    exact avg_mono fun c => ih c S tab pts sk h
  | hash msg next ih =>
    simp only [CrowdPlayer.chance, CrowdPlayer.one, BytePlayer.chance]
    rw [← oracle_sum]
    exact oracle_mono fun D tab' => ih _ S tab' pts sk h
  | curve q next ih =>
    simp only [CrowdPlayer.chance, CrowdPlayer.one, BytePlayer.chance]
    rw [← curveOracle_sum]
    exact curveOracle_mono fun p pts' => ih _ S tab pts' sk h
  | sign j msg next ih =>
    have key : ∀ i, ((CrowdPlayer.sign j msg next).one E.sha512 pf pp i (sk i)).chance E pf g pp (pk i)
        (S i) tab pts ≥ oracle tab msg fun D tab' =>
          match signHashed E.sha512 pf pp (S j).sk msg D.field with
          | .ok s => ((next s).one E.sha512 pf pp i (sk i)).chance E pf g pp (pk i)
              (Function.update S j { S j with signed := (S j).signed ++ [((S j).sk.time, msg)] } i)
              tab' pts
          | _ => 0 := by
      intro i
      simp only [CrowdPlayer.one]
      by_cases hj : j = i
      · subst hj
        rw [if_pos rfl]
        simp only [BytePlayer.chance, Function.update_self]
        exact le_rfl
      · rw [if_neg hj]
        simp only [BytePlayer.chance, field_bytes, h i j hj, Function.update_of_ne (Ne.symm hj)]
        refine oracle_mono fun D tab' => ?_
        rcases signHashed E.sha512 pf pp (S j).sk msg D.field with s | e | e
        · exact le_rfl
        · exact BytePlayer.chance_nonneg _ _ _ _
        · exact BytePlayer.chance_nonneg _ _ _ _
    refine le_trans ?_ (Finset.sum_le_sum fun i _ => key i)
    rw [← oracle_sum]
    simp only [CrowdPlayer.chance]
    refine oracle_mono fun D tab' => ?_
    rcases signHashed E.sha512 pf pp (S j).sk msg D.field with s | e | e
    · refine ih s _ tab' pts sk fun i k hk => ?_
      rw [h i k hk]
      by_cases hkj : k = j
      · subst hkj; rw [Function.update_self]
      · rw [Function.update_of_ne hkj]
    · simp
    · simp
  | update j tar seed next ih =>
    simp only [CrowdPlayer.chance]
    have key : ∀ r sk', SecretKey.update E.sha512 pf pp tar seed (S j).sk = (r, sk') →
        (∀ e, r ≠ .panic e) → next.chance E pf g pp pk (Function.update S j { S j with sk := sk' }) tab pts
          ≤ ∑ i, ((CrowdPlayer.update j tar seed next).one E.sha512 pf pp i (sk i)).chance E pf g pp
            (pk i) (S i) tab pts := by
      intro r sk' hr hp
      refine (ih _ tab pts (fun i => if j = i then sk i else Function.update (sk i) j sk') ?_).trans
        (Finset.sum_le_sum fun i _ => ?_)
      · intro i k hk
        by_cases hj : j = i
        · subst hj
          rw [if_pos rfl, Function.update_of_ne hk, h _ _ hk]
        · rw [if_neg hj]
          by_cases hkj : k = j
          · subst hkj; rw [Function.update_self, Function.update_self]
          · rw [Function.update_of_ne hkj, Function.update_of_ne hkj, h _ _ hk]
      · simp only [CrowdPlayer.one]
        by_cases hj : j = i
        · subst hj
          rw [if_pos rfl, if_pos rfl, Function.update_self]
          simp only [BytePlayer.chance, hr]
          rcases r with ⟨⟩ | e | e
          · exact le_rfl
          · exact le_rfl
          · exact absurd rfl (hp e)
        · rw [if_neg hj, if_neg hj, Function.update_of_ne (Ne.symm hj), h i j hj, hr]
    rcases hr : SecretKey.update E.sha512 pf pp tar seed (S j).sk with ⟨⟨⟩ | e | e, sk'⟩
    · exact key _ _ hr (fun e he => by cases he)
    · exact key _ _ hr (fun e he => by cases he)
    · exact Finset.sum_nonneg fun i _ => BytePlayer.chance_nonneg _ _ _ _
  | breakIn j next ih =>
    simp only [CrowdPlayer.chance]
    refine (ih _ _ tab pts sk ?_).trans (Finset.sum_le_sum fun i _ => ?_)
    · intro i k hk
      rw [h i k hk]
      by_cases hkj : k = j
      · subst hkj; rw [Function.update_self]
      · rw [Function.update_of_ne hkj]
    · simp only [CrowdPlayer.one]
      by_cases hj : j = i
      · subst hj
        rw [if_pos rfl, Function.update_self]
        simp only [BytePlayer.chance]
        exact le_rfl
      · rw [if_neg hj, Function.update_of_ne (Ne.symm hj), h i j hj]
  | forge F =>
    classical
    simp only [CrowdPlayer.chance, CrowdPlayer.one, BytePlayer.chance]
    rw [← curveOracles_sum]
    refine curveOracles_mono _ fun q => ?_
    rw [← oracle_sum]
    refine oracle_mono fun D tab' => ?_
    by_cases hw : ∃ i, F.Wins { E with sha512 := fun _ => D.bytes, hashToG1 := q.hash } pf pp (pk i) (S i)
    · rw [if_pos hw]
      obtain ⟨i, hi⟩ := hw
      refine le_trans ?_ (Finset.single_le_sum (f := fun i => if F.Wins { E with
        sha512 := fun _ => D.bytes, hashToG1 := q.hash } pf pp (pk i) (S i) then (1 : ℚ) else 0)
        (fun i _ => by split <;> norm_num) (Finset.mem_univ i))
      rw [if_pos hi]
    · rw [if_neg hw]
      exact Finset.sum_nonneg fun i _ => by split <;> norm_num

/-! ### the start of the game -/

theorem avg_replace {ι α : Type} [Fintype ι] [DecidableEq ι] [Fintype α] [Nonempty α] (i : ι)
    (F : (ι → α) → ℚ) :
    (avg fun a : ι → α => avg fun x : α => F (Function.update a i x)) = avg F := by
  rw [← avg_equiv (Equiv.funSplitAt i α).symm, ← avg_equiv (Equiv.funSplitAt i α).symm F,
    avg_prod fun y b => avg fun x : α => F (Function.update ((Equiv.funSplitAt i α).symm (y, b)) i x),
    avg_prod fun y b => F ((Equiv.funSplitAt i α).symm (y, b)), avg_comm,
    avg_comm fun y b => F ((Equiv.funSplitAt i α).symm (y, b))]
  refine avg_congr fun b => ?_
  have h : ∀ y x : α, Function.update ((Equiv.funSplitAt i α).symm (y, b)) i x =
      (Equiv.funSplitAt i α).symm (x, b) := by
    intro y x
    funext j
    by_cases hj : j = i
    · subst hj
      simp [Equiv.funSplitAt, Equiv.piSplitAt]
    · simp [Equiv.funSplitAt, Equiv.piSplitAt, hj]
  simp only [h]
  exact avg_const _

theorem avg_thrice {α β γ : Type} [Fintype α] [Fintype β] [Fintype γ] (f : α → β → γ → ℚ) :
    (avg fun a => avg fun b => avg fun c => f a b c) = avg fun c => avg fun b => avg fun a => f a b c := by
  rw [avg_comm]
  refine Eq.trans ?_ (avg_comm _)
  exact avg_congr fun b => avg_comm _

/-- the second table has all the entries of the first -/
def Extends (pts q : Curve G1) : Prop := ∀ j p, pts.lookup j = some p → q.lookup j = some p

theorem curveOracle_reach {g : G1} {pts : Curve G1} {i : Bytes × Bytes} {f f' : G1 → Curve G1 → ℚ}
    (h : ∀ p q, Extends pts q → q.lookup i = some p → f p q = f' p q) :
    curveOracle g pts i f = curveOracle g pts i f' := by
  unfold curveOracle
  rcases hl : pts.lookup i with _ | p
  · exact avg_congr fun r => h _ _ (fun j p hj => lookup_append_some hj _) (lookup_append_new hl _)
  · exact h _ _ (fun j p hj => hj) hl

theorem curveOracles_reach {g : G1} (is : List (Bytes × Bytes)) {pts : Curve G1} {f f' : Curve G1 → ℚ}
    (h : ∀ q, Extends pts q → f q = f' q) : curveOracles g is pts f = curveOracles g is pts f' := by
  induction is generalizing pts with
  | nil => exact h _ fun j p hj => hj
  | cons i is ih =>
    simp only [curveOracles]
    exact curveOracle_reach fun p q h1 h2 => ih fun q' h3 => h q' fun j p hj => h3 j p (h1 j p hj)

theorem ask_chance [DecidableEq GT] {E : Ext G1 G2 GT} {pf : Profile} {g : G1} {pp : PubParam G1 G2}
    {pk : PublicKey G2} {S : CodeSigner G1 G2} {tab : Table} (is : List (Bytes × Bytes))
    (known pts : Curve G1) (f : Curve G1 → BytePlayer G1 G2) :
    (BytePlayer.ask is known f).chance E pf g pp pk S tab pts = curveOracles g is pts fun q =>
      (f (known ++ is.map fun i => (i, q.hash i.1 i.2))).chance E pf g pp pk S tab q := by
  induction is generalizing known pts with
  | nil => simp only [BytePlayer.ask, curveOracles, List.map_nil, List.append_nil]
  | cons i is ih =>
    simp only [BytePlayer.ask, BytePlayer.chance, curveOracles]
    refine curveOracle_reach fun p q h1 h2 => ?_
    rw [ih]
    refine curveOracles_reach is fun q' h3 => ?_
    have : q'.hash i.1 i.2 = p := by
      unfold Curve.hash
      rw [h3 _ _ h2]
      rfl
    rw [List.map_cons, this, List.append_assoc, List.singleton_append]

theorem lookup_map {is : List (Bytes × Bytes)} {i : Bytes × Bytes} (h : i ∈ is)
    (f : Bytes × Bytes → G1) : (is.map fun i => (i, f i)).lookup i = some (f i) := by
  induction is with
  | nil => cases h
  | cons j is ih =>
    rw [List.map_cons, List.lookup_cons]
    by_cases hij : i = j
    · subst hij; simp
    · have h1 : (i == j) = false := by simpa using hij
      rw [h1]
      rcases List.mem_cons.1 h with h | h
      · exact absurd h hij
      · exact ih h

theorem one_entry (sha : Bytes → Bytes) (pf : Profile) (pp : PubParam G1 G2) (i : Fin N)
    (P : CrowdPlayer G1 G2 N) {sk sk' : Fin N → SecretKey G1 G2} (h : ∀ j, j ≠ i → sk j = sk' j) :
    P.one sha pf pp i sk = P.one sha pf pp i sk' := by
  induction P generalizing sk sk' with
  | toss n hn next ih => simp only [CrowdPlayer.one, fun c => ih c h]
  | hash msg next ih => simp only [CrowdPlayer.one, fun c => ih c h]
  | curve q next ih => simp only [CrowdPlayer.one, fun c => ih c h]
  | sign j msg next ih =>
    simp only [CrowdPlayer.one, fun c => ih c h]
    by_cases hj : j = i
    · rw [if_pos hj, if_pos hj]
    · rw [if_neg hj, if_neg hj, h j hj]
  | update j tar seed next ih =>
    simp only [CrowdPlayer.one]
    by_cases hj : j = i
    · rw [if_pos hj, if_pos hj, ih h]
    · rw [if_neg hj, if_neg hj, h j hj]
      refine ih fun k hk => ?_
      by_cases hkj : k = j
      · subst hkj; rw [Function.update_self, Function.update_self]
      · rw [Function.update_of_ne hkj, Function.update_of_ne hkj, h k hk]
  | breakIn j next ih =>
    simp only [CrowdPlayer.one]
    by_cases hj : j = i
    · simp only [if_pos hj, fun c => ih c h]
    · rw [if_neg hj, if_neg hj, h j hj, ih _ h]
  | forge F => rfl

theorem keygen_any {E : Ext G1 G2 GT} (H : HashLaws E) {pp : PubParam G1 G2} (S : ParamShape pp)
    (hg : pp.g2 = E.gen2) {seed : Bytes} (h : 32 ≤ seed.length) (hc : Supported pp.ciphersuite) :
    ∃ (x : Fr) (sk : SecretKey G1 G2), ∀ f : Bytes → Bytes → G1,
      keygen { E with hashToG1 := f } seed pp = .ok (⟨pp.ciphersuite, x.val • E.gen2⟩, sk,
        ⟨pp.ciphersuite, x.val • f (popInput E ⟨pp.ciphersuite, x.val • E.gen2⟩).1
          (popInput E ⟨pp.ciphersuite, x.val • E.gen2⟩).2⟩) := by
  obtain ⟨sk, h1, _⟩ := keygen_init H S h hc
  refine ⟨kgSecret E.sha512 seed pp.ciphersuite, sk, fun f => ?_⟩
  obtain ⟨sk', h2, h3⟩ := keygen_init (E := { E with hashToG1 := f }) ⟨H.sha_len⟩ S h hc
  have e : sk' = sk := Res.ok.inj (h2.symm.trans h1)
  rw [h3, e, hg, text_pop]
  rfl

theorem born_eq {E : Ext G1 G2 GT} {pp : PubParam G1 G2} {seed : Bytes}
    {b : PublicKey G2 × SecretKey G1 G2 × ProofOfPossession G1} (h : keygen E seed pp = .ok b) :
    born E pp seed = b := by
  unfold born
  rw [h]

theorem crowd_le [DecidableEq GT] {E : Ext G1 G2 GT} (H : HashLaws E) (L : GroupLaws E) (pf : Profile)
    {g : G1} (hsub : E.inSub1 g = true) {d : Nat} (hd : 1 ≤ d) (hd' : d ≤ 63) {cs : UInt8}
    (hsup : Supported cs) {n : Nat} (hn : 32 ≤ n)
    (A : PubParam G1 G2 → (Fin N → PublicKey G2) → (Fin N → ProofOfPossession G1) →
      CrowdPlayer G1 G2 N) :
    crowdForgeChance E pf g d cs n N A ≤
      ∑ i, byteForgeChance E pf g d cs n (crowdOne E pf n i A) := by
  have hpp : ∀ (a : Secret d 0 → Fr) (r : Fr), gameParam E g cs (Function.update a .q r) =
      gameParam E g cs a := by
    intro a r
    unfold gameParam
    simp
  have h1 : ∀ i, byteForgeChance E pf g d cs n (crowdOne E pf n i A) =
      avg fun a : Secret d 0 → Fr => avg fun r : Fr => avg fun s : Seed n =>
        match keygen { E with hashToG1 := fun _ _ => r.val • g } s.bytes (gameParam E g cs a) with
        | .ok (pk, sk, pop) => (crowdOne E pf n i A (gameParam E g cs a) pk pop).chance E pf g
            (gameParam E g cs a) pk ⟨sk, [], []⟩ [] [(popInput E pk, r.val • g)]
        | _ => 0 := by
    intro i
    unfold byteForgeChance
    rw [← avg_update Secret.q]
    refine avg_congr fun a => avg_congr fun r => ?_
    simp only [hpp, Function.update_self]
    rfl
  simp only [h1]
  rw [← avg_sum]
  unfold crowdForgeChance
  refine avg_mono fun a => ?_
  have WF : ParamWF E (gameParam E g cs a) := viewOf_wf (E := E) (cs := cs) L hsub hd hd' (toVar a)
  have hcs : (gameParam E g cs a).ciphersuite = cs := rfl
  generalize gameParam E g cs a = pp at WF hcs ⊢
  subst hcs
  have hne : Nonempty (Seed n) := ⟨⟨0, Nat.pow_pos (by omega)⟩⟩
  have hk : ∀ s : Seed n, ∃ (x : Fr) (sk : SecretKey G1 G2), ∀ f : Bytes → Bytes → G1,
      keygen { E with hashToG1 := f } s.bytes pp = .ok (⟨pp.ciphersuite, x.val • E.gen2⟩, sk,
        ⟨pp.ciphersuite, x.val • f (popInput E ⟨pp.ciphersuite, x.val • E.gen2⟩).1
          (popInput E ⟨pp.ciphersuite, x.val • E.gen2⟩).2⟩) := fun s =>
    keygen_any H WF.toParamShape WF.g2_gen (by unfold Seed.bytes; rw [natToBE_length]; exact hn) hsup
  choose x sk hk using hk
  have hk0 : ∀ s : Seed n, keygen E s.bytes pp = _ := fun s => hk s E.hashToG1
  obtain ⟨K, hK⟩ : ∃ K : Seed n → PublicKey G2, ∀ s, K s = ⟨pp.ciphersuite, (x s).val • E.gen2⟩ :=
    ⟨_, fun _ => rfl⟩
  simp only [← hK] at hk hk0
  have hb : ∀ f s, born { E with hashToG1 := f } pp (Seed.bytes s) = (K s, sk s,
      ⟨pp.ciphersuite, (x s).val • f (popInput E (K s)).1 (popInput E (K s)).2⟩) := by
    intro f s
    unfold born
    rw [hk]
  have hb0 : ∀ s, (born E pp (Seed.bytes s)).1 = K s := by
    intro s
    unfold born
    rw [hk0]
  simp only [hb, hk]
  -- the game against signer `i`
  obtain ⟨X, hX⟩ : ∃ X : Fin N → (Fin N → Seed n) → Curve G1 → ℚ, ∀ i s pts, X i s pts =
      ((A pp (fun j => K (s j)) (fun j => ⟨pp.ciphersuite, (x (s j)).val •
        pts.hash (popInput E (K (s j))).1 (popInput E (K (s j))).2⟩)).one E.sha512 pf pp i
          (fun j => sk (s j))).chance E pf g pp (K (s i)) ⟨sk (s i), [], []⟩ [] pts :=
    ⟨_, fun _ _ _ => rfl⟩
  have hXs : ∀ i s q q', Same q q' → X i s q = X i s q' := by
    intro i s q q' hq
    rw [hX, hX, hq.hash]
    exact chance_same _ _ _ hq
  have h2 : ∀ i, (avg fun r : Fr => avg fun s : Seed n => (crowdOne E pf n i A pp (K s)
      ⟨pp.ciphersuite, (x s).val • r.val • g⟩).chance E pf g pp (K s) ⟨sk s, [], []⟩ []
        [(popInput E (K s), r.val • g)]) =
      avg fun s : Fin N → Seed n => curveOracles g (List.ofFn fun j => popInput E (K (s j))) [] (X i s) := by
    intro i
    have h3 : ∀ (r : Fr) (s0 : Seed n), (crowdOne E pf n i A pp (K s0)
        ⟨pp.ciphersuite, (x s0).val • r.val • g⟩).chance E pf g pp (K s0) ⟨sk s0, [], []⟩ []
          [(popInput E (K s0), r.val • g)] =
        avg fun s' : Fin N → Seed n => curveOracles g
          (List.ofFn fun j => popInput E (K (Function.update s' i s0 j)))
          [(popInput E (K s0), r.val • g)] (X i (Function.update s' i s0)) := by
      intro r s0
      unfold crowdOne
      simp only [BytePlayer.chance, hb0]
      refine (avg_equiv finFunctionFinEquiv.symm fun s' : Fin N → Seed n => BytePlayer.chance E pf g pp
        (K s0) (BytePlayer.ask (List.ofFn fun j => popInput E (Function.update (fun j => K (s' j)) i (K s0) j))
          [] fun known => (A pp (Function.update (fun j => K (s' j)) i (K s0)) (Function.update
            (fun j => (born { E with hashToG1 := known.hash } pp (Seed.bytes (s' j))).2.2) i
              ⟨pp.ciphersuite, (x s0).val • r.val • g⟩)).one E.sha512 pf pp i
            fun j => (born { E with hashToG1 := known.hash } pp (Seed.bytes (s' j))).2.1)
        ⟨sk s0, [], []⟩ [] [(popInput E (K s0), r.val • g)]).trans ?_
      refine avg_congr fun s' => ?_
      have e1 : Function.update (fun j => K (s' j)) i (K s0) = fun j => K (Function.update s' i s0 j) := by
        funext j
        by_cases hj : j = i
        · subst hj; simp
        · simp [hj]
      rw [e1, ask_chance]
      refine curveOracles_reach _ fun q hq => ?_
      rw [hX]
      simp only [hb, List.nil_append, Function.update_self]
      have e2 : Function.update (fun j => (⟨pp.ciphersuite, (x (s' j)).val • Curve.hash
          ((List.ofFn fun j => popInput E (K (Function.update s' i s0 j))).map
            fun i => (i, q.hash i.1 i.2)) (popInput E (K (s' j))).1 (popInput E (K (s' j))).2⟩ :
              ProofOfPossession G1)) i ⟨pp.ciphersuite, (x s0).val • r.val • g⟩ =
          fun j => ⟨pp.ciphersuite, (x (Function.update s' i s0 j)).val •
            q.hash (popInput E (K (Function.update s' i s0 j))).1
              (popInput E (K (Function.update s' i s0 j))).2⟩ := by
        funext j
        by_cases hj : j = i
        · subst hj
          simp only [Function.update_self]
          have : q.hash (popInput E (K s0)).1 (popInput E (K s0)).2 = r.val • g := by
            unfold Curve.hash
            rw [hq (popInput E (K s0)) (r.val • g) (by simp)]
            rfl
          rw [this]
        · simp only [Function.update_of_ne hj]
          congr 2
          have hm : popInput E (K (s' j)) ∈
              List.ofFn fun j => popInput E (K (Function.update s' i s0 j)) := by
            rw [List.mem_ofFn]
            exact ⟨j, by simp [hj]⟩
          change (List.lookup (popInput E (K (s' j))) _).getD 0 = _
          rw [lookup_map hm fun i => q.hash i.1 i.2]
          rfl
      rw [e2]
      congr 1
      refine one_entry _ _ _ _ _ fun j hj => ?_
      rw [Function.update_of_ne hj]
    simp only [h3]
    refine (avg_thrice fun (r : Fr) (s0 : Seed n) (s' : Fin N → Seed n) => curveOracles g
      (List.ofFn fun j => popInput E (K (Function.update s' i s0 j)))
      [(popInput E (K s0), r.val • g)] (X i (Function.update s' i s0))).trans ?_
    rw [← avg_replace i fun s : Fin N → Seed n => curveOracles g
      (List.ofFn fun j => popInput E (K (s j))) [] (X i s)]
    refine avg_congr fun s' => avg_congr fun s0 => ?_
    rw [← curveOracles_absorb (i := popInput E (K s0)) _ (by
      rw [List.mem_ofFn]
      exact ⟨i, by rw [Function.update_self]⟩) (hXs i _)]
    rfl
  refine le_trans ?_ (Finset.sum_le_sum fun i _ => (h2 i).ge)
  rw [← avg_sum]
  refine avg_mono fun s => ?_
  rw [if_pos fun i => ⟨_, hk0 (s i)⟩, ← curveOracles_sum]
  refine curveOracles_mono _ fun pts => ?_
  simp only [hX]
  exact one_chance _ _ _ _ (fun _ j => sk (s j)) fun _ _ _ => rfl

/-! ### one signer -/

theorem alone_chance [DecidableEq GT] {E : Ext G1 G2 GT} {pf : Profile} {g : G1} {pp : PubParam G1 G2}
    {pk : Fin 1 → PublicKey G2} (P : BytePlayer G1 G2) (S : Fin 1 → CodeSigner G1 G2) (tab : Table)
    (pts : Curve G1) :
    P.alone.chance E pf g pp pk S tab pts = P.chance E pf g pp (pk 0) (S 0) tab pts := by
  have hS : ∀ (S : Fin 1 → CodeSigner G1 G2) v, Function.update S 0 v 0 = v :=
    fun S v => Function.update_self _ _ _
  induction P generalizing S tab pts with
  | toss n hn next ih =>
    simp only [BytePlayer.alone, CrowdPlayer.chance, BytePlayer.chance, ih]
  | hash msg next ih =>
    simp only [BytePlayer.alone, CrowdPlayer.chance, BytePlayer.chance, ih]
  | curve q next ih =>
    simp only [BytePlayer.alone, CrowdPlayer.chance, BytePlayer.chance, ih]
  | sign msg next ih =>
    simp only [BytePlayer.alone, CrowdPlayer.chance, BytePlayer.chance, ih, hS]
    rfl
  | update tar seed next ih =>
    simp only [BytePlayer.alone, CrowdPlayer.chance, BytePlayer.chance, ih, hS]
    rfl
  | breakIn next ih =>
    simp only [BytePlayer.alone, CrowdPlayer.chance, BytePlayer.chance, ih, hS]
  | forge F =>
    simp only [BytePlayer.alone, CrowdPlayer.chance, BytePlayer.chance]
    refine congrArg _ (funext fun q => oracle_congr fun D tab' => ?_)
    have : (∃ i, F.Wins { E with sha512 := fun _ => D.bytes, hashToG1 := q.hash } pf pp (pk i) (S i)) ↔
        F.Wins { E with sha512 := fun _ => D.bytes, hashToG1 := q.hash } pf pp (pk 0) (S 0) :=
      ⟨fun ⟨i, hi⟩ => by rw [Subsingleton.elim i 0] at hi; exact hi, fun h => ⟨0, h⟩⟩
    by_cases h : F.Wins { E with sha512 := fun _ => D.bytes, hashToG1 := q.hash } pf pp (pk 0) (S 0)
    · rw [if_pos (this.2 h), if_pos h]
    · rw [if_neg (mt this.1 h), if_neg h]

theorem avg_first {α β : Type} [Fintype α] [Fintype β] [Nonempty β] (f : α → β → ℚ) :
    (avg fun a => avg (f a)) = avg fun b : Fin 1 → β => avg fun a => f a (b 0) :=
  (avg_comm f).trans (avg_apply (0 : Fin 1) fun b => avg fun a => f a b).symm

theorem crowd_alone [DecidableEq GT] {E : Ext G1 G2 GT} (H : HashLaws E) (L : GroupLaws E) (pf : Profile)
    {g : G1} (hsub : E.inSub1 g = true) {d : Nat} (hd : 1 ≤ d) (hd' : d ≤ 63) {cs : UInt8}
    (hsup : Supported cs) {n : Nat} (hn : 32 ≤ n)
    (A : PubParam G1 G2 → PublicKey G2 → ProofOfPossession G1 → BytePlayer G1 G2) :
    crowdForgeChance E pf g d cs n 1 (fun pp pk pop => (A pp (pk 0) (pop 0)).alone) =
      byteForgeChance E pf g d cs n A := by
  have hpp : ∀ (a : Secret d 0 → Fr) (r : Fr), gameParam E g cs (Function.update a .q r) =
      gameParam E g cs a := by
    intro a r
    unfold gameParam
    simp
  unfold crowdForgeChance byteForgeChance
  conv_rhs => rw [← avg_update Secret.q]
  refine avg_congr fun a => ?_
  simp only [hpp, Function.update_self]
  have WF : ParamWF E (gameParam E g cs a) := viewOf_wf (E := E) (cs := cs) L hsub hd hd' (toVar a)
  have hcs : (gameParam E g cs a).ciphersuite = cs := rfl
  generalize gameParam E g cs a = pp at WF hcs ⊢
  subst hcs
  have hk : ∀ s : Seed n, ∃ (x : Fr) (sk : SecretKey G1 G2), ∀ f : Bytes → Bytes → G1,
      keygen { E with hashToG1 := f } s.bytes pp = .ok (⟨pp.ciphersuite, x.val • E.gen2⟩, sk,
        ⟨pp.ciphersuite, x.val • f (popInput E ⟨pp.ciphersuite, x.val • E.gen2⟩).1
          (popInput E ⟨pp.ciphersuite, x.val • E.gen2⟩).2⟩) := fun s =>
    keygen_any H WF.toParamShape WF.g2_gen (by unfold Seed.bytes; rw [natToBE_length]; exact hn) hsup
  choose x sk hk using hk
  have hk0 : ∀ s : Seed n, keygen E s.bytes pp = _ := fun s => hk s E.hashToG1
  have hne : Nonempty (Seed n) := ⟨⟨0, Nat.pow_pos (by omega)⟩⟩
  have hb : ∀ (f : Bytes → Bytes → G1) (s : Seed n),
      born { E with hashToG1 := f } pp s.bytes = _ := fun f s => born_eq (hk s f)
  refine Eq.trans ?_ (avg_first _).symm
  refine avg_congr fun s => ?_
  rw [if_pos fun i => ⟨_, hk0 (s i)⟩]
  simp only [hb, hk, alone_chance, List.ofFn_succ, List.ofFn_zero, curveOracles, curveOracle,
    List.lookup_nil, List.nil_append]
  refine avg_congr fun r => ?_
  have : Curve.hash [(popInput E ⟨pp.ciphersuite, (x (s 0)).val • E.gen2⟩, r.val • g)]
      (popInput E (⟨pp.ciphersuite, (x (s 0)).val • E.gen2⟩ : PublicKey G2)).1
      (popInput E (⟨pp.ciphersuite, (x (s 0)).val • E.gen2⟩ : PublicKey G2)).2 = r.val • g := by
    unfold Curve.hash
    simp
  rw [this]

/-! ### what is counted -/

theorem one_legal (sha : Bytes → Bytes) (pf : Profile) (pp : PubParam G1 G2) (i : Fin N)
    (P : CrowdPlayer G1 G2 N) (sk : Fin N → SecretKey G1 G2) (h : P.Legal) :
    (P.one sha pf pp i sk).Legal := by
  induction P generalizing sk with
  | toss n hn next ih => exact fun c => ih c _ (h c)
  | hash msg next ih => exact fun c => ih c _ (h c)
  | curve q next ih => exact fun c => ih c _ (h c)
  | sign j msg next ih =>
    simp only [CrowdPlayer.one]
    split
    · exact fun c => ih c _ (h c)
    · intro b
      dsimp only
      split
      · exact ih _ _ (h _)
      · exact ih _ _ (h _)
  | update j tar seed next ih =>
    simp only [CrowdPlayer.one]
    split
    · exact ih _ h
    · exact ih _ h
  | breakIn j next ih =>
    simp only [CrowdPlayer.one]
    split
    · exact fun c => ih c _ (h c)
    · exact ih _ _ (h _)
  | forge F => exact h

theorem one_points (sha : Bytes → Bytes) (pf : Profile) (pp : PubParam G1 G2) (i : Fin N)
    (P : CrowdPlayer G1 G2 N) (sk : Fin N → SecretKey G1 G2) {k : Nat} (h : P.Points k) :
    (P.one sha pf pp i sk).Points k := by
  induction P generalizing sk k with
  | toss n hn next ih => exact fun c => ih c _ (h c)
  | hash msg next ih => exact fun c => ih c _ (h c)
  | curve q next ih => exact ⟨h.1, fun c => ih c _ (h.2 c)⟩
  | sign j msg next ih =>
    simp only [CrowdPlayer.one]
    split
    · exact fun c => ih c _ (h c)
    · intro b
      dsimp only
      split
      · exact ih _ _ (h _)
      · exact ih _ _ (h _)
  | update j tar seed next ih =>
    simp only [CrowdPlayer.one]
    split
    · exact ih (k := k) _ h
    · exact ih _ h
  | breakIn j next ih =>
    simp only [CrowdPlayer.one]
    split
    · exact fun c => ih c _ (h c)
    · exact ih _ _ (h _)
  | forge F => exact h

theorem one_hashes (sha : Bytes → Bytes) (pf : Profile) (pp : PubParam G1 G2) (i : Fin N)
    (P : CrowdPlayer G1 G2 N) (sk : Fin N → SecretKey G1 G2) {k : Nat} (h : P.Hashes k) :
    (P.one sha pf pp i sk).Hashes k := by
  induction P generalizing sk k with
  | toss n hn next ih => exact fun c => ih c _ (h c)
  | hash msg next ih => exact ⟨h.1, fun c => ih c _ (h.2 c)⟩
  | curve q next ih => exact fun c => ih c _ (h c)
  | sign j msg next ih =>
    simp only [CrowdPlayer.one]
    split
    · exact ⟨h.1, fun c => ih c _ (h.2 c)⟩
    · refine ⟨h.1, fun b => ?_⟩
      dsimp only
      split
      · exact ih _ _ (h.2 _)
      · exact ih _ _ (h.2 _)
  | update j tar seed next ih =>
    simp only [CrowdPlayer.one]
    split
    · exact ih (k := k) _ h
    · exact ih _ h
  | breakIn j next ih =>
    simp only [CrowdPlayer.one]
    split
    · exact fun c => ih c _ (h c)
    · exact ih _ _ (h _)
  | forge F => exact h

theorem one_updates (sha : Bytes → Bytes) (pf : Profile) (pp : PubParam G1 G2) (i : Fin N)
    (P : CrowdPlayer G1 G2 N) (sk : Fin N → SecretKey G1 G2) {k : Nat} (h : P.Updates i k) :
    (P.one sha pf pp i sk).Updates k := by
  induction P generalizing sk k with
  | toss n hn next ih => exact fun c => ih c _ (h c)
  | hash msg next ih => exact fun c => ih c _ (h c)
  | curve q next ih => exact fun c => ih c _ (h c)
  | sign j msg next ih =>
    simp only [CrowdPlayer.one]
    split
    · exact fun c => ih c _ (h c)
    · intro b
      dsimp only
      split
      · exact ih _ _ (h _)
      · exact ih _ _ (h _)
  | update j tar seed next ih =>
    simp only [CrowdPlayer.one]
    simp only [CrowdPlayer.Updates] at h
    by_cases hj : j = i
    · rw [if_pos hj] at h ⊢
      exact ⟨h.1, ih _ h.2⟩
    · rw [if_neg hj] at h ⊢
      exact ih _ h
  | breakIn j next ih =>
    simp only [CrowdPlayer.one]
    split
    · exact fun c => ih c _ (h c)
    · exact ih _ _ (h _)
  | forge F => trivial

theorem one_scalars (sha : Bytes → Bytes) (pf : Profile) (pp : PubParam G1 G2) (i : Fin N)
    (P : CrowdPlayer G1 G2 N) (sk : Fin N → SecretKey G1 G2) {d k : Nat} (h : P.Scalars i d k) :
    (P.one sha pf pp i sk).Scalars d k := by
  induction P generalizing sk k with
  | toss n hn next ih => exact fun c => ih c _ (h c)
  | hash msg next ih => exact fun c => ih c _ (h c)
  | curve q next ih => exact fun c => ih c _ (h c)
  | sign j msg next ih =>
    simp only [CrowdPlayer.one]
    simp only [CrowdPlayer.Scalars] at h
    by_cases hj : j = i
    · rw [if_pos hj] at h ⊢
      exact ⟨h.1, fun c => ih c _ (h.2 c)⟩
    · rw [if_neg hj] at h ⊢
      intro b
      dsimp only
      split
      · exact ih _ _ (h _)
      · exact ih _ _ (h _)
  | update j tar seed next ih =>
    simp only [CrowdPlayer.one]
    simp only [CrowdPlayer.Scalars] at h
    by_cases hj : j = i
    · rw [if_pos hj] at h ⊢
      exact ⟨h.1, ih _ h.2⟩
    · rw [if_neg hj] at h ⊢
      exact ih _ h
  | breakIn j next ih =>
    simp only [CrowdPlayer.one]
    split
    · exact fun c => ih c _ (h c)
    · exact ih _ _ (h _)
  | forge F => trivial

theorem ask_legal (is : List (Bytes × Bytes)) (known : Curve G1) {f : Curve G1 → BytePlayer G1 G2}
    (h : ∀ q, (f q).Legal) : (BytePlayer.ask is known f).Legal := by
  induction is generalizing known with
  | nil => exact h _
  | cons i is ih => exact fun p => ih _

theorem ask_points (is : List (Bytes × Bytes)) (known : Curve G1) {f : Curve G1 → BytePlayer G1 G2}
    {k k' : Nat} (h : ∀ q, (f q).Points k) (hk : k' = k + is.length) :
    (BytePlayer.ask is known f).Points k' := by
  induction is generalizing known k' with
  | nil => subst hk; exact h _
  | cons i is ih =>
    rw [List.length_cons] at hk
    exact ⟨by omega, fun p => ih _ (by omega)⟩

theorem ask_hashes (is : List (Bytes × Bytes)) (known : Curve G1) {f : Curve G1 → BytePlayer G1 G2}
    {k : Nat} (h : ∀ q, (f q).Hashes k) : (BytePlayer.ask is known f).Hashes k := by
  induction is generalizing known with
  | nil => exact h _
  | cons i is ih => exact fun p => ih _

theorem ask_updates (is : List (Bytes × Bytes)) (known : Curve G1) {f : Curve G1 → BytePlayer G1 G2}
    {k : Nat} (h : ∀ q, (f q).Updates k) : (BytePlayer.ask is known f).Updates k := by
  induction is generalizing known with
  | nil => exact h _
  | cons i is ih => exact fun p => ih _

theorem ask_scalars (is : List (Bytes × Bytes)) (known : Curve G1) {f : Curve G1 → BytePlayer G1 G2}
    {d k : Nat} (h : ∀ q, (f q).Scalars d k) : (BytePlayer.ask is known f).Scalars d k := by
  induction is generalizing known with
  | nil => exact h _
  | cons i is ih => exact fun p => ih _

end Pixel
