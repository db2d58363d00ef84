import Verif.Proof.Api

/-!
# The game against a signer: the adversary is used
-/

namespace Pixel

open Spec Props

set_option linter.unusedSectionVars false

variable {G1 G2 GT : Type} [AddCommGroup G1] [AddCommGroup G2] [CommGroup GT]
  {E : Ext G1 G2 GT} {g : G1} {pp : PubParam G1 G2}

/-! ## A known key -/

theorem hvector_length (S : ParamShape pp) {x r : Fr} {s : Nat} :
    (subKeyOf pp x s r).hvector.length = pp.depth - (path pp.depth s).length := by
  show ((pp.hlist.drop _).map _).length = _
  rw [List.length_map, List.length_drop, S.hlist_len]
  omega

theorem delegatedTo_eq (L : GroupLaws E) (pf : Profile) (W : ParamWF E pp) {x r : Fr} {t s : Nat}
    {w : List Nat} (ht : ValidTime pp.depth t) (hs : ValidTime pp.depth s) (hw : w ≠ [])
    (h : path pp.depth s = path pp.depth t ++ w) :
    delegatedTo pf pp (subKeyOf pp x t r) s = subKeyOf pp x s r := by
  have hgn := path_isNode ht
  have hsn := path_isNode hs
  rw [h] at hsn
  have e1 := num_path ht
  have e2 := num_path hs
  rw [h] at e2
  have hlen : w.length ≤ (subKeyOf pp x t r).hvector.length := by
    rw [hvector_length W.toParamShape]
    have := hsn.1
    rw [List.length_append] at this
    omega
  have hd := SubSecretKey.delegate_eq (pf := pf) (s := subKeyOf pp x t r) W.depth_le hgn hsn hw
    (by rw [e1]; rfl) hlen
  have he := subKeyOf_delegated (x := x) (r := r) L W hgn hsn
  rw [e1, e2] at he
  rw [e2] at hd
  rw [delegatedTo, hd]
  exact he

theorem randomized_eq (L : GroupLaws E) (pf : Profile) (W : ParamWF E pp) {x r r' : Fr} {s : Nat}
    (hs : ValidTime pp.depth s) :
    (SubSecretKey.randomization pf pp r' (subKeyOf pp x s r)).2 = subKeyOf pp x s (r + r') := by
  have hsn := path_isNode hs
  have e1 := num_path hs
  rw [SubSecretKey.randomization_eq W.depth_le hsn (by rw [e1]; rfl)]
  · have := subKeyOf_rerand (x := x) (r := r) (r' := r') L W hsn
    rw [e1] at this
    exact this
  · rw [hvector_length W.toParamShape, W.hlist_len]
    have := hsn.1
    omega

/-- a known key is updated as the signer's is -/
theorem stepKeys_eq (L : GroupLaws E) (pf : Profile) (W : ParamWF E pp) {x : Fr} {t tar : Nat}
    (ht : ValidTime pp.depth t) (h1 : t < tar) (h2 : tar ≤ 2 ^ pp.depth - 1) {rho rs : List Fr}
    (hr : rho.length = (coverTimes pp.depth t).length)
    (hs : rs.length = drawsNeeded pp.depth t tar) :
    stepKeys pf pp t tar (keysOf pp x t rho) rs =
      keysOf pp x tar (stepExponents pp.depth t tar rho rs) := by
  obtain ⟨A, k, B, e1, e2, hk, e3⟩ := cover_step ht h1 h2
  rw [e1, List.length_append, List.length_cons] at hr
  obtain ⟨rA, r, rB, hrho, hrA, hrB⟩ : ∃ rA r rB, rho = rA ++ r :: rB ∧ rA.length = A.length ∧
      rB.length = B.length := by
    have hlt' : A.length < rho.length := by omega
    refine ⟨rho.take A.length, rho[A.length], rho.drop (A.length + 1), ?_, ?_, ?_⟩
    · rw [← List.drop_eq_getElem_cons hlt', List.take_append_drop]
    · rw [List.length_take]; omega
    · rw [List.length_drop]; omega
  have hkeys : (keysOf pp x t rho).drop A.length =
      subKeyOf pp x k r :: List.zipWith (subKeyOf pp x) B rB := by
    rw [keysOf, e1, hrho, List.zipWith_append hrA.symm]
    have hl : (List.zipWith (subKeyOf pp x) A rA).length = A.length := by simp [hrA]
    rw [← hl, List.drop_left]
    rfl
  have hstep : stepExponents pp.depth t tar rho rs = r :: (rs.map (r + ·) ++ rB) := by
    rw [stepExponents, e2, hrho, ← hrA, List.drop_left]
  rw [hstep, stepKeys, e2, hkeys, keysOf]
  simp only []
  rcases e3 with ⟨a1, a2, a3⟩ | ⟨ss, a1, a2, a3, a4⟩
  · rw [a1, a3]
    rw [a2] at hs
    rw [List.length_eq_zero_iff.1 hs]
    rfl
  · rw [a1, a3]
    simp only [List.zipWith_cons_cons]
    rw [List.zipWith_append (by rw [List.length_map, hs, a2])]
    congr 1
    · obtain ⟨h3, w, hw, h4⟩ := a4 tar (by simp)
      exact delegatedTo_eq L pf W hk h3 hw h4
    · congr 1
      rw [a2] at hs
      have a5 : ∀ s ∈ ss, ValidTime pp.depth s ∧ ∃ w, w ≠ [] ∧
        path pp.depth s = path pp.depth k ++ w := fun s h => a4 s (by simp [h])
      clear a1 a2 a3 a4 hstep hkeys
      induction ss generalizing rs with
      | nil => rfl
      | cons s ss ih =>
        cases rs with
        | nil => rfl
        | cons r' rs =>
          simp only [List.map_cons, List.zipWith_cons_cons]
          obtain ⟨h3, w, hw, h4⟩ := a5 s (by simp)
          rw [delegatedTo_eq L pf W hk h3 hw h4, randomized_eq L pf W h3,
            ih (by simpa using hs) fun s h => a5 s (by simp [h])]

theorem keysOf_head {x : Fr} {t : Nat} (ht : ValidTime pp.depth t) {rho : List Fr}
    (hr : rho.length = (coverTimes pp.depth t).length) :
    ∃ l, keysOf pp x t rho = subKeyOf pp x t (rho.headD 0) :: l := by
  have hc := coverTimes_num (path_isNode ht)
  rw [num_path ht, gam, List.map_cons, num_path ht] at hc
  rw [hc] at hr
  cases rho with
  | nil => simp at hr
  | cons r rho =>
    rw [keysOf, hc]
    exact ⟨_, rfl⟩

theorem signWith_eq (L : GroupLaws E) (pf : Profile) (W : ParamWF E pp) {x : Fr} {t : Nat}
    (ht : ValidTime pp.depth t) {rho : List Fr}
    (hr : rho.length = (coverTimes pp.depth t).length) (M r : Fr) :
    signWith pf pp t (keysOf pp x t rho) M r = signatureOf pp x t M (rho.headD 0 + r) := by
  obtain ⟨l, hl⟩ := keysOf_head (x := x) ht hr
  rw [signWith, signFr_exponents L pf W ht rfl hl]

theorem digest_nat (D : Digest) : (natOfBytes D.bytes : Fr) = D.field := by
  rw [natOfBytes_eq, Digest.bytes, Digest.field, beNat_natToBE, Nat.mod_eq_of_lt D.isLt]

/-- the sub keys for later times do not help -/
theorem cover_not_above {d t0 tar s : Nat} (h0 : ValidTime d t0) (ht : ValidTime d tar)
    (hlt : t0 < tar) (hs : s ∈ coverTimes d tar) : ¬ AncestorOrSelf (path d s) (path d t0) := by
  rintro ⟨w, hw⟩
  have hn := path_isNode ht
  have hsv := valid_of_mem_cover ht hs
  have h1 : tar ≤ s := by
    rw [← num_path ht, coverTimes_num hn] at hs
    obtain ⟨a, ha, rfl⟩ := List.mem_map.1 hs
    rcases List.mem_cons.1 ha with rfl | ha
    · exact (num_path ht).symm.le
    · have := gam_num_lt hn ha
      rw [num_path ht] at this
      exact this.le
  have h2 := ((ancestor_interval (path_isNode hsv) (path_isNode h0)).1 ⟨w, hw.symm⟩).1
  rw [num_path hsv, num_path h0] at h2
  omega

theorem fetch_chance_eq [DecidableEq GT] (pf : Profile) (x : Fr) (ss : List Nat)
    (k : List (SubSecretKey G1 G2) → RoPlayer G1 G2) (qs : List RoQuery) (tab : Table)
    (W : World G1 G2) (h : W.pp = pp) :
    (RoPlayer.fetch pp.depth ss k).chance E pf g x qs tab W =
      avgs ss.length fun rho => (k (List.zipWith (subKeyOf pp x) ss rho)).chance E pf g x
        (qs ++ ss.map fun s => .subKey s (path pp.depth s)) tab
        { W with answers := W.answers ++
            (List.zipWith (subKeyOf pp x) ss rho).map Answer.subKey } := by
  subst h
  exact fetch_chance pf x ss k qs tab W

/-! ## What the two runs have in common -/

/-- the worlds of the two runs -/
structure Seen (pp : PubParam G1 G2) (C : Copy G1 G2) (W W' : World G1 G2) : Prop where
  left : W.pp = pp
  right : W'.pp = pp
  pk : W'.pk = W.pk
  suite : W.pk.ciphersuite = pp.ciphersuite
  asked : C.asked = W'.answers.length
  length : C.points.length = W.answers.length
  points : ∀ k p, W.answers[k]? = some (.point p) →
    W'.answers[C.points.getD k 0]? = some (.point p)

/-- the queries do not give away a signature for time `t0` that was not made -/
def Harmless (d t0 : Nat) (qs : List RoQuery) (signed : List (Nat × Bytes)) : Prop :=
  (∀ t v, .subKey t v ∈ qs → ¬ AncestorOrSelf v (path d t0)) ∧
    ∀ t msg, .signature t (path d t0) msg ∈ qs → (t0, msg) ∈ signed

theorem getElem?_append {α : Type} {l l' : List α} {k : Nat} {a : α} (h : l[k]? = some a) :
    (l ++ l')[k]? = some a := by
  obtain ⟨h1, h2⟩ := List.getElem?_eq_some_iff.1 h
  rw [List.getElem?_append_left h1, h]

theorem Seen.more {C C' : Copy G1 G2} {W W' : World G1 G2} (h : Seen pp C W W')
    (l : List (Answer G1 G2)) (h1 : C'.asked = C.asked + l.length) (h2 : C'.points = C.points) :
    Seen pp C' W { W' with answers := W'.answers ++ l } where
  left := h.left
  right := h.right
  pk := h.pk
  suite := h.suite
  asked := by rw [h1, h.asked, List.length_append]
  length := by rw [h2]; exact h.length
  points := by
    intro k p hp
    rw [h2]
    exact getElem?_append (h.points k p hp)

theorem Seen.same {C C' : Copy G1 G2} {W W' : World G1 G2} (h : Seen pp C W W')
    (h1 : C'.asked = C.asked) (h2 : C'.points = C.points) : Seen pp C' W W' where
  left := h.left
  right := h.right
  pk := h.pk
  suite := h.suite
  asked := by rw [h1, h.asked]
  length := by rw [h2]; exact h.length
  points := by rw [h2]; exact h.points

theorem Seen.point {C : Copy G1 G2} {W W' : World G1 G2} (h : Seen pp C W W') (p : G1) :
    Seen pp { C with asked := C.asked + 1, points := C.points ++ [C.asked] }
      { W with answers := W.answers ++ [.point p] } { W' with answers := W'.answers ++ [.point p] }
    where
  left := h.left
  right := h.right
  pk := h.pk
  suite := h.suite
  asked := by simp [h.asked]
  length := by simp [h.length]
  points := by
    intro k q hq
    simp only [] at hq ⊢
    by_cases hk : k < W.answers.length
    · rw [List.getElem?_append_left hk] at hq
      have : (C.points ++ [C.asked]).getD k 0 = C.points.getD k 0 := by
        rw [List.getD_eq_getElem?_getD, List.getD_eq_getElem?_getD,
          List.getElem?_append_left (by rw [h.length]; exact hk)]
      rw [this]
      exact getElem?_append (h.points k q hq)
    · rw [List.getElem?_append_right (by omega)] at hq
      have hk0 : k - W.answers.length = 0 := by
        by_contra h0
        rw [List.getElem?_eq_none (by simp; omega)] at hq
        cases hq
      rw [hk0] at hq
      have hke : k = C.points.length := by rw [h.length]; omega
      have : (C.points ++ [C.asked]).getD k 0 = C.asked := by
        rw [hke, List.getD_eq_getElem?_getD]
        simp
      rw [this, h.asked]
      simpa using hq

theorem Harmless.signature {d t0 t : Nat} {qs : List RoQuery} {sg : List (Nat × Bytes)}
    (h : Harmless d t0 qs sg) (h0 : ValidTime d t0) (ht : ValidTime d t) (msg : Bytes) :
    Harmless d t0 (qs ++ [.signature t (path d t) msg]) (sg ++ [(t, msg)]) := by
  constructor
  · intro t' v hm
    simp only [List.mem_append, List.mem_singleton, reduceCtorEq, or_false] at hm
    exact h.1 t' v hm
  · intro t' msg' hm
    simp only [List.mem_append, List.mem_singleton, RoQuery.signature.injEq] at hm
    rcases hm with hm | ⟨_, hp, rfl⟩
    · exact List.mem_append_left _ (h.2 t' msg' hm)
    · have : t0 = t := by rw [← num_path h0, hp, num_path ht]
      rw [this]
      simp

theorem Harmless.signed {d t0 : Nat} {qs : List RoQuery} {sg sg' : List (Nat × Bytes)}
    (h : Harmless d t0 qs sg) : Harmless d t0 qs (sg ++ sg') :=
  ⟨h.1, fun t msg hm => List.mem_append_left _ (h.2 t msg hm)⟩

theorem Harmless.point {d t0 : Nat} {qs : List RoQuery} {sg : List (Nat × Bytes)}
    (h : Harmless d t0 qs sg) : Harmless d t0 (qs ++ [.point]) sg := by
  constructor
  · intro t v hm
    simp only [List.mem_append, List.mem_singleton, reduceCtorEq, or_false] at hm
    exact h.1 t v hm
  · intro t msg hm
    simp only [List.mem_append, List.mem_singleton, reduceCtorEq, or_false] at hm
    exact h.2 t msg hm

theorem Harmless.fetched {d t0 tar : Nat} {qs : List RoQuery} {sg : List (Nat × Bytes)}
    (h : Harmless d t0 qs sg) (h0 : ValidTime d t0) (ht : ValidTime d tar) (hlt : t0 < tar) :
    Harmless d t0 (qs ++ (coverTimes d tar).map fun s => .subKey s (path d s)) sg := by
  constructor
  · intro t v hm
    simp only [List.mem_append, List.mem_map, RoQuery.subKey.injEq] at hm
    rcases hm with hm | ⟨s, hs, rfl, rfl⟩
    · exact h.1 t v hm
    · exact cover_not_above h0 ht hlt hs
  · intro t msg hm
    simp only [List.mem_append, List.mem_map, reduceCtorEq, and_false, exists_false, or_false] at hm
    exact h.2 t msg hm

/-- a claim that is accepted in the one run is in the other -/
theorem Seen.accepted [DecidableEq GT] {C : Copy G1 G2} {W W' : World G1 G2} (h : Seen pp C W W')
    (pf : Profile) {F : Claim G1 G2} (hF : F.Accepted E pf W) :
    Claim.Accepted E pf W' { F with cosigners := F.cosigners.map (Partner.moved C.points) } := by
  obtain ⟨h1, h2⟩ := hF
  have hpp : W'.pp = W.pp := h.right.trans h.left.symm
  refine ⟨?_, ?_⟩
  · intro c hc
    obtain ⟨c0, hc0, rfl⟩ := List.mem_map.1 hc
    have := h1 c0 hc0
    unfold Partner.Admitted at this ⊢
    obtain ⟨key, point, pop⟩ := c0
    cases point with
    | none =>
      simp only [Partner.moved, Option.map_none] at this ⊢
      rw [h.pk]
      exact this
    | some k =>
      simp only [Partner.moved, Option.map_some] at this ⊢
      obtain ⟨a1, p, a2, a3⟩ := this
      rw [hpp]
      exact ⟨a1, p, h.points k p a2, a3⟩
  · rw [hpp, h.pk]
    simp only [List.map_map]
    exact h2

theorem forge_le [DecidableEq GT] (pf : Profile) (x : Fr) {t0 : Nat} (SP : ParamShape pp)
    (F : Claim G1 G2) (S : Signer) (tab : Table) {C : Copy G1 G2} {W W' : World G1 G2}
    (h : Seen pp C W W') {qs : List RoQuery} (hq : Harmless pp.depth t0 qs S.signed) :
    ((ApiPlayer.forge F).only t0).chance E pf g x S tab W ≤
      ((ApiPlayer.forge F).bet pf pp pp.depth t0 C).chance E pf g x qs tab W' := by
  have hW : ParamShape W.pp := by rw [h.left]; exact SP
  simp only [ApiPlayer.only, ApiPlayer.bet]
  by_cases hF : F.time = t0
  · rw [if_pos hF, if_pos hF]
    simp only [ApiPlayer.chance, RoPlayer.chance]
    refine oracle_mono fun D _ => ?_
    split_ifs with h1 h2
    · exact le_refl _
    · exfalso
      refine h2 ⟨h.accepted pf h1.1, ?_⟩
      intro w hw
      rw [h.right] at hw
      have hw' := (nodeAt_iff.1 hw).2
      simp only [] at hw'
      rw [hF] at hw'
      subst hw'
      refine ⟨fun t v hm => hq.1 t v hm, fun t hm => ?_⟩
      have := hq.2 t F.msg hm
      rw [← hF] at this
      exact h1.2.2 this
    · exact zero_le_one
    · exact le_refl _
  · rw [if_neg hF, if_neg hF, none_chance pf x hW (by rw [h.left]; exact h.suite)]
    exact RoPlayer.chance_nonneg pf x _ _ _ _

/-! ## After `t0` -/

/-- the key of the signer is known -/
structure Known (pp : PubParam G1 G2) (x : Fr) (t0 : Nat) (S : Signer) (C : Copy G1 G2) : Prop where
  time : C.time = S.time
  later : t0 < S.time
  valid : ValidTime pp.depth S.time
  length : S.rho.length = (coverTimes pp.depth S.time).length
  keys : C.keys = keysOf pp x S.time S.rho
  shown : C.shown = S.shown
  broken : C.broken = true ↔ S.broken ≠ []

theorem known_le [DecidableEq GT] (L : GroupLaws E) (pf : Profile) (x : Fr) (WF : ParamWF E pp)
    {t0 : Nat} (P : ApiPlayer G1 G2) (S : Signer) (tab : Table)
    (C : Copy G1 G2) (W W' : World G1 G2) (qs : List RoQuery) (h : Seen pp C W W') (hq : Harmless pp.depth t0 qs S.signed)
    (hk : Known pp x t0 S C) :
    (P.only t0).chance E pf g x S tab W ≤
      (P.bet pf pp pp.depth t0 C).chance E pf g x qs tab W' := by
  induction P generalizing S tab C W W' qs with
  | toss m hm n ih => exact avg_mono fun c => ih c S tab C W W' qs h hq hk
  | hash msg n ih => exact oracle_mono fun D tab' => ih _ S tab' C W W' qs h hq hk
  | point n ih =>
    simp only [ApiPlayer.only, ApiPlayer.bet, ApiPlayer.chance, RoPlayer.chance, answer]
    refine avg_mono fun r : Fr => ?_
    exact ih (r.val • g) S tab _ _ _ _ (h.point (r.val • g)) hq.point
      ⟨hk.time, hk.later, hk.valid, hk.length, hk.keys, hk.shown, hk.broken⟩
  | sign msg n ih =>
    simp only [ApiPlayer.only, ApiPlayer.bet]
    rw [if_neg (by rw [hk.time]; have := hk.later; omega)]
    simp only [ApiPlayer.chance, RoPlayer.chance]
    refine oracle_mono fun D tab' => ?_
    rw [scalars_chance]
    simp only [avgs]
    refine avg_mono fun r => ?_
    rw [digest_nat, hk.keys, hk.time, List.headD_cons,
      signWith_eq L pf WF hk.valid hk.length, h.left]
    refine ih _ (S.after msg r) tab' _ W W' qs (h.same rfl rfl) hq.signed ?_
    exact ⟨rfl, hk.later, hk.valid, hk.length, rfl, by
      show C.shown ++ [r] = S.shown ++ [r]
      rw [hk.shown], hk.broken⟩
  | update tar n ih =>
    simp only [ApiPlayer.only, ApiPlayer.bet, ApiPlayer.chance]
    rw [h.left, hk.time]
    by_cases h1 : S.time < tar ∧ tar ≤ 2 ^ pp.depth - 1
    · have hl := hk.later
      rw [if_pos h1, if_pos h1, if_neg (by omega), if_neg (by omega), scalars_chance]
      refine avgs_mono fun rs hrs => ?_
      rw [hk.keys, stepKeys_eq L pf WF hk.valid h1.1 h1.2 hk.length hrs]
      refine ih (S.updated pp.depth tar rs) tab _ W W' qs (h.same rfl rfl) hq ?_
      refine ⟨rfl, show t0 < tar by omega, ⟨show 1 ≤ tar by omega, h1.2⟩,
        stepExponents_length hk.valid h1.1 h1.2 hk.length hrs, rfl, ?_, hk.broken⟩
      show (if C.broken = true then C.shown ++ rs else []) =
        if S.broken = [] then [] else S.shown ++ rs
      by_cases hb : S.broken = []
      · rw [if_pos hb, if_neg fun hc => hk.broken.1 hc hb]
      · rw [if_neg hb, if_pos (hk.broken.2 hb), hk.shown]
    · rw [if_neg h1, if_neg h1]
      exact ih S tab C W W' qs h hq hk
  | breakIn n ih =>
    simp only [ApiPlayer.only, ApiPlayer.bet, ApiPlayer.chance]
    rw [if_neg (by rw [hk.time]; have := hk.later; omega), hk.keys, hk.shown, h.left]
    refine ih _ _ S.caught tab _ W W' qs (h.same rfl rfl) hq ?_
    exact ⟨hk.time, hk.later, hk.valid, hk.length, rfl, rfl,
      ⟨fun _ => by simp [Signer.caught], fun _ => rfl⟩⟩
  | forge F => exact forge_le pf x WF.toParamShape F S tab h hq

/-! ## Up to `t0` -/

theorem unknown_le [DecidableEq GT] (L : GroupLaws E) (pf : Profile) (x : Fr) (WF : ParamWF E pp)
    {t0 : Nat} (h0 : ValidTime pp.depth t0) (P : ApiPlayer G1 G2) (t : Nat)
    (ht : ValidTime pp.depth t) (htt : t ≤ t0) (sh : List Fr → List Fr) (sg : List (Nat × Bytes))
    (tab : Table) (C : Copy G1 G2) (hC : C.time = t) (hb : C.broken = false) (W W' : World G1 G2)
    (qs : List RoQuery) (h : Seen pp C W W')
    (hq : Harmless pp.depth t0 qs sg) :
    (avgs (coverTimes pp.depth t).length fun rho => (P.only t0).chance E pf g x
      { time := t, rho := rho, shown := sh rho, signed := sg, broken := [] } tab W) ≤
      (P.bet pf pp pp.depth t0 C).chance E pf g x qs tab W' := by
  have SP := WF.toParamShape
  induction P generalizing t sh sg tab C W W' qs with
  | toss m hm n ih =>
    simp only [ApiPlayer.only, ApiPlayer.bet, ApiPlayer.chance, RoPlayer.chance]
    rw [← avg_avgs]
    exact avg_mono fun c => ih c t ht htt sh sg tab C hC hb W W' qs h hq
  | hash msg n ih =>
    simp only [ApiPlayer.only, ApiPlayer.bet, ApiPlayer.chance, RoPlayer.chance]
    rw [oracle_avgs]
    exact oracle_mono fun D tab' => ih _ t ht htt sh sg tab' C hC hb W W' qs h hq
  | point n ih =>
    simp only [ApiPlayer.only, ApiPlayer.bet, ApiPlayer.chance, RoPlayer.chance, answer]
    rw [← avg_avgs]
    exact avg_mono fun r : Fr => ih (r.val • g) t ht htt sh sg tab
      { C with asked := C.asked + 1, points := C.points ++ [C.asked] } hC hb _ _ _
      (h.point (r.val • g)) hq.point
  | sign msg n ih =>
    simp only [ApiPlayer.only, ApiPlayer.bet, hC, if_pos htt]
    simp only [ApiPlayer.chance, RoPlayer.chance]
    rw [oracle_avgs]
    refine oracle_mono fun D tab' => ?_
    have hsh : ∀ rho : List Fr, (avg fun r : Fr => ((n (signatureOf W.pp x t D.field
        (rho.headD 0 + r))).only t0).chance E pf g x (Signer.after msg r
          { time := t, rho := rho, shown := sh rho, signed := sg, broken := [] }) tab' W) =
        avg fun s : Fr => ((n (signatureOf W.pp x t D.field s)).only t0).chance E pf g x
          { time := t, rho := rho, shown := sh rho ++ [s - rho.headD 0], signed := sg ++ [(t, msg)]
            broken := [] } tab' W := by
      intro rho
      refine Eq.trans (avg_congr fun r => ?_) (avg_equiv (Equiv.addLeft (rho.headD 0))
        fun s : Fr => ((n (signatureOf W.pp x t D.field s)).only t0).chance E pf g x
          { time := t, rho := rho, shown := sh rho ++ [s - rho.headD 0], signed := sg ++ [(t, msg)]
            broken := [] } tab' W)
      simp only [Equiv.coe_addLeft, add_sub_cancel_left, Signer.after]
    rw [avgs_congr fun rho _ => hsh rho, ← avg_avgs]
    refine avg_mono fun s => ?_
    rw [h.left]
    have hans : answer W'.pp g x s (.signature t (path pp.depth t) D.field) =
        .signature (signatureOf pp x t D.field s) := by
      rw [h.right]
      rfl
    rw [hans]
    exact ih (signatureOf pp x t D.field s) t ht htt (fun rho => sh rho ++ [s - rho.headD 0])
      (sg ++ [(t, msg)]) tab' { C with time := t, asked := C.asked + 1 } rfl hb W _ _
      (h.more [.signature (signatureOf pp x t D.field s)] rfl rfl) (hq.signature h0 ht msg)
  | update tar n ih =>
    simp only [ApiPlayer.only, ApiPlayer.bet, ApiPlayer.chance]
    rw [h.left, hC]
    by_cases h1 : t < tar ∧ tar ≤ 2 ^ pp.depth - 1
    · have htar : ValidTime pp.depth tar := ⟨by have := ht.1; omega, h1.2⟩
      simp only [if_pos h1]
      have hstep := stepExponents_uniform ht h1.1 h1.2 fun rho => (n.only t0).chance E pf g x
        { time := tar, rho := rho, shown := [], signed := sg, broken := [] } tab W
      simp only [Signer.updated, if_true]
      rw [hstep]
      by_cases h2 : tar ≤ t0
      · rw [if_pos h2]
        exact ih tar htar h2 (fun _ => []) sg tab { C with time := tar } rfl hb W W' qs (h.same rfl rfl) hq
      · rw [if_neg h2, if_pos htt]
        rw [fetch_chance_eq (E := E) (g := g) pf x (coverTimes pp.depth tar)
          (fun keys => n.bet pf pp pp.depth t0
            { C with time := tar, keys := keys, shown := []
                     asked := C.asked + (coverTimes pp.depth tar).length }) qs tab W' h.right]
        refine avgs_mono fun rho hrho => ?_
        refine known_le L pf x WF n _ tab _ W _ _ (h.more
          ((List.zipWith (subKeyOf pp x) (coverTimes pp.depth tar) rho).map .subKey) ?_ rfl)
          (hq.fetched h0 htar (by omega)) ?_
        · simp [hrho]
        · exact ⟨rfl, by show t0 < tar; omega, htar, hrho, rfl, rfl, by simp [hb]⟩
    · simp only [if_neg h1]
      exact ih t ht htt sh sg tab C hC hb W W' qs h hq
  | breakIn n ih =>
    simp only [ApiPlayer.only, ApiPlayer.bet, ApiPlayer.chance, hC, if_pos htt]
    rw [avgs_zero fun rho => ?_]
    · exact RoPlayer.chance_nonneg pf x _ _ _ _
    · exact caught_chance pf x htt _ _ (by simp [Signer.caught]) tab W (by rw [h.left]; exact SP)
        (by rw [h.left]; exact h.suite)
  | forge F =>
    rw [← avgs_const (coverTimes pp.depth t).length
      (((ApiPlayer.forge F).bet pf pp pp.depth t0 C).chance E pf g x qs tab W')]
    exact avgs_mono fun rho _ => forge_le pf x SP F _ tab h hq

/-! ## The whole game -/

/-- what the adversary can do against a signer is, for a claim at time `t0`, done by the adversary
that bets on `t0` -/
theorem only_le_bet [DecidableEq GT] (L : GroupLaws E) (pf : Profile) (x : Fr)
    {W : World G1 G2} (WF : ParamWF E W.pp) (hW : W.answers = [])
    (hpk : W.pk.ciphersuite = W.pp.ciphersuite) {t0 : Nat} (h0 : ValidTime W.pp.depth t0)
    (P : ApiPlayer G1 G2) :
    (avg fun r : Fr => (P.only t0).chance E pf g x (.new r) [] W) ≤
      (P.bet pf W.pp W.pp.depth t0 .start).chance E pf g x [] [] W := by
  obtain ⟨d, hd⟩ : ∃ d, W.pp.depth = d + 1 := ⟨W.pp.depth - 1, by have := WF.depth_pos; omega⟩
  have hcov : coverTimes W.pp.depth 1 = [1] := by rw [hd, coverTimes_one]
  have h := unknown_le (g := g) L pf x WF h0 P 1 ⟨le_refl 1, h0.1.trans h0.2⟩ h0.1 (fun _ => []) []
    [] .start rfl rfl W W [] ⟨rfl, rfl, rfl, hpk, by rw [hW]; rfl, by rw [hW]; rfl, by
      rw [hW]; intro k p hk; simp at hk⟩ ⟨by simp, by simp⟩
  rw [hcov] at h
  exact h

/-- the reduction in the game against a signer -/
theorem apiForgeChance_le [DecidableEq GT] (L : GroupLaws E) {d : Nat} {cs : UInt8}
    (hsub : E.inSub1 g = true) (hd : 0 < d) (hd' : d ≤ 63) (pf : Profile)
    (A : World G1 G2 → ApiPlayer G1 G2) :
    apiForgeChance E pf g d cs A ≤
      ∑ t ∈ Finset.Icc 1 (2 ^ d - 1), roForgeChance E pf g d cs (apiBet pf d t A) := by
  unfold apiForgeChance roForgeChance
  rw [← avg_sum]
  refine avg_mono fun a => ?_
  have WF : ParamWF E (worldOf E g cs a []).pp := viewOf_wf (E := E) (cs := cs) L hsub hd hd' (toVar a)
  have hpk : (worldOf E g cs a []).pk.ciphersuite = (worldOf E g cs a []).pp.ciphersuite := rfl
  have hnil : (worldOf E g cs a []).answers = [] := rfl
  have hdep : (worldOf E g cs a []).pp.depth = d := rfl
  generalize worldOf E g cs a [] = W at *
  refine (avg_mono fun r => (A W).chance_le_only pf (a .x) (.new r) [] W WF.toParamShape hpk
    (T := Finset.Icc 1 (2 ^ d - 1)) fun t v h => ?_).trans ?_
  · rw [hdep] at h
    exact Finset.mem_Icc.2 (nodeAt_iff.1 h).1
  · rw [avg_sum]
    refine Finset.sum_le_sum fun t ht => ?_
    have := only_le_bet (g := g) L pf (a .x) WF hnil hpk
      (t0 := t) (by rw [hdep]; exact Finset.mem_Icc.1 ht) (A W)
    rw [hdep] at this
    exact this

end Pixel
