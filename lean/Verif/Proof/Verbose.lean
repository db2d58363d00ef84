import Verif.Spec.Verbose
import Verif.Proof.Validate
import Verif.Props.Sig
import Verif.Props.Time

/-! # Helper lemmas: the text of the checking functions -/

set_option linter.unusedSectionVars false

namespace Pixel.Verbose

open Pixel Spec Debug Say

variable {G1 G2 GT : Type} [AddCommGroup G1] [AddCommGroup G2] [CommGroup GT]

section

variable {α β : Type}

@[simp] theorem out_pure (a : α) : (pure a : Say α).out = .ok a := rfl
@[simp] theorem out_pure' (a : α) : (Pure.pure a : Say α).out = .ok a := rfl

@[simp] theorem out_bind (x : Say α) (f : α → Say β) :
    (x >>= f).out = (x.out >>= fun a => (f a).out) := by
  change (Say.bind x f).out = _
  unfold Say.bind
  cases x.out <;> rfl

@[simp] theorem out_quiet (x : Res α) : (quiet x).out = x := rfl
@[simp] theorem out_line (pf : Profile) (t : Bytes) : (line pf t).out = .ok () := rfl

@[simp] theorem out_ite (c : Prop) [Decidable c] (x y : Say α) :
    (if c then x else y).out = if c then x.out else y.out := by split <;> rfl

@[simp] theorem out_orFalse (pf : Profile) (t : Bytes) (x : Say α) (f : α → Say Bool) :
    (orFalse pf t x f).out = match x.out with
      | .ok a => (f a).out
      | .err _ => .ok false
      | .panic p => .panic p := by
  unfold orFalse
  cases x.out <;> rfl

theorem text_ok {x : Say α} {a : α} (f : α → Say β) (h : x.out = .ok a) :
    (x >>= f).text = x.text ++ (f a).text := by
  change (Say.bind x f).text = _
  unfold Say.bind
  rw [h]

theorem text_err {x : Say α} {e : Err} (f : α → Say β) (h : x.out = .err e) :
    (x >>= f).text = x.text := by
  change (Say.bind x f).text = _
  unfold Say.bind
  rw [h]

theorem text_panic {x : Say α} {p : Panic} (f : α → Say β) (h : x.out = .panic p) :
    (x >>= f).text = x.text := by
  change (Say.bind x f).text = _
  unfold Say.bind
  rw [h]

@[simp] theorem text_pure (a : α) : (pure a : Say α).text = [] := rfl
@[simp] theorem text_quiet (x : Res α) : (quiet x).text = [] := rfl

theorem quiet_ok (a : α) (f : α → Say β) : (quiet (.ok a) >>= f) = f a := by
  change Say.bind _ _ = _
  unfold Say.bind quiet
  simp

end

/-! ## the same results -/

theorem out_timeToVec (pf : Profile) (t d : Nat) : (timeToVec pf t d).out = Pixel.timeToVec pf t d := by
  induction d generalizing t with
  | zero => rfl
  | succ d ih =>
    simp only [timeToVec, Pixel.timeToVec, out_bind, out_quiet, out_ite, out_line, ih, out_pure]
    rfl

theorem out_timeVec (pf : Profile) (t d : Nat) : (timeVec pf t d).out = TimeVec.init pf t d := by
  simp only [timeVec, out_bind, out_timeToVec]
  rfl

theorem out_vecToTime (pf : Profile) (v : List Nat) (d : Nat) :
    (vecToTime pf v d).out = Pixel.vecToTime pf v d := by
  induction d generalizing v with
  | zero => cases v <;> rfl
  | succ d ih =>
    cases v with
    | nil => rfl
    | cons a v => simp only [vecToTime, Pixel.vecToTime, out_bind, out_quiet, ih]

theorem out_gammaLoop (pf : Profile) (v : TimeVec) (d : Nat) (l : List Nat) : ∀ res : List TimeVec,
    (gammaLoop pf v d l res).out = l.foldlM (TimeVec.gammaStep pf v d) res := by
  induction l with
  | nil => intro res; rfl
  | cons i l ih =>
    intro res
    rw [gammaLoop, out_bind, List.foldlM_cons]
    simp only [ih]
    congr 1
    simp only [gammaStep, TimeVec.gammaStep, out_bind, out_quiet, out_ite, out_vecToTime]
    rfl

theorem out_gammaList (pf : Profile) (v : TimeVec) (d : Nat) :
    (gammaList pf v d).out = v.gammaList pf d := out_gammaLoop pf v d _ _

theorem out_sskValidate [DecidableEq GT] (E : Ext G1 G2 GT) (pf : Profile) (s : SubSecretKey G1 G2)
    (pk : PublicKey G2) (pp : PubParam G1 G2) :
    (sskValidate E pf s pk pp).out = s.validate E pf pk pp := by
  unfold sskValidate SubSecretKey.validate
  rw [out_orFalse, out_timeVec]
  rcases ht : TimeVec.init pf s.time pp.depth with t | e | p <;> simp only [ht]
  simp only [out_bind, out_quiet]
  congr 1; funext h0; congr 1; funext h
  generalize E.pairing _ = o
  cases o <;> rfl

theorem out_validateLoop [DecidableEq GT] (E : Ext G1 G2 GT) (pf : Profile) (pk : PublicKey G2)
    (pp : PubParam G1 G2) (gl : List TimeVec) (ssk : List (SubSecretKey G1 G2)) (is : List Nat) :
    (validateLoop E pf pk pp gl ssk is).out = SecretKey.validateLoop E pf pk pp gl ssk is := by
  induction is with
  | nil => rfl
  | cons i is ih =>
    simp only [validateLoop, SecretKey.validateLoop, out_bind, out_quiet, out_ite, out_line,
      out_sskValidate, ih]
    rfl

theorem out_skValidate [DecidableEq GT] (E : Ext G1 G2 GT) (pf : Profile) (sk : SecretKey G1 G2)
    (pk : PublicKey G2) (pp : PubParam G1 G2) :
    (skValidate E pf sk pk pp).out = sk.validate E pf pk pp := by
  unfold skValidate SecretKey.validate
  rw [out_ite]
  split
  · rfl
  · rw [out_orFalse, out_timeVec]
    rcases ht : TimeVec.init pf sk.time pp.depth with t | e | p <;> simp only [ht]
    simp only [out_orFalse, out_gammaList]
    rcases hg : t.gammaList pf pp.depth with gl | e | p <;> simp only
    exact out_validateLoop E pf pk pp gl _ _

theorem out_verifyFr [DecidableEq GT] (E : Ext G1 G2 GT) (pf : Profile) (s : Signature G1 G2)
    (pk : PublicKey G2) (pp : PubParam G1 G2) (m : Fr) :
    (verifyFr E pf s pk pp m).out = s.verifyFr E pf pk pp m := by
  unfold verifyFr Signature.verifyFr
  rw [out_ite]
  split
  · rfl
  · rw [out_bind]
    simp only [out_quiet]
    congr 1; funext h0
    rw [out_orFalse, out_timeVec]
    rcases ht : TimeVec.init pf s.time pp.depth with t | e | p <;> simp only
    simp only [out_bind, out_quiet]
    congr 1; funext h; congr 1; funext hd
    generalize E.pairing _ = o
    cases o <;> rfl

theorem out_verifyBytes [DecidableEq GT] (E : Ext G1 G2 GT) (pf : Profile) (s : Signature G1 G2)
    (pk : PublicKey G2) (pp : PubParam G1 G2) (m : Bytes) :
    (verifyBytes E pf s pk pp m).out = s.verifyBytes E pf pk pp m := by
  simp only [verifyBytes, Signature.verifyBytes, out_ite, out_bind, out_quiet, out_verifyFr, out_line]
  rfl

theorem out_aggCheck (pf : Profile) (r : Signature G1 G2) (l : List (Signature G1 G2)) :
    (aggCheck pf r l).out = Signature.aggCheck r l := by
  induction l with
  | nil => rfl
  | cons e l ih =>
    simp only [aggCheck, Signature.aggCheck, out_ite, out_bind, out_quiet, out_line, ih]
    rfl

theorem out_aggregate (pf : Profile) (l : List (Signature G1 G2)) :
    (aggregate pf l).out = Signature.aggregateWithoutValidate l := by
  simp only [aggregate, Signature.aggregateWithoutValidate, out_bind, out_quiet, out_aggCheck]
  rfl

theorem out_verifyBytesAggregated [DecidableEq GT] (E : Ext G1 G2 GT) (pf : Profile)
    (s : Signature G1 G2) (l : List (PublicKey G2)) (pp : PubParam G1 G2) (m : Bytes) :
    (verifyBytesAggregated E pf s l pp m).out = s.verifyBytesAggregated E pf l pp m := by
  simp only [verifyBytesAggregated, Signature.verifyBytesAggregated, out_ite, out_bind, out_quiet,
    out_verifyBytes, out_line]
  rfl

theorem out_pkInit (pf : Profile) (pp : PubParam G1 G2) (pk : G2) :
    (pkInit pf pp pk).out = PublicKey.init pp pk := by
  simp only [pkInit, PublicKey.init, out_ite, out_bind, out_quiet, out_line]
  rfl

theorem out_pkValidate [DecidableEq GT] (E : Ext G1 G2 GT) (pf : Profile) (pk : PublicKey G2)
    (pop : ProofOfPossession G1) : (pkValidate E pf pk pop).out = .ok (pk.validate E pop) := by
  unfold pkValidate PublicKey.validate
  split
  · rfl
  · split <;> rfl

/-! ## builds without `debug_assertions` are silent -/

section

variable {α β : Type}

/-- nothing is printed -/
def Silent (x : Say α) : Prop := x.text = []

theorem silent_pure (a : α) : Silent (pure a : Say α) := rfl
theorem silent_quiet (x : Res α) : Silent (quiet x) := rfl
theorem silent_line (t : Bytes) : Silent (line .release t) := rfl

theorem Silent.bind {x : Say α} {f : α → Say β} (h : Silent x) (hf : ∀ a, Silent (f a)) :
    Silent (x >>= f) := by
  unfold Silent at *
  rcases ho : x.out with a | e | p
  · rw [text_ok f ho, h, hf a]; rfl
  · rw [text_err f ho, h]
  · rw [text_panic f ho, h]

theorem Silent.ite {c : Prop} [Decidable c] {x y : Say α} (h : Silent x) (h' : Silent y) :
    Silent (if c then x else y) := by split <;> assumption

theorem Silent.orFalse {x : Say α} {t : Bytes} {f : α → Say Bool} (h : Silent x)
    (hf : ∀ a, Silent (f a)) : Silent (orFalse .release t x f) := by
  unfold Silent at *
  unfold Verbose.orFalse
  rcases x.out with a | e | p
  · simp only [h, hf a]; rfl
  · simp only [h]; rfl
  · exact h

theorem silent_timeToVec (t d : Nat) : Silent (timeToVec .release t d) := by
  induction d generalizing t with
  | zero => rfl
  | succ d ih =>
    rw [timeToVec]
    refine (silent_quiet _).bind fun _ => .ite ((silent_line _).bind fun _ => silent_quiet _)
      (.ite (silent_pure _) ((silent_quiet _).bind fun _ => .ite ?_ ?_))
    · exact (ih _).bind fun _ => silent_pure _
    · exact (ih _).bind fun _ => silent_pure _

theorem silent_timeVec (t d : Nat) : Silent (timeVec .release t d) :=
  (silent_timeToVec t d).bind fun _ => silent_pure _

theorem silent_vecToTime (v : List Nat) (d : Nat) : Silent (vecToTime .release v d) := by
  induction d generalizing v with
  | zero => cases v <;> rfl
  | succ d ih =>
    cases v with
    | nil => rfl
    | cons a v =>
      rw [vecToTime]
      exact (silent_quiet _).bind fun _ => (silent_quiet _).bind fun _ => (silent_quiet _).bind fun _ =>
        (silent_quiet _).bind fun _ => (silent_quiet _).bind fun _ => (ih _).bind fun _ =>
        silent_quiet _

theorem silent_gammaLoop (v : TimeVec) (d : Nat) (l : List Nat) : ∀ res,
    Silent (gammaLoop .release v d l res) := by
  induction l with
  | nil => intro res; rfl
  | cons i l ih =>
    intro res
    refine Silent.bind ?_ fun res => ih res
    exact (silent_quiet _).bind fun _ => .ite ((silent_quiet _).bind fun _ =>
      (silent_vecToTime _ _).bind fun _ => silent_quiet _) (silent_pure _)

end

theorem silent_sskValidate [DecidableEq GT] (E : Ext G1 G2 GT) (s : SubSecretKey G1 G2)
    (pk : PublicKey G2) (pp : PubParam G1 G2) : Silent (sskValidate E .release s pk pp) := by
  refine (silent_timeVec _ _).orFalse fun t => (silent_quiet _).bind fun _ =>
    (silent_quiet _).bind fun _ => ?_
  split <;> rfl

theorem silent_skValidate [DecidableEq GT] (E : Ext G1 G2 GT) (sk : SecretKey G1 G2)
    (pk : PublicKey G2) (pp : PubParam G1 G2) : Silent (skValidate E .release sk pk pp) := by
  refine .ite ((silent_line _).bind fun _ => silent_pure _)
    ((silent_timeVec _ _).orFalse fun t => (silent_gammaLoop _ _ _ _).orFalse fun gl => ?_)
  induction List.range sk.ssk.length with
  | nil => rfl
  | cons i is ih =>
    exact (silent_quiet _).bind fun _ => (silent_sskValidate _ _ _ _).bind fun _ =>
      .ite ((silent_line _).bind fun _ => silent_pure _) ((silent_quiet _).bind fun _ =>
        .ite ((silent_line _).bind fun _ => (silent_line _).bind fun _ => silent_pure _) ih)

theorem silent_verifyBytes [DecidableEq GT] (E : Ext G1 G2 GT) (s : Signature G1 G2)
    (pk : PublicKey G2) (pp : PubParam G1 G2) (m : Bytes) :
    Silent (verifyBytes E .release s pk pp m) := by
  refine .ite ((silent_line _).bind fun _ => silent_pure _)
    (.ite ((silent_line _).bind fun _ => silent_pure _) ((silent_quiet _).bind fun _ =>
    .ite ((silent_line _).bind fun _ => silent_pure _) ((silent_quiet _).bind fun _ =>
    (silent_timeVec _ _).orFalse fun _ => (silent_quiet _).bind fun _ =>
      (silent_quiet _).bind fun _ => ?_)))
  split <;> rfl

theorem silent_verifyBytesAggregated [DecidableEq GT] (E : Ext G1 G2 GT) (s : Signature G1 G2)
    (l : List (PublicKey G2)) (pp : PubParam G1 G2) (m : Bytes) :
    Silent (verifyBytesAggregated E .release s l pp m) :=
  .ite ((silent_line _).bind fun _ => silent_pure _)
    (.ite ((silent_line _).bind fun _ => silent_pure _) ((silent_quiet _).bind fun _ =>
      silent_verifyBytes _ _ _ _ _))

theorem silent_aggregate (l : List (Signature G1 G2)) : Silent (aggregate .release l) := by
  refine (silent_quiet _).bind fun r => Silent.bind ?_ fun _ => silent_pure _
  induction l.drop 1 with
  | nil => rfl
  | cons e l ih =>
    exact .ite ((silent_line _).bind fun _ => silent_quiet _)
      (.ite ((silent_line _).bind fun _ => silent_quiet _) ih)

theorem silent_pkInit (pp : PubParam G1 G2) (pk : G2) : Silent (pkInit .release pp pk) :=
  .ite ((silent_line _).bind fun _ => silent_quiet _) (silent_pure _)

theorem silent_pkValidate [DecidableEq GT] (E : Ext G1 G2 GT) (pk : PublicKey G2)
    (pop : ProofOfPossession G1) : Silent (pkValidate E .release pk pop) :=
  .ite ((silent_line _).bind fun _ => silent_pure _)
    (.ite ((silent_line _).bind fun _ => silent_pure _) (silent_pure _))

/-! ## the text -/

theorem shl1_not_err {pf : Profile} {d : Nat} {e : Err} : shl1 pf d ≠ .err e := by
  unfold shl1
  intro h
  split at h
  · split at h <;> cases h
  · cases h

/-- what `time_to_vec` prints: one line if it fails with an error, wherever in the recursion -/
theorem text_timeToVec (t d : Nat) : (timeToVec .debug t d).text = match Pixel.timeToVec .debug t d with
    | .err e => ascii "Error in time_to_vec: " ++ errText e ++ newline
    | _ => [] := by
  induction d generalizing t with
  | zero => rfl
  | succ d ih =>
    have step : ∀ (u k : Nat), (timeToVec .debug u d >>= fun tmp => (pure (k :: tmp) : Say _)).text =
        match (Pixel.timeToVec .debug u d >>= fun tmp => Res.ok (k :: tmp)) with
        | .err e => ascii "Error in time_to_vec: " ++ errText e ++ newline
        | _ => [] := by
      intro u k
      have o := out_timeToVec .debug u d
      have := ih u
      rcases h : Pixel.timeToVec .debug u d with a | e | p <;> rw [h] at o this
      · rw [text_ok _ o, this]; rfl
      · rw [text_err _ o, this]; rfl
      · rw [text_panic _ o, this]; rfl
    rw [timeToVec, Pixel.timeToVec]
    rcases h : shl1 .debug (d + 1) with m | e | p
    · rw [quiet_ok, Res.ok_bind]
      by_cases h1 : t > m ∨ t = 0
      · rw [if_pos h1, if_pos h1]
        rfl
      · rw [if_neg h1, if_neg h1]
        by_cases h2 : t = 1
        · rw [if_pos h2, if_pos h2]
          rfl
        · rw [if_neg h2, if_neg h2]
          rcases h' : shl1 .debug d with m' | e | p
          · rw [quiet_ok, Res.ok_bind]
            split
            · exact step _ _
            · exact step _ _
          · exact absurd h' shl1_not_err
          · rfl
    · exact absurd h shl1_not_err
    · rfl

theorem text_timeVec (t d : Nat) : (timeVec .debug t d).text = match TimeVec.init .debug t d with
    | .err e => ascii "Error in time_to_vec: " ++ errText e ++ newline
    | _ => [] := by
  have o := out_timeToVec .debug t d
  have := text_timeToVec t d
  unfold timeVec TimeVec.init
  rcases h : Pixel.timeToVec .debug t d with a | e | p <;> rw [h] at o this
  · rw [text_ok _ o, this]; rfl
  · rw [text_err _ o, this]; rfl
  · rw [text_panic _ o, this]; rfl

/-- a bad time stamp, and what is said after it -/
theorem text_orFalse {who : String} {t d : Nat} (hd : d ≤ 63) {f : TimeVec → Say Bool} :
    (¬ ValidTime d t → (orFalse .debug (ascii who) (timeVec .debug t d) f).text = Says.badTime who d t ∧
      (orFalse .debug (ascii who) (timeVec .debug t d) f).out = .ok false) ∧
    (ValidTime d t → ∃ v, TimeVec.init .debug t d = .ok v ∧
      (orFalse .debug (ascii who) (timeVec .debug t d) f).text = (f v).text) := by
  obtain ⟨h1, h2, h3, h4, h5⟩ := Props.C01_init_outcome .debug d t hd
  have o := out_timeVec .debug t d
  have tx := text_timeVec t d
  constructor
  · intro hv
    have he : TimeVec.init .debug t d = .err (if d = 0 ∨ t = 2 ^ d then .timeDepth else .timeStamp) := by
      by_cases hc : d = 0 ∨ t = 2 ^ d
      · rw [if_pos hc]
        exact hc.elim h3 h5
      · rw [if_neg hc]
        refine h4 (by omega) ?_
        unfold ValidTime at hv
        omega
    rw [he] at o tx
    unfold orFalse
    rw [o]
    refine ⟨?_, rfl⟩
    simp only [tx]
    unfold Says.badTime Says.timeWords
    rw [if_neg hv]
    split <;> rfl
  · intro hv
    have hk := h1.2 hv
    rcases hi : TimeVec.init .debug t d with v | e | p
    · rw [hi] at o tx
      refine ⟨v, rfl, ?_⟩
      unfold orFalse
      rw [o]
      simp only [tx, List.nil_append]
    · rw [hi] at hk; cases hk
    · rw [hi] at hk; cases hk

theorem text_line (t : Bytes) {β : Type} (f : Unit → Say β) :
    (line .debug t >>= f).text = t ++ [10] ++ (f ()).text := rfl

/-- silent when it succeeds -/
def OkSilent {α : Type} (x : Say α) : Prop := ∀ a, x.out = .ok a → x.text = []

theorem Silent.okSilent {α : Type} {x : Say α} (h : Silent x) : OkSilent x := fun _ _ => h

theorem OkSilent.bind {α β : Type} {x : Say α} {f : α → Say β} (h : OkSilent x)
    (hf : ∀ a, OkSilent (f a)) : OkSilent (x >>= f) := by
  intro b hb
  rw [out_bind] at hb
  rcases ho : x.out with a | e | p <;> rw [ho] at hb
  · rw [text_ok f ho, h a ho, hf a b hb]; rfl
  · cases hb
  · cases hb

theorem okSilent_vecToTime (v : List Nat) (d : Nat) : OkSilent (vecToTime .debug v d) := by
  induction d generalizing v with
  | zero => cases v <;> (intro a h; cases h)
  | succ d ih =>
    cases v with
    | nil => exact (silent_pure _).okSilent
    | cons a v =>
      rw [vecToTime]
      have q : ∀ {α : Type} (x : Res α), OkSilent (quiet x) := fun x => (silent_quiet x).okSilent
      exact (q _).bind fun _ => (q _).bind fun _ => (q _).bind fun _ => (q _).bind fun _ =>
        (q _).bind fun _ => (ih _).bind fun _ => q _

theorem text_gammaList {v : TimeVec} {d : Nat} {l : List TimeVec}
    (h : (gammaList .debug v d).out = .ok l) : (gammaList .debug v d).text = [] := by
  have : ∀ (is : List Nat) (res : List TimeVec), OkSilent (gammaLoop .debug v d is res) := by
    intro is
    induction is with
    | nil => intro res; exact (silent_pure _).okSilent
    | cons i is ih =>
      intro res
      refine OkSilent.bind ?_ fun res => ih res
      refine OkSilent.bind (silent_quiet _).okSilent fun vi => ?_
      split
      · exact OkSilent.bind (silent_quiet _).okSilent fun _ =>
          OkSilent.bind (okSilent_vecToTime _ _) fun _ => (silent_quiet _).okSilent
      · exact (silent_pure _).okSilent
  exact this _ _ l h

theorem badTime_valid {who : String} {d t : Nat} (h : ValidTime d t) : Says.badTime who d t = [] := by
  unfold Says.badTime
  rw [if_pos h]

theorem badTime_ne {who : String} {d t : Nat} (h : ¬ ValidTime d t) : Says.badTime who d t ≠ [] := by
  unfold Says.badTime
  rw [if_neg h]
  simp [Says.ln]

theorem text_orFalse_silent {who : String} {t d : Nat} (hd : d ≤ 63) {f : TimeVec → Say Bool}
    (hf : ∀ v, Silent (f v)) :
    (orFalse .debug (ascii who) (timeVec .debug t d) f).text = Says.badTime who d t := by
  by_cases hv : ValidTime d t
  · obtain ⟨v, -, h⟩ := (text_orFalse (who := who) (t := t) hd (f := f)).2 hv
    rw [h, hf v, badTime_valid hv]
  · exact ((text_orFalse (who := who) (t := t) hd (f := f)).1 hv).1

/-- sub keys are validated without failure or panic -/
theorem sskValidate_total [DecidableEq GT] (E : Ext G1 G2 GT) (pf : Profile) {pp : PubParam G1 G2}
    (S : ParamShape pp) (s : SubSecretKey G1 G2) (pk : PublicKey G2) :
    ∃ b, s.validate E pf pk pp = .ok b ∧ (b = true → ValidTime pp.depth s.time) := by
  obtain ⟨h0, hs, hl, hlen⟩ := hlist_cons S
  have hi0 : idx pp.hlist 0 = .ok h0 := by rw [hl]; rfl
  simp only [SubSecretKey.validate]
  rcases init_cases (pf := pf) (d := pp.depth) (t := s.time) S.depth_le with ⟨hv, h1⟩ | ⟨hv, e, h1⟩
  · have hn : NodeAt pp.depth s.time (path pp.depth s.time) := nodeAt_iff.2 ⟨hv, rfl⟩
    have hloop := nodeLoop_mul_eq (pp := pp) (v := path pp.depth s.time) hl
      (by have := (nodeAt_isNode hn).1; omega)
    rw [h1]
    simp only []
    rw [hi0, Res.ok_bind, hloop, Res.ok_bind]
    generalize E.pairing _ = o
    cases o with
    | none => exact ⟨false, rfl, fun _ => hv⟩
    | some g => exact ⟨_, rfl, fun _ => hv⟩
  · rw [h1]
    exact ⟨false, rfl, fun h => (nomatch h)⟩

theorem text_sskValidate [DecidableEq GT] (E : Ext G1 G2 GT) {pp : PubParam G1 G2}
    (hd : pp.depth ≤ 63) (s : SubSecretKey G1 G2) (pk : PublicKey G2) :
    (sskValidate E .debug s pk pp).text = Says.badTime "Error in ssk validation: " pp.depth s.time := by
  refine text_orFalse_silent hd fun v => (silent_quiet _).bind fun _ => (silent_quiet _).bind fun _ => ?_
  split <;> rfl

/-- is the sub key valid by itself? -/
def good [DecidableEq GT] (E : Ext G1 G2 GT) (pk : PublicKey G2) (pp : PubParam G1 G2)
    (s : SubSecretKey G1 G2) : Bool :=
  match s.validate E .debug pk pp with
  | .ok b => b
  | _ => false

theorem text_validateLoop [DecidableEq GT] (E : Ext G1 G2 GT) {pp : PubParam G1 G2} (S : ParamShape pp)
    (pk : PublicKey G2) (gl : List TimeVec) (ssk : List (SubSecretKey G1 G2)) (n : Nat) :
    ∀ i, i + n = ssk.length → (validateLoop E .debug pk pp gl ssk (List.range' i n)).text =
      Says.subKeys pp.depth i ((ssk.drop i).map fun s => (s.time, good E pk pp s))
        ((gl.drop i).map (·.time)) := by
  induction n with
  | zero =>
    intro i h
    rw [List.drop_of_length_le (l := ssk) (by omega), List.range'_zero, List.map_nil, Says.subKeys]
    rfl
  | succ n ih =>
    intro i h
    have hi : i < ssk.length := by omega
    obtain ⟨b, hb, hbv⟩ := sskValidate_total E .debug S ssk[i] pk
    have hg : good E pk pp ssk[i] = b := by unfold good; rw [hb]
    have ho := out_sskValidate E .debug ssk[i] pk pp
    rw [hb] at ho
    rw [List.range'_succ, validateLoop, idx_lt hi, quiet_ok, List.drop_eq_getElem_cons hi,
      List.map_cons, hg, text_ok _ ho, text_sskValidate E S.depth_le]
    cases b with
    | false =>
      rw [Says.subKeys]
      simp only [Bool.not_false, if_true]
      rw [text_line]
      simp
    | true =>
      rw [badTime_valid (hbv rfl), List.nil_append]
      simp only [Bool.not_true, Bool.false_eq_true, if_false]
      by_cases hgl : i < gl.length
      · rw [idx_lt hgl, quiet_ok, List.drop_eq_getElem_cons hgl, List.map_cons, Says.subKeys]
        by_cases ht : ssk[i].time = gl[i].time
        · rw [if_neg (by simp [ht]), if_pos ht]
          exact ih (i + 1) (by omega)
        · rw [if_pos ht, if_neg ht]
          rw [text_line, text_line]
          simp [Says.ln, Debug.newline]
      · rw [idx_ge (by omega), List.drop_of_length_le (l := gl) (by omega), List.map_nil, Says.subKeys]
        rfl

theorem text_skValidate [DecidableEq GT] (E : Ext G1 G2 GT) {pp : PubParam G1 G2} (S : ParamShape pp)
    (pk : PublicKey G2) (sk : SecretKey G1 G2) :
    (¬ (sk.ciphersuite = pk.ciphersuite ∧ sk.ciphersuite = pp.ciphersuite) →
      (skValidate E .debug sk pk pp).text = Says.ln "Ciphersuite does not match") ∧
    (sk.ciphersuite = pk.ciphersuite ∧ sk.ciphersuite = pp.ciphersuite →
      (¬ ValidTime pp.depth sk.time → (skValidate E .debug sk pk pp).text =
        Says.badTime "Error in sk validation: " pp.depth sk.time) ∧
      (ValidTime pp.depth sk.time → (skValidate E .debug sk pk pp).text =
        Says.subKeys pp.depth 0 (sk.ssk.map fun s => (s.time, good E pk pp s))
          ((gam (path pp.depth sk.time)).map (num pp.depth)))) := by
  unfold skValidate
  constructor
  · intro h
    rw [if_pos (by by_contra hc; push Not at hc; exact h hc)]
    rfl
  · rintro ⟨h1, h2⟩
    rw [if_neg (by rw [← h1, ← h2]; simp)]
    constructor
    · intro hv
      exact ((text_orFalse (who := "Error in sk validation: ") S.depth_le).1 hv).1
    · intro hv
      obtain ⟨v, e, h⟩ := (text_orFalse (who := "Error in sk validation: ") (t := sk.time) S.depth_le
        (f := fun timeVec => orFalse .debug (ascii "Error in sk validation: ")
          (gammaList .debug timeVec pp.depth) fun gammaList =>
          validateLoop E .debug pk pp gammaList sk.ssk (List.range sk.ssk.length))).2 hv
      rw [h]
      have hn : NodeAt pp.depth sk.time (path pp.depth sk.time) := nodeAt_iff.2 ⟨hv, rfl⟩
      have hnode := nodeAt_isNode hn
      have hi := init_num (pf := .debug) S.depth_le hnode
      rw [nodeAt_num_eq hn, e] at hi
      cases Res.ok.inj hi
      have ho := out_gammaList .debug (tvOf pp.depth (path pp.depth sk.time)) pp.depth
      rw [gammaList_eq S.depth_le hnode] at ho
      unfold orFalse
      rw [ho]
      simp only
      rw [text_gammaList ho, List.nil_append, List.range_eq_range', text_validateLoop E S pk _ _ _ 0 (by omega)]
      simp only [List.drop_zero, List.map_map]
      rfl

theorem text_verifyBytes [DecidableEq GT] {E : Ext G1 G2 GT} (H : HashLaws E) {pp : PubParam G1 G2}
    (S : ParamShape pp) (sig : Signature G1 G2) (pk : PublicKey G2) (msg : Bytes) :
    (verifyBytes E .debug sig pk pp msg).text = Says.verify pp.ciphersuite sig.ciphersuite
      (E.inSub2 sig.sigma1) (E.inSub1 sig.sigma2) pp.depth sig.time := by
  obtain ⟨h0, hs, hl, hlen⟩ := hlist_cons S
  have hi0 : idx pp.hlist 0 = .ok h0 := by rw [hl]; rfl
  unfold verifyBytes Says.verify
  by_cases h1 : Supported pp.ciphersuite
  · rw [validCiphersuite_contains.2 h1]
    simp only [Bool.not_true, Bool.false_eq_true, if_false]
    by_cases h2 : sig.ciphersuite = pp.ciphersuite
    · rw [if_neg (by simp [h2]), if_neg (by simp [h1, h2]), hashMsg_eq H.sha_len, quiet_ok]
      unfold verifyFr
      rw [hi0]
      cases E.inSub2 sig.sigma1 <;> cases E.inSub1 sig.sigma2 <;> try rfl
      simp only [Bool.not_true, Bool.or_self, Bool.false_eq_true, if_false, and_self, if_true]
      rw [quiet_ok]
      refine text_orFalse_silent S.depth_le fun v => (silent_quiet _).bind fun _ =>
        (silent_quiet _).bind fun _ => ?_
      split <;> rfl
    · rw [if_pos h2, if_pos (Or.inr h2), text_line]
      simp [Says.ln]
  · have : validCiphersuite.contains pp.ciphersuite = false := by
      rw [← Bool.not_eq_true, validCiphersuite_contains]
      exact h1
    rw [this, if_pos (Or.inl h1)]
    simp only [Bool.not_false, if_true]
    rw [text_line]
    simp [Says.ln]

theorem out_line_pure {α : Type} (t : Bytes) (f : Unit → Say α) :
    (line .debug t >>= f).out = (f ()).out := rfl

theorem validateLoop_explains [DecidableEq GT] (E : Ext G1 G2 GT) {pp : PubParam G1 G2}
    (S : ParamShape pp) (pk : PublicKey G2) (gl : List TimeVec) (ssk : List (SubSecretKey G1 G2))
    (is : List Nat) : ∀ b, (validateLoop E .debug pk pp gl ssk is).out = .ok b →
      ((validateLoop E .debug pk pp gl ssk is).text = [] ↔ b = true) := by
  induction is with
  | nil => intro b h; cases h; exact ⟨fun _ => rfl, fun _ => rfl⟩
  | cons i is ih =>
    intro b h
    rw [validateLoop] at h ⊢
    rcases hi : idx ssk i with s | e | p <;> rw [hi] at h
    · rw [quiet_ok] at h ⊢
      obtain ⟨c, hc, hcv⟩ := sskValidate_total E .debug S s pk
      have ho := out_sskValidate E .debug s pk pp
      rw [hc] at ho
      rw [text_ok _ ho, text_sskValidate E S.depth_le]
      rw [out_bind, ho] at h
      simp only [Res.ok_bind] at h
      cases c with
      | false =>
        simp only [Bool.not_false, if_true] at h ⊢
        rw [out_line_pure] at h
        cases h
        rw [text_line]
        simp
      | true =>
        simp only [Bool.not_true, Bool.false_eq_true, if_false] at h ⊢
        rw [badTime_valid (hcv rfl), List.nil_append]
        rcases hg : idx gl i with g | e | p <;> rw [hg] at h
        · rw [quiet_ok] at h ⊢
          by_cases ht : s.time = g.time
          · rw [if_neg (by simp [ht])] at h ⊢
            exact ih b h
          · rw [if_pos ht] at h ⊢
            rw [out_line_pure, out_line_pure] at h
            cases h
            rw [text_line]
            simp
        · cases h
        · cases h
    · cases h
    · cases h

theorem skValidate_explains [DecidableEq GT] (E : Ext G1 G2 GT) {pp : PubParam G1 G2}
    (S : ParamShape pp) (pk : PublicKey G2) (sk : SecretKey G1 G2) {b : Bool}
    (h : (skValidate E .debug sk pk pp).out = .ok b) :
    (skValidate E .debug sk pk pp).text = [] ↔ b = true := by
  by_cases hc : sk.ciphersuite = pk.ciphersuite ∧ sk.ciphersuite = pp.ciphersuite
  · by_cases hv : ValidTime pp.depth sk.time
    · unfold skValidate at h ⊢
      rw [if_neg (by rw [← hc.1, ← hc.2]; simp)] at h ⊢
      obtain ⟨v, e, ht⟩ := (text_orFalse (who := "Error in sk validation: ") (t := sk.time) S.depth_le
        (f := fun timeVec => orFalse .debug (ascii "Error in sk validation: ")
          (gammaList .debug timeVec pp.depth) fun gammaList =>
          validateLoop E .debug pk pp gammaList sk.ssk (List.range sk.ssk.length))).2 hv
      rw [ht]
      have hn : NodeAt pp.depth sk.time (path pp.depth sk.time) := nodeAt_iff.2 ⟨hv, rfl⟩
      have hnode := nodeAt_isNode hn
      have hi := init_num (pf := .debug) S.depth_le hnode
      rw [nodeAt_num_eq hn, e] at hi
      cases Res.ok.inj hi
      have ho := out_gammaList .debug (tvOf pp.depth (path pp.depth sk.time)) pp.depth
      rw [gammaList_eq S.depth_le hnode] at ho
      have ht := out_timeVec .debug sk.time pp.depth
      rw [e] at ht
      unfold orFalse at h ⊢
      rw [ht] at h
      simp only at h
      rw [ho] at h ⊢
      simp only at h ⊢
      rw [text_gammaList ho, List.nil_append]
      exact validateLoop_explains E S pk _ _ _ b h
    · have ht := ((text_skValidate E S pk sk).2 hc).1 hv
      have ho := ((text_orFalse (who := "Error in sk validation: ") (t := sk.time) S.depth_le
        (f := fun timeVec => orFalse .debug (ascii "Error in sk validation: ")
          (gammaList .debug timeVec pp.depth) fun gammaList =>
          validateLoop E .debug pk pp gammaList sk.ssk (List.range sk.ssk.length))).1 hv).2
      unfold skValidate at h
      rw [if_neg (by rw [← hc.1, ← hc.2]; simp), ho] at h
      cases h
      rw [ht]
      exact ⟨fun h => absurd h (badTime_ne hv), fun h => nomatch h⟩
  · rw [(text_skValidate E S pk sk).1 hc]
    unfold skValidate at h
    rw [if_pos (by by_contra hc'; push Not at hc'; exact hc hc'), out_line_pure] at h
    cases h
    simp [Says.ln]

theorem text_aggCheck (s : Signature G1 G2) (l : List (Signature G1 G2)) :
    ((∀ e ∈ l, e.ciphersuite = s.ciphersuite ∧ e.time = s.time) →
      (aggCheck .debug s l).out = .ok () ∧ (aggCheck .debug s l).text = []) ∧
    (¬ (∀ e ∈ l, e.ciphersuite = s.ciphersuite ∧ e.time = s.time) →
      (∃ e, (aggCheck .debug s l).out = .err e) ∧
      (aggCheck .debug s l).text = Says.ln "ciphersuite do not match") := by
  induction l with
  | nil => exact ⟨fun _ => ⟨rfl, rfl⟩, fun h => absurd (by simp) h⟩
  | cons e l ih =>
    rw [aggCheck]
    by_cases h1 : s.ciphersuite = e.ciphersuite
    · rw [if_neg (by simp [h1])]
      by_cases h2 : s.time = e.time
      · rw [if_neg (by simp [h2])]
        simp only [List.forall_mem_cons, h1, h2, and_self, true_and] at ih ⊢
        exact ih
      · rw [if_pos h2]
        refine ⟨fun h => absurd (h e (by simp)).2.symm h2, fun _ => ⟨⟨_, rfl⟩, ?_⟩⟩
        rw [text_line]
        simp [Says.ln]
    · rw [if_pos h1]
      refine ⟨fun h => absurd (h e (by simp)).1.symm h1, fun _ => ⟨⟨_, rfl⟩, ?_⟩⟩
      rw [text_line]
      simp [Says.ln]

end Pixel.Verbose
