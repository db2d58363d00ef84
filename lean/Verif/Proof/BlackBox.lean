import Verif.Proof.BlackNat
import Verif.Spec.BlackBox

/-!
# Families of adversaries that use the groups as black boxes

A family has a member for each `ω`, and `φ ω`, `ψ ω` are homomorphisms from groups of names.  It is
black-box if what is shown by name leads to a family that is, and decisions are made by `m` questions
about names.
-/

namespace Pixel

open Spec Props

set_option linter.unusedSectionVars false

variable {Ω S1 S2 G1 G2 GT : Type} [AddCommGroup S1] [AddCommGroup S2] [AddCommGroup G1]
  [AddCommGroup G2] [CommGroup GT]

/-! ## the data -/

def Answer.image (φ : S1 →+ G1) (ψ : S2 →+ G2) : Answer S1 S2 → Answer G1 G2
  | .subKey s => .subKey (s.image φ ψ)
  | .signature s => .signature (s.image φ ψ)
  | .point p => .point (φ p)

def Partner.image (φ : S1 →+ G1) (ψ : S2 →+ G2) (c : Partner S1 S2) : Partner G1 G2 :=
  { key := ψ c.key, point := c.point, pop := φ c.pop }

def Claim.image (φ : S1 →+ G1) (ψ : S2 →+ G2) (F : Claim S1 S2) : Claim G1 G2 :=
  { time := F.time, msg := F.msg, sigma1 := ψ F.sigma1, sigma2 := φ F.sigma2
    cosigners := F.cosigners.map (Partner.image φ ψ) }

/-- a question about names -/
inductive Ask (S1 S2 : Type) where
  | zero1 (c : S1)
  | zero2 (c : S2)
  | oneT (l : List (S2 × S1))

/-- a product of pairings -/
def tee (E : Ext G1 G2 GT) (φ : S1 →+ G1) (ψ : S2 →+ G2) (l : List (S2 × S1)) : GT :=
  (l.map fun p => pair E (ψ p.1) (φ p.2)).prod

def Ask.Holds (E : Ext G1 G2 GT) (φ : S1 →+ G1) (ψ : S2 →+ G2) : Ask S1 S2 → Prop
  | .zero1 c => φ c = 0
  | .zero2 c => ψ c = 0
  | .oneT l => tee E φ ψ l = 1

section Families
open Classical

variable (E : Ext G1 G2 GT) (φ : Ω → S1 →+ G1) (ψ : Ω → S2 →+ G2)

inductive HashBox : Nat → (Ω → HashPlayer G1 G2) → Prop
  | toss {m n : Nat} {hn : 0 < n} {f : Ω → Fin n → HashPlayer G1 G2}
      (h : ∀ c, HashBox m fun ω => f ω c) : HashBox m fun ω => .toss n hn (f ω)
  | eval {m : Nat} {s : Bytes} {f : Ω → Bytes → HashPlayer G1 G2}
      (h : ∀ b, HashBox m fun ω => f ω b) : HashBox m fun ω => .eval s (f ω)
  | point {m : Nat} {f : Ω → G1 → HashPlayer G1 G2}
      (h : ∀ p, HashBox m fun ω => f ω (φ ω p)) : HashBox m fun ω => .point (f ω)
  | sign {m : Nat} {s : Bytes} {f : Ω → Signature G1 G2 → HashPlayer G1 G2}
      (h : ∀ y, HashBox m fun ω => f ω (Signature.image (φ ω) (ψ ω) y)) :
      HashBox m fun ω => .sign s (f ω)
  | update {m t : Nat} {s : Bytes} {f : Ω → HashPlayer G1 G2} (h : HashBox m f) :
      HashBox m fun ω => .update t s (f ω)
  | breakIn {m : Nat} {f : Ω → SecretKey G1 G2 → HashPlayer G1 G2}
      (h : ∀ k, HashBox m fun ω => f ω (SecretKey.image (φ ω) (ψ ω) k)) :
      HashBox m fun ω => .breakIn (f ω)
  | test {m : Nat} {f f' : Ω → HashPlayer G1 G2} (q : Ask S1 S2) (h : HashBox m f) (h' : HashBox m f') :
      HashBox (m + 1) fun ω => if q.Holds E (φ ω) (ψ ω) then f ω else f' ω
  | forge {m : Nat} (F : Claim S1 S2) : HashBox m fun ω => .forge (Claim.image (φ ω) (ψ ω) F)

inductive TailBox : Nat → (Ω → HashTail G1 G2) → Prop
  | toss {m n : Nat} {hn : 0 < n} {f : Ω → Fin n → HashTail G1 G2}
      (h : ∀ c, TailBox m fun ω => f ω c) : TailBox m fun ω => .toss n hn (f ω)
  | eval {m : Nat} {s : Bytes} {f : Ω → Bytes → HashTail G1 G2}
      (h : ∀ b, TailBox m fun ω => f ω b) : TailBox m fun ω => .eval s (f ω)
  | point {m : Nat} {f : Ω → G1 → HashTail G1 G2}
      (h : ∀ p, TailBox m fun ω => f ω (φ ω p)) : TailBox m fun ω => .point (f ω)
  | test {m : Nat} {f f' : Ω → HashTail G1 G2} (q : Ask S1 S2) (h : TailBox m f) (h' : TailBox m f') :
      TailBox (m + 1) fun ω => if q.Holds E (φ ω) (ψ ω) then f ω else f' ω
  | forge {m : Nat} (F : Claim S1 S2) : TailBox m fun ω => .forge (Claim.image (φ ω) (ψ ω) F)

inductive ApiBox : Nat → (Ω → ApiPlayer G1 G2) → Prop
  | toss {m n : Nat} {hn : 0 < n} {f : Ω → Fin n → ApiPlayer G1 G2}
      (h : ∀ c, ApiBox m fun ω => f ω c) : ApiBox m fun ω => .toss n hn (f ω)
  | hash {m : Nat} {s : Bytes} {f : Ω → Bytes → ApiPlayer G1 G2}
      (h : ∀ b, ApiBox m fun ω => f ω b) : ApiBox m fun ω => .hash s (f ω)
  | point {m : Nat} {f : Ω → G1 → ApiPlayer G1 G2}
      (h : ∀ p, ApiBox m fun ω => f ω (φ ω p)) : ApiBox m fun ω => .point (f ω)
  | sign {m : Nat} {s : Bytes} {f : Ω → Signature G1 G2 → ApiPlayer G1 G2}
      (h : ∀ y, ApiBox m fun ω => f ω (Signature.image (φ ω) (ψ ω) y)) :
      ApiBox m fun ω => .sign s (f ω)
  | update {m t : Nat} {f : Ω → ApiPlayer G1 G2} (h : ApiBox m f) :
      ApiBox m fun ω => .update t (f ω)
  | breakIn {m : Nat} {f : Ω → List (SubSecretKey G1 G2) → List Fr → ApiPlayer G1 G2}
      (h : ∀ (l : List (SubSecretKey S1 S2)) rs, ApiBox m fun ω => f ω (l.map (SubSecretKey.image (φ ω) (ψ ω))) rs) :
      ApiBox m fun ω => .breakIn (f ω)
  | test {m : Nat} {f f' : Ω → ApiPlayer G1 G2} (q : Ask S1 S2) (h : ApiBox m f) (h' : ApiBox m f') :
      ApiBox (m + 1) fun ω => if q.Holds E (φ ω) (ψ ω) then f ω else f' ω
  | forge {m : Nat} (F : Claim S1 S2) : ApiBox m fun ω => .forge (Claim.image (φ ω) (ψ ω) F)

inductive RoBox : Nat → (Ω → RoPlayer G1 G2) → Prop
  | toss {m n : Nat} {hn : 0 < n} {f : Ω → Fin n → RoPlayer G1 G2}
      (h : ∀ c, RoBox m fun ω => f ω c) : RoBox m fun ω => .toss n hn (f ω)
  | hash {m : Nat} {s : Bytes} {f : Ω → Bytes → RoPlayer G1 G2}
      (h : ∀ b, RoBox m fun ω => f ω b) : RoBox m fun ω => .hash s (f ω)
  | ask {m : Nat} {q : RoQuery} {f : Ω → Answer G1 G2 → RoPlayer G1 G2}
      (h : ∀ a, RoBox m fun ω => f ω (Answer.image (φ ω) (ψ ω) a)) : RoBox m fun ω => .ask q (f ω)
  | test {m : Nat} {f f' : Ω → RoPlayer G1 G2} (q : Ask S1 S2) (h : RoBox m f) (h' : RoBox m f') :
      RoBox (m + 1) fun ω => if q.Holds E (φ ω) (ψ ω) then f ω else f' ω
  | forge {m : Nat} (F : Claim S1 S2) : RoBox m fun ω => .forge (Claim.image (φ ω) (ψ ω) F)

inductive PlayBox : Nat → (Ω → Player G1 G2) → Prop
  | toss {m n : Nat} {hn : 0 < n} {f : Ω → Fin n → Player G1 G2}
      (h : ∀ c, PlayBox m fun ω => f ω c) : PlayBox m fun ω => .toss n hn (f ω)
  | ask {m : Nat} {q : Query} {f : Ω → Answer G1 G2 → Player G1 G2}
      (h : ∀ a, PlayBox m fun ω => f ω (Answer.image (φ ω) (ψ ω) a)) : PlayBox m fun ω => .ask q (f ω)
  | test {m : Nat} {f f' : Ω → Player G1 G2} (q : Ask S1 S2) (h : PlayBox m f) (h' : PlayBox m f') :
      PlayBox (m + 1) fun ω => if q.Holds E (φ ω) (ψ ω) then f ω else f' ω
  | forge {m : Nat} (F : Claim S1 S2) : PlayBox m fun ω => .forge (Claim.image (φ ω) (ψ ω) F)

inductive GuessBox : Nat → (Ω → Guess GT) → Prop
  | toss {m n : Nat} {hn : 0 < n} {f : Ω → Fin n → Guess GT}
      (h : ∀ c, GuessBox m fun ω => f ω c) : GuessBox m fun ω => .toss n hn (f ω)
  | draw {m : Nat} {f : Ω → Fr → Guess GT}
      (h : ∀ c, GuessBox m fun ω => f ω c) : GuessBox m fun ω => .draw (f ω)
  | test {m : Nat} {f f' : Ω → Guess GT} (q : Ask S1 S2) (h : GuessBox m f) (h' : GuessBox m f') :
      GuessBox (m + 1) fun ω => if q.Holds E (φ ω) (ψ ω) then f ω else f' ω
  | out {m : Nat} (l : List (S2 × S1)) : GuessBox m fun ω => .out (tee E (φ ω) (ψ ω) l)

end Families

variable {E : Ext G1 G2 GT} {φ : Ω → S1 →+ G1} {ψ : Ω → S2 →+ G2}

theorem HashBox.of_eq {m : Nat} {f f' : Ω → HashPlayer G1 G2} (h : HashBox E φ ψ m f)
    (e : ∀ ω, f' ω = f ω) : HashBox E φ ψ m f' := by rwa [funext e]

theorem TailBox.of_eq {m : Nat} {f f' : Ω → HashTail G1 G2} (h : TailBox E φ ψ m f)
    (e : ∀ ω, f' ω = f ω) : TailBox E φ ψ m f' := by rwa [funext e]

theorem ApiBox.of_eq {m : Nat} {f f' : Ω → ApiPlayer G1 G2} (h : ApiBox E φ ψ m f)
    (e : ∀ ω, f' ω = f ω) : ApiBox E φ ψ m f' := by rwa [funext e]

theorem RoBox.of_eq {m : Nat} {f f' : Ω → RoPlayer G1 G2} (h : RoBox E φ ψ m f)
    (e : ∀ ω, f' ω = f ω) : RoBox E φ ψ m f' := by rwa [funext e]

theorem PlayBox.of_eq {m : Nat} {f f' : Ω → Player G1 G2} (h : PlayBox E φ ψ m f)
    (e : ∀ ω, f' ω = f ω) : PlayBox E φ ψ m f' := by rwa [funext e]

theorem GuessBox.of_eq {m : Nat} {f f' : Ω → Guess GT} (h : GuessBox E φ ψ m f)
    (e : ∀ ω, f' ω = f ω) : GuessBox E φ ψ m f' := by rwa [funext e]

/-! ## The adversary runs the signer itself -/

theorem mac_box {m : Nat} (K s : Bytes) {k : Ω → Bytes → HashTail G1 G2}
    (h : ∀ b, TailBox E φ ψ m fun ω => k ω b) : TailBox E φ ψ m fun ω => .mac K s (k ω) :=
  .eval fun _ => .eval h

theorem mix_box {m : Nat} (K s info : Bytes) {k : Ω → Bytes → HashTail G1 G2}
    (h : ∀ b, TailBox E φ ψ m fun ω => k ω b) : TailBox E φ ψ m fun ω => .mix K s info (k ω) :=
  mac_box (E := E) _ _ fun _ => mac_box (E := E) _ _ fun _ => mac_box (E := E) _ _ h

theorem draws_box {m : Nat} (n : Nat) (K : Bytes) {k : Ω → List Fr → Bytes → HashTail G1 G2}
    (h : ∀ l b, TailBox E φ ψ m fun ω => k ω l b) : TailBox E φ ψ m fun ω => .draws n K (k ω) := by
  induction n generalizing K k with
  | zero => exact h [] K
  | succ n ih =>
    exact mac_box _ _ fun t1 => mac_box _ _ fun t2 => ih t2 fun l K' => h _ K'

theorem tail_box (pf : Profile) (pp : PubParam S1 S2) {m : Nat} {f : Ω → HashPlayer G1 G2}
    (hf : HashBox E φ ψ m f) (t : Nat) (keys : List (SubSecretKey S1 S2)) (K : Bytes) :
    TailBox E φ ψ m fun ω => (f ω).tail pf (pp.image (φ ω) (ψ ω)) t
      (keys.map (SubSecretKey.image (φ ω) (ψ ω))) K := by
  induction hf generalizing t keys K with
  | toss _ ih => exact .toss fun c => ih c t keys K
  | eval _ ih => exact .eval fun b => ih b t keys K
  | point _ ih => exact .point fun p => ih p t keys K
  | sign _ ih =>
    simp only [HashPlayer.tail, signWith_image,
      show ∀ ω, (pp.image (φ ω) (ψ ω)).ciphersuite = pp.ciphersuite from fun _ => rfl]
    refine .eval fun b => mac_box (E := E) (φ := φ) (ψ := ψ) _ _ fun y => ?_
    exact ih _ t keys K
  | @update _ tar seed _ _ ih =>
    by_cases h : t < tar ∧ tar ≤ 2 ^ pp.depth - 1
    · refine TailBox.of_eq ?_ fun ω => if_pos h
      refine mix_box _ _ _ fun K' => draws_box (drawsNeeded pp.depth t tar) _ fun rs K'' => ?_
      simp only [stepKeys_image]
      exact ih _ _ _
    · exact (ih t keys K).of_eq fun ω => if_neg h
  | breakIn _ ih =>
    exact ih { ciphersuite := pp.ciphersuite, time := t, ssk := keys, prng := ⟨K⟩ } t keys K
  | @test _ f f' q _ _ ih ih' =>
    refine (TailBox.test q (ih t keys K) (ih' t keys K)).of_eq fun ω => ?_
    by_cases h : q.Holds E (φ ω) (ψ ω)
    · simp only [if_pos h]
    · simp only [if_neg h]
  | forge F => exact .forge F

theorem evaluate_box (cs : UInt8) {m : Nat} (rest : Table) (s : Bytes)
    {k : Ω → Bytes → Table → ApiPlayer G1 G2} (h : ∀ b r, ApiBox E φ ψ m fun ω => k ω b r) :
    ApiBox E φ ψ m fun ω => .evaluate cs rest s (k ω) := by
  unfold ApiPlayer.evaluate
  rcases msgOf cs s with _ | msg
  · rcases rest.lookup s with _ | D
    · exact .toss fun D => h _ _
    · exact h _ _
  · exact .hash fun b => h _ _

theorem none_image (φ : S1 →+ G1) (ψ : S2 →+ G2) :
    (Claim.none : Claim G1 G2) = Claim.image φ ψ Claim.none := by
  simp only [Claim.none, Claim.image, map_zero, List.map_nil]

theorem ApiBox.none {m : Nat} : ApiBox E φ ψ m fun _ => .forge .none :=
  (ApiBox.forge Claim.none).of_eq fun ω => by rw [none_image (φ ω) (ψ ω)]

theorem RoBox.none {m : Nat} : RoBox E φ ψ m fun _ => .forge .none :=
  (RoBox.forge Claim.none).of_eq fun ω => by rw [none_image (φ ω) (ψ ω)]

theorem tailLift_box (cs : UInt8) (t0 : Nat) {m : Nat} {f : Ω → HashTail G1 G2}
    (hf : TailBox E φ ψ m f) (rest : Table) : ApiBox E φ ψ m fun ω => (f ω).lift cs t0 rest := by
  induction hf generalizing rest with
  | toss _ ih => exact .toss fun c => ih c rest
  | eval _ ih => exact evaluate_box cs rest _ fun b r => ih b r
  | point _ ih => exact .point fun p => ih p rest
  | test q _ _ ih ih' =>
    refine (ApiBox.test q (ih rest) (ih' rest)).of_eq fun ω => ?_
    by_cases h : q.Holds E (φ ω) (ψ ω)
    · simp only [if_pos h]
    · simp only [if_neg h]
  | forge F =>
    by_cases h : F.time = t0
    · exact (ApiBox.forge F).of_eq fun ω => if_pos h
    · exact (ApiBox.none (E := E)).of_eq fun ω => if_neg h

/-- the signatures that are remembered -/
def memoImage (φ : S1 →+ G1) (ψ : S2 →+ G2) (l : List (Bytes × Signature S1 S2)) :
    List (Bytes × Signature G1 G2) := l.map fun p => (p.1, p.2.image φ ψ)

theorem memo_lookup (φ : S1 →+ G1) (ψ : S2 →+ G2) (l : List (Bytes × Signature S1 S2)) (s : Bytes) :
    (memoImage φ ψ l).lookup s = (l.lookup s).map (Signature.image φ ψ) := by
  induction l with
  | nil => rfl
  | cons p l ih =>
    obtain ⟨a, y⟩ := p
    simp only [memoImage, List.map_cons, List.lookup_cons] at ih ⊢
    by_cases h : (s == a) = true
    · rw [h]
      rfl
    · rw [Bool.not_eq_true] at h
      rw [h]
      exact ih

theorem memo_append (φ : S1 →+ G1) (ψ : S2 →+ G2) (l : List (Bytes × Signature S1 S2)) (s : Bytes)
    (y : Signature S1 S2) :
    memoImage φ ψ l ++ [(s, y.image φ ψ)] = memoImage φ ψ (l ++ [(s, y)]) := by
  simp [memoImage]

theorem lift_box (pf : Profile) (pp : PubParam S1 S2) (t0 : Nat) {m : Nat}
    {f : Ω → HashPlayer G1 G2} (hf : HashBox E φ ψ m f) (t : Nat)
    (memo : List (Bytes × Signature S1 S2)) (rest : Table) :
    ApiBox E φ ψ m fun ω => (f ω).lift pf (pp.image (φ ω) (ψ ω)) t0 t
      (memoImage (φ ω) (ψ ω) memo) rest := by
  induction hf generalizing t memo rest with
  | toss _ ih => exact .toss fun c => ih c t memo rest
  | eval _ ih => exact evaluate_box pp.ciphersuite rest _ fun b r => ih b t memo r
  | point _ ih => exact .point fun p => ih p t memo rest
  | @sign _ s f _ ih =>
    simp only [HashPlayer.lift, memo_lookup]
    rcases memo.lookup s with _ | y
    · refine .sign fun y => ?_
      simp only [memo_append]
      exact ih y t _ rest
    · exact ih y t memo rest
  | @update _ tar seed f hf ih =>
    by_cases h : t < tar ∧ tar ≤ 2 ^ pp.depth - 1
    · refine ApiBox.of_eq ?_ fun ω => if_pos h
      refine .update ?_
      by_cases h' : tar ≤ t0
      · exact (ih tar [] rest).of_eq fun ω => if_pos h'
      · refine ApiBox.of_eq ?_ fun ω => if_neg h'
        refine .breakIn fun l _ => .toss fun K => ?_
        exact tailLift_box pp.ciphersuite t0 (tail_box pf pp hf tar l _) rest
    · exact (ih t memo rest).of_eq fun ω => if_neg h
  | breakIn _ _ => exact ApiBox.none (E := E)
  | test q _ _ ih ih' =>
    refine (ApiBox.test q (ih t memo rest) (ih' t memo rest)).of_eq fun ω => ?_
    by_cases h : q.Holds E (φ ω) (ψ ω)
    · simp only [if_pos h]
    · simp only [if_neg h]
  | forge F =>
    by_cases h : F.time = t0
    · exact (ApiBox.forge F).of_eq fun ω => if_pos h
    · exact (ApiBox.none (E := E)).of_eq fun ω => if_neg h

/-! ## The bet on a time -/

theorem fetch_box (d : Nat) {m : Nat} (l : List Nat) {k : Ω → List (SubSecretKey G1 G2) → RoPlayer G1 G2}
    (h : ∀ keys : List (SubSecretKey S1 S2),
      RoBox E φ ψ m fun ω => k ω (keys.map (SubSecretKey.image (φ ω) (ψ ω)))) :
    RoBox E φ ψ m fun ω => .fetch d l (k ω) := by
  induction l generalizing k with
  | nil => exact h []
  | cons s l ih =>
    refine .ask fun a => ?_
    rcases a with key | y | p
    · exact ih fun keys => h (key :: keys)
    · exact ih h
    · exact ih h

theorem scalars_box {m : Nat} (n : Nat) {k : Ω → List Fr → RoPlayer G1 G2}
    (h : ∀ l, RoBox E φ ψ m fun ω => k ω l) : RoBox E φ ψ m fun ω => .scalars n (k ω) := by
  induction n generalizing k with
  | zero => exact h []
  | succ n ih => exact .toss fun c => ih fun l => h _

/-- what is kept -/
def Copy.image (φ : S1 →+ G1) (ψ : S2 →+ G2) (C : Copy S1 S2) : Copy G1 G2 :=
  { time := C.time, keys := C.keys.map (SubSecretKey.image φ ψ), shown := C.shown, broken := C.broken
    asked := C.asked, points := C.points }

theorem bet_box (pf : Profile) (pp : PubParam S1 S2) (d t0 : Nat) {m : Nat}
    {f : Ω → ApiPlayer G1 G2} (hf : ApiBox E φ ψ m f) (C : Copy S1 S2) :
    RoBox E φ ψ m fun ω => (f ω).bet pf (pp.image (φ ω) (ψ ω)) d t0 (Copy.image (φ ω) (ψ ω) C) := by
  induction hf generalizing C with
  | toss _ ih => exact .toss fun c => ih c C
  | hash _ ih => exact .hash fun b => ih b C
  | point _ ih =>
    simp only [ApiPlayer.bet]
    refine RoBox.ask (E := E) (φ := φ) (ψ := ψ) fun a => ?_
    rcases a with key | y | p
    · exact RoBox.none (E := E) (φ := φ) (ψ := ψ)
    · exact RoBox.none (E := E) (φ := φ) (ψ := ψ)
    · exact ih p { time := C.time, keys := C.keys, shown := C.shown, broken := C.broken
                   asked := C.asked + 1, points := C.points ++ [C.asked] }
  | @sign _ s f _ ih =>
    simp only [ApiPlayer.bet, show ∀ ω, (Copy.image (φ ω) (ψ ω) C).time = C.time from fun _ => rfl]
    by_cases h : C.time ≤ t0
    · simp only [if_pos h]
      refine .ask fun a => ?_
      rcases a with key | y | p
      · exact RoBox.none (E := E) (φ := φ) (ψ := ψ)
      · exact ih y { time := C.time, keys := C.keys, shown := C.shown, broken := C.broken
                     asked := C.asked + 1, points := C.points }
      · exact RoBox.none (E := E) (φ := φ) (ψ := ψ)
    · simp only [if_neg h]
      refine .hash fun b => scalars_box 1 fun rs => ?_
      refine RoBox.of_eq (ih (signWith pf pp C.time C.keys (natOfBytes b : Fr) (rs.headD 0))
        { time := C.time, keys := C.keys, shown := C.shown ++ rs, broken := C.broken
          asked := C.asked, points := C.points }) fun ω => ?_
      simp only [← signWith_image]
      rfl
  | @update _ tar f _ ih =>
    by_cases h : C.time < tar ∧ tar ≤ 2 ^ d - 1
    · refine RoBox.of_eq ?_ fun ω => if_pos h
      by_cases h1 : tar ≤ t0
      · refine RoBox.of_eq ?_ fun ω => if_pos h1
        exact ih { time := tar, keys := C.keys, shown := C.shown, broken := C.broken
                   asked := C.asked, points := C.points }
      · refine RoBox.of_eq ?_ fun ω => if_neg h1
        by_cases h2 : C.time ≤ t0
        · refine RoBox.of_eq ?_ fun ω => if_pos h2
          refine fetch_box d _ fun keys => ?_
          exact ih { time := tar, keys := keys, shown := [], broken := C.broken
                     asked := C.asked + (coverTimes d tar).length, points := C.points }
        · refine RoBox.of_eq ?_ fun ω => if_neg h2
          refine scalars_box (drawsNeeded d C.time tar) fun rs => ?_
          refine (ih { time := tar, keys := stepKeys pf pp C.time tar C.keys rs
                       shown := if C.broken then C.shown ++ rs else [], broken := C.broken
                       asked := C.asked, points := C.points }).of_eq fun ω => ?_
          simp only [Copy.image, stepKeys_image]
          rfl
    · exact (ih C).of_eq fun ω => if_neg h
  | breakIn _ ih =>
    by_cases h : C.time ≤ t0
    · exact (RoBox.none (E := E) (φ := φ) (ψ := ψ)).of_eq fun ω => if_pos h
    · refine RoBox.of_eq ?_ fun ω => if_neg h
      exact ih C.keys C.shown { time := C.time, keys := C.keys, shown := C.shown, broken := true
                                asked := C.asked, points := C.points }
  | test q _ _ ih ih' =>
    refine (RoBox.test q (ih C) (ih' C)).of_eq fun ω => ?_
    by_cases h : q.Holds E (φ ω) (ψ ω)
    · simp only [if_pos h]
    · simp only [if_neg h]
  | forge F =>
    by_cases h : F.time = t0
    · refine (RoBox.forge (E := E) (φ := φ) (ψ := ψ)
        (⟨F.time, F.msg, F.sigma1, F.sigma2, F.cosigners.map (Partner.moved C.points)⟩ :
          Claim S1 S2)).of_eq fun ω => (if_pos h).trans ?_
      simp only [Claim.image, Copy.image, List.map_map]
      rfl
    · exact (RoBox.none (E := E) (φ := φ) (ψ := ψ)).of_eq fun ω => if_neg h

/-! ## The oracle -/

theorem playOracle_box (i : Nat) (D0 : Digest) {m : Nat} (tab : Table) (s : Bytes)
    {k : Ω → Digest → Table → Player G1 G2} (h : ∀ D t, PlayBox E φ ψ m fun ω => k ω D t) :
    PlayBox E φ ψ m fun ω => playOracle i D0 tab s (k ω) := by
  unfold playOracle
  rcases tab.lookup s with _ | D
  · by_cases hi : tab.length = i
    · exact (h _ _).of_eq fun ω => if_pos hi
    · exact PlayBox.of_eq (.toss fun D => h D _) fun ω => if_neg hi
  · exact h _ _

theorem plain_box (i : Nat) (D0 : Digest) {m : Nat} {f : Ω → RoPlayer G1 G2} (hf : RoBox E φ ψ m f)
    (tab : Table) : PlayBox E φ ψ m fun ω => (f ω).plain i D0 tab := by
  induction hf generalizing tab with
  | toss _ ih => exact .toss fun c => ih c tab
  | hash _ ih => exact playOracle_box i D0 tab _ fun D t => ih _ t
  | @ask _ q f _ ih =>
    rcases q with ⟨t, v⟩ | ⟨t, v, msg⟩ | _
    · exact .ask fun a => ih a tab
    · exact playOracle_box i D0 tab _ fun D tab' => .ask fun a => ih a tab'
    · exact .ask fun a => ih a tab
  | test q _ _ ih ih' =>
    refine (PlayBox.test q (ih tab) (ih' tab)).of_eq fun ω => ?_
    by_cases h : q.Holds E (φ ω) (ψ ω)
    · simp only [if_pos h]
    · simp only [if_neg h]
  | forge F => exact playOracle_box i D0 tab _ fun _ _ => .forge F

end Pixel
