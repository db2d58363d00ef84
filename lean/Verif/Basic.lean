/-!
# Conventions used by the whole model

Rust `Result<T, String>` together with the panic paths is modelled by `Res`; a method taking
`&mut self` is modelled by a state function `SM σ α = σ → Res α × σ` that hands back the (possibly
modified) state on *every* path, so that "the key is unchanged on error" is something to prove.
-/

namespace Pixel

/-- A byte string: `&[u8]` / `Vec<u8>`. -/
abbrev Bytes := List UInt8

/-- Error strings of the crate.
Models: `/repo/src/pixel_err.rs` 3-12.  `eof` and `codec` stand for the `std::io::Error`s of
`read_exact` and of the external point codec, `io` for an error reported by the reader or writer
itself; these have no constant in that file. -/
inductive Err where
  | seedTooShort
  | ciphersuite
  | compress
  | timeStamp
  | timeNonePrefix
  | sskEmpty
  | timeDepth
  | serial
  | deserial
  | eof
  | codec
  | io
deriving DecidableEq, Repr

/-- Reasons for a Rust panic. -/
inductive Panic where
  /-- arithmetic overflow in a build with overflow checks -/
  | overflow
  /-- slice / vector index out of bounds -/
  | index
  /-- a failed `assert!`/`assert_eq!`/`assert_ne!` -/
  | assertion
  /-- an explicit `panic!` -/
  | explicit
deriving DecidableEq, Repr

/-- Outcome of a Rust call: `Ok`, `Err`, or a panic. -/
inductive Res (α : Type) where
  | ok (a : α)
  | err (e : Err)
  | panic (p : Panic)
deriving DecidableEq, Repr

namespace Res

/-- `?`-style sequencing; panics propagate like unwinding. -/
def bind {α β : Type} : Res α → (α → Res β) → Res β
  | ok a, f => f a
  | err e, _ => err e
  | panic p, _ => panic p

instance : Monad Res where
  pure := ok
  bind := bind

@[simp] theorem pure_eq {α : Type} (a : α) : (pure a : Res α) = ok a := rfl
@[simp] theorem ok_bind {α β : Type} (a : α) (f : α → Res β) : (ok a >>= f) = f a := rfl
@[simp] theorem err_bind {α β : Type} (e : Err) (f : α → Res β) : (err e >>= f) = err e := rfl
@[simp] theorem panic_bind {α β : Type} (p : Panic) (f : α → Res β) :
    (panic p >>= f) = panic p := rfl

instance : LawfulMonad Res := LawfulMonad.mk'
  (id_map := fun x => by cases x <;> rfl)
  (pure_bind := fun _ _ => rfl)
  (bind_assoc := fun x _ _ => by cases x <;> rfl)

@[simp] theorem map_ok {α β : Type} (f : α → β) (a : α) : f <$> (ok a : Res α) = ok (f a) := rfl
@[simp] theorem map_err {α β : Type} (f : α → β) (e : Err) :
    f <$> (err e : Res α) = err e := rfl
@[simp] theorem map_panic {α β : Type} (f : α → β) (p : Panic) :
    f <$> (panic p : Res α) = panic p := rfl

theorem bind_eq_ok {α β : Type} {x : Res α} {f : α → Res β} {b : β} :
    (x >>= f) = ok b ↔ ∃ a, x = ok a ∧ f a = ok b := by
  cases x <;> simp

/-- The call returned `Ok`. -/
def isOk {α : Type} : Res α → Bool
  | ok _ => true
  | _ => false

/-- The call panicked. -/
def isPanic {α : Type} : Res α → Bool
  | panic _ => true
  | _ => false

/-- The call returned `Err`. -/
def isErr {α : Type} : Res α → Bool
  | err _ => true
  | _ => false

@[simp] theorem isOk_ok {α : Type} (a : α) : (ok a).isOk = true := rfl
@[simp] theorem isOk_err {α : Type} (e : Err) : (err e : Res α).isOk = false := rfl
@[simp] theorem isOk_panic {α : Type} (p : Panic) : (panic p : Res α).isOk = false := rfl
@[simp] theorem isPanic_ok {α : Type} (a : α) : (ok a).isPanic = false := rfl
@[simp] theorem isPanic_err {α : Type} (e : Err) : (err e : Res α).isPanic = false := rfl
@[simp] theorem isPanic_panic {α : Type} (p : Panic) : (panic p : Res α).isPanic = true := rfl
@[simp] theorem isErr_ok {α : Type} (a : α) : (ok a).isErr = false := rfl
@[simp] theorem isErr_err {α : Type} (e : Err) : (err e : Res α).isErr = true := rfl
@[simp] theorem isErr_panic {α : Type} (p : Panic) : (panic p : Res α).isErr = false := rfl

theorem isOk_iff {α : Type} {x : Res α} : x.isOk = true ↔ ∃ a, x = ok a := by
  cases x <;> simp

end Res

/-- A method on `&mut self : σ` (or on a reader): result and final state. -/
structure SM (σ α : Type) where
  run : σ → Res α × σ

instance {σ α : Type} : CoeFun (SM σ α) (fun _ => σ → Res α × σ) := ⟨SM.run⟩

@[ext] theorem SM.ext' {σ α : Type} {x y : SM σ α} (h : ∀ s, x s = y s) : x = y := by
  cases x; cases y; congr 1; funext s; exact h s

namespace SM

/-- sequencing of two statements acting on the same `&mut` state -/
def bind {σ α β : Type} (x : SM σ α) (f : α → SM σ β) : SM σ β where
  run s := match x s with
    | (Res.ok a, s') => f a s'
    | (Res.err e, s') => (Res.err e, s')
    | (Res.panic p, s') => (Res.panic p, s')

instance {σ : Type} : Monad (SM σ) where
  pure a := ⟨fun s => (Res.ok a, s)⟩
  bind := bind

/-- read the current state -/
def get {σ : Type} : SM σ σ := ⟨fun s => (Res.ok s, s)⟩

/-- overwrite the state: `*self = s'` -/
def set {σ : Type} (s' : σ) : SM σ Unit := ⟨fun _ => (Res.ok (), s')⟩

/-- run a call that does not touch the state -/
def lift {σ α : Type} (x : Res α) : SM σ α := ⟨fun s => (x, s)⟩

/-- `return Err(e)` -/
def err {σ α : Type} (e : Err) : SM σ α := ⟨fun s => (Res.err e, s)⟩

/-- Call a `&mut` method on a *local* variable holding `s`: the final value of the local is only
observable when the call returns `Ok`, because on the other paths the caller returns as well and
the local is dropped. -/
def exec {σ α : Type} (x : SM σ α) (s : σ) : Res (α × σ) :=
  match x s with
  | (Res.ok a, s') => Res.ok (a, s')
  | (Res.err e, _) => Res.err e
  | (Res.panic p, _) => Res.panic p

@[simp] theorem pure_run {σ α : Type} (a : α) (s : σ) :
    (pure a : SM σ α) s = (Res.ok a, s) := rfl
@[simp] theorem get_run {σ : Type} (s : σ) : (get : SM σ σ) s = (Res.ok s, s) := rfl
@[simp] theorem set_run {σ : Type} (s' s : σ) : (set s' : SM σ Unit) s = (Res.ok (), s') := rfl
@[simp] theorem lift_run {σ α : Type} (x : Res α) (s : σ) : (lift x : SM σ α) s = (x, s) := rfl
@[simp] theorem err_run {σ α : Type} (e : Err) (s : σ) :
    (err e : SM σ α) s = (Res.err e, s) := rfl

theorem bind_run {σ α β : Type} (x : SM σ α) (f : α → SM σ β) (s : σ) :
    (x >>= f) s = match x s with
      | (Res.ok a, s') => f a s'
      | (Res.err e, s') => (Res.err e, s')
      | (Res.panic p, s') => (Res.panic p, s') := rfl

theorem bind_run_ok {σ α β : Type} {x : SM σ α} {f : α → SM σ β} {s s' : σ} {a : α}
    (h : x s = (Res.ok a, s')) : (x >>= f) s = f a s' := by
  rw [bind_run, h]

theorem bind_run_err {σ α β : Type} {x : SM σ α} {f : α → SM σ β} {s s' : σ} {e : Err}
    (h : x s = (Res.err e, s')) : (x >>= f) s = (Res.err e, s') := by
  rw [bind_run, h]

theorem bind_run_panic {σ α β : Type} {x : SM σ α} {f : α → SM σ β} {s s' : σ} {p : Panic}
    (h : x s = (Res.panic p, s')) : (x >>= f) s = (Res.panic p, s') := by
  rw [bind_run, h]

@[simp] theorem get_bind {σ β : Type} (f : σ → SM σ β) (s : σ) :
    ((get : SM σ σ) >>= f) s = f s s := rfl
@[simp] theorem set_bind {σ β : Type} (s' : σ) (f : Unit → SM σ β) (s : σ) :
    ((set s' : SM σ Unit) >>= f) s = f () s' := rfl
@[simp] theorem pure_bind' {σ α β : Type} (a : α) (f : α → SM σ β) :
    ((pure a : SM σ α) >>= f) = f a := rfl
@[simp] theorem err_bind {σ α β : Type} (e : Err) (f : α → SM σ β) :
    ((err e : SM σ α) >>= f) = err e := rfl
@[simp] theorem lift_ok_bind {σ α β : Type} (a : α) (f : α → SM σ β) :
    ((lift (Res.ok a) : SM σ α) >>= f) = f a := rfl
@[simp] theorem lift_err_bind {σ α β : Type} (e : Err) (f : α → SM σ β) :
    ((lift (Res.err e) : SM σ α) >>= f) = err e := rfl
@[simp] theorem lift_panic_bind {σ α β : Type} (p : Panic) (f : α → SM σ β) (s : σ) :
    ((lift (Res.panic p) : SM σ α) >>= f) s = (Res.panic p, s) := rfl

instance {σ : Type} : LawfulMonad (SM σ) := LawfulMonad.mk'
  (id_map := fun x => by
    apply SM.ext'
    intro s
    show (SM.bind x (fun a => ⟨fun s => (Res.ok (id a), s)⟩)) s = x s
    unfold SM.bind
    simp only
    rcases h : x s with ⟨r, s'⟩
    cases r <;> rfl)
  (pure_bind := fun _ _ => rfl)
  (bind_assoc := fun x f g => by
    apply SM.ext'
    intro s
    show (SM.bind (SM.bind x f) g) s = (SM.bind x (fun a => SM.bind (f a) g)) s
    unfold SM.bind
    simp only
    rcases h : x s with ⟨r, s'⟩
    cases r <;> rfl)

theorem exec_ok {σ α : Type} {x : SM σ α} {s s' : σ} {a : α} (h : x s = (Res.ok a, s')) :
    x.exec s = Res.ok (a, s') := by
  unfold exec; rw [h]

theorem exec_eq_ok {σ α : Type} {x : SM σ α} {s s' : σ} {a : α} :
    x.exec s = Res.ok (a, s') ↔ x s = (Res.ok a, s') := by
  unfold exec
  rcases h : x s with ⟨r, s''⟩
  cases r <;> simp

end SM

/-- Build profile: with overflow checks (`debug`) or without (`release`). -/
inductive Profile where
  | debug
  | release
deriving DecidableEq, Repr

/-- `1u64 << d` (`d : usize`).  Rust reference: with overflow checks a shift count of 64 or more
panics, without them the count is masked with 63.
Used by `/repo/src/time.rs` 110, 140, 176 and `/repo/src/secret_key.rs` 164. -/
def shl1 (pf : Profile) (d : Nat) : Res Nat :=
  match pf with
  | .debug => if d < 64 then .ok (2 ^ d) else .panic .overflow
  | .release => .ok (2 ^ (d % 64))

/-- `a - b` on `u64`. -/
def sub64 (pf : Profile) (a b : Nat) : Res Nat :=
  match pf with
  | .debug => if b ≤ a then .ok (a - b) else .panic .overflow
  | .release => .ok ((a + 2 ^ 64 - b) % 2 ^ 64)

/-- `a + b` on `u64`. -/
def add64 (pf : Profile) (a b : Nat) : Res Nat :=
  match pf with
  | .debug => if a + b < 2 ^ 64 then .ok (a + b) else .panic .overflow
  | .release => .ok ((a + b) % 2 ^ 64)

/-- `a * b` on `u64`. -/
def mul64 (pf : Profile) (a b : Nat) : Res Nat :=
  match pf with
  | .debug => if a * b < 2 ^ 64 then .ok (a * b) else .panic .overflow
  | .release => .ok ((a * b) % 2 ^ 64)

theorem shl1_lt {pf : Profile} {d : Nat} (h : d < 64) : shl1 pf d = .ok (2 ^ d) := by
  cases pf <;> simp [shl1, h, Nat.mod_eq_of_lt h]

theorem sub64_le {pf : Profile} {a b : Nat} (h : b ≤ a) (ha : a < 2 ^ 64) :
    sub64 pf a b = .ok (a - b) := by
  cases pf
  · simp [sub64, h]
  · simp only [sub64]
    congr 1
    have : a + 2 ^ 64 - b = (a - b) + 2 ^ 64 := by omega
    rw [this, Nat.add_mod_right]
    exact Nat.mod_eq_of_lt (by omega)

theorem add64_lt {pf : Profile} {a b : Nat} (h : a + b < 2 ^ 64) :
    add64 pf a b = .ok (a + b) := by
  cases pf
  · simp only [add64, if_pos h]
  · simp only [add64, Nat.mod_eq_of_lt h]

theorem mul64_lt {pf : Profile} {a b : Nat} (h : a * b < 2 ^ 64) :
    mul64 pf a b = .ok (a * b) := by
  cases pf
  · simp only [mul64, if_pos h]
  · simp only [mul64, Nat.mod_eq_of_lt h]

/-- `v[i]`: panics out of bounds. -/
def idx {α : Type} (l : List α) (i : Nat) : Res α :=
  match l[i]? with
  | some a => .ok a
  | none => .panic .index

/-- `v.insert(i, x)`: panics when `i > len`. -/
def vecInsert {α : Type} (l : List α) (i : Nat) (x : α) : Res (List α) :=
  if i ≤ l.length then .ok (l.take i ++ x :: l.drop i) else .panic .index

/-- `v.remove(0)`: panics on an empty vector. -/
def removeFirst {α : Type} : List α → Res (List α)
  | [] => .panic .index
  | _ :: l => .ok l

/-- `&v[a..b]`: panics when out of range. -/
def slice {α : Type} (l : List α) (a b : Nat) : Res (List α) :=
  if a ≤ b ∧ b ≤ l.length then .ok ((l.take b).drop a) else .panic .index

/-- `assert!(c)` -/
def assertRes (c : Bool) : Res Unit := if c then .ok () else .panic .assertion

@[simp] theorem assertRes_true : assertRes true = .ok () := rfl
@[simp] theorem assertRes_false : assertRes false = .panic .assertion := rfl

theorem idx_lt {α : Type} {l : List α} {i : Nat} (h : i < l.length) : idx l i = .ok l[i] := by
  simp [idx, h]

theorem idx_ge {α : Type} {l : List α} {i : Nat} (h : l.length ≤ i) :
    idx l i = .panic .index := by
  simp [idx, List.getElem?_eq_none h]

theorem idx_eq_ok {α : Type} {l : List α} {i : Nat} {a : α} :
    idx l i = .ok a ↔ l[i]? = some a := by
  unfold idx
  cases l[i]? <;> simp

@[simp] theorem idx_zero_cons {α : Type} (a : α) (l : List α) : idx (a :: l) 0 = .ok a := rfl
@[simp] theorem idx_succ_cons {α : Type} (a : α) (l : List α) (i : Nat) :
    idx (a :: l) (i + 1) = idx l i := by simp [idx]

end Pixel
