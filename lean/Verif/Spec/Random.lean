import Verif.Spec.View
import Mathlib.Data.Set.Finite.List

/-!
# A random function in the place of SHA-512

`HashFun B` are all functions from strings of at most `B` octets to strings of 64 octets; an average
over all of them says what happens with a random hash function.  Adversaries may evaluate it.
-/

namespace Pixel.Spec

open Pixel Props

variable {G1 G2 GT : Type} [AddCommGroup G1] [AddCommGroup G2] [CommGroup GT]

/-- the strings of at most `B` octets -/
def Strings (B : Nat) : Type := {m : Bytes // m.length ≤ B}

instance : Finite UInt8 := Finite.of_injective UInt8.toFin fun _ _ h => UInt8.toFin_inj.1 h

noncomputable instance (B : Nat) : Fintype (Strings B) := (List.finite_length_le UInt8 B).fintype

instance (B : Nat) : DecidableEq (Strings B) := fun a b => decidable_of_iff (a.1 = b.1) Subtype.ext_iff.symm

/-- the hash functions on these strings -/
abbrev HashFun (B : Nat) : Type := Strings B → Digest

/-- as a function on all strings (longer ones are not hashed by anybody below) -/
def HashFun.sha {B : Nat} (ω : HashFun B) (m : Bytes) : Bytes :=
  if h : m.length ≤ B then (ω ⟨m, h⟩).bytes else List.replicate 64 0

/-! ## Adversaries against HMAC that evaluate the hash function -/

/-- `hash` evaluates the hash function, `ask` the function with the secret key. -/
inductive Prober where
  | toss (n : Nat) (hn : 0 < n) (next : Fin n → Prober)
  | hash (m : Bytes) (next : Bytes → Prober)
  | ask (m : Bytes) (next : Bytes → Prober)
  | stop (v : ℚ)

/-- with the hash function `sha`, as an adversary of `Spec/Prf.lean` -/
def Prober.using (sha : Bytes → Bytes) : Prober → PrfPlayer
  | .toss k hk n => .toss k hk fun c => (n c).using sha
  | .hash m n => (n (sha m)).using sha
  | .ask m n => .ask m fun b => (n b).using sha
  | .stop v => .out v

/-- the output is between 0 and 1 -/
def Prober.Bounded : Prober → Prop
  | .toss _ _ n => ∀ c, (n c).Bounded
  | .hash _ n => ∀ b, (n b).Bounded
  | .ask _ n => ∀ b, (n b).Bounded
  | .stop v => 0 ≤ v ∧ v ≤ 1

/-- At most `q` evaluations of the hash function and at most `k` values that are asked for; strings that
are hashed have at most `B` octets, and strings asked for at most `B - 128`. -/
def Prober.Within (B : Nat) : Prober → Nat → Nat → Prop
  | .toss _ _ n, q, k => ∀ c, (n c).Within B q k
  | .hash m n, q, k => m.length ≤ B ∧ 0 < q ∧ ∀ b : Bytes, b.length = 64 → (n b).Within B (q - 1) k
  | .ask m n, q, k =>
    128 + m.length ≤ B ∧ 0 < k ∧ ∀ b : Bytes, b.length = 64 → (n b).Within B q (k - 1)
  | .stop _, _, _ => True

/-! ## Programs that evaluate the hash function -/

/-- a program that evaluates a hash function -/
inductive Probe where
  | toss (n : Nat) (hn : 0 < n) (next : Fin n → Probe)
  | hash (m : Bytes) (next : Bytes → Probe)
  | stop (v : ℚ)

namespace Probe

/-- the expected output with the hash function `sha` -/
noncomputable def eval (sha : Bytes → Bytes) : Probe → ℚ
  | .toss _ _ n => avg fun c => (n c).eval sha
  | .hash m n => (n (sha m)).eval sha
  | .stop v => v

/-- strings that are hashed have at most `B` octets -/
def Short (B : Nat) : Probe → Prop
  | .toss _ _ n => ∀ c, (n c).Short B
  | .hash m n => m.length ≤ B ∧ ∀ b, b.length = 64 → (n b).Short B
  | .stop _ => True

/-- the output is between 0 and 1 -/
def Bounded : Probe → Prop
  | .toss _ _ n => ∀ c, (n c).Bounded
  | .hash _ n => ∀ b, (n b).Bounded
  | .stop v => 0 ≤ v ∧ v ≤ 1

/-- at most `k` evaluations -/
def Hashes : Probe → Nat → Prop
  | .toss _ _ n, k => ∀ c, (n c).Hashes k
  | .hash _ n, k => 0 < k ∧ ∀ b : Bytes, b.length = 64 → (n b).Hashes (k - 1)
  | .stop _, _ => True

end Probe

/-! ## Users of the generator who evaluate the hash function -/

/-- as `PrngPlayer`; whoever looks at the state goes on without the generator -/
inductive PrngProber where
  | toss (n : Nat) (hn : 0 < n) (next : Fin n → PrngProber)
  | hash (m : Bytes) (next : Bytes → PrngProber)
  | sample (info : Bytes) (next : Fr → PrngProber)
  | draw (info : Bytes) (next : Fr → PrngProber)
  | mix (seed info : Bytes) (next : PrngProber)
  | look (next : Bytes → Probe)
  | stop (v : ℚ)

/-- with the hash function `sha`, as a user of `Spec/Prf.lean` -/
noncomputable def PrngProber.using (sha : Bytes → Bytes) : PrngProber → PrngPlayer
  | .toss k hk n => .toss k hk fun c => (n c).using sha
  | .hash m n => (n (sha m)).using sha
  | .sample info n => .sample info fun r => (n r).using sha
  | .draw info n => .draw info fun r => (n r).using sha
  | .mix seed info n => .mix seed info (n.using sha)
  | .look n => .reveal fun p => (n p.seed).eval sha
  | .stop v => .stop v

/-- the output is between 0 and 1 -/
def PrngProber.Bounded : PrngProber → Prop
  | .toss _ _ n => ∀ c, (n c).Bounded
  | .hash _ n => ∀ b, (n b).Bounded
  | .sample _ n => ∀ r, (n r).Bounded
  | .draw _ n => ∀ r, (n r).Bounded
  | .mix _ _ n => n.Bounded
  | .look n => ∀ b, (n b).Bounded
  | .stop v => 0 ≤ v ∧ v ≤ 1

/-- The state is not looked at after it has been used by `sample`; the flag says whether it has. -/
def PrngProber.Careful : PrngProber → Bool → Prop
  | .toss _ _ n, u => ∀ c, (n c).Careful u
  | .hash _ n, u => ∀ b, (n b).Careful u
  | .sample _ n, _ => ∀ r, (n r).Careful true
  | .draw _ n, _ => ∀ r, (n r).Careful false
  | .mix _ _ n, _ => n.Careful false
  | .look _, u => u = false
  | .stop _, _ => True

/-- At most `q` evaluations of the hash function and `u` uses of the generator; strings that are hashed
have at most `B` octets, the others at most `B - 193`. -/
def PrngProber.Within (B : Nat) : PrngProber → Nat → Nat → Prop
  | .toss _ _ n, q, u => ∀ c, (n c).Within B q u
  | .hash m n, q, u => m.length ≤ B ∧ 0 < q ∧ ∀ b : Bytes, b.length = 64 → (n b).Within B (q - 1) u
  | .sample info n, q, u => info.length + 193 ≤ B ∧ 0 < u ∧ ∀ r, (n r).Within B q (u - 1)
  | .draw info n, q, u => info.length + 193 ≤ B ∧ 0 < u ∧ ∀ r, (n r).Within B q (u - 1)
  | .mix seed info n, q, u =>
    seed.length + 193 ≤ B ∧ info.length + 193 ≤ B ∧ 0 < u ∧ n.Within B q (u - 1)
  | .look n, q, _ => ∀ b : Bytes, b.length = 64 → (n b).Short B ∧ (n b).Hashes q
  | .stop _, _, _ => True

/-! ## Users of the API who evaluate the hash function -/

/-- Someone who uses a secret key through the API, sees the outcomes of the calls, evaluates the hash
function, and outputs a number in the end. -/
inductive Observer (G1 G2 : Type) where
  | toss (n : Nat) (hn : 0 < n) (next : Fin n → Observer G1 G2)
  | hash (m : Bytes) (next : Bytes → Observer G1 G2)
  | call (c : Call) (next : Res (Option (Signature G1 G2)) → Observer G1 G2)
  | stop (v : ℚ)

/-- with the hash function `sha`, as a user of `Spec/View.lean` -/
def Observer.using (sha : Bytes → Bytes) : Observer G1 G2 → Watcher G1 G2
  | .toss k hk n => .toss k hk fun c => (n c).using sha
  | .hash m n => (n (sha m)).using sha
  | .call c n => .call c fun o => (n o).using sha
  | .stop v => .stop v

/-- the number is between 0 and 1 -/
def Observer.Bounded : Observer G1 G2 → Prop
  | .toss _ _ n => ∀ c, (n c).Bounded
  | .hash _ n => ∀ b, (n b).Bounded
  | .call _ n => ∀ o, (n o).Bounded
  | .stop v => 0 ≤ v ∧ v ≤ 1

/-- the opposite verdict -/
def Observer.flip : Observer G1 G2 → Observer G1 G2
  | .toss k hk n => .toss k hk fun c => (n c).flip
  | .hash m n => .hash m fun b => (n b).flip
  | .call c n => .call c fun o => (n o).flip
  | .stop v => .stop (1 - v)

/-- the message and the seed of a call have at most `B - 300` octets -/
def Call.Fits (B : Nat) : Call → Prop
  | .update _ seed => seed.length + 300 ≤ B
  | .sign _ msg seed => msg.length + 300 ≤ B ∧ seed.length + 300 ≤ B
  | .signPresent _ msg => msg.length + 300 ≤ B
  | .signThenUpdate _ msg seed => msg.length + 300 ≤ B ∧ seed.length + 300 ≤ B

/-- At most `q` evaluations of the hash function and at most `u` calls; strings that are hashed have at
most `B` octets, and messages and seeds at most `B - 300`. -/
def Observer.Within (B : Nat) : Observer G1 G2 → Nat → Nat → Prop
  | .toss _ _ n, q, u => ∀ c, (n c).Within B q u
  | .hash m n, q, u => m.length ≤ B ∧ 0 < q ∧ ∀ b : Bytes, b.length = 64 → (n b).Within B (q - 1) u
  | .call c n, q, u => c.Fits B ∧ 0 < u ∧ ∀ o, (n o).Within B q (u - 1)
  | .stop _, _, _ => True

/-- with the hash function `sha`, as a user of `Spec/Panic.lean`, who only waits for panics -/
def Observer.user (sha : Bytes → Bytes) : Observer G1 G2 → User G1 G2
  | .toss k hk n => .toss k hk fun c => (n c).user sha
  | .hash m n => (n (sha m)).user sha
  | .call c n => .call c fun o => (n o).user sha
  | .stop _ => .done

/-- the key, filled up with zeros, with `c` added -/
def keyPad (c : UInt8) (K : Bytes) : Bytes := (K ++ List.replicate (128 - K.length) 0).map (· ^^^ c)

/-- the external functions with another hash function -/
def withHash (E : Ext G1 G2 GT) (sha : Bytes → Bytes) : Ext G1 G2 GT := { E with sha512 := sha }

end Pixel.Spec
