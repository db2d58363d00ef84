import Verif.Spec.Oracle

/-!
# The generator, HMAC as a pseudorandom function, and what a distinguisher gains

An adversary uses the random number generator of `prng.rs` through its functions: it sees the scalars
of `sample` and of `sample_then_update`, mixes in seeds of its own, and may in the end be shown the
state.  It outputs a number between 0 and 1.  In the other game all scalars come from uniform strings
of 64 octets, and the state is uniform as well.  The two games are compared by adversaries against
HMAC as a pseudorandom function: such an adversary asks for values under a secret key, or for values
of a random function.
-/

namespace Pixel.Spec

open Pixel

/-- An adversary that uses the generator.  It is an arbitrary function of what it has seen. -/
inductive PrngPlayer where
  | toss (n : Nat) (hn : 0 < n) (next : Fin n → PrngPlayer)
  | sample (info : Bytes) (next : Fr → PrngPlayer)
  | draw (info : Bytes) (next : Fr → PrngPlayer)
  | mix (seed info : Bytes) (next : PrngPlayer)
  | reveal (out : Prng → ℚ)
  | stop (out : ℚ)

/-- The state is not shown after it has been used by `sample`; the flag says whether it has. -/
def PrngPlayer.Careful : PrngPlayer → Bool → Prop
  | .toss _ _ n, u => ∀ c, (n c).Careful u
  | .sample _ n, _ => ∀ r, (n r).Careful true
  | .draw _ n, _ => ∀ r, (n r).Careful false
  | .mix _ _ n, _ => n.Careful false
  | .reveal _, u => u = false
  | .stop _, _ => True

/-- at most `k` keys of HMAC come after the current state: one for a draw, two for a mix -/
def PrngPlayer.Keys : PrngPlayer → Nat → Prop
  | .toss _ _ n, k => ∀ c, (n c).Keys k
  | .sample _ n, k => ∀ r, (n r).Keys k
  | .draw _ n, k => 0 < k ∧ ∀ r, (n r).Keys (k - 1)
  | .mix _ _ n, k => 1 < k ∧ n.Keys (k - 2)
  | .reveal _, _ => True
  | .stop _, _ => True

/-- the generator is used at most `k` times -/
def PrngPlayer.Uses : PrngPlayer → Nat → Prop
  | .toss _ _ n, k => ∀ c, (n c).Uses k
  | .sample _ n, k => 0 < k ∧ ∀ r, (n r).Uses (k - 1)
  | .draw _ n, k => 0 < k ∧ ∀ r, (n r).Uses (k - 1)
  | .mix _ _ n, k => 0 < k ∧ n.Uses (k - 1)
  | .reveal _, _ => True
  | .stop _, _ => True

/-- The expected output with the functions of the model; a panic would count as 0. -/
noncomputable def PrngPlayer.real (sha : Bytes → Bytes) : PrngPlayer → Prng → ℚ
  | .toss _ _ n, p => avg fun c => (n c).real sha p
  | .sample info n, p =>
    match Prng.sample sha info p with
    | (.ok r, p') => (n r).real sha p'
    | _ => 0
  | .draw info n, p =>
    match Prng.sampleThenUpdate sha info p with
    | (.ok r, p') => (n r).real sha p'
    | _ => 0
  | .mix seed info n, p =>
    match Prng.rerandomize sha seed info p with
    | (.ok (), p') => n.real sha p'
    | _ => 0
  | .reveal out, p => out p
  | .stop out, _ => out

/-- The expected output with the generator of the code, from a uniform state. -/
noncomputable def realOutput (sha : Bytes → Bytes) (P : PrngPlayer) : ℚ :=
  avg fun K : Digest => P.real sha ⟨K.bytes⟩

/-- The expected output with uniform strings; `tab` has the strings given out in the current state,
by the `info` for which they were given. -/
noncomputable def PrngPlayer.ideal : PrngPlayer → Table → ℚ
  | .toss _ _ n, tab => avg fun c => (n c).ideal tab
  | .sample info n, tab => oracle tab info fun D tab' => (n D.field).ideal tab'
  | .draw info n, tab => oracle tab info fun D _ => (n D.field).ideal []
  | .mix _ _ n, _ => n.ideal []
  | .reveal out, _ => avg fun K : Digest => out ⟨K.bytes⟩
  | .stop out, _ => out

/-! ## HMAC as a pseudorandom function -/

/-- An adversary that asks for values of a function. -/
inductive PrfPlayer where
  | toss (n : Nat) (hn : 0 < n) (next : Fin n → PrfPlayer)
  | ask (data : Bytes) (next : Bytes → PrfPlayer)
  | out (v : ℚ)

/-- at most `k` values are asked for -/
def PrfPlayer.Asks : PrfPlayer → Nat → Prop
  | .toss _ _ n, k => ∀ c, (n c).Asks k
  | .ask _ n, k => 0 < k ∧ ∀ b, (n b).Asks (k - 1)
  | .out _, _ => True

/-- the expected output when the values are those of HMAC with the key `K` -/
noncomputable def PrfPlayer.keyed (sha : Bytes → Bytes) (K : Bytes) : PrfPlayer → ℚ
  | .toss _ _ n => avg fun c => (n c).keyed sha K
  | .ask data n => (n (hmac sha K data)).keyed sha K
  | .out v => v

/-- the expected output when the values are those of a random function -/
noncomputable def PrfPlayer.random : PrfPlayer → Table → ℚ
  | .toss _ _ n, tab => avg fun c => (n c).random tab
  | .ask data n, tab => oracle tab data fun D tab' => (n D.bytes).random tab'
  | .out v, _ => v

/-- How far the adversary tells HMAC with a uniform key of 64 octets from a random function. -/
noncomputable def prfGain (sha : Bytes → Bytes) (D : PrfPlayer) : ℚ :=
  (avg fun K : Digest => D.keyed sha K.bytes) - D.random []

/-! ## How the adversary is used -/

/-- Where a simulation of the generator stands: before the key that is asked for (`ideal k`, with `k`
more keys in between), at this key, or behind it. -/
inductive Stage where
  | ideal (k : Nat) (tab : Table)
  | live
  | real (p : Prng)

/-- the stage after the last of the keys before -/
def stageAfter : Nat → Stage
  | 0 => .live
  | k + 1 => .ideal k []

/-- the string for `info`: an old one, or a toss -/
def tossOracle (tab : Table) (info : Bytes) (f : Digest → Table → PrfPlayer) : PrfPlayer :=
  match tab.lookup info with
  | some D => f D tab
  | none => .toss (256 ^ 64) digests_pos fun D => f D (tab ++ [(info, D)])

/-- The adversary against HMAC: it simulates the generator with uniform strings before the key that
is asked for, with the answers at this key, and by the functions of the model afterwards. -/
def PrngPlayer.attack (sha : Bytes → Bytes) : PrngPlayer → Stage → PrfPlayer
  | .toss m hm n, S => .toss m hm fun c => (n c).attack sha S
  | .sample info n, .ideal k tab => tossOracle tab info fun D tab' =>
      (n D.field).attack sha (.ideal k tab')
  | .sample info n, .live => .ask (info ++ [1]) fun t1 => (n (natOfBytes t1)).attack sha .live
  | .sample info n, .real p =>
    match Prng.sample sha info p with
    | (.ok r, p') => (n r).attack sha (.real p')
    | _ => .out 0
  | .draw info n, .ideal k tab => tossOracle tab info fun D _ =>
      (n D.field).attack sha (stageAfter k)
  | .draw info n, .live => .ask (info ++ [1]) fun t1 => .ask (t1 ++ info ++ [2]) fun t2 =>
      (n (natOfBytes t1)).attack sha (.real ⟨t2⟩)
  | .draw info n, .real p =>
    match Prng.sampleThenUpdate sha info p with
    | (.ok r, p') => (n r).attack sha (.real p')
    | _ => .out 0
  | .mix seed info n, .ideal 0 tab => tossOracle tab info fun D _ =>
      .ask (D.bytes ++ seed) fun s => n.attack sha (.real ⟨s⟩)
  | .mix _ _ n, .ideal (k + 1) _ => n.attack sha (stageAfter k)
  | .mix seed info n, .live => .ask (info ++ [1]) fun t1 => .ask (t1 ++ info ++ [2]) fun t2 =>
      n.attack sha (.real ⟨hmac sha t2 (t1 ++ seed)⟩)
  | .mix seed info n, .real p =>
    match Prng.rerandomize sha seed info p with
    | (.ok (), p') => n.attack sha (.real p')
    | _ => .out 0
  | .reveal out, .real p => .out (out p)
  | .reveal out, .ideal _ _ => .toss (256 ^ 64) digests_pos fun K => .out (out ⟨Digest.bytes K⟩)
  | .reveal out, .live => .toss (256 ^ 64) digests_pos fun K => .out (out ⟨Digest.bytes K⟩)
  | .stop v, _ => .out v

/-- adversary number `j`: the key that is asked for is the one after `j` others -/
def prfAttack (sha : Bytes → Bytes) (P : PrngPlayer) (j : Nat) : PrfPlayer :=
  P.attack sha (stageAfter j)

end Pixel.Spec
