import Verif.Model.Tests

/-!
# Model of the benchmarks: `/repo/benches/benchmarks/{bench_api,bench_sk_ops,bench_ssk_ops,bench_time}.rs`

Each benchmark is a program with the result `Res Unit`, as the unit tests (`Verif/Model/Tests.lean`):
`ok` if it runs to its end, `panic` if one of its assertions fails.  Arguments are

* the parameter (`Pixel::param_default()`, or `Pixel::param_gen(seed, 0)` of the crate `pixel_param`),
* the random choices: the seeds (32 random characters) and one number for each call of `gen_range`,
* the number of rounds `n` that `b.iter(..)` makes, which criterion chooses (over all calls of the closure
  together: where `counter` is set back to 0 between calls, the rounds repeat earlier ones).

The constant `SAMPLES` is the length of the list of samples.  The update seed `rngseed` is the empty
string everywhere.  Not modelled: `bench_param` (a call of `pixel_param`) and `bench_curve.rs` (calls
of `pairing_plus`).
-/

namespace Pixel.Benches

open Pixel Pixel.Tests

/-- `rand::thread_rng().gen_range(low, high)` of the crate `rand` 0.4: asserts `low < high`; the
random number `r` chooses one of the values `low, …, high - 1`. -/
def genRange (low high r : Nat) : Res Nat := do
  assertRes (decide (low < high))
  .ok (low + r % (high - low))

/-- `b.iter(|| { .. list[counter] ..; counter = (counter + 1) % SAMPLES; })`, for `n` rounds; `f` gets
the number of the round and the sample. -/
def rounds {α : Type} (n : Nat) (list : List α) (f : Nat → α → Res Unit) : Res Unit :=
  forRange 0 n fun i => do
    let a ← idx list (i % list.length)
    f i a

variable {G1 G2 GT : Type} [AddCommGroup G1] [AddCommGroup G2] [CommGroup GT] [DecidableEq GT]

/-- `let max_time = (1 << param.depth()) - 1;` -/
def maxTime (pp : PubParam G1 G2) : Nat := 2 ^ pp.depth - 1

/-! ## `/repo/benches/benchmarks/bench_api.rs` -/

/-- `bench_keygen`, lines 26-42: one seed for each round -/
def keygenBench (E : Ext G1 G2 GT) (pp : PubParam G1 G2) (seeds : List Bytes) : Res Unit :=
  Kat.forEach seeds fun seed => do
    let _ ← mustOk (keygen E seed pp)
    .ok ()

/-- one round of the loop that prepares the keys, lines 57-68, 96-107, 137-148, 176-187, 215-226:
a key, updated to a random time below `high` -/
def sampleKey (E : Ext G1 G2 GT) (pf : Profile) (pp : PubParam G1 G2) (high : Nat)
    (s : Bytes × Nat) : Res (SecretKey G1 G2) := do
  let (_, sk, _) ← Ffi.unwrap (keygen E s.1 pp)
  let time ← genRange 0 high s.2
  updated E pf pp sk time []

/-- `bench_key_update_next`, lines 46-81 -/
def keyUpdateNext (E : Ext G1 G2 GT) (pf : Profile) (pp : PubParam G1 G2) (samples : List (Bytes × Nat))
    (n : Nat) : Res Unit := do
  let sklist ← collect samples (sampleKey E pf pp (maxTime pp - 1))
  rounds n sklist fun _ sk => do
    let _ ← updated E pf pp sk (sk.time + 1) []
    .ok ()

/-- `bench_key_update_random`, lines 85-121; `draw i` is the random number of round `i` -/
def keyUpdateRandom (E : Ext G1 G2 GT) (pf : Profile) (pp : PubParam G1 G2)
    (samples : List (Bytes × Nat)) (draw : Nat → Nat) (n : Nat) : Res Unit := do
  let sklist ← collect samples (sampleKey E pf pp (maxTime pp - 2))
  rounds n sklist fun i sk => do
    let tar ← genRange (sk.time + 1) (maxTime pp - 1) (draw i)
    let _ ← updated E pf pp sk tar []
    .ok ()

/-- `bench_sign`, lines 125-161 -/
def sign (E : Ext G1 G2 GT) (pf : Profile) (pp : PubParam G1 G2) (msg : Bytes)
    (samples : List (Bytes × Nat)) (draw : Nat → Nat) (n : Nat) : Res Unit := do
  let sklist ← collect samples (sampleKey E pf pp (maxTime pp - 2))
  rounds n sklist fun i sk => do
    let tar ← genRange (sk.time + 1) (maxTime pp - 1) (draw i)
    let _ ← mustOk ((Signature.sign E.sha512 pf tar pp msg []).exec sk)
    .ok ()

/-- `bench_sign_present`, lines 165-200 -/
def signPresent (E : Ext G1 G2 GT) (pf : Profile) (pp : PubParam G1 G2) (msg : Bytes)
    (samples : List (Bytes × Nat)) (n : Nat) : Res Unit := do
  let sklist ← collect samples (sampleKey E pf pp (maxTime pp - 2))
  rounds n sklist fun _ sk => do
    let _ ← mustOk ((Signature.signPresent E.sha512 pf sk.time pp msg).exec sk)
    .ok ()

/-- `bench_sign_then_update`, lines 204-241 -/
def signThenUpdate (E : Ext G1 G2 GT) (pf : Profile) (pp : PubParam G1 G2) (msg : Bytes)
    (samples : List (Bytes × Nat)) (n : Nat) : Res Unit := do
  let sklist ← collect samples (sampleKey E pf pp (maxTime pp - 2))
  rounds n sklist fun _ sk => do
    let tar := sk.time
    let (_, sknew) ← mustOk ((Signature.signThenUpdate E.sha512 pf tar pp msg []).exec sk)
    assertRes (decide (sknew.time = tar + 1))

/-- the loop that prepares signatures in `bench_verify`, lines 258-273 -/
def sampleSig (E : Ext G1 G2 GT) (pf : Profile) (pp : PubParam G1 G2) (msg : Bytes)
    (s : Bytes × Nat) : Res (PublicKey G2 × ProofOfPossession G1 × Signature G1 G2) := do
  let (pk, sk, pop) ← Ffi.unwrap (keygen E s.1 pp)
  let time ← genRange 0 (maxTime pp - 2) s.2
  let (sig, _) ← mustOk ((Signature.sign E.sha512 pf time pp msg []).exec sk)
  .ok (pk, pop, sig)

/-- `bench_verify`, lines 245-295, with `n` rounds of the first and `m` of the second benchmark -/
def verify (E : Ext G1 G2 GT) (pf : Profile) (pp : PubParam G1 G2) (msg : Bytes)
    (samples : List (Bytes × Nat)) (n m : Nat) : Res Unit := do
  let list ← collect samples (sampleSig E pf pp msg)
  rounds n list fun _ a => assertRes (a.1.validate E a.2.1)
  rounds m list fun _ a => must (a.2.2.verifyBytes E pf a.1 pp msg)

/-- `bench_aggregation`, lines 299-346, with `n` rounds of the first and `m` of the second benchmark -/
def aggregation (E : Ext G1 G2 GT) (pf : Profile) (pp : PubParam G1 G2) (msg : Bytes)
    (seeds : List Bytes) (n m : Nat) : Res Unit := do
  let list ← collect seeds fun seed => do
    let (pk, sk, _) ← Ffi.unwrap (keygen E seed pp)
    let (sig, _) ← mustOk ((Signature.sign E.sha512 pf 1 pp msg []).exec sk)
    .ok (pk, sig)
  let siglist := list.map (·.2)
  forRange 0 n fun _ => do
    let _ ← mustOk (Signature.aggregateWithoutValidate siglist)
    .ok ()
  let sig ← Ffi.unwrap (Signature.aggregateWithoutValidate siglist)
  forRange 0 m fun _ => must (sig.verifyBytesAggregated E pf (list.map (·.1)) pp msg)

/-! ## `/repo/benches/benchmarks/bench_sk_ops.rs` -/

/-- `bench_sk_update_seq`, lines 9-58; `k` is 64.  All samples are updated after each benchmark. -/
def skUpdateSeq (E : Ext G1 G2 GT) (pf : Profile) (pp : PubParam G1 G2) (seeds : List Bytes)
    (k n : Nat) : Res Unit := do
  let sklist ← collect seeds fun seed => do
    let (_, sk, _) ← Ffi.unwrap (keygen E seed pp)
    .ok sk
  let _ ← forRangeWith 0 k sklist fun sklist i => do
    let _ ← idx sklist i
    rounds n sklist fun _ sk => do
      let _ ← updated E pf pp sk (sk.time + 1) []
      .ok ()
    collect sklist fun sk => updated E pf pp sk (sk.time + 1) []
  .ok ()

/-- `bench_sk_update_leaf`, lines 62-140; `t` is 31, `n` and `m` are the rounds of the two
benchmarks. -/
def skUpdateLeaf (E : Ext G1 G2 GT) (pf : Profile) (pp : PubParam G1 G2) (seeds : List Bytes)
    (t n m : Nat) : Res Unit := do
  let sklist ← collect seeds fun seed => do
    let (_, sk, _) ← Ffi.unwrap (keygen E seed pp)
    updated E pf pp sk t []
  let _ ← idx sklist 0
  rounds n sklist fun _ sk => do
    let _ ← mustOk (sk.digest E)
    .ok ()
  rounds m sklist fun _ sk => do
    let _ ← updated E pf pp sk (sk.time + 1) []
    .ok ()

/-! ## `/repo/benches/benchmarks/bench_ssk_ops.rs` -/

/-- `let (_, sk, _) = Pixel::key_gen(&seed, &param).unwrap(); sk.first_ssk().unwrap()` -/
def rootSsk (E : Ext G1 G2 GT) (pp : PubParam G1 G2) (seed : Bytes) : Res (SubSecretKey G1 G2) := do
  let (_, sk, _) ← Ffi.unwrap (keygen E seed pp)
  Ffi.unwrap sk.firstSsk

/-- `let tar_time = ssk.time() + 1; let res = ssk.delegate(tar_time, depth); assert!(res.is_ok(), ..);` -/
def delegateNext (pf : Profile) (pp : PubParam G1 G2) (s : SubSecretKey G1 G2) :
    Res (SubSecretKey G1 G2) := do
  let (_, s) ← mustOk ((SubSecretKey.delegate pf (s.time + 1) pp.depth).exec s)
  .ok s

/-- `bench_ssk_delegate`, lines 13-63 -/
def sskDelegate (E : Ext G1 G2 GT) (pf : Profile) (pp : PubParam G1 G2) (seeds : List Bytes) (n : Nat) :
    Res Unit := do
  let ssklist ← collect seeds (rootSsk E pp)
  let _ ← forRangeWith 0 (pp.depth - 1) ssklist fun ssklist i => do
    let _ ← idx ssklist i
    rounds n ssklist fun _ s => do
      let _ ← delegateNext pf pp s
      .ok ()
    collect ssklist (delegateNext pf pp)
  .ok ()

/-- `bench_ssk_leveled_randomization`, lines 67-109; `r` is the scalar of the fixed `XorShiftRng` -/
def sskLeveledRandomization (E : Ext G1 G2 GT) (pf : Profile) (pp : PubParam G1 G2) (seed : Bytes)
    (r : Fr) (n : Nat) : Res Unit := do
  let ssk ← rootSsk E pp seed
  let _ ← forRangeWith 0 (pp.depth - 1) ssk fun ssk _ => do
    forRange 0 n fun _ => do
      let _ ← mustOk ((SubSecretKey.randomization pf pp r).exec ssk)
      .ok ()
    delegateNext pf pp ssk
  .ok ()

/-- `bench_ssk_leaf_randomization`, lines 113-149.  The sub key is not cloned: each round
re-randomises the result of the round before. -/
def sskLeafRandomization (E : Ext G1 G2 GT) (pf : Profile) (pp : PubParam G1 G2) (seed : Bytes)
    (r : Fr) (n : Nat) : Res Unit := do
  let ssk ← rootSsk E pp seed
  let (_, ssk) ← mustOk ((SubSecretKey.delegate pf pp.depth pp.depth).exec ssk)
  let _ ← forRangeWith 0 n ssk fun ssk _ => do
    let (_, ssk) ← mustOk ((SubSecretKey.randomization pf pp r).exec ssk)
    .ok ssk
  .ok ()

/-! ## `/repo/benches/benchmarks/bench_time.rs` -/

/-- `bench_gamma_list`, lines 6-19; the times are `1..k` with `k = 64`, and `d` is 32 -/
def gammaListBench (pf : Profile) (d k n : Nat) : Res Unit :=
  forRange 1 k fun time => do
    let tv ← Ffi.unwrap (TimeVec.init pf time d)
    forRange 0 n fun _ => do
      let _ ← mustOk (tv.gammaList pf d)
      .ok ()

end Pixel.Benches
