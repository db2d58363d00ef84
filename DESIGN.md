# Formal model of `algorand/pixel` in Lean 4

The source of truth is `/repo` (Rust, read as text).  The model lives in
`lean/Verif/Model/*`, one Lean file per Rust file; independent specifications in
`lean/Verif/Spec/*`; helper lemmas in `lean/Verif/Proof/*`; the property theorems, with a
concrete instance of their hypotheses beside each, in `lean/Verif/Props/*`.

## 1. Trusted base

* The Lean 4.33 kernel, and the axioms `propext`, `Classical.choice`, `Quot.sound`
  (the gate prints the axioms of each theorem; nothing else is used, no own axioms, no
  `native_decide`).
* The reading of the Rust text: every model definition cites the file and lines it models.
* External crates are not in `/repo`.  They are *parameters* of the model (a record `Ext` of
  functions), and what we assume about them is a separate `Prop`-valued record (`Laws`) that
  appears as an explicit hypothesis in each theorem that needs it:
  * `pairing-plus` (BLS12-381 groups, pairing, subgroup test): both source groups are abelian
    groups of curve points, with a subgroup predicate closed under the operations and of exponent
    `r`; the simultaneous Miller loop + final exponentiation returns the product of the
    individual pairings; the pairing is bilinear on the subgroups, the generator of `PixelG2`
    generates its subgroup, and `e(generator, Y) = 1` forces `Y = 0` in the subgroup.
  * point codecs (`SerDes` of group elements, crate `pixel_param`): lengths 48/96 and 96/192,
    decode-after-encode on subgroup points, canonical, decoded points are in the subgroup, wrong
    compression flag is an error.
  * `sha2`: one function `Bytes → Bytes` with 64-byte outputs.  HMAC and HKDF (`hkdf` crate) are
    modelled concretely on top of it.  `Verif/Sha512.lean` contains a concrete SHA-512, and the
    known-answer tests of `src/test/prng.rs` are replayed through the model.
  * `bls_sigs_ref`: `core_sign(x,m,cs) = x·H(m,cs)`, `core_verify(pk,σ,m,cs)` = pairing check
    against the curve generator (plus subgroup check of both points).
  * `pixel_param`: `PubParam` is a record; `PubParam::default()` is a parameter assumed well formed
    with depth 32.  That follows from its being the output of `pixel-python/param.py` (C65).
  * `bigint::U512`, `ff`: `U512::from`, `%`, `to_big_endian`, `Fr::from_repr` are modelled on `Nat`.
* `Laws` is shown satisfiable by a concrete instance (`Verif/Toy.lean`), used for the
  non-vacuity examples and the negative witnesses.
* `Verif/Curve/*` goes further (C63): the groups are the two BLS12-381 curves over the fields of `q`
  and `q²` elements, with Mathlib's group law, the published generators and the encoding with three
  flag bits.  All laws of point codecs are proved for it, and of the group laws all but these:
  the pairing is additive in both arguments, several pairs give the product, its value at the
  generators is not 1, and hash-to-curve lands in the subgroup.  Primality of `q` and `r` is
  checked by Pocklington certificates, the orders of the generators by evaluating the group law in the
  kernel, that the subgroups are cyclic by bounds on the number of points.  The encoding is not in
  `/repo`; it is transcribed from the format used by `pairing-plus` and tied to the repository by its
  known-answer tests (C64).

### Not modelled
Allocation and `capacity`, residue of `Vec` reallocation, registers and copies made by the compiler
(local variables and `zeroize` are modelled, in `Model/Memory.lean`; raw pointers of the C interface
in `Model/CHeap.lean`, where the heap holds what outlives a call, not the temporaries of a call),
`Debug` of points,
projective coordinates (points are group elements), the hardness of problems in the groups (C75,
C76, C78, C80-C82, C84, C86-C89, C94, C98 and C100 reduce forging to one; C91, C95 and C101 bound it only
for algorithms that use the groups as black boxes) or against HMAC and HKDF-extract
(C79-C89, C92; C93, C94 and C98-C101 bound it with a random function for SHA-512).
`serialize` and `deserialize` are modelled twice: on byte lists
(`Model/Serdes.lean`), and on readers and writers that work in pieces, are interrupted or fail
(`Model/Io.lean`, with `read_exact` and `write_all` of the standard library; the external point
decoders are assumed to fill a buffer by `read_exact` and decode it).  Of the benchmarks, the timing
itself, `bench_param` and `bench_curve.rs` (calls of external crates only).

## 2. Modelling conventions

* `Res α = ok a | err e | panic p` — Rust `Result` plus explicit panics (index out of bounds,
  arithmetic overflow, assertion, `panic!`).
* A `&mut self` method is a state function `σ → Res α × σ`; the state is returned on the error and
  panic paths too, so atomicity is a theorem rather than a convention.
* `u64` arithmetic: `Nat` with checked operations parameterised by the build profile
  (`debug`: overflow panics, `release`: wraps / masks shift counts).
* Loops are folds over index ranges or structural recursion; every `v[i]` is a checked access.
* `Fr` is `ZMod r`; `P.mul_assign(s)` is `s.val • P`.

## 3. Properties

| id | what is modelled | how it is proved |
|----|------------------|------------------|
| C01–C03 | `time.rs` in full, both profiles | induction on depth against an independent pre-order enumeration of the tree |
| C04, C05 | `gamma_list` | loop invariant; sibling lists; interval characterisation of descendants |
| C06 | same, depth ≥ 64 | direct evaluation + general panic theorem; negative witness |
| C07–C09 | `subkeys.rs` (`init`, `randomization`, `delegate`) | shape predicate with explicit randomness; loop lemmas; group algebra |
| C10 | + `validate` | induction over operation sequences + bilinearity |
| C11 | `randomization` | direct, on every sub key |
| C12–C14 | `key_pair.rs`, `public_key.rs`, `pop.rs`, BLS core | case analysis + bilinearity |
| C15, C16 | `secret_key.rs` `update`, `find_ancestor` | loop invariant on the gamma list; path analysis of the state function |
| C17, C18 | histories of API calls (`Op` lists) | invariant by induction over the history |
| C19, C20 | as above | refinement to abstract key state (master secret, time) |
| C21 | exponent-level symbolic model, linked to the shape predicate of the code's keys | a linear forger's success is a polynomial identity in the secret exponents; Schwartz–Zippel bounds the number of exponents for which a non-identity holds; converse for derivable times |
| C22, C45 | `update` | explicit description of the result of the loop |
| C23–C30, C50, C51 | `sig.rs` | algebra + bilinearity, histories |
| C31–C35 | aggregation; `Spec/Defects.lean`: how wrong a signature is | induction over lists, permutations |
| C36–C41 | `serdes.rs`, `digest`, `size`, `estimate_size` | parser/printer induction |
| C42–C44 | `prng.rs`, `domain_sep.rs` | positional arithmetic; byte-list reasoning |
| C46, C47 | `ffi.rs` on byte lists with `PubParam::default()` | composition of the above; `Props/FfiExact.lean` states exactly what the verification functions accept |
| C48, C49 | `validate`, `PartialEq` impls | direct + witnesses |
| C53, C54 | `pixel-python/*.py` (`Model/PyRef.lean`), against the Rust model | simulation: PRNG, times, gamma list, delegation, re-randomisation one by one, then `sk_update` against the explicit description of `update`, then induction over histories |
| C55 | `Spec/Game.lean`: decision-tree adversaries over the model's data types and verification functions | as C21, with each test a polynomial of degree at most 3 and induction over the tree; a proof of possession that holds identically forces the key to be a known multiple of the generator |
| C52 | `Model/Memory.lean`: the same functions with their local variables, which of them are cleared, and what is left when they go out of scope | agreement with the first model on every input; then one rule per statement computes the contents left behind.  Partial: the full statement (nothing is left) is false |
| C56 | the same, and `Spec/Memory.lean`: programs that use the contents | algebra over the explicit description of the results of `keygen`, `update` and `sign` |
| C57 | `Model/CHeap.lean`: `ffi.rs` once more, with a heap of blocks, pointers with offsets, `from_raw_parts`, `forget`, and a client that may write and free | case analysis of each function; induction over client programs; C46 for the contents |
| C58 | `prng.rs`, as for C42 | counting residues below `2^512` |
| C59 | `spec.md`, transcribed in `Spec/Document.lean`, against the code it describes | refinement, function by function |
| C60 | `Model/Io.lean`: `serdes.rs` once more, for arbitrary readers and writers, each a script of answers | simulation of the slice version by induction over the script; `C36`, `C39` for the contents |
| C61 | `Model/Vectors.lean`: the four programs of `make test` on a disk of named files | C15, C46, C53 and C62 along the loops; injectivity of the file names |
| C62 | the number of draws of an update and the resulting stream of PRNG states (`Spec/Schedule.lean`) | the cover as a recursive list of times; induction over the history |
| C63 | `Verif/Curve/*`: BLS12-381 as an instance of the external interface | Pocklington certificates; Jacobian double-and-add proved against Mathlib's group law and evaluated in the kernel; cyclic torsion by counting; codec laws by positional arithmetic |
| C64 | `Model/Kat.lean`: the tests of `src/test/serdes.rs` with their constants | evaluation in the kernel, C63 for what cannot be evaluated |
| C65 | `pixel-python/param.py` (`Model/PyParam.lean`) against `Spec/Param.lean` | direct; HKDF with SHA-512 evaluated in the kernel for the 34 strings of the default parameter |
| C66 | the programs of C61 with their constants, on `Verif/Curve/Bls.lean` with `Verif/Sha512.lean` | C61; the stream of PRNG states (C62) evaluated in the kernel (`Verif/Fast/*`: SHA-512, HMAC and the stream once more on numbers, proved equal to the definitions) |
| C67 | `Model/Tests.lean`: the unit tests of `src/test` as programs that end well or panic | C15, C28, C33, C36, C46 along the loops, as equivalences with the success of the updates alone (`Spec/Tests.lean`); the latter evaluated in the kernel for the constants of the tests |
| C68 | `Model/Trace.lean`: the functions on secrets once more, with a record of conditions, positions, lengths and operations; forgetting the record gives the model (`C68_same_function`) | a relational logic for pairs of runs (`Proof/TraceAlike.lean`): related states are keys of the same shape, `bind` composes; equality of PRNG states is the one exception, with a witness |
| C69 | `println!` entries in the record of C68; `Model/Debug.lean`: the `Debug` text of the secret types | the unary logic of `Proof/TraceAlike.lean`: after a printed line only an error can follow; reading the text back: fixed-width hexadecimal, decimal up to the end of the line |
| C70 | multiplications counted in the record of C68, against a recursive count over times (`Spec/Cost.lean`) | a cost logic (`Proof/TraceCost.lean`); for `update` the weight of the list of sub keys as a potential; closed forms by induction over the tree |
| C71 | `Model/Benches.lean`: the benchmarks as programs over the seeds and random numbers they draw | as C67: loops over samples (`passes_collect`) and timed rounds (`passes_rounds`), as equivalences with the success of the updates (`Spec/Benches.lean`) |
| C72 | `Model/CTest.lean`: `c_wrapper/test.c` with `hexDump` on the heap of C57, with what is printed and the disk; the text of a dump in `Spec/CTest.lean` | refinement of the program on byte lists (C61), call by call, with a frame for the live blocks (`Proof/CTest.lean`); the text can be read back (`text_inj`) |
| C73 | `hmac`, `hkdfExtract`, `hkdfExpand` and the PRNG functions against RFC 2104 and RFC 5869 (`Spec/Hkdf.lean`) | pointwise equality of key blocks; induction over the blocks |
| C74 | `Model/Verbose.lean`: the checking functions with the text they print, against the table of causes in `Spec/Verbose.lean` | the outcome is projected out; silence is closed under sequencing; induction over the sub keys |
| C75 | `Spec/Reduce.lean`: forgers that are arbitrary functions, the problem, and the algorithm that runs the forger | the parameters hide the target: all terms in `γ^(d+1)` cancel unless the query spoils it; the simulated exponents are in bijection with the real ones; induction over the forger with averages |
| C76 | `Spec/Oracle.lean`: forgers with a random oracle for the hash of messages, and the algorithm that bets on a time and a hashed message | the game is a sum of bets; the value betted on can be drawn in advance; a bet is a game of C75 whose player plays the oracle, up to collisions of scalars |
| C77 | `Spec/Signer.lean`: a secret key is a list of scalars, one for each sub key; what key generation, update and signing do to them | the lists of times before and after an update split at the sub key that covers the target; a sub key is determined by its node and its scalar |
| C78 | `Spec/Api.lean`: adversaries that direct a signer and break in, and the algorithm that bets on a time | as long as the time betted on is not passed, the exponents are averaged over and signatures are asked for; when it is passed, the sub keys are asked for and the run is the same from then on |
| C79 | `Spec/Prf.lean`: adversaries that use the generator and are shown a state; HMAC against a random function | one key at a time is replaced by a random function (a hybrid argument, exact); the expansion to 128 bytes is two values of HMAC on different inputs |
| C80 | `Spec/Code.lean`: the game of C78 with the signer of the model, PRNG included | a bet on a time; up to it the PRNG is used as in C79, afterwards its state is shown; with uniform strings the game is that of C78 up to the bias of 64 bytes mod `r`; a message signed twice at a time is asked for once |
| C81 | `Spec/Seed.lean`: the game of C80 with `keygen` on a uniform seed | the two games differ only in the first PRNG state, so the difference of the chances is that of one function of this state (exact) |
| C82 | `Spec/Bytes.lean`: the game of C81 with bytes handed to a verifier, and hash-to-curve as a random oracle | a table of the inputs; a key with the input of the honest key is the honest key (encodings are injective on the subgroup); the honest key is taken from the list, only the sum of the keys matters |
| C83 | `Spec/Panic.lean`: a user of the API who sees the outcomes of the calls, and the chance of a panic over the seed of `keygen` | the state of the PRNG is watched by samples: if it comes back, so does the sample; with uniform strings that has chance `1/r + 2^-512`; then C79 and HKDF-extract as in C81 |
| C84 | `Spec/Crowd.lean`: the game of C82 with `N` honest signers, each directed and broken into as the adversary likes | the adversary against signer `i` plays the others with seeds of its own; the order of the questions to hash-to-curve does not matter, so the point of signer `i` can come first; sum over `i` |
| C85 | `Spec/Heal.lean`: a generator whose state may be looked at at any time, and mixed with unseen uniform seeds; the ideal game is ideal from an unseen seed to the next look | a hybrid argument over the periods; each begins with HKDF-extract and is then a game of C79; witnesses: known seeds, short seeds |
| C86 | `Spec/Leak.lean`: the game of C80 with looks at the PRNG state and updates with unseen seeds | a bet on a time; up to it the generator is used as in C85; the ideal game is played as one of C80: a look is a toss, and after the time a break-in gives a copy of the key; the undoing of an update as in C56, with the scalar computed from state and seed |
| C87 | `Spec/Script.lean`: the game of C84 with the parameters of `param.py`, from the same random oracle as the proofs of possession | the strings are different, and other than the inputs of proofs of possession, so the table of the oracle can be split; the adversary of C84 answers questions for the strings with the parameters; on the curves of C63, with the strings of C65 |
| C88 | `Spec/CGame.lean`: the game of C87 through the functions of `ffi.rs`, on bytes | the blob of an honest key is read back as the key (C36), so each call is the call of the library or aborts for its time; an array that is read is the encoding of what is read, so the inputs of hash-to-curve, the keys and the time can be compared as bytes |
| C89 | `Spec/CallGame.lean`: the game of C87 where the signers are directed with `sk_update`, `sign`, `sign_present` and `sign_then_update`, for any time | C15: what a call does follows from the time of the key, the time asked for and the depth; so an adversary that keeps the times makes the signature or the update itself, in the right order, and knows the error otherwise.  A signature that `sign_then_update` makes and then drops, because there is no next time, is not returned and does not count.  Conversely an adversary of C87 gives the time it has kept |
| C90 | `Spec/WholeCurve.lean`: additivity of the pairing for all points of the curve of public keys; the part of a point in the subgroup | a point of order prime to `r` pairs to a value whose order divides that and `r`; `card_points` (C63) bounds the number of points below `r²`, so every point splits |
| C91 | `Spec/Box.lean`: algorithms that combine, pair and compare the elements of an instance of C75, run on the instance itself | every comparison is the zero of a polynomial in `γ` and `b` (Schwartz-Zippel, as C66); the solution is no product of pairings, since its part odd in `b` has degree `d + 1` in `γ` |
| C92 | `Spec/View.lean`: an observer of calls; the ideal signer (master secret, clock, a uniform accepted signature per message and time) | the observer becomes a user of the PRNG as in C83; with uniform strings its table matches the memory of the ideal signer, signature by signature; the lower bound by the opposite verdict |
| C93 | `Spec/Random.lean`: all hash functions on strings up to a length; adversaries, users of the PRNG and observers that evaluate the hash function | an average over all functions is a game that draws values when they are needed; HMAC's two evaluations are coupled with a table of a random function until a string that begins with the key is hashed or two inner values agree; HKDF-extract likewise until one of its two strings is hashed; then C79 and C92 |
| C94 | `Spec/Single.lean`: the game of C81 with one hash function for messages, drawing and the adversary, who evaluates it; the average over all functions | a bet on a time; up to its end the signer is used as a user of the PRNG (C93), after it the state is looked at and the adversary runs the signer itself; with uniform strings the function is drawn when needed, in two tables, messages and the rest: the first is the oracle of C78, the second is tossed |
| C95 | `Spec/BlackBox.lean`: adversaries for the game of C94 that combine, pair and compare the elements they are shown | the reduction of C94 runs such an adversary as an algorithm of C91: every element it handles is a named combination of the instance (naturality of `sign`, `delegate`, `randomization`: what they do to group elements commutes with homomorphisms), every comparison one question about the instance |
| C96 | `Model/DebugPublic.lean`; `Readably`: a text is of one value only | reading the text piece by piece; lengths of keys from C37, places in the heap from C57 |
| C97 | `Spec/Meet.lean`: programs that evaluate the hash function and name points; two keys that coincide | one who names points is an observer of C93 who makes no call; the ideal key is uniform; the key of a known seed takes four evaluations, so one signer names the key of another |
| C98 | `Spec/Everyone.lean`: the game of C84 with the hash function in the open, as in C94; what the other signers do as programs that evaluate the function (`Hashing`) | the programs give what `keygen`, `sign` and `update` give, with 10, 3 and `4 d + 6` evaluations; the adversary against signer `i` runs them for the others; the point of signer `i` comes first (C84) |
| C99 | `Spec/Recover.lean`: the game of C85 where the adversary evaluates the hash function besides; the average over all functions | the hybrids of C85, each as a program that evaluates the function and breaks off at an unseen seed; the seed is found only by an evaluation, before or after; then C93 |
| C100 | `Spec/Spill.lean`: the game of C86 where the adversary evaluates the hash function besides; the average over all functions | a bet on a time; up to it the signer is one of C99's adversaries; the ideal game is played as one of C94: a look is a toss, and after the time a break-in gives a copy of the key |
| C101 | `Spec/Seep.lean`: adversaries as in C95 for the game of C100 | the bet of C100 makes of such an adversary a family as in C95, since a look is a toss of octets; then C91 |
| C102 | `Spec/Errors.lean`: for each format the first thing wrong with an input and its error; for signing what is wrong with a key | a calculus of "fails with" for sequences of readers; case analysis |
| C103 | `Spec/Malformed.lean`: a key with the right time stamps (and any content), a key with the right numbers of elements (and any time stamps) | the loop of `update` for a delegator with any `hvector`, by induction over the new sub keys; panics by a calculus of "only the assertion" |
| C104 | `Spec/Malformed.lean`: what a sub key contributes to a signature further down, without the random part (`bareSignature`) | that this, less `rho F(u, M)`, is the same for the sub key above `u` after every delegation, re-randomisation and update |
| C105 | `Spec/Generator.lean`: well-formed parameters except for `g2` | the assumptions hold of the curves with `g2` for generator, since the group has prime order; the code below the proofs of possession does not use the generator |
| C106 | `Spec/Neutral.lean`: the signature everybody can compute | C13, C24, C35 with exponent zero |

## 4. Where code and documentation disagree

Each of these is a theorem about the model of the code as it is, except where it says otherwise.

* Depth 64 and above: `gamma_list`/`init` do not work although the documented range allows them (C06).
* `randomization` writes `g2r` before it computes the time vector, so an error leaves a half-changed
  sub key (C11).
* For ciphersuite 0 the salt of key generation is the same HMAC key as the bare label, because HMAC
  pads with zeros (`C14_suite_zero_is_bare_label`).
* A malformed key that deserialises (duplicate sub-key times) can be "updated" successfully to an
  earlier time (`C17_malformed_key_goes_back`); C17 is therefore stated for keys whose sub-key times
  are distinct and start with the key's time, which all operations preserve.
* A key that deserialises and validates can make `update` panic: `hvector` is indexed without a check of
  its length (`C103_cut_off`, `C103_one_more`).
* `update` may draw up to `d - 1` times; the comment in the code says otherwise (C22).
* Bad signatures can cancel in an aggregate (`C31_bad_signatures_cancel`; when, `C31_defects`); the aggregate functions
  check no PoP, and a rogue key signs for a group alone (C35).
* `g2` of the parameters is not checked: with another one than the generator proofs of possession fail and
  the rest works, with zero anybody can sign (C105).
* The neutral element is accepted as a public key, with the neutral element for its proof of possession; it
  counts as a signer of everything, and so do two opposite keys together, each with a valid proof (C106).
  This rests on the external `core_verify` checking subgroups and the pairing equation but not for zero, as modelled.
* PoP deserialisation accepts the uncompressed form although `spec.md` says it does not (`C36_pop` with
  `c = false`).
* From depth 33 on, an updated key cannot be serialised (`C40_deep_trees`); time `2^32` is written as 0.
* `digest` hashes `size()` zero bytes before the key (C41).
* The C functions panic on undecodable input and empty lists (C47).
* The C interface hands out keys with `std::mem::forget` and has no function to free or clear them;
  `c_sk_update` leaves the old key in place, so that forward security is left to the caller.  `NULL`
  with length 0 is undefined behaviour, because `slice::from_raw_parts` demands a non-null pointer
  (C57).
* `validate` accepts truncated keys, ignores `hvector` and PRNG, panics on an extra sub key (C48).
* `==` on signatures ignores time and ciphersuite (C49).
* `sign` can advance the key and then fail (C50).
* The Python reference has no checks on seeds and times and can be sent back in time (C54).  Its
  key-update script passes the `str` `""` where bytes are needed, which Python 3 refuses; the model
  takes bytes (this remark is not a theorem).
* Secrets are not all cleared although comments say so (C52): `PRNG::init` leaves its state,
  `os2ip_mod_p` the drawn number, `master_key_gen` and `keygen` the exponent `x` and `x·h`, the
  `init` functions a copy of the root sub key, `randomization` and `update` their scalars,
  `serialize` the vectors of the sub keys (and the buffer when the writer fails), `deserialize` the
  PRNG state.  C56 states what that is worth to someone who reads the memory.
* `SubSecretKey::deserialize` reads the length byte with `read` instead of `read_exact`: an
  interrupted system call there is reported as a malformed key although a retry would do
  (`C60_interrupted_key`), and a reader that reports the end of the input and later goes on makes
  it skip the byte (`C60_empty_read`).  All other reads are immune (C60).

The test programs (C61):

* Nothing in `make test` compares `pop_bin.txt`, so a wrong proof of possession from the Rust
  program would go unnoticed there (`C61_pop_unchecked`); `param_bin.txt` is compared only when
  `param.py` is run by itself.
* `filecmp.cmp` is called with its default `shallow=True`, so files of equal length and equal time of
  modification are not read (`C61_shallow_comparison`).
* The buffers for file names in `c_wrapper/test.c` have room for two digits (example beside
  `C61_c_program`); the loop bound 64 keeps to that.

The unit tests (C67; the remarks without a theorem are about the text of the tests):

* The two aggregation tests never replace the list of signatures, so that no aggregate for a time
  after 1 is ever verified by them (`aggregatedSignatures` in `Model/Tests.lean`).
* `test_quick_key_update` asserts that the PRNG state changes.  An update that succeeds has checked
  that already, so the assertion never decides the outcome (`C67_quick_key_update`: the test passes
  whenever its updates succeed).
* `test_must_fails_mismatch` and `negative_test_pop` depend on values of hash-to-curve: the theorems
  `C67_mismatch` and `C67_negative_pop` give the exact condition and do not claim that it holds.
* `expect_err(msg)` and `is_err()` do not look at which error was returned.
* `test_pixel_ffi_basic` updates the original key at every round, because `c_sk_update` returns the
  new key and the test drops it.
* `test_zeroize` reads through pointers to dropped values and is not modelled; `test_time_getter` is
  empty; `test_group_is_correct` is a check of types.

The course of a run (C68):

* `PartialEq for PRNG` (`src/prng.rs` 46-55) returns at the first differing byte, and `update` uses it
  on the secret states (`assert_ne!`, `src/secret_key.rs` 392).  How long it takes shows how many
  leading bytes the old and the new state share (`C68_comparison_shows`).  With a hash function like
  SHA-512 this is almost always none.
* If that assertion fails, `assert_ne!` prints both operands with `Debug`, that is, both PRNG states
  (`C69_panic_shows_state`); by C15 the key in use keeps the state that was printed.

Printing (C69):

* `Debug for SecretKey` is public and prints the PRNG state in full (`src/secret_key.rs` 612-626,
  `C69_debug_shows_state`), from which, with a signature or the sub keys it prints as well, everything
  later follows.  It leaves out the ciphersuite.  `Debug for SubSecretKey` calls the point `g2r` "g1r".
* The comment before the draw in `update` (`src/secret_key.rs` 386-388: "a key update requires zero or
  one random field element") is true of updates to the next time only: an update from 1 to `d` draws
  `d - 1` (C62) and performs `(d + 4)(d - 1) / 2` multiplications (`C70_update_worst`).
* The diagnostics of debug builds mislead (C74): signatures of different times are reported as
  "ciphersuite do not match" (`src/sig.rs` 417-420, `C74_aggregate_text`); a signature whose ciphersuite
  differs is turned down with "Incorrect ciphersuite id" and the id of the parameter, which is correct
  (`src/sig.rs` 314-318); the time `2^d` is an "Invalid Time Depth" (`C74_blames_depth`); a wrong message
  or key gives no text at all (`C74_reject_silent`).
* `#[cfg(feature = "verbose")]` (`src/secret_key.rs` 489): `Cargo.toml` declares no such feature.

Benchmarks (C71):

* `gen_range(0, ..)` in `benches/benchmarks/bench_api.rs` includes 0 and 1, but a new key is at time 1:
  the asserted update to such a time fails (`C71_early_times_panic`).  `bench_verify` signs instead of
  updating and fails for 0 only.  The chance is about 2 in 2^32 per sample.

The C program (C72):

* `c_wrapper/test.c` frees none of the keys the library hands out: 7 in `test` and 63 in `test_vector`
  stay in memory, one for every time (`C72_real`), so the forward security of the scheme is lost in
  that process.  It is a test, but the only example of the use from C.
* It prints the secret key with `hexDump` (`C72_output_reveals_key`).
* `c_keygen(seed, 32 + i)` for `i` up to 4 relies on a seed of 35 bytes or more (`C72_short_seed`); the
  seed in the file has 40.

`spec.md` against the code (C59, with `Spec/Document.lean` as the transcription):

* The info string of the draws in `update` carries the time in the document (lines 355, 709) and not
  in the code; the Python code agrees with the crate.  The results differ
  (`C59_update_as_written_differs`), both are correct keys (`C59_update_any_string`).
* Delegation to a sub key's own time is allowed in the document and an error in the code
  (`C59_delegate`); the error code for a target that is no descendant differs as well.
* `validate` compares the sub keys with the whole gamma list in the document (`C59_validate`).
* The document has no assertion on the PRNG state (`C59_update`).
* The document's `digest` hashes the serialized key; the code hashes `size()` zero bytes
  followed by them (C41).
* The document's `deserialize` returns the compression flag it found; the code takes it as an
  argument.
* Signing past times is an error in the document and an assertion in `sign_bytes` (the public
  callers check first).
* `spec.md` 664 has `I2OSP(i)` without a length; `param.py` uses one byte, which is the reading taken in
  `Spec/Param.lean`.
* The document contradicts itself, and the transcription takes the reading of the code: the string
  for the draw of the master exponent (lines 162 and 683), the order of arguments of `HKDF-Extract`
  (lines 104, 143 and 722 against 645 and 682), two descriptions of re-randomising the PRNG (133-144
  and 715-722), `h ^ alpha` for a group element `alpha` (line 452).
* `PublicKey::new` and `PublicKey::init` (`public_key.rs` 20-36) take any point, and `verify_bytes` checks that the
  points of the signature are in the subgroup, but not the public key.  Verification ignores the part of
  a public key outside the subgroup, so different public keys accept the same signatures (`C90_twin`).
  No proof of possession passes for such a key, and deserialization refuses it (`C90_refused`).

The constants of `src/test/serdes.rs` (C64, `C64_invalid_constants`):

* `INVALID_G2_ZERO_COM_LEN` (496-509) is a truncated uncompressed encoding, and
  `INVALID_G2_ZERO_UNCOM_LEN` (513-520) has 95 bytes; a truncated compressed zero of `PixelG1` is not tested.
* The comment on `INVALID_G1_COM` (344-348) and `INVALID_G2_ZERO_COM` (485-492) says that the compressed
  flag is unset; another bit is changed as well.

## 5. Limits of the statements

* C21, C51, C55: the adversary uses the groups as black boxes (linear combinations of the elements
  it holds; in C55 adaptively, with zero tests), and exponents are uniform and independent: the
  randomness the code derives with HKDF, and hash-to-curve, are idealised.  In C55 the adversary may
  use a hash point for any key it likes, except that the hash of the honest key belongs to that key.
* C75: the forger is arbitrary, but the time and hashed message of the forgery (or a finite set of
  them) are fixed in advance, and exponents are idealised as in C55.  C76 lifts the first restriction
  with a random oracle for the hash of messages (SHA-512 as used in `hash_msg_into_fr`), and loses a factor
  of the number of times and hashed messages.  In C78 the adversary directs a signer whose scalars are
  uniform (C77 says which scalars the code takes in their place); a break-in shows the scalars a copy of
  the PRNG state would give away.  C80 has the signer of the model in that place, and needs in addition
  that HMAC is a pseudorandom function (C79).  C81 starts from the seed, with `keygen`, and needs that
  HKDF-extract with a fixed salt makes a state from a uniform seed that is as good as uniform (an
  assumption about one explicit function).  What stays ideal is the hash of messages and hash-to-curve;
  the latter gives `keygen` the point `q`, whatever it hashes.  In C82 hash-to-curve is a random oracle
  that the adversary, `keygen` and the verifier share, and keys and signatures come as bytes.  An update that panics counts as
  lost for the adversary; C83 bounds the chance of that.  C84 has many honest signers with the same
  parameters, and loses a factor of their number.  Up to C86 the parameters are uniform; in C87 they are those of `param.py`,
  with hash-to-curve as a random oracle, in C88 all calls go through the C interface, and in C89 they are those of the Rust trait.  In C85 the seeds of `rerandomize` are uniform and unseen; HKDF-extract has then to
  hide a seed behind a known string (another assumption, as explicit gains).  C86 puts that into the game of C80; there a look at the PRNG state counts as
  a break-in only if the state is used.  In C75-C81 a key of a
  co-signer is taken to be in the subgroup; in C82 this follows, as every key is deserialized.  The running time is not formalised: the algorithm
  is explicit and runs the forger once.
* C93, C94: SHA-512 is a random function; hash-to-curve, which uses another hash function, is fixed (C93)
  or gives `keygen` the point `q` (C94, as C80 and C81).  They are the only places where nothing is
  assumed of HMAC: C79-C92 have the gains of adversaries against HMAC in the bounds, for the one SHA-512
  of the model.  In C93 a user of the generator who looks at its state must not have used `sample` since
  the state last changed (HMAC with a known key is no random function); C94 looks right after an update.
  C98 has C94's function, and hash-to-curve as a random oracle, as C84; the adversary is looked at from each
  signer in turn and runs the others itself, which is possible because it sees everything they are told.
  C99 is C85 with such a function; an unseen seed is then hidden because nobody evaluates the function at
  a string that contains it.
  C100 is C86 with such a function, by C99 and C94; the rule for looks is that of C86.
* C95 and C101 have no assumption at all, but only black-box adversaries: they see group elements through
  comparisons, not as bytes, and the bytes of an element are never hashed by them.  Nothing better is
  known for BLS12-381 than to take discrete logarithms; that is not provable.
* C52, C56: a variable that goes out of scope uncleared is taken to stay in memory.  A type with
  `#[zeroize(drop)]` is cleared by its destructor; a `Copy` value handed to a function is a variable
  of its own.  Whether a later call overwrites the stack slot is not modelled.
* C57: a range may be read when it lies inside one live block.  `shrink_to_fit` is taken to leave no
  second block behind; alignment is 1 for bytes and byte arrays.  Errors inside a call abort the
  process (unwinding out of `extern "C"`, see the convention for panics).
* C72: local arrays are blocks that are allocated and freed, and hold arbitrary bytes where the program
  leaves them uninitialised; `pixel_pk` and the other structures are values that are put in memory
  while `hexDump` reads them.  Files can always be opened and written.
* C58 is about uniform octets; that HKDF output is close to uniform is an assumption on SHA-512.
* C68 is about the source text.  Point arithmetic, the hash function, the reduction modulo `r` and the
  functions of `time.rs` (which see only time stamps and the depth) are single entries of the record;
  the external crates and the compiler may still make time depend on values.  C69 is about
  functions on secret keys; the lines of the functions that return a boolean are in C74.  C70 counts calls of `mul_assign`
  on points, not additions, hashing or subgroup checks.
* Public keys outside the order-`r` subgroup are not covered by `GroupLaws`; the theorems on
  verification assume public keys `x·g`.  C90 treats the others, and assumes in addition that the
  pairing is additive on the whole curve of public keys (`WholePairing`; true of the reduced Tate and ate
  pairings, whose second argument is taken modulo multiples of `r`).
* `Verif/Kat.lean` evaluates the model with a concrete SHA-512 on the test vectors of
  `src/test/prng.rs`; `Curve/Kat.lean` evaluates the curves on those of `src/test/serdes.rs`.  The
  pairing and hash-to-curve are not evaluated.

## 6. The log of wrong programs

`seeded/LOG.jsonl` has one line per deliberately wrong model. Each was made in a scratch copy,
changing one definition, and the project was rebuilt. The edits `a1`, `a2`, ... were drawn at random
by a script (numbers off by one, operators exchanged, statements dropped); the others were chosen by
hand.

- `first_failures` lists the declarations the compiler rejected. `run` says how far the build went.
  "whole project": proofs that failed were replaced by `sorry` in the scratch copy, and the build went on
  to the end. "stopped at modules that did not build": modules importing those were not tried.
  "stopped at the first error": only one declaration is known.
- `theorems_failed` lists the property theorems of the targeted property (for random edits: the first
  twelve of any property) that were rejected, or whose proof uses a rejected declaration, by the
  dependencies of the present version. The second kind is a weaker observation: it shows that the proof
  no longer goes through, not that the theorem's statement is false. `failed_via` tells them apart.
- A line with `result` "build succeeds" is a survivor. Its `note` says whether the edit turned out to
  be equivalent or showed a gap, and `theorems_tightened` names what was added for it.
- Some edits are repairs of the code. They must make a refutation (such as "this leaves the seed in
  memory") fail.
