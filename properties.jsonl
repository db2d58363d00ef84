{"id": "C01", "title": "Exactly the time stamps 1..2^d-1 are accepted", "statement": "For a tree of depth d (0<=d<=63), TimeVec::init(t,d) succeeds exactly when 1<=t<=2^d-1. Otherwise it returns an error and never panics: the depth error for d=0, the time-stamp error for t=0 or t>2^d, and - not the time-stamp error the comment suggests - the depth error for t=2^d. Debug and release builds agree.", "quantifier": "every time stamp, every depth up to 63, both build profiles", "why_tests_cant": "the accepted range is 2^d-1 values per depth; tests only try depth 3/4 and a few boundary values", "anchors": ["src/time.rs: TimeVec::init, time_to_vec"]}
{"id": "C02", "title": "Time stamps number the tree nodes in pre-order", "statement": "For 1<=d<=63 the vector returned by TimeVec::init(t,d) is the t-th node of the binary tree of depth d listed in pre-order (a path of 1s and 2s, of length at most d-1), so distinct time stamps get distinct vectors, every path of length < d is hit, and converting the vector back gives t.", "quantifier": "every depth 1..63, every time stamp, every path", "why_tests_cant": "a bijection between 2^d-1 stamps and paths; for d=32 there are 4 billion of them", "anchors": ["src/time.rs: time_to_vec, vec_to_time"]}
{"id": "C03", "title": "Prefix test is the proper-ancestor relation and an interval in time", "statement": "For valid time stamps, is_prefix(a,b) is true exactly when the node of a is a proper ancestor of the node of b; equivalently when a < b <= a + 2^(d-len(a)) - 2, i.e. the descendants of a node are exactly a contiguous block of later time stamps.", "quantifier": "every depth 1..63, every pair of valid time stamps", "why_tests_cant": "quadratic in 2^d pairs", "anchors": ["src/time.rs: TimeVec::is_prefix, TimeVec::init"]}
{"id": "C04", "title": "Gamma list is well formed", "statement": "For every valid time stamp, gamma_list never fails; it starts with the time stamp itself, its time stamps strictly increase, each (time, vector) entry is a consistent valid node, it has at most d entries, and it is the list [t] followed by the right siblings of the path from the leaf upwards.", "quantifier": "every depth 1..63, every valid time stamp", "why_tests_cant": "one list per node of a tree with 2^32-1 nodes", "anchors": ["src/time.rs: TimeVec::gamma_list, vec_to_time"]}
{"id": "C05", "title": "Gamma list covers exactly the present and the future", "statement": "For valid t and u: u equals or descends from some entry of gamma_list(t) if and only if u >= t, and then from exactly one entry. So the nodes reachable from a key for time t are precisely the time stamps t..2^d-1.", "quantifier": "every depth 1..63, every pair of valid time stamps", "why_tests_cant": "the forward-security skeleton is a for-all over pairs of time stamps", "anchors": ["src/time.rs: TimeVec::gamma_list, TimeVec::is_prefix"]}
{"id": "C06", "title": "Depth 64 and above breaks silently or panics", "statement": "A tree depth of 64 or more is not rejected by TimeVec::init: in a debug build any non-trivial call panics on shift overflow, while in a release build the shift is masked and the valid time stamp 2 at depth 64 is rejected although 2 is a valid stamp for the documented range (the documentation claims 1..2^64-1).", "quantifier": "every depth >= 64 and every time stamp (debug build: every call panics); witness at depth 64 for release builds", "why_tests_cant": "behaviour differs between profiles; the test-suite runs in one profile with depth 32", "anchors": ["src/time.rs: time_to_vec, TimeStamp"]}
{"id": "C07", "title": "Sub-key delegation succeeds exactly to proper descendants, atomically", "statement": "On a well-formed sub secret key, delegate(t') returns Ok exactly when t' is a proper descendant of its time stamp, and the result is the well-formed sub key for t' with the same randomness. For any sub key at all, if delegate returns an error then the sub key is unchanged, and the error is the no-prefix error exactly when both stamps are valid but not in ancestor relation.", "quantifier": "every sub secret key, target time, depth <= 63", "why_tests_cant": "ancestor pairs are quadratic in the number of time stamps", "anchors": ["src/subkeys.rs: SubSecretKey::delegate"]}
{"id": "C08", "title": "Delegation composes", "statement": "Delegating t -> t' -> t'' gives exactly the same sub key as delegating t -> t'' directly, for any sub key (honest or not) on which the steps succeed.", "quantifier": "every sub secret key and every chain of time stamps", "why_tests_cant": "needs all triples of nested nodes", "anchors": ["src/subkeys.rs: SubSecretKey::delegate"]}
{"id": "C09", "title": "Initialisation equals re-randomisation of the trivial key; re-randomisation is additive and commutes with delegation", "statement": "SubSecretKey::init(alpha,r) equals re-randomising the key (time 1, g2r=0, hpoly=alpha, zero hvector) with r; re-randomising with r then s equals re-randomising with r+s (mod group order); re-randomising then delegating equals delegating then re-randomising.", "quantifier": "every parameter set, master secret, scalars r and s, sub key, target time", "why_tests_cant": "equality over a 255-bit scalar field", "anchors": ["src/subkeys.rs: SubSecretKey::init, randomization, delegate, init_from_randomization"]}
{"id": "C10", "title": "Every sub key derived by the API validates under its public key", "statement": "Any sub key obtained from a root sub key by any sequence of delegations and re-randomisations passes SubSecretKey::validate for the matching public key.", "quantifier": "every master secret, every finite sequence of operations", "why_tests_cant": "unbounded operation sequences", "anchors": ["src/subkeys.rs: SubSecretKey::validate, delegate, randomization, init"]}
{"id": "C11", "title": "A failing re-randomisation corrupts the sub key", "statement": "If randomization fails because the sub key's time stamp is invalid for the parameter's depth, the sub key has already been changed (g2r moved by g2^r, everything else untouched): the call is not atomic on error. When it succeeds the time stamp and the length of hvector never change.", "quantifier": "every sub key, scalar and parameter set", "why_tests_cant": "tests never exercise the failing path", "anchors": ["src/subkeys.rs: SubSecretKey::randomization"]}
{"id": "C12", "title": "Key generation has exactly two failure modes and yields a valid key triple", "statement": "key_gen fails with the seed error iff the seed is shorter than 32 bytes, else with the ciphersuite error iff the parameter's ciphersuite is unsupported, else it returns a public key, a secret key for time 1 with exactly one sub key that validates against the public key, and a proof of possession that verifies.", "quantifier": "every seed, every well-formed parameter set", "why_tests_cant": "seed space is unbounded", "anchors": ["src/key_pair.rs: KeyPair::keygen, master_key_gen, proof_of_possession", "src/lib.rs: key_gen"]}
{"id": "C13", "title": "Proof of possession verifies exactly for its own key", "statement": "validate(pk,pop) returns true exactly when both carry the same supported ciphersuite, and pop is the unique group element x*H(pk bytes, ciphersuite) for pk = g2^x; in particular a proof is rejected under another ciphersuite, and the accepted proof element is unique.", "quantifier": "every public key in the subgroup, every proof", "why_tests_cant": "accept/reject over all group elements", "anchors": ["src/public_key.rs: PublicKey::validate", "src/key_pair.rs: proof_of_possession"]}
{"id": "C14", "title": "Key generation is deterministic and separates ciphersuites", "statement": "Keygen depends on the parameters only through ciphersuite, depth, g2, h and hlist; the derivation input (salt) is different for different ciphersuites and the two PRNG draws made during keygen use different info strings.", "quantifier": "every seed and pair of ciphersuites", "why_tests_cant": "all pairs", "anchors": ["src/key_pair.rs: master_key_gen", "src/secret_key.rs: SecretKey::init"]}
{"id": "C15", "title": "Key update succeeds exactly for later valid times and lands on the target", "statement": "On any key reached by honest use, update to t' succeeds exactly when current time < t' <= 2^d-1 (and the ciphersuites match); then the key's time is t', its sub keys are exactly the gamma list of t' in order, each well-formed under the same master secret, and no past time stamp is left. The only other outcome is the explicit 'prng not updated' panic, which requires a collision of the key-derivation function.", "quantifier": "every honest key at every time, every target time, every seed, depth 1..63", "why_tests_cant": "pairs of 2^32 time stamps times all seeds", "anchors": ["src/secret_key.rs: SecretKey::update, find_ancestor", "src/lib.rs: sk_update"]}
{"id": "C16", "title": "A failed update leaves the secret key untouched", "statement": "For any secret key whatsoever (even malformed), if update returns an error or panics the caller's key is bit-for-bit unchanged.", "quantifier": "every secret key, parameter set, target time, seed", "why_tests_cant": "all failure paths of all malformed keys", "anchors": ["src/secret_key.rs: SecretKey::update"]}
{"id": "C17", "title": "A key's time never goes backwards", "statement": "Under any sequence of public operations (update, sign, sign_present, sign_then_update, in any order, with any arguments, successful or not), the time stamp of a key whose sub keys have distinct time stamps (in particular of every key reached by honest use, at depth <= 63) never decreases, and it changes only through a successful update step. A malformed key with a repeated time stamp can be taken back in time by update.", "quantifier": "every finite history of API calls with arbitrary arguments", "why_tests_cant": "unbounded histories", "anchors": ["src/secret_key.rs: update", "src/sig.rs: sign, sign_present, sign_then_update"]}
{"id": "C18", "title": "Every reachable key is valid and small", "statement": "After any history of API calls starting from key generation, the secret key passes validate under its public key, its sub keys' time stamps are exactly the gamma list of its time, there are between 1 and d sub keys, and the sub-key for path length l has d-l remaining elements.", "quantifier": "every seed, every finite history", "why_tests_cant": "unbounded histories", "anchors": ["src/secret_key.rs: validate, update", "src/lib.rs: PixelSignature"]}
{"id": "C19", "title": "The route of updates does not matter for what a key can do", "statement": "Two keys with the same master secret and time stamp reached through different update routes (e.g. 1->9->12 versus 1->12, different seeds) have the same time list, the same shapes and sizes, both validate, and each verifies and signs under the same public key at the same times.", "quantifier": "every pair of update routes and seeds", "why_tests_cant": "all pairs of routes", "anchors": ["src/secret_key.rs: update"]}
{"id": "C20", "title": "Structural forward security: a key for t' can delegate to u iff u >= t'", "statement": "From the sub keys of any reachable secret key for time t', delegation (repeated arbitrarily, with re-randomisation) yields a sub key for time u if and only if u >= t'. No sub key for a past time can be produced by the API from the current key.", "quantifier": "every reachable key, every target time, every sequence of delegations", "why_tests_cant": "all sequences of derivations", "anchors": ["src/secret_key.rs: SecretKey", "src/subkeys.rs: delegate"]}
{"id": "C21", "title": "Generic-group forward security", "statement": "Against an adversary restricted to linear combinations of everything it has seen (parameters, public key, all elements of the secret key leaked at time t', signatures it queried), there is a strategy whose forgery for time t is accepted for all values of the unknown exponents if and only if t >= t' or the (time, hashed message) was queried; otherwise every fixed strategy is accepted for at most a fraction 2/r of all exponents.", "quantifier": "every leaked time, every list of queried signatures, every choice of coefficients", "why_tests_cant": "a statement about all adversaries in a class", "anchors": ["src/sig.rs: verify_fr, sign_fr", "src/secret_key.rs: update", "src/subkeys.rs: delegate"]}
{"id": "C22", "title": "Which sub keys an update refreshes", "statement": "In an update that delegates, the sub key for the target time reuses the delegator's randomness (same g2r), every other new sub key gets its own fresh PRNG draw added, sub keys already present are kept bit-for-bit, and the number of draws is (number of new sub keys - 1), which can be as large as d-1 (contrary to the code comment 'zero or one').", "quantifier": "every honest key and valid target", "why_tests_cant": "all pairs of times", "anchors": ["src/secret_key.rs: update"]}
{"id": "C23", "title": "Signatures by honestly evolved keys verify", "statement": "For every history of API calls after key generation, every signature returned by sign, sign_present or sign_then_update verifies under the public key, the same parameters and the same message.", "quantifier": "every seed, history, message and time", "why_tests_cant": "unbounded histories and messages", "anchors": ["src/sig.rs: sign, sign_present, sign_then_update, verify_bytes", "src/lib.rs: verify"]}
{"id": "C24", "title": "Exact acceptance condition of verification", "statement": "verify returns true exactly when the ciphersuite is supported and equal in signature and parameters, sigma1 and sigma2 are in the prime-order subgroups, the time is in 1..2^d-1 and sigma2 = x*h + a*(h_0 + sum t_i h_i + M h_d) where pk = x*g2, sigma1 = a*g2 and M is the hashed message; it never panics for depth <= 63.", "quantifier": "every signature, public key in the subgroup, message, parameter set", "why_tests_cant": "accept/reject over all group elements", "anchors": ["src/sig.rs: verify_bytes, verify_fr"]}
{"id": "C25", "title": "Signing for the past is refused and signing never alters the key at the present", "statement": "sign with a time before the key's time returns the time-stamp error and leaves the key unchanged; sign_present with any other time returns the time-stamp error; sign_present and sign at the present time never modify the key.", "quantifier": "every secret key, time and message", "why_tests_cant": "all keys", "anchors": ["src/sig.rs: sign, sign_present"]}
{"id": "C26", "title": "sign_then_update signs and moves on, or does nothing", "statement": "On an honest key at time t < 2^d-1, sign_then_update(t) returns a signature for time t and leaves the key at t+1, so no second signature for t can be produced from it. At the last time stamp 2^d-1 it returns an error, releases no signature, and leaves the key at 2^d-1.", "quantifier": "every honest key, message, seed", "why_tests_cant": "boundary at 2^32-1 and all histories", "anchors": ["src/sig.rs: sign_then_update"]}
{"id": "C27", "title": "Signing randomness is a deterministic injective function of (message, time)", "statement": "Signing the same message twice at the same time from the same key gives the identical signature; for time stamps below 2^32 the derivation string determines (message, time) uniquely, so two different (message, time) pairs never feed the same string; above 2^32 the time is truncated and two different times share a string.", "quantifier": "every message pair and time pair", "why_tests_cant": "all pairs of unbounded messages", "anchors": ["src/sig.rs: sign_bytes"]}
{"id": "C28", "title": "Verification rejects wrong time, ciphersuite or group, and ignores the public key's ciphersuite", "statement": "A signature whose ciphersuite differs from the parameters, whose time is 0 or above 2^d-1, or with an element outside the prime-order subgroup is rejected; whereas single-signature verification gives the same answer whatever ciphersuite the public key carries (aggregated verification does check it).", "quantifier": "every signature, public key and message", "why_tests_cant": "all malformed inputs", "anchors": ["src/sig.rs: verify_bytes, verify_fr, verify_bytes_aggregated"]}
{"id": "C29", "title": "sigma2 is determined by sigma1", "statement": "For fixed public key, time and message, two accepted signatures with the same sigma1 have the same sigma2, and two accepted signatures differ by (a*g2, a*F) for a single a.", "quantifier": "every pair of accepted signatures", "why_tests_cant": "all pairs", "anchors": ["src/sig.rs: verify_fr"]}
{"id": "C30", "title": "Signatures are publicly re-randomisable (not strongly unforgeable)", "statement": "From any accepted signature anyone can compute other accepted signatures on the same message and time, by adding (a*g2, a*F); so uniqueness of the byte encoding does not give strong unforgeability.", "quantifier": "every accepted signature, every scalar", "why_tests_cant": "statement about all scalars", "anchors": ["src/sig.rs: verify_fr", "src/serdes.rs: Signature::deserialize"]}
{"id": "C31", "title": "Aggregate of honest signatures verifies", "statement": "If every signature in a non-empty list verifies under its public key for the same message and parameters (with equal time stamps), the aggregate succeeds and verifies under the list of public keys in aggregated verification. For signatures with arbitrary second components the aggregate is accepted exactly if the defects sigma2 - (x h + a F(v, M)) add up to zero: rejected signatures can cancel, but a single bad one among good ones always spoils the aggregate.", "quantifier": "every non-empty list of signers of any length", "why_tests_cant": "unbounded number of signers", "anchors": ["src/sig.rs: aggregate_without_validate, verify_bytes_aggregated"]}
{"id": "C32", "title": "Aggregation rejects mixed lists with the right error", "statement": "For a non-empty list: success iff all ciphersuites and all time stamps equal the first one's; otherwise the error reports the first offending entry, ciphersuite before time; the result keeps the common ciphersuite and time.", "quantifier": "every non-empty list", "why_tests_cant": "lists of any length", "anchors": ["src/sig.rs: aggregate_without_validate"]}
{"id": "C33", "title": "Aggregation is independent of order and grouping", "statement": "Permuting the list does not change the aggregate; aggregating partial aggregates gives the aggregate of the concatenation; aggregated verification is invariant under permutation of the public keys.", "quantifier": "every list, permutation and split", "why_tests_cant": "all permutations", "anchors": ["src/sig.rs: aggregate_without_validate, verify_bytes_aggregated"]}
{"id": "C34", "title": "Empty lists panic", "statement": "aggregate_without_validate of an empty list panics instead of returning an error, and aggregated verification with an empty key list panics whenever the ciphersuites match instead of returning false.", "quantifier": "every parameter set, message and signature", "why_tests_cant": "the panic path is never tested", "anchors": ["src/sig.rs: aggregate_without_validate, verify_bytes_aggregated"]}
{"id": "C35", "title": "Aggregated verification depends only on the sum of keys (rogue keys)", "statement": "Aggregated verification with key list (pk_1..pk_n) equals single verification under the sum of the keys; hence for any honest key there is a rogue public key making a single attacker's signature verify as a joint signature, and proofs of possession must be checked by the caller.", "quantifier": "every key list; every honest public key and attacker secret", "why_tests_cant": "statement about all key lists", "anchors": ["src/sig.rs: verify_bytes_aggregated"]}
{"id": "C36", "title": "Serialisation round-trips", "statement": "For every public key, proof, signature (compressed) and secret key produced by the API (depth <= 32), serialise then deserialise returns an equal object and consumes exactly the bytes written, whatever follows in the stream; also in uncompressed mode for public keys, proofs and secret keys.", "quantifier": "every object with supported ciphersuite and subgroup elements, any trailing bytes", "why_tests_cant": "all objects", "anchors": ["src/serdes.rs: SerDes impls"]}
{"id": "C37", "title": "Serialised sizes", "statement": "Compressed public keys, signatures and proofs are exactly 49, 149 and 97 bytes, and size() of a public key is 49; a serialised secret key has exactly size() bytes, and for a key at time t reached by honest use size() = estimate_size(t, depth).", "quantifier": "every object; every honest key", "why_tests_cant": "all keys at all times", "anchors": ["src/secret_key.rs: size, estimate_size", "src/subkeys.rs: size", "src/public_key.rs: size", "src/lib.rs: PK_LEN, SIG_LEN, POP_LEN", "src/serdes.rs"]}
{"id": "C38", "title": "Byte encodings are canonical", "statement": "If a byte string deserialises (compressed) to a public key, proof, signature or secret key, then serialising the result gives back exactly the consumed bytes; so no object has two compressed encodings.", "quantifier": "every byte string", "why_tests_cant": "all byte strings", "anchors": ["src/serdes.rs: SerDes impls"]}
{"id": "C39", "title": "Deserialisation rejects malformed input with an error", "statement": "Deserialisation of any byte string never panics; it rejects unsupported ciphersuites, time stamp 0, zero sub keys, truncated input and - for signatures - the uncompressed mode always; elements outside the subgroup are never returned.", "quantifier": "every byte string, both modes", "why_tests_cant": "all byte strings", "anchors": ["src/serdes.rs: SerDes impls"]}
{"id": "C40", "title": "Field-width limits of the secret-key format", "statement": "A sub key with time exactly 2^32 is accepted by serialisation and written as time 0, which no reader accepts; a secret key with 256 or more sub keys, or a sub key with 256 or more hvector elements, is written with a truncated count and does not read back; a signature with time >= 2^32 is refused. Keys reachable at depth <= 32 never hit these limits.", "quantifier": "every key beyond the limits; every reachable key", "why_tests_cant": "boundaries beyond the test parameters", "anchors": ["src/serdes.rs: SubSecretKey::serialize, SecretKey::serialize, Signature::serialize"]}
{"id": "C41", "title": "digest hashes zero padding in front of the key", "statement": "SecretKey::digest returns SHA-512 of size() zero bytes followed by the serialised key, not SHA-512 of the serialised key as documented; it is still a function of the serialised key alone and fails exactly when serialisation fails.", "quantifier": "every secret key", "why_tests_cant": "tests only check that digests of equal keys agree", "anchors": ["src/secret_key.rs: digest"]}
{"id": "C42", "title": "os2ip_mod_p is big-endian integer modulo the group order and never panics", "statement": "For every octet string of at most 64 bytes, os2ip_mod_p returns the big-endian integer value modulo the group order; the internal assertion and the field-conversion panic are unreachable.", "quantifier": "every octet string of up to 64 bytes", "why_tests_cant": "2^512 inputs", "anchors": ["src/prng.rs: os2ip_mod_p"]}
{"id": "C43", "title": "sample and sample_then_update agree, and the PRNG state has a fixed size", "statement": "sample(info) returns the same field element that sample_then_update(info) would return, sample leaves the state unchanged, and the state stays 64 bytes under any sequence of PRNG operations, none of which panics.", "quantifier": "every PRNG state, info string and operation sequence", "why_tests_cant": "all states", "anchors": ["src/prng.rs: sample, sample_then_update, rerandomize, init"]}
{"id": "C44", "title": "Domain separation of PRNG info strings", "statement": "The info strings used for key generation, key initialisation, signing, key update and re-randomisation are pairwise different for all messages and times: no message can make the signing string equal to one of the other strings, and none is a prefix of another purpose's string; all labels of domain_sep.rs, including the one for proofs of possession, are pairwise prefix free; likewise the message hash input is injective in (ciphersuite, message).", "quantifier": "every message and time", "why_tests_cant": "all messages", "anchors": ["src/domain_sep.rs", "src/sig.rs: sign_bytes, hash_msg_into_fr", "src/secret_key.rs: init, update", "src/key_pair.rs: master_key_gen"]}
{"id": "C45", "title": "Update always re-randomises the PRNG with the caller's seed", "statement": "After a successful update, the PRNG state is the result of mixing the seed and the old time stamp into the old state, followed by one draw per refreshed sub key; the HMAC input of the mixing step determines the caller's seed.", "quantifier": "every honest key, seed, target", "why_tests_cant": "all seeds", "anchors": ["src/secret_key.rs: update", "src/prng.rs: rerandomize"]}
{"id": "C46", "title": "The C interface works end to end on bytes", "statement": "For any seed of at least 32 bytes and any sequence of key updates with increasing valid times through the C functions, the produced blobs have the documented sizes, signing the blob at its time yields a signature blob that c_verify accepts, c_verify_pop accepts the proof, and aggregates of such signatures verify. Conversely c_verify, c_verify_pop and c_verify_agg (on a non-empty list) accept only blobs that decode and satisfy the verification equation, so a proof other than the key's own is refused.", "quantifier": "every seed, sequence of update calls, message", "why_tests_cant": "unbounded sequences on bytes", "anchors": ["src/ffi.rs: c_keygen, c_sk_update, c_sign_present, c_verify, c_aggregation, c_verify_agg, c_verify_pop"]}
{"id": "C47", "title": "The C interface aborts on malformed input; old key blobs stay usable", "statement": "c_verify does not return false but panics when the public key or signature bytes do not decode (e.g. time field 0); c_sk_update panics on a non-increasing time; because c_sk_update returns a new blob and leaves the caller's old blob intact, the old blob can still sign for its old time (forward security rests on the caller erasing it).", "quantifier": "every malformed blob; every honest blob", "why_tests_cant": "panics across FFI are not unit-tested", "anchors": ["src/ffi.rs: c_verify, c_sk_update, c_sign_present"]}
{"id": "C48", "title": "What secret-key validation does not check", "statement": "validate accepts a key with an empty sub-key list (at any valid time and matching ciphersuites) and any truncation of a valid key's sub-key list, ignores the hvector elements and the PRNG entirely, and panics on a key with a valid prefix and one extra valid-looking sub key; so a validated key may be unable to sign or update.", "quantifier": "every key obtained by truncating or altering a valid key", "why_tests_cant": "malformed keys", "anchors": ["src/secret_key.rs: validate", "src/subkeys.rs: validate"]}
{"id": "C49", "title": "Equality of objects", "statement": "Signature equality ignores time and ciphersuite (two signatures equal under == may verify differently); secret-key and public-key equality is full structural equality and is an equivalence.", "quantifier": "every pair of objects", "why_tests_cant": "all pairs", "anchors": ["src/sig.rs: PartialEq", "src/secret_key.rs: PartialEq", "src/public_key.rs: PartialEq", "src/prng.rs: PartialEq"]}
{"id": "C50", "title": "sign can advance the key and still fail", "statement": "If the secret key and the parameters carry the same unsupported ciphersuite, sign for a future time updates the key and then returns the ciphersuite error, so the documented 'secret key remains unchanged on error' does not hold; with a supported ciphersuite on an honest key sign either succeeds or leaves the key unchanged.", "quantifier": "every honest key and target", "why_tests_cant": "error path ordering", "anchors": ["src/sig.rs: sign, sign_bytes"]}
{"id": "C51", "title": "Verification is sound for what was signed: time and message are bound", "statement": "An honest signature for (t,m), re-labelled with another time or checked against another message, is accepted exactly when a*(F(t,m)-F(t',m')) = 0; if sigma1 is not trivial this is an explicit linear relation between h_1..h_d whose coefficients vanish only if time and hashed message coincide, and for random parameters and keys it holds with probability at most 2/r.", "quantifier": "every honest signature, every other time and message", "why_tests_cant": "all pairs of (time,message)", "anchors": ["src/sig.rs: verify_fr, sign_fr"]}
{"id": "C52", "title": "Clearing of secrets in memory", "statement": "No function that handles secrets (PRNG states, scalars, sub keys, serialised keys) leaves any of them in the memory of its local variables when it returns. (False as it stands: it holds for mixing a seed into the PRNG, for delegation and for refused key generation; updating leaves only the scalars it drew, signing only its scalar and the signature; key generation, PRNG set-up, writing and reading keys and two failure paths leave key material.)", "quantifier": "every input of every such function, successful or not", "why_tests_cant": "memory contents after a variable goes out of scope are not observable from safe tests", "anchors": ["src/prng.rs", "src/subkeys.rs", "src/secret_key.rs", "src/key_pair.rs", "src/sig.rs", "src/serdes.rs: local variables and zeroize calls"]}
{"id": "C53", "title": "The Python reference implementation and the Rust crate agree byte for byte", "statement": "For ciphersuite 0, depth at most 32 and every seed of at least 32 bytes: after key generation and any sequence of updates that succeeds in the crate, the Python code has raised no exception, and the public key, the secret key and every signature serialise to the same bytes in both implementations. A single update agrees for every honest key unless the crate's PRNG assertion fires.", "quantifier": "every seed, every sequence of (time, seed) updates, every message", "why_tests_cant": "the repository compares 63 files from one seed", "anchors": ["pixel-python/keygen.py: key_gen, serialize_sk", "pixel-python/keyupdate.py: sk_update", "pixel-python/sig.py: sign_present, serialize_sig", "src/key_pair.rs: keygen", "src/secret_key.rs: update", "src/sig.rs: sign_present", "src/serdes.rs"]}
{"id": "C54", "title": "Where the Python reference implementation parts from the crate", "statement": "The Python code accepts every seed length; it updates a fresh key to time 2^d, which the crate refuses, and signing with the result raises an exception; and it updates every honest key to any earlier valid time without an exception, returning a key whose first sub key carries the earlier time (the present sub key relabelled when the earlier time is not deeper in the tree), where the crate returns an error and leaves the key alone.", "quantifier": "every short seed, every fresh key, every honest key and earlier time", "why_tests_cant": "the Python tests only go forward", "anchors": ["pixel-python/keygen.py: key_gen", "pixel-python/keyupdate.py: sk_update, time_to_vec, delegate, find_ancestor"]}
{"id": "C55", "title": "The forgery game: adaptive black-box adversaries, co-signers with proofs of possession", "statement": "An adversary that uses the groups as black boxes - it asks adaptively for sub secret keys, signatures and hash points, tests linear combinations for zero in G1, G2 and (after pairing) GT, and finally names co-signers with proofs of possession and an aggregate signature for the honest signer and them - wins with probability at most (3k+2)/r when it makes k tests, where winning means that the model's validate accepts the proofs, the model's aggregate verification accepts the signature, and the forgery is not given away by a sub key of an ancestor or a signature for the same node and hashed message; sub keys of secret keys for later times never give a forgery away; without proofs of possession the same adversary wins always.", "quantifier": "every decision tree of queries and tests, every number of co-signers below r-1, every depth up to 63", "why_tests_cant": "quantifies over adversaries and exponents", "anchors": ["src/sig.rs: verify_bytes_aggregated, verify_fr", "src/public_key.rs: validate", "src/subkeys.rs: delegate", "spec.md: security"]}
{"id": "C56", "title": "What can be made of the secrets left in memory", "statement": "From a value key generation leaves behind one can set up a key that signs for every time; an update to a time below the left child of the present node is undone exactly by the new key and one scalar the update leaves behind, so signatures for the earlier time can be made after the update; two signatures of the same key and time on messages with different hashes, with the scalars left behind by making them, give a verifying signature on every message for that time.", "quantifier": "every honest key, every such update, every message", "why_tests_cant": "needs memory contents and algebra over all keys", "anchors": ["src/key_pair.rs: keygen", "src/secret_key.rs: update", "src/sig.rs: sign_fr, sign_bytes", "src/prng.rs: os2ip_mod_p"]}
{"id": "C57", "title": "Memory behind the C interface", "statement": "With blocks of memory, pointers and lengths made explicit: each C function has undefined behaviour exactly when a range it is given may not be read (so NULL is never allowed, not even with length 0); on readable memory it does what the function on byte lists does; a call changes nothing that was in memory and adds at most one block, which holds exactly the key it hands out; the library never frees or overwrites a key it has handed out, whatever the caller does, so after any updates each earlier key is still in memory and signs for its time unless the caller overwrote it, and a caller that overwrites each old key has only the latest left; a wrong length in pixel_sk aborts when too short and is undefined behaviour beyond the end of the block.", "quantifier": "every heap, every pointer and length, every program of calls, writes and frees", "why_tests_cant": "undefined behaviour and memory that is never freed cannot be observed by a test", "anchors": ["src/ffi.rs: c_keygen, c_sign_present, c_verify, c_sk_update, c_aggregation, c_verify_agg, std::mem::forget, slice::from_raw_parts"]}
{"id": "C58", "title": "Bias of the drawn scalars", "statement": "On uniform 64-byte strings os2ip_mod_p is within statistical distance 2^-257 of uniform on Fr: each scalar comes from floor(2^512/r) strings or one more (both occur), and for every set of scalars the share of strings that hit it differs from its size over r by at most 2^-257; no scalar has a share above 2^-254; sample_then_update uses disjoint halves of its HKDF output for the scalar and the new state, so that on uniform output they are independent.", "quantifier": "every scalar, every set of scalars, every state and info string", "why_tests_cant": "a bias of 2^-257 cannot be seen by sampling", "anchors": ["src/prng.rs: os2ip_mod_p, sample, sample_then_update"]}
{"id": "C59", "title": "The code follows spec.md", "statement": "A transcription of the algorithms in spec.md agrees with the code: key generation, re-randomisation, updates (with the string \"Pixel secret key update\" for the draws), signing, verification, aggregation, verification of aggregates and of proofs of possession give the same results and fail on the same inputs. They differ as follows: with the string as written (with the time appended) the update gives another key, though a correct one; delegation to a sub key's own time is an error in the code only; an update may stop at the code's assertion; secret-key validation in the code compares only as many sub keys as there are. The document's algorithms are correct by themselves.", "quantifier": "every seed, honest key, target time, message, signature and list of keys", "why_tests_cant": "a prose document has no test", "anchors": ["spec.md", "src/key_pair.rs: keygen", "src/subkeys.rs: delegate, randomization", "src/secret_key.rs: update, validate", "src/sig.rs: sign_present, verify_bytes, aggregate_without_validate, verify_bytes_aggregated", "src/public_key.rs: validate"]}
{"id": "C60", "title": "Readers and writers other than byte vectors", "statement": "serialize and deserialize are generic over Write and Read. On a reader that delivers its bytes in pieces, is interrupted or fails, public keys, proofs of possession and signatures are read exactly as from the bytes delivered; secret keys and sub keys are never misread unless the reader reports the end of the input before it; an interruption keeps a sub key from being read exactly when it comes after the fourth byte (a plain read is used there), and a premature end of input there makes the code accept bytes that encode no sub key. Nothing panics. On any writer the whole encoding is written, or an error is returned and a proper beginning of it is written, which no reader accepts.", "quantifier": "every reader and writer (any sequence of answers to read and write), every object", "why_tests_cant": "readers that return short counts or interruptions are rare in tests", "anchors": ["src/serdes.rs: serialize<W: Write>, deserialize<R: Read>, reader.read(&mut hvlen)"]}
{"id": "C61", "title": "The test-vector programs (make test)", "statement": "The Rust program completes exactly if no PRNG state comes back within an update, and its files then hold what their names say: matching public key and proof of possession, an honest key and a verifying signature for each time, and for each jump at the triangular number it ends at. After it, and whatever happened to the disk since, the Python program completes exactly if filecmp lets every checked file pass; the C program makes the same files as the first Rust loop up to number 99; so make test passes. The proof of possession is compared with nothing; with equal times of modification filecmp lets any bytes of the right length pass.", "quantifier": "every seed, update seed, message, bound of the loops and content of the disk", "why_tests_cant": "these programs are the tests", "anchors": ["test_vector/src/main.rs", "pixel-python/test_vector.py: test_vector", "c_wrapper/test.c: test, test_vector", "test_buf/test_vector.py", "Makefile: test"]}
{"id": "C62", "title": "The stream of PRNG states of a signer", "statement": "How many scalars an update draws is a function of the depth and the two times (the number of new sub keys less one; at most d-1; at most one for an update to the next time). An update of an honest key succeeds exactly if none of the PRNG states after its draws is the state before it, and leaves the last of them. So the states along a history of updates, and the point at which it fails if it does, are determined by seed, ciphersuite, depth, times and update seeds alone: they are the same in every group, under all parameters and for every master secret; a C program of updates returns exactly if the times increase and the stream is defined.", "quantifier": "every honest key, every history of updates, any two groups and parameters of equal depth", "why_tests_cant": "relates runs over different groups and says exactly when an assertion fails that no test reaches", "anchors": ["src/secret_key.rs: update", "src/prng.rs: rerandomize, sample_then_update", "src/key_pair.rs: keygen", "src/ffi.rs: c_sk_update"]}
{"id": "C63", "title": "The assumptions on groups and point encodings hold of BLS12-381", "statement": "With the two BLS12-381 curves (Mathlib's group of points over the fields of q and q^2 elements), the published generators and the 48/96/192-byte encoding with its three flag bits, everything the other theorems assume of point encodings holds, and everything they assume of the groups follows from bilinearity of the pairing, its not being 1 on the generators, and hashing into the subgroup; the subgroups tested for have exactly r elements and there are points outside of them; all assumptions hold together with SHA-512 for some pairing; and the verdict of verify_bytes is the same for every pairing that meets the assumptions.", "quantifier": "every point, every byte string, every pairing with these properties, every signature, key, message", "why_tests_cant": "r is a 255-bit number; that the subgroup is cyclic of order r is not observable", "anchors": ["src/test/serdes.rs: VALID_G1_COM", "src/sig.rs: verify_bytes", "src/serdes.rs"]}
{"id": "C64", "title": "The known-answer tests of the encodings pass", "statement": "The tests test_pk_serialization_kat, test_pop_serialization_kat, the three test_sig_serialization_kat tests and the round trips of test_g1_serialization_rand and test_g2_serialization_rand complete without a failed assertion on the real curves, with the constants of the file, for any pairing and hash; the valid constants are encodings of points of order r; INVALID_G1_DATA is refused because no point has that coordinate and INVALID_G2_DATA because no point of the subgroup does. Each of the sixteen invalid constants is a valid one with one or two bytes changed or with the last byte dropped, as listed; two of them are not what their name says, and two have more changed than the comment says.", "quantifier": "any pairing and hash; the constants of the test file", "why_tests_cant": "ties the encoding used in C63 to the bytes the crate is tested with, without running it", "anchors": ["src/test/serdes.rs: test_pk_serialization_kat, test_pop_serialization_kat, test_sig_serialization_kat_valid, test_sig_serialization_kat_invalid_const, test_sig_serialization_kat_invalid_points, test_g1_serialization_rand, test_g2_serialization_rand"]}
{"id": "C65", "title": "Generation of the public parameter", "statement": "param.py makes the parameter spec.md describes for every seed, ciphersuite and depth below 256 (and throws beyond); the result is well formed, so what is assumed of PubParam::default() follows from its being the script's output. With SHA-512 the 34 strings hashed to the curve for the default parameter are different, so its elements are, unless the hash-to-curve collides on two of them; a proof of possession is not the master secret of its key (nor the exponent times another element) unless the hash-to-curve collides on a string of the parameter and the string of the proof; the salts of parameter and key generation give different HMAC keys. The file written has 98+192(d+2) bytes and determines the parameter.", "quantifier": "every seed, ciphersuite, depth; every key and proof; the constants of the script for the default parameter", "why_tests_cant": "says that no point of the parameter is related to a hash by construction; the parameter is made once and trusted ever after", "anchors": ["pixel-python/param.py", "spec.md: param gen (650-668)", "src/key_pair.rs: master_key_gen", "src/public_key.rs: validate"]}
{"id": "C66", "title": "make test passes with SHA-512 and BLS12-381", "statement": "With the seed, update seed, message and loop bound of the three test-vector programs, SHA-512 and the BLS12-381 curves, the stages of make test all succeed on every disk and in both build profiles, given only that the pairing is bilinear and not trivial, hash-to-curve ends in the subgroup and the default parameter is that of param.py; the Rust program's files then hold honest keys and verifying signatures; the PRNG states at the end of its two loops are two given 64-byte strings.", "quantifier": "every disk, profile, pairing and hash-to-curve; the constants of the programs", "why_tests_cant": "predicts the run of a program from its text, with the real hash function, without running it", "anchors": ["test_vector/src/main.rs", "pixel-python/test_vector.py", "c_wrapper/test.c", "test_buf/test_vector.py", "src/prng.rs", "src/secret_key.rs: update"]}
{"id": "C67", "title": "When the unit tests pass", "statement": "Each unit test of src/test for keys, updates, signatures, aggregation, serialization, the API and the C interface, with its seed, update seed, message and loop bound left open, completes without a failed assertion, unwrap or panic exactly when the updates it performs succeed, a condition on HKDF and the times alone (test_delegate: exactly when its bound is at most depth+1; test_must_fails_mismatch and negative_test_pop: exactly when given values of hash-to-curve do not coincide). With SHA-512, BLS12-381 and the constants of the tests the condition holds, so the tests pass in both build profiles for every well-formed parameter of depth 32 and every bilinear non-trivial pairing.", "quantifier": "every seed, update seed, message, loop bound, parameter, profile, pairing, hash-to-curve; the constants of the tests for the last sentence", "why_tests_cant": "says what the tests can and cannot detect, and predicts their outcome without running them", "anchors": ["src/test/keys.rs", "src/test/sig.rs", "src/test/serdes.rs", "src/test/api.rs", "src/test/ffi.rs", "src/test/getter.rs"]}
{"id": "C68", "title": "What the course of a run shows of the secrets", "statement": "Recording the outcome of every condition, every position accessed, every length handled and every operation performed by key generation, update, signing (three variants) and serialization of a secret key: two runs on secrets that differ only in their values (seeds of the same length; keys of the same shape, as honest keys for the same time are; messages and update seeds of the same lengths) leave the same record and end the same way, for whole histories of requests as well, as long as no run panics. The only exception is the comparison of the old and the new PRNG state in update, which stops at the first difference; it does depend on the secret states.", "quantifier": "every pair of seeds, keys of the same shape, requests, histories, parameter, profile, hash function with 64-byte output", "why_tests_cant": "a statement about pairs of runs and about what is not in the output; a timing test samples a few keys on one machine", "anchors": ["src/prng.rs", "src/subkeys.rs", "src/secret_key.rs", "src/key_pair.rs", "src/sig.rs", "src/serdes.rs"]}
{"id": "C69", "title": "What is printed, and what Debug shows", "statement": "In builds with debug_assertions, key generation, update and the three signing functions print lines with println!. A call that prints a line returns an error: calls that succeed or panic print none, whatever the key. What is printed in the course of a history of requests without panics depends on times, lengths and the shape of the key only; it is the same for all secrets. The Debug text of a secret key, on the other hand, determines its time and its whole 64-byte PRNG state, however points are formatted, while it does not show the ciphersuite; and the message of the assertion in update determines both PRNG states it compares.", "quantifier": "every key (well-formed or not), request, history, pair of secrets, parameter, profile, point formatter", "why_tests_cant": "what is not printed for any secret, and what can be read from a text, are statements about all values; tests never look at the output", "anchors": ["src/prng.rs", "src/subkeys.rs", "src/secret_key.rs", "src/key_pair.rs", "src/sig.rs", "src/time.rs"]}
{"id": "C70", "title": "The number of scalar multiplications", "statement": "With a tree of d levels: key generation performs d + 5 scalar multiplications, a signature for the present time 4 (both never more, also when they fail). A successful update of an honest key performs, for each new sub key but the first, 2 plus the number of levels of its subtree; to the next time that is 0 at a leaf and h + 1 at a node with h > 1 levels; between any two times at most (d+4)(d-1)/2, attained by the update from 1 to d; a direct update never needs more than one with a stop on the way; all updates of a life, one time stamp after the other, need 2^(d+1) - d - 3 together, less than two per time stamp.", "quantifier": "every depth, honest key, pair of times, seeds, whole lifetime, parameter, profile, hash function with 64-byte output", "why_tests_cant": "benchmarks measure a few times of one depth; worst case and total over up to 2^63 time stamps cannot be sampled", "anchors": ["src/subkeys.rs", "src/secret_key.rs", "src/key_pair.rs", "src/sig.rs"]}
{"id": "C71", "title": "When the benchmarks run to their end", "statement": "The programs of benches/benchmarks for the API, secret keys, sub keys and the gamma list, as functions of the seeds and random numbers they draw and for any number of timed rounds: key generation, aggregation, delegation, randomisation and the gamma list always run through. Key update (next and random), sign, sign present and sign-then-update run through exactly if every random time drawn from gen_range(0, ..) is at least 2 and the update from time 1 to it, and in each round the following update, is not refused by the PRNG assertion; verify exactly if no random time is 0 and the updates to times above 1 are possible; the sequence and leaf benchmarks exactly if their updates are possible. So a random number of 0 or 1 makes five of the benchmarks panic whatever the hash function. With SHA-512, BLS12-381 and the default parameter, concrete samples run through.", "quantifier": "every seed of at least 32 bytes, random number, number of rounds, list of samples, message, parameter with at least two levels, profile", "why_tests_cant": "the benchmarks draw fresh random numbers on each run, and hit the failing ones with probability about 2 in 2^32 per sample; whether a run through them exists for given numbers cannot be sampled", "anchors": ["benches/benchmarks/bench_api.rs", "benches/benchmarks/bench_sk_ops.rs", "benches/benchmarks/bench_ssk_ops.rs", "benches/benchmarks/bench_time.rs"]}
{"id": "C72", "title": "What the C program prints and leaves in memory", "statement": "c_wrapper/test.c as a program on C memory, with its hexDump, local arrays, printf and fprintf. hexDump of n readable bytes prints their dump line by line (offset, hexadecimal, characters) whatever its uninitialised buffer holds, and reading past the block is undefined behaviour. With a seed of at least 36 bytes the program never has undefined behaviour, ends as the program on byte lists does (C61) and writes the same files; a round whose seed length exceeds the array is undefined. When it returns, its output is exactly the text of the keys and signatures it computed, and the heap holds, beside what it held before, every secret key it ever had: none is freed or zeroed. The output contains the secret key of time 1, and two runs with the same output had the same key. With SHA-512, BLS12-381 and the default parameter it runs to its end from any memory and disk, and leaves 70 secret keys, among them one able to sign for each time from 1 to 63.", "quantifier": "every memory and disk at the start, seed of at least 36 bytes, message, update seed, number of vectors up to 100, contents of uninitialised arrays, profile", "why_tests_cant": "the leak of secrets into memory and output is not asserted by anything; undefined behaviour need not show up when a program is run", "anchors": ["c_wrapper/test.c", "c_wrapper/pixel_c.h", "src/ffi.rs"]}
{"id": "C73", "title": "HKDF and the PRNG follow the RFCs", "statement": "HMAC, HKDF-Extract and HKDF-Expand as used by the PRNG are those of RFC 2104 and RFC 5869 (written down independently, byte by byte and block by block) for every key, salt, info string and output length: the output has the requested length and is the beginning of T(1) | T(2) | ..., an error occurs exactly above 255*64 bytes, and shorter outputs are prefixes of longer ones. Two keys of at most 128 bytes give the same HMAC key exactly if they differ in zeros at the end. PRNG::init is Extract; sample reads Expand(64) as a big-endian number modulo the group order and keeps the state; sample_then_update does so with the first half of Expand(128) and keeps the second half; rerandomize is Extract with the second half as salt and the first half and the seed as input. The HMAC-SHA512 test cases 1, 2, 3 and 6 of RFC 4231 hold of the model.", "quantifier": "every hash function with 64-byte output, key, salt, seed, info string, output length and PRNG state", "why_tests_cant": "the tests have one vector per function; lengths other than 64 and 128, keys above the block size and the key-padding collisions are not reached by them", "anchors": ["src/prng.rs"]}
{"id": "C74", "title": "Diagnostics: checking functions print exactly their table of causes, and never change the result", "statement": "SecretKey::validate, SubSecretKey::validate, Signature::verify_bytes, verify_bytes_aggregated, aggregate_without_validate, PublicKey::init and PublicKey::validate return the same with and without their println! lines, and print nothing in builds without debug_assertions. In debug builds, verification prints exactly what a table of causes says, from the ciphersuites, the two subgroup tests, the depth and the time only: it is silent exactly when all of these are in order, so an accepted signature is silent, and so is one turned down for a wrong key or message. Validation of a secret key says something exactly when it returns false; the text depends only on ciphersuite, times and the validity of the sub keys. Aggregation reports a time mismatch as a ciphersuite mismatch, and a time of 2^d is put down to the depth.", "quantifier": "all parameters of depth at most 63, keys, signatures, messages, lists and both profiles", "why_tests_cant": "the tests do not look at standard output", "anchors": ["src/sig.rs", "src/secret_key.rs", "src/subkeys.rs", "src/public_key.rs", "src/time.rs"]}
{"id": "C75", "title": "Reduction: any forger solves a bilinear Diffie-Hellman inversion problem", "statement": "Let a forger be any function of the group elements it is shown (not a black-box user of the groups); it tosses coins, asks adaptively for sub secret keys, signatures and m hash points, and claims an aggregate signature for the honest signer and co-signers with proofs of possession. If it wins for time t and hashed message M with chance e - the model's validate accepts the proofs, the model's aggregate verification accepts, no sub key of an ancestor and no signature for that node and hashed message was asked for - then an explicit algorithm that runs it once computes e(g2,g)^(b*gamma^(d+1)) from gamma^i*g, gamma^i*g2 (i <= d), b*g, b*g2 with chance at least e - (m+1)/r. For a set T of times and hashed messages the chance is at most the sum over T. What the forger is shown is distributed exactly as in the game. Sub keys of secret keys for later times never make a claim stale. A forger that can take discrete logarithms wins always.", "quantifier": "every forger (arbitrary branching on group elements), every number of queries and co-signers below r-1, every depth up to 63, every target time and hashed message", "why_tests_cant": "quantifies over all algorithms and averages over all exponents", "anchors": ["src/sig.rs: verify_bytes_aggregated, verify_fr", "src/public_key.rs: validate", "src/subkeys.rs: delegate", "spec.md: security"]}
{"id": "C76", "title": "Random oracle: forgers that choose time and message at the end", "statement": "With SHA-512 on messages replaced by a random function that is sampled when first asked, let a forger (any function of what it is shown) hash messages, ask for sub keys, signatures and m hash points, and choose the time and the message of its claim by everything it has seen; at most Q messages are hashed in all. Its chance to win is at most the sum over the 2^d-1 times and the Q hashed messages of the chances of explicit algorithms, each running it once, to solve the problem of C75, plus (2^d-1)*Q*((m+1)/r + Q/2^254). The 2^-254 is the share of 64-octet values that reduce to a given scalar. Replacing the hash by its value at the claimed message does not change the check: verification hashes one text only. Sub keys of later times, and signatures on other messages or at other times, leave a claim fresh. A forger that can take discrete logarithms wins always.", "quantifier": "every forger, every number of queries, hash calls and co-signers below r-1, every depth up to 63", "why_tests_cant": "quantifies over all algorithms and averages over all hash functions and exponents", "anchors": ["src/sig.rs: verify_bytes_aggregated, hash_msg_into_fr", "src/public_key.rs: validate", "spec.md: security"]}
{"id": "C77", "title": "A secret key is a list of scalars, and every function of the signer acts on it in closed form", "statement": "With master secret x, a secret key for time t is given by one scalar per sub key. Key generation draws x and the scalar of the root sub key; an update to tar drops the sub keys of passed times, takes over the scalar of the sub key that covers tar for the new first sub key, adds one drawn scalar to it for every other new sub key, and leaves the rest; a signature has the sum of the first scalar and of one drawn from the PRNG state, the message and the time, and signing leaves the key unchanged. So a signature after key generation and any sequence of updates is an explicit function of the seeds, times and message; and if scalars are uniform and independent before an update and drawn uniformly, they are uniform and independent after it.", "quantifier": "every seed, every history of updates, every message, every depth up to 63", "why_tests_cant": "an equation between group elements for all histories; tests compare verification results of a few histories", "anchors": ["src/secret_key.rs: update, init", "src/subkeys.rs: delegate, randomization", "src/sig.rs: sign_present", "src/lib.rs: keygen"]}
{"id": "C78", "title": "Forward security against an adversary that directs a signer and breaks in", "statement": "An adversary (any function of what it is shown) hashes messages, obtains hash points, has the signer sign messages of its choice, update to times of its choice, and copies the secret key any number of times, together with the scalars a copied PRNG state gives away. It wins with an accepted, possibly aggregated, signature with co-signers of proven possession for a time before the first break-in on a message the signer did not sign at that time. With the hash of messages as a random oracle, its chance is at most the sum over the 2^d-1 times and the Q hashed messages of the chances of explicit algorithms, each running it once, to solve the bilinear problem of C75, plus (2^d-1)*Q*((m+1)/r + Q/2^254). The game can be won by whoever takes discrete logarithms.", "quantifier": "every adversary, every schedule of signing, updates and break-ins, every depth up to 63; claims name fewer than r signers", "why_tests_cant": "quantifies over all algorithms, schedules and averages over all exponents and hash functions", "anchors": ["src/secret_key.rs: update", "src/sig.rs: sign_present, verify_bytes_aggregated", "src/public_key.rs: validate", "spec.md: security"]}
{"id": "C79", "title": "The generator is forward secure if HMAC is a pseudorandom function", "statement": "Any adversary that uses the generator as a signer does (samples that keep the state, draws that replace it, re-randomisation with seeds it chooses) and is finally shown the state, provided no sample was taken since the state was last replaced, is counted in two worlds: with the functions of the code from a uniform state, and with fresh uniform strings throughout. The difference of its expected outputs is exactly the sum of the advantages of k+1 explicit adversaries against HMAC-SHA512 as a pseudorandom function, k being the number of state replacements, each asking at most one value more than the generator was used. If a sample was taken from the revealed state (as after signing), the sample can be recognised, so the condition is needed.", "quantifier": "every adversary, every sequence of uses, every hash with 64-byte output", "why_tests_cant": "quantifies over all adversaries and averages over all 2^512 states", "anchors": ["src/prng.rs: sample, sample_then_update, rerandomize"]}
{"id": "C80", "title": "Forward security of the signer of the code, PRNG included", "statement": "An adversary directs the signer of the code (key generation from a uniform PRNG state, signing, updates with seeds of its choice), and copies the whole secret key with its PRNG state any number of times. It wins with an accepted, possibly aggregated, signature for a time before the first break-in on a message not signed at that time. Its chance is at most the sum over the 2^d-1 times of: the chances of Q explicit algorithms for the bilinear problem of C75 plus Q((m+1)/r + Q/2^254), the advantages of u(d+2)+3 explicit adversaries against HMAC-SHA512, and (k+2)/2^257 for reducing 64 bytes mod r. The signer of the game does what keygen, sign_present and update do. The game can be won by whoever takes discrete logarithms.", "quantifier": "every adversary, every schedule of signing, updates, update seeds and break-ins, every depth up to 63; claims name fewer than r signers", "why_tests_cant": "quantifies over all algorithms and schedules and averages over exponents, PRNG states and hash functions", "anchors": ["src/secret_key.rs: init, update", "src/sig.rs: sign_present", "src/prng.rs", "src/key_pair.rs: keygen", "spec.md: security"]}
{"id": "C81", "title": "Forward security from the seed of keygen on", "statement": "In the game of C80 with keygen itself called on a uniform seed of n >= 32 bytes (public key, secret key and proof of possession as keygen returns them), the chance of every adversary equals its chance in the game of C80 plus the difference that one explicit function of PRNG states shows between HKDF-extract of a uniform seed and a uniform state. So the bound of C80 holds up to the quality of HKDF-extract. With shorter seeds or unsupported ciphersuites there is no game; whoever takes discrete logarithms wins it.", "quantifier": "every adversary of C80, every seed length from 32 bytes, every depth up to 63; claims name fewer than r signers", "why_tests_cant": "averages over all seeds of a length and all exponents, and quantifies over all algorithms", "anchors": ["src/key_pair.rs: keygen, master_key_gen", "src/prng.rs: init", "src/secret_key.rs: init"]}
{"id": "C82", "title": "Forward security on bytes: deserialise, check proofs of possession, verify", "statement": "keygen is called on a uniform seed; an adversary directs the signer (messages, updates and their seeds), copies the secret key as often as it likes, asks the hash of messages and hash-to-curve (random oracles), and hands over a serialised signature and the serialised public keys and proofs of possession of all signers, the honest one among them. The verifier deserialises everything, validates every proof of possession and calls verify_bytes_aggregated. If it accepts for a time before the first break-in and a message not signed at that time, the adversary has won. Its chance is at most (2^d-1)(Q(eps+(m+1)/r+Q/2^254)+(u(d+2)+3)eps'+(k+2)/2^257)+delta, where eps, eps' and delta bound the success of explicit algorithms (which run the adversary) against the bilinear problem of C75, HMAC and HKDF-extract. Whoever takes discrete logarithms wins with chance 1.", "quantifier": "every adversary, every schedule of signing, updates, update seeds, hash queries and break-ins, every depth up to 63; claims name fewer than r signers", "why_tests_cant": "quantifies over all algorithms and averages over seeds and hash functions", "anchors": ["src/serdes.rs: PublicKey, ProofOfPossession, Signature", "src/public_key.rs: validate", "src/sig.rs: verify_bytes_aggregated", "src/key_pair.rs: keygen", "src/secret_key.rs: update", "spec.md: security"]}
{"id": "C83", "title": "Calls panic with negligible chance only, if HMAC is a pseudorandom function", "statement": "A key pair is made by keygen from a uniform seed of at least 32 bytes, and used through the API (update, sign, sign_present, sign_then_update) by anybody, with up to u calls whose arguments - times, messages, update seeds - may depend on all earlier outcomes. The chance that one of the calls panics (the assertion 'prng not updated' of update) is at most the sum of the gains of u(d+2)+3 explicit adversaries against HMAC as a pseudorandom function, plus what HKDF-extract of the seed differs from a uniform state for one explicit function, plus u*d*(1/r+2^-512). With a hash function whose values are all the same, every update that draws a scalar panics.", "quantifier": "every user of the API, every number of calls, every depth up to 63, every well-formed parameter", "why_tests_cant": "averages over all seeds and quantifies over all adaptive users; the panic itself is never seen by tests", "anchors": ["src/secret_key.rs: update (assert_ne!)", "src/prng.rs: rerandomize, sample_then_update", "src/sig.rs: sign, sign_then_update"]}
{"id": "C84", "title": "Forward security of many signers at once", "statement": "N signers call keygen with the same parameters, each on a uniform seed of its own. An adversary directs every signer (messages, updates and their seeds), breaks into any of them at any time, asks the hash of messages and hash-to-curve, and hands over a serialised signature with the serialised keys and proofs of possession of all signers named; it need not say in advance whom it attacks. It wins if the verifier accepts and one of the keys belongs to an honest signer that did not sign the message at that time and was not broken into up to that time - whatever happened to the others. Its chance is at most the sum of the chances of N explicit adversaries in the game of C82, hence at most N times the bound of C82 with N more hash-to-curve inputs. With N = 1 it is exactly the game of C82; whoever takes discrete logarithms wins with chance 1.", "quantifier": "every number of signers, every adversary, every schedule of signing, updates and break-ins of each signer, every depth up to 63; claims name fewer than r signers", "why_tests_cant": "quantifies over all algorithms, all numbers of signers, and averages over seeds and hash functions", "anchors": ["src/key_pair.rs: keygen", "src/secret_key.rs: update", "src/sig.rs: sign_bytes, verify_bytes_aggregated", "src/public_key.rs: validate", "spec.md: security"]}
{"id": "C85", "title": "Unseen seeds repair a generator whose state has leaked", "statement": "An adversary starts with a state of the generator that it knows (or has chosen), uses the generator (samples, draws), looks at the state as often as it likes, mixes in seeds of its own, and has uniform seeds of n bytes mixed in (rerandomize, as update does) that it does not see. Up to c such seeds, its expected output differs from that of an ideal game, in which after an unseen seed all scalars come from fresh uniform strings until the next look, by exactly the gains of c explicit adversaries against HKDF-extract of a uniform seed (behind a known string, with a known salt) and of c(k+1) against HMAC as a pseudorandom function; with a uniform first state the first period adds k+1 more. So after an unseen seed no scalar can be guessed with more than a chance of 2^-254 plus those gains. With seeds that the adversary knows the next scalar is predicted with certainty, and with short seeds the gains are at least 256^-n - 2^-254.", "quantifier": "every adversary, every sequence of uses, looks and seeds, every seed length, every hash with 64-byte output", "why_tests_cant": "quantifies over all adversaries and averages over all seeds and states", "anchors": ["src/prng.rs: rerandomize, sample, sample_then_update", "src/secret_key.rs: update"]}
{"id": "C86", "title": "Forward security when the state of the generator leaks and updates have fresh seeds", "statement": "In the game of C80 the adversary may in addition look at the PRNG state of the secret key at any time, without this being a break-in, and some of the updates are made with uniform seeds of n bytes that it does not see. A look counts as a break-in at that time only if a message has been or is signed with the state looked at, or if the next update is made with a seed of the adversary's choice. The chance of every adversary is at most the sum over the 2^d-1 times of: the chances of Q explicit algorithms for the bilinear problem of C75 plus Q((m+1)/r + Q/2^254), the gains of (c+1)(u(d+2)+3) explicit adversaries against HMAC and of c against HKDF-extract, and (k+2)/2^257, for c unseen seeds. Without looks and unseen seeds it is the game of C80. The two exceptions are needed: a state and a known seed undo an update to a time below the left child, so that with the new key one signs for the old time; a state and two signatures made with it give signatures on all messages for that time. Whoever takes discrete logarithms wins with chance 1.", "quantifier": "every adversary, every schedule of signing, updates with known and unseen seeds, looks and break-ins, every depth up to 63; claims name fewer than r signers", "why_tests_cant": "quantifies over all algorithms and schedules and averages over exponents, PRNG states, seeds and hash functions", "anchors": ["src/secret_key.rs: update", "src/sig.rs: sign_present", "src/prng.rs: rerandomize", "spec.md: security"]}
{"id": "C87", "title": "Forward security with the parameters of the script, on the real curves", "statement": "In the game of C84 the parameters are not drawn at random but made by pixel-python/param.py from a fixed seed, with the same hash-to-curve that the proofs of possession use; the adversary may ask that random oracle for the strings of the parameters too. If these strings are different, its chance is exactly that of one explicit adversary in the game of C84, so the bound of C84 holds. For SHA-512, the seed of the script, depth 32 and ciphersuite 0 they are different; on BLS12-381 (curve, subgroup and byte encoding as computed) the bound holds assuming only that the pairing is additive and not trivial. For up to 2^20 signers and 2^64 hash questions and scalars the part that does not depend on the hardness of the problems is at most 2^-70. If all strings are the same, as without the index in the info, one later break-in gives x*h away and the adversary wins with chance 1; whoever takes discrete logarithms wins with chance 1 as well.", "quantifier": "every seed of the script with different strings, every number of signers, every adversary and schedule, every depth up to 63; claims name fewer than r signers", "why_tests_cant": "averages over hash-to-curve and all seeds of keygen, and quantifies over all algorithms", "anchors": ["pixel-python/param.py", "src/key_pair.rs: keygen", "src/public_key.rs: validate", "src/sig.rs: verify_bytes_aggregated"]}
{"id": "C88", "title": "Forward security of the C interface, on bytes", "statement": "In the game of C87 everything goes through the functions of src/ffi.rs: the keys are the arrays and blobs of c_keygen, signatures are made by c_sign_present and updates by c_sk_update on the last blob, the adversary is shown bytes only and gets the blob of the secret key when it breaks in, may call with any time and is told whether the call aborts, and at the end c_verify_pop and c_verify_agg decide on arrays of 49, 97 and 149 bytes; times and keys are compared as bytes. Its chance is exactly that of one explicit adversary in the game of C87 (at depth 32), so the C interface adds no way to forge and the bound of C87 holds, on BLS12-381 with SHA-512 and the parameters of the script as well. On blobs of honest keys, signing in the game with the hash of the message is c_sign_present. Whoever takes discrete logarithms wins with chance 1.", "quantifier": "every number of signers, every adversary that sees bytes, every schedule of calls with any times; claims name fewer than r signers", "why_tests_cant": "averages over hash-to-curve and all seeds of c_keygen, and quantifies over all algorithms", "anchors": ["src/ffi.rs: c_keygen, c_sign_present, c_sk_update, c_verify_pop, c_verify_agg", "pixel-python/param.py"]}
{"id": "C89", "title": "Forward security of the whole Rust interface", "statement": "In the game of C87 the adversary directs the signers with all functions of the trait that use a secret key: sk_update, sign (which goes on to a later time first), sign_present and sign_then_update, each for any time and with any seed, and sees what the function returns, signature or error. A call is exactly the call of the code with the hash of the message. At every depth from 1 to 63 its chance is that of one explicit adversary in the game of C87, and every adversary of C87 has its chance in this game, so the convenience functions give an adversary neither more nor less than sign_present and sk_update; the bound of C87 holds, on BLS12-381 with SHA-512 and the parameters of the script as well.", "quantifier": "every number of signers, every depth from 1 to 63, every adversary and schedule of calls of the trait with any times; claims name fewer than r signers", "why_tests_cant": "averages over hash-to-curve and all seeds, and quantifies over all algorithms", "anchors": ["src/lib.rs: sk_update, sign, sign_present, sign_then_update", "src/sig.rs: sign, sign_present, sign_then_update", "src/secret_key.rs: update"]}
{"id": "C90", "title": "Public keys outside the subgroup", "statement": "PublicKey::new takes any point of the curve, and verify_bytes does not check the subgroup of a public key. Every point of E(Fq) is in exactly one way a multiple x g2 (x modulo r) plus a point of order prime to r. Under a key with part x, alone or in a list, a signature is accepted exactly if it is one of the master secret x h (of the sum of the parts), and the validation of secret keys gives the same answer as for x g2: the rest of the key is ignored. So every public key in the subgroup has a different twin that accepts the same signatures under all parameters. No proof of possession passes for a key that is not equal to its part, and no bytes are read as such a key.", "quantifier": "every point of the curve as public key, every list of keys, signature, message, parameter and profile", "why_tests_cant": "speaks about all points of a curve with 2^381 points; tests use generated keys, which are in the subgroup", "anchors": ["src/public_key.rs: new, init, validate", "src/sig.rs: verify_bytes, verify_bytes_aggregated", "src/subkeys.rs: validate", "src/secret_key.rs: validate"]}
{"id": "C91", "title": "The problem behind unforgeability is hard for algorithms that use the groups as black boxes", "statement": "The theorems on forgers (C75 to C89) reduce a forgery to one problem: from the powers of gamma up to d and b, in both groups, find e(g2,g)^(b gamma^(d+1)). An algorithm that forms combinations of what it is given, pairs them, throws dice and makes at most m comparisons solves a random instance with chance at most (m+1)(2d+1)/r. It is close to being solvable: with one power of gamma more the problem is solved always and without a comparison, and some algorithm with m comparisons has chance at least m/r.", "quantifier": "every algorithm of that kind, with any number of comparisons, every depth d from 1 to 63, every generator of the subgroup", "why_tests_cant": "a chance over r^2 instances and all algorithms; no number of runs shows that none succeeds", "anchors": ["src/sig.rs: sign_bytes, verify_bytes", "src/subkeys.rs: delegate"]}
{"id": "C92", "title": "Users of a signer see nothing but what the master secret and the time determine", "statement": "Somebody is given the public key and the proof of possession of a key pair made from a uniform seed, makes calls of update, sign, sign_present and sign_then_update with arguments that may depend on all outcomes, sees signatures, errors and panics, and decides on a number. Compare with an ideal signer who has no sub keys and no generator, only the master secret and a clock: a valid update moves the clock, a signature is a uniform one among those accepted for the message and the time, the same one for the same message at the same time, and nothing panics. The expected numbers differ, in both directions, by at most the gains of u(d+2)+3 explicit adversaries against HMAC, what HKDF-extract differs from a uniform state, and a term of about u d / 2^254. Two keys with the same master secret and time but different sub keys and histories look the same. With uniform randomness every accepted signature comes from exactly one scalar, and so does every accepted aggregate, whatever the signatures of the other signers. With a constant hash function the difference is 1 - 1/r, so a condition on the hash is needed.", "quantifier": "every watcher with any number of calls, every depth, seed length from 32, sub keys and history", "why_tests_cant": "an average over all seeds for all possible observers; tests look at single signatures", "anchors": ["src/sig.rs: sign, sign_present, sign_then_update, sign_bytes, sign_fr, aggregate_without_validate", "src/secret_key.rs: update", "src/key_pair.rs: keygen", "src/prng.rs: sample, sample_then_update, rerandomize"]}
{"id": "C93", "title": "With a random function for SHA-512 the signer looks like the ideal one, with explicit numbers", "statement": "Let SHA-512 be replaced by a uniformly random function on strings up to any length B, which everybody may evaluate. Then HMAC with a uniform 64-byte key is told from a random function by at most (2q+k^2)/2^512 on average, for q evaluations of the hash function and k values of HMAC; the generator of prng.rs, from a uniform state or from a seed through HKDF-extract, gives scalars that look like reductions of uniform strings; and somebody who is given the public key and proof of possession of a key pair from keygen with a uniform seed of n >= 32 bytes, makes up to u calls of update, sign, sign_present and sign_then_update, sees all outcomes and evaluates the hash function up to q times is expected to output the same number as with the ideal signer of C92 up to an explicit bound, in both directions. The chance that a call panics is below the same bound. For up to 2^60 calls and 2^60 evaluations, depth up to 63, it is below 1/2^180. No assumption on HMAC or HKDF is left.", "quantifier": "every observer with any number of calls and evaluations, every depth, seed length from 32, length bound B", "why_tests_cant": "an average over all hash functions and seeds for all possible observers", "anchors": ["src/prng.rs: init, sample, sample_then_update, rerandomize", "src/key_pair.rs: keygen", "src/secret_key.rs: update", "src/sig.rs: sign, sign_present, sign_then_update, sign_bytes"]}
{"id": "C94", "title": "Forging is as hard as the underlying problem when one random function serves for SHA-512 everywhere", "statement": "Let SHA-512 be replaced by a uniformly random function on strings up to a length B, and let everybody use it: keygen, update and sign for HKDF and HMAC, sign and verify for messages, and the adversary for whatever it likes. The key pair is made by keygen from a uniform seed of n >= 32 bytes. An adversary that asks for signatures on chosen messages and updates with chosen times and seeds, evaluates the function, and breaks in, seeing the whole secret key with the generator's state, wins if it gives an aggregate, with co-signers of its own choice whose proofs of possession are valid, that is accepted for a message that was not signed at that time and a time before every break-in. Its chance is at most the sum, over all times and evaluations, of the chances of explicit algorithms for the problem of C75, and explicit numbers: for up to 2^60 evaluations, 2^40 signatures, updates and hash points and depth up to 32 these are below 1/2^100. So, if no such algorithm has a chance above e, forging has a chance of at most (2^d-1)(Q(e + (m+1)/r + Q/2^254) + lost). No assumption on HMAC, HKDF or message hashing is left. Whoever takes discrete logarithms wins with chance 1.", "quantifier": "every adversary with any number of queries, every depth from 1 to 63, seed length from 32, length bound B, supported ciphersuite; claims name fewer than r signers", "why_tests_cant": "an average over all hash functions, parameters and seeds for all possible adversaries", "anchors": ["src/sig.rs: sign_bytes, verify_bytes_aggregated, sign_present", "src/prng.rs: init, sample, sample_then_update, rerandomize", "src/key_pair.rs: keygen", "src/secret_key.rs: update"]}
{"id": "C95", "title": "No forger that uses the groups as black boxes, when one random function serves for SHA-512 everywhere", "statement": "In the game of C94, let the adversary get at group elements only by forming combinations of those it has been shown (parameters, public key, proof of possession, hash points, signatures, all elements of the secret key at a break-in), pairing and comparing them. It may toss dice, evaluate the random function for SHA-512, and choose everything else, including the times and the messages, by the bytes and answers it has seen, the generator's state included. With at most q evaluations, T comparisons, m hash points, s signatures and u updates it forges with a chance of at most (2^d-1)(Q((T+1)(2d+1)/r + (m+1)/r + Q/2^254) + lost), Q = q+3s+u(4d+6)+1. No hardness assumption at all is left. For q, T up to 2^60, the others up to 2^40, and depth up to 32, the chance is below 1/2^95. With r comparisons and nothing else some adversary of this kind has chance 1.", "quantifier": "every black-box adversary with any budget, every depth from 1 to 63, seed length from 32, length bound B, supported ciphersuite, all groups that obey the laws; claims name fewer than r signers", "why_tests_cant": "an average over all hash functions, parameters and seeds for all possible adversaries", "anchors": ["src/sig.rs: sign_bytes, verify_bytes_aggregated, sign_present", "src/prng.rs: init, sample, sample_then_update, rerandomize", "src/key_pair.rs: keygen", "src/secret_key.rs: update"]}
{"id": "C96", "title": "What the Debug text of public values and of the C structures tells", "statement": "The text of pixel_pk, pixel_pop and pixel_sig determines their bytes. The text of pixel_keys is the same for two values iff public key, proof of possession, address and length of the secret key agree; it shows no byte of the secret key. Two C programs that generate keys and update to the same times, from whatever seeds, in heaps with as many blocks, get secret key handles with the same texts. Two signatures have the same text iff == takes them to be equal: time and ciphersuite appear in neither. The texts of PublicKey, ProofOfPossession and TimeVec determine the value, provided that the text of a point determines the point.", "quantifier": "all values, all ways to write points that can be read, all histories of updates", "why_tests_cant": "the texts range over all values; that no secret is shown is a statement about pairs of runs", "anchors": ["src/ffi.rs: pixel_pk, pixel_pop, pixel_sig, pixel_sk, pixel_keys, c_keygen, c_sk_update", "src/sig.rs: Debug for Signature, PartialEq for Signature", "src/public_key.rs: PublicKey", "src/pop.rs: ProofOfPossession", "src/time.rs: TimeVec"]}
{"id": "C97", "title": "Keys are not foreseen, and signers do not get the same key", "statement": "With a uniformly random function in the place of SHA-512: if somebody evaluates it up to q times and names k points, the public key keygen then makes from a uniform seed of n >= 32 bytes is among them with chance at most k/r and the loss of C93 for q evaluations and no calls. In particular a key is the neutral element with chance at most 1/r and that loss, and two of m signers with independent seeds have the same public key with chance at most m(m-1)/2 times 1/r and the loss, below 1/2^170 for 2^40 signers. Whoever knows the seed names the key with four evaluations.", "quantifier": "every program that names points, every number of signers, seed length from 32, depth, length bound B, all groups that obey the laws with a generator that is not neutral", "why_tests_cant": "an average over all hash functions and seeds; tests use a few seeds", "anchors": ["src/key_pair.rs: keygen, master_key_gen", "src/prng.rs: init, sample_then_update"]}
{"id": "C98", "title": "Many signers, claims as bytes, when one random function serves for SHA-512 everywhere", "statement": "In the game of C94 let there be N honest signers whose keys keygen makes from independent uniform seeds, all using the same random function for SHA-512, and hash-to-curve a random oracle of its own. The adversary directs each of them as it likes, breaks into some at once and into others later or never, and hands over bytes: a signature and a list of serialised public keys with proofs of possession. It wins if the bytes are parsed, the proofs of possession and the aggregate are accepted, and the key of one honest signer is in the list who did not sign that message at that time and was not broken into at or before it. Its chance is at most the sum over the signers of the chances of explicit adversaries in the game of C94, and so at most N times the bound of C94, where the evaluations for the other signers are counted to the adversary. What does not depend on the underlying problem is below N/2^100 for 2^59 evaluations, 2^40 signatures and updates, 2^40 hash points and signers, depth up to 32. On BLS12-381 as computed only the additivity and non-triviality of the pairing are assumed. Whoever takes discrete logarithms wins with chance 1.", "quantifier": "every adversary with any number of queries, every number of signers, depth from 1 to 63, seed length from 32, length bound B, supported ciphersuite; claims name fewer than r signers", "why_tests_cant": "an average over all hash functions, parameters and seeds for all possible adversaries", "anchors": ["src/sig.rs: sign_present, verify_bytes_aggregated", "src/serdes.rs: deserialize, serialize", "src/prng.rs: init, sample, sample_then_update, rerandomize", "src/key_pair.rs: keygen, proof_of_possession", "src/secret_key.rs: update"]}
{"id": "C99", "title": "Unseen seeds repair a leaked generator when a random function serves for SHA-512", "statement": "With a random function in the place of SHA-512, an adversary that knows the state of the generator evaluates the function up to q times, uses the generator up to u times (samples, draws, seeds of its own mixed in), looks at the state as often as it likes (but not between a sample and the next change of the state), and has up to c uniform seeds of n octets mixed in that it does not see. Its expected output differs from that of the ideal game of C85, in which all scalars after an unseen seed come from fresh uniform strings until the next look, by at most c ((2u+1)(2(q+12u)+(u+1)^2)/2^512 + (q+12u)(1/256^n+1/2^512)); the life of a generator from a uniform seed, as keygen starts it, costs one such term more. With seeds of 32 octets and up to 2^60 of everything this is less than 2^-132. Nothing is assumed of HMAC or HKDF. So a known state says nothing about the first scalar after an unseen seed: it is named with a chance of at most 2^-254 and one such term. With a known seed it is named with certainty after eight evaluations, and with a seed of n octets with a chance of at least 256^-n.", "quantifier": "every adversary, every sequence of evaluations, uses, looks and seeds, every seed length, every length bound B", "why_tests_cant": "quantifies over all adversaries and averages over all hash functions and seeds", "anchors": ["src/prng.rs: init, rerandomize, sample, sample_then_update", "src/secret_key.rs: update", "src/key_pair.rs: keygen"]}
{"id": "C100", "title": "Forging with leaks of the generator when a random function serves for SHA-512", "statement": "The game of C86 with one uniformly random function in the place of SHA-512, which the signer, the verifier and the adversary evaluate, and keygen called on a uniform seed of k >= 32 octets. The adversary has messages signed and the key updated, with seeds of its choice or with uniform seeds of n octets that it does not see, breaks in, and looks at the PRNG state as often as it likes. A look counts as a break-in only if the state has been or is then used for a signature, or if the next update is made with a seed of the adversary's choice. The chance of an accepted forgery for a time before the first break-in is at most the sum, over all times t and all evaluations, of the chance that an explicit algorithm solves the problem of C75, of (m+1)/r and of the number of evaluations over 2^254, and, for each t, of a loss in the numbers of uses, evaluations and unseen seeds (leakingLost). For depth up to 32, 2^60 evaluations by the adversary, up to 2^40 signatures, updates, unseen seeds and hash points, and seeds of 32 octets, all but the problem is less than 2^-100. Nothing is assumed of HMAC, of HKDF or of the hash of messages. Without looks and unseen seeds the game is that of C94; with shorter seeds or other ciphersuites keygen refuses; with discrete logarithms the game is won with certainty, for a time between the first look and the break-in.", "quantifier": "every adversary, every sequence of evaluations, signatures, updates, looks and break-ins, every depth from 1 to 63, both ciphersuites, every seed length, both build profiles; claims name fewer than r signers", "why_tests_cant": "quantifies over all adversaries and averages over all hash functions, parameters and seeds", "anchors": ["src/prng.rs: init, rerandomize, sample, sample_then_update", "src/secret_key.rs: update, delegate", "src/key_pair.rs: keygen", "src/sig.rs: sign_present, verify"]}
{"id": "C101", "title": "No forger that uses the groups as black boxes, with leaks of the generator, when one random function serves for SHA-512", "statement": "In the game of C100, an adversary that gets at group elements only by forming combinations, pairing and comparing (but sees octets: values of the hash function, states of the generator), with a budget of evaluations, questions, hash points, signatures, updates and unseen seeds, forges with a chance of at most (2^d-1)(e((questions+1)(2d+1)/r + (points+1)/r + e/2^254) + leakingLost), e the number of evaluations of signer, verifier and adversary. Nothing is assumed but the laws of the groups. For depth up to 32, 2^60 evaluations and questions, 2^40 of everything else and seeds of 32 octets this is less than 2^-95. The number of questions matters: with r questions such an adversary wins with certainty, with looks and an unseen seed. Without looks and unseen seeds the game is that of C95.", "quantifier": "every black-box adversary within a budget, every depth from 1 to 63, both ciphersuites, every seed length, both build profiles; claims name fewer than r signers", "why_tests_cant": "quantifies over all adversaries and averages over all hash functions, parameters and seeds", "anchors": ["src/prng.rs: init, rerandomize, sample, sample_then_update", "src/secret_key.rs: update, delegate", "src/key_pair.rs: keygen", "src/sig.rs: sign_present, verify"]}
{"id": "C102", "title": "Which error is reported", "statement": "Reading a public key, a proof of possession, a signature, a sub key or a secret key gives the error e exactly if e belongs to the first thing wrong with the input in a fixed order: too short (end of input), time stamp 0 (for a signature before the ciphersuite), unsupported ciphersuite, no sub keys, the error of the decoder of the first undecodable point, the uncompressed mode of a signature only after its first point; for a secret key the error of the first sub key refused. Writing gives the ciphersuite error, else the error for times that do not fit, and nothing else; the digest reports both as a failure to write. Signing at the key's own time with any value of the type SecretKey, not only those the crate makes, gives an error exactly if ciphersuites do not match, there are no sub keys, the time of the first one is out of range (with different errors for 2^d and beyond), or it has no coefficients left, and never panics; update reports missing sub keys and a first sub key that is not earlier, and leaves the key alone.", "quantifier": "all byte strings, both modes, all point decoders, all values of type SecretKey, PublicKey, ProofOfPossession and Signature, every hash function", "why_tests_cant": "for all inputs, and for keys that no call of the public API produces", "anchors": ["src/serdes.rs: serialize, deserialize", "src/pixel_err.rs", "src/sig.rs: sign_present, sign_bytes, sign_fr", "src/secret_key.rs: update, find_ancestor, first_ssk, digest, init", "src/subkeys.rs: last_hvector_coeff", "src/public_key.rs: init", "src/key_pair.rs: master_key_gen"]}
{"id": "C103", "title": "Updates of secret keys that did not come from key generation", "statement": "A secret key read from bytes may be malformed. If each sub key has one hvector element per level below its node, update never indexes out of range, whatever the time stamps, the order of the sub keys and the group elements: the only panic left is the PRNG assertion. For a key with the right lengths and any valid time stamps in any order (at depth 32: every key read from bytes with the right lengths) the outcome is exact: the sub key used is the first with the time of the last one not after the target; the times of the target's cover are delegated from it up to the first that a later sub key has; success if they all lie below it, with the resulting times given, otherwise the error that the time is no prefix. For a key with the right time stamps and any other content the outcome is exactly determined by the number of hvector elements of the sub key above the target: success if it is for the target itself; a panic if there are fewer than the levels down to the target; a panic if there are more than the levels below it and a scalar is drawn; otherwise success, with the right time stamps again, unless the PRNG state comes back. Such panics are not prevented by reading or by validate: a key with the elements cut off, or with one too many, gets the same verdict from validate as the original, and update panics; the key stays as it was.", "quantifier": "all values of type SecretKey with the right lengths; all keys with the right time stamps; all targets, seeds, profiles, depths up to 63", "why_tests_cant": "the keys concerned are not produced by the API", "anchors": ["src/secret_key.rs: update, find_ancestor, validate", "src/subkeys.rs: delegate, randomization", "src/serdes.rs: deserialize"]}
{"id": "C104", "title": "Which signatures of an altered secret key are accepted", "statement": "Take a secret key whose time stamps and numbers of elements are right but whose group elements are arbitrary members of the subgroups (as reading from bytes ensures), and any successful updates. It then signs, and whether the signature verifies depends only on the elements of the one sub key of the original key above the time of the signature: with exponent rho, elements s_0, a_1..a_n, the path w from its node to the time and the hashed message M it verifies exactly if s_0 + w_1 a_1 + ... + w_k a_k + M a_n = x h + rho F(u, M). The route of updates, their seeds, the PRNG and the other sub keys do not matter. In particular, if one element number j of the sub key of node g of a proper key is wrong, the key still validates, and its signatures are all accepted except, whatever the message, those for nodes more than j levels below g, and, if it is the last element, those for g and everything below it and messages not hashed to 0. Validation after the updates likewise depends only on the elements that the sub keys of the present are made of: with one wrong element it fails exactly for the times more than j levels below g, and succeeds again once the time has left the tree below g.", "quantifier": "all keys with the right times and lengths, all group elements, all sequences of updates and seeds, all messages, times, depths up to 63", "why_tests_cant": "the keys concerned are not produced by the API; unbounded histories", "anchors": ["src/secret_key.rs: update, validate", "src/subkeys.rs: delegate, randomization", "src/sig.rs: sign_present, verify_bytes", "src/serdes.rs: deserialize"]}
{"id": "C105", "title": "Public parameters with another generator or degenerate elements", "statement": "The code takes g2 from the public parameters without checking it. If g2 is any element of the prime-order subgroup but zero, key generation, updates and signing work as with the generator of the curve: keys validate after any calls, their signatures are accepted, verification accepts exactly the signatures of the master secret, and the check of master keys in the tests passes exactly for equal exponents. But the proof of possession made by key generation is refused, unless g2 is the generator, or the secret exponent or the hash of the public key is zero. If g2 is zero, every generated public key is zero, and under it exactly the signatures with right ciphersuite and time, elements in the subgroups and sigma1 = 0 (or F(v, M) = 0) are accepted, whatever sigma2 and the message: anybody can sign. With h = 0 exactly the signatures of the secret zero are accepted, under every key; with h_d = 0 a signature counts for every message.", "quantifier": "all g2 in the subgroup, all other parameters of depth up to 63, all seeds, calls, messages and signatures", "why_tests_cant": "tests use the default parameters only", "anchors": ["src/key_pair.rs: keygen, master_key_gen, proof_of_possession, validate_master_key", "src/public_key.rs: validate", "src/sig.rs: verify_bytes", "src/secret_key.rs: validate"]}
{"id": "C106", "title": "The neutral element as public key, and keys that add up to it", "statement": "A public key that is the neutral element is read from bytes in either form, and public-key validation accepts it with exactly one proof of possession, the neutral element. Under it exactly the signatures (a g2, a F(v, M)) are accepted, which everybody can compute for every time and message. In a list of keys it changes nothing: whoever checks an aggregate of the others finds the owner of the neutral key among the signers. The same holds of lists of keys that add up to zero: such a list accepts exactly the signatures everybody can compute, and proofs of possession do not prevent it, since for every x both x g2 and -x g2 have one. A public key x g2 is neutral exactly when x is zero in the field.", "quantifier": "all ciphersuites, well-formed parameters of depth up to 63, all key lists, signatures, messages and exponents", "why_tests_cant": "it is a statement about all signatures and lists; the one test with a neutral key only checks that one secret key does not validate against it", "anchors": ["src/public_key.rs: validate", "src/sig.rs: verify_bytes, verify_bytes_aggregated", "src/serdes.rs: deserialize"]}
