import Verif.Fast.Run
import Verif.Proof.Tests

/-!
# The PRNG states of the keys of the unit tests

The seeds of the unit tests, and the times 2, …, 15 of their loops.
-/

namespace Pixel.Fast

open Pixel Pixel.Sha512 Pixel.Spec Pixel.Props

/-! ### fewer walks -/

/-- an update to a time for which fewer scalars are drawn is possible -/
theorem step_mono {sha : Bytes → Bytes} {d t i j : Nat} {p : Prng} {u : Bytes}
    (h : drawsNeeded d t i ≤ drawsNeeded d t j) (hj : ∃ q, prngStep sha d p t j u = some q) :
    ∃ q, prngStep sha d p t i u = some q := by
  obtain ⟨q, hq⟩ := hj
  unfold prngStep at hq ⊢
  simp only at hq ⊢
  split at hq
  · cases hq
  · rename_i h0
    rw [if_neg]
    · exact ⟨_, rfl⟩
    · intro h1
      obtain ⟨k, hk, e⟩ := List.any_eq_true.1 h1
      exact h0 (List.any_eq_true.2 ⟨k, List.mem_range.2 (by have := List.mem_range.1 hk; omega), e⟩)

theorem draws_table : ∀ t, t < 15 → ∀ i, i < 16 → t = 0 ∨ i ≤ t ∨
    drawsNeeded 32 t i ≤ drawsNeeded 32 t 15 := by
  decide +kernel

theorem oneStep_of {sha : Bytes → Bytes} {seed u : Bytes} {cs : UInt8}
    (h : Runs sha 32 seed cs [(15, u)]) : OneStep sha 32 seed cs u 16 := by
  intro j h1 h2
  rw [Tests.runs_one] at h ⊢
  exact step_mono (by have := draws_table 1 (by omega) j h2; omega) h

theorem twoSteps_of {sha : Bytes → Bytes} {seed u : Bytes} {cs : UInt8}
    (h : Runs sha 32 seed cs [(15, u)])
    (h' : ∀ j, 2 ≤ j → j < 15 → Runs sha 32 seed cs [(j, u), (15, u)]) :
    TwoSteps sha 32 seed cs u 16 := by
  intro j h1 h2
  refine ⟨oneStep_of h j h1 h2, fun i h3 h4 => ?_⟩
  have := h' j h1 (by omega)
  rw [Tests.runs_two] at this ⊢
  obtain ⟨q, e1, e2⟩ := this
  exact ⟨q, e1, step_mono (by have := draws_table j (by omega) i h4; omega) e2⟩

/-- a walk on numbers -/
theorem runs_of {seed useed : Bytes} (hs : seed.length < 2 ^ 63) (hu : useed.length < 2 ^ 63)
    (ts : List Nat) {l : List (Nat × Nat)} {f : Nat} (hl : plan 32 1 ts = infos l)
    (h : runN 0 (beNat seed) seed.length (beNat useed) useed.length l f = true) :
    Runs sha512 32 seed 0 (ts.map fun tar => (tar, useed)) := by
  obtain ⟨q, e, _⟩ := runN_eq 0 hs hu 32 ts hl h
  unfold Runs
  rw [e]
  rfl

/-! ### the seeds -/

/-- `/repo/src/test/keys.rs` 67, `sig.rs` 85, 131, 164, `serdes.rs` 52, 121, 148 -/
def testSeed : Bytes := text "this is a very very long seed for testing"

theorem testSeed_num : beNat testSeed =
    248645677777923958561442786042544014908375049343271925740951650813080574068584825494372675303861863 := by
  decide +kernel

theorem testSeed_length : testSeed.length = 41 := by decide +kernel

/-- `/repo/src/test/api.rs` 13 -/
def apiSeed : Bytes := text "this is a very very long seed for key gen testing"

theorem apiSeed_num : beNat apiSeed =
    4586703183003413535316733553681294696980720430063449546784794331652683951783393660407900278420238016438590880222899815 := by
  decide +kernel

theorem apiSeed_length : apiSeed.length = 49 := by decide +kernel

/-- `/repo/src/test/ffi.rs` 7, used as update seed in 25 -/
def ffiSeed : Bytes := text "This is a very very long seed for testing"

theorem ffiSeed_num : beNat ffiSeed =
    180294092628454835924802091445118347241088504627859037102646319362769542843604327893637888521891431 := by
  decide +kernel

theorem ffiSeed_length : ffiSeed.length = 41 := by decide +kernel

/-- the ten seeds `format!("this is a very very long seed for testing #{}", i)`,
`/repo/src/test/sig.rs` 226, 293 -/
def aggSeeds : List Bytes :=
  (List.range 10).map fun i => text "this is a very very long seed for testing #" ++ [48 + UInt8.ofNat i]

/-! ### the times -/

theorem plan_15 : plan 32 1 [15] = infos [(1, 14)] := by decide +kernel

theorem plan_2_15 : plan 32 1 [2, 15] = infos [(1, 1), (2, 13)] := by decide +kernel

theorem plan_3_15 : plan 32 1 [3, 15] = infos [(1, 2), (3, 12)] := by decide +kernel

theorem plan_4_15 : plan 32 1 [4, 15] = infos [(1, 3), (4, 11)] := by decide +kernel

theorem plan_5_15 : plan 32 1 [5, 15] = infos [(1, 4), (5, 10)] := by decide +kernel

theorem plan_6_15 : plan 32 1 [6, 15] = infos [(1, 5), (6, 9)] := by decide +kernel

theorem plan_7_15 : plan 32 1 [7, 15] = infos [(1, 6), (7, 8)] := by decide +kernel

theorem plan_8_15 : plan 32 1 [8, 15] = infos [(1, 7), (8, 7)] := by decide +kernel

theorem plan_9_15 : plan 32 1 [9, 15] = infos [(1, 8), (9, 6)] := by decide +kernel

theorem plan_10_15 : plan 32 1 [10, 15] = infos [(1, 9), (10, 5)] := by decide +kernel

theorem plan_11_15 : plan 32 1 [11, 15] = infos [(1, 10), (11, 4)] := by decide +kernel

theorem plan_12_15 : plan 32 1 [12, 15] = infos [(1, 11), (12, 3)] := by decide +kernel

theorem plan_13_15 : plan 32 1 [13, 15] = infos [(1, 12), (13, 2)] := by decide +kernel

theorem plan_14_15 : plan 32 1 [14, 15] = infos [(1, 13), (14, 1)] := by decide +kernel

theorem plan_row : plan 32 1 (List.range' 2 14) = infos
    [(1, 1), (2, 1), (3, 1), (4, 1), (5, 1), (6, 1), (7, 1), (8, 1), (9, 1), (10, 1), (11, 1),
    (12, 1), (13, 1), (14, 1)] := by
  decide +kernel

/-! ### the walks -/

theorem test_15_run : runN 0
    248645677777923958561442786042544014908375049343271925740951650813080574068584825494372675303861863 41 0 0
    [(1, 14)]
    0xf8495f7bd18fc02e89d67c08719e54f9b953b78fe765655fc594fe6c101bf5fca006b18261ea256878e3ecb7f30e60c1fc53350c1c38f94ec0cc9a541c07aa22 = true := by
  decide +kernel

theorem test_2_15_run : runN 0
    248645677777923958561442786042544014908375049343271925740951650813080574068584825494372675303861863 41 0 0
    [(1, 1), (2, 13)]
    0x9fc08238ee21e34c2404ca59d0f19d2dbf6f3a6d3ddf2eaded214d1487a162288435d206fcc032ca82df75463666764acd8c1c9f7eadac871c5e796b99a3f49e = true := by
  decide +kernel

theorem test_3_15_run : runN 0
    248645677777923958561442786042544014908375049343271925740951650813080574068584825494372675303861863 41 0 0
    [(1, 2), (3, 12)]
    0xcc7db4b69251db241b4d8183b1cb448e47c9854c8655f8aef9c968a38d1d1fcbc41f9a3df64faa48f9b9b8fdef0115c772b08197eb8c7d3e131fa4c028e7e2cd = true := by
  decide +kernel

theorem test_4_15_run : runN 0
    248645677777923958561442786042544014908375049343271925740951650813080574068584825494372675303861863 41 0 0
    [(1, 3), (4, 11)]
    0xd3da90a484bf0be1ed008d13e85db3c73fee667ed151f3060f39a586af9158cec2db1f764a8a3ec01f6453ed604bc688c3fa612fa8d168d7a0c857659c09db80 = true := by
  decide +kernel

theorem test_5_15_run : runN 0
    248645677777923958561442786042544014908375049343271925740951650813080574068584825494372675303861863 41 0 0
    [(1, 4), (5, 10)]
    0xa62013522d011c949daddef1e8c8f08a66b09be23566864023d3be5ef7d0d18ba3fd7ce0fa839d5b77acafffdddb2822b6d24e82d4b5b1fc57b6b0d7859ca20e = true := by
  decide +kernel

theorem test_6_15_run : runN 0
    248645677777923958561442786042544014908375049343271925740951650813080574068584825494372675303861863 41 0 0
    [(1, 5), (6, 9)]
    0x0b8627db2ab0e69c871c35531c87842f62986cdd78096b0a0a64ed10c93a8a44302ab3318fc3bfa7fa9f0c7260a147a30a946aefa7e151eca49aaa03d8924106 = true := by
  decide +kernel

theorem test_7_15_run : runN 0
    248645677777923958561442786042544014908375049343271925740951650813080574068584825494372675303861863 41 0 0
    [(1, 6), (7, 8)]
    0x07cae1c934673f66430f15bc56cf1e9658738e1814b63efede124d94180d70dc3900e0a32515c4287760584d6803f3900d213703c8e44a26ce36e017d5f97f9f = true := by
  decide +kernel

theorem test_8_15_run : runN 0
    248645677777923958561442786042544014908375049343271925740951650813080574068584825494372675303861863 41 0 0
    [(1, 7), (8, 7)]
    0x2bb37b182b1549656167a5e37d27b4a2f1f9de1e38132a15eb7cb0ad711fbee1269c5b8814b6d76a8b2745eb0168393fbd56b4570650f1d1ef34cc33d3c85cd5 = true := by
  decide +kernel

theorem test_9_15_run : runN 0
    248645677777923958561442786042544014908375049343271925740951650813080574068584825494372675303861863 41 0 0
    [(1, 8), (9, 6)]
    0xf3a7580a571cda4726f3c6e538bbb339c39c8d5ec540ae54e514ebd1934d1953477b5b17a01289a69e16ea41a3967be674faaba2ee07aba56e31e5a920d7d453 = true := by
  decide +kernel

theorem test_10_15_run : runN 0
    248645677777923958561442786042544014908375049343271925740951650813080574068584825494372675303861863 41 0 0
    [(1, 9), (10, 5)]
    0x0aeae91cd30ff7b856a69c058b26a94c6bdbe8e8587bc3697b4653901b562f4a691365007253d235113f3f39bb921a0932f53b55aba0a726594e3aa71e44d4f2 = true := by
  decide +kernel

theorem test_11_15_run : runN 0
    248645677777923958561442786042544014908375049343271925740951650813080574068584825494372675303861863 41 0 0
    [(1, 10), (11, 4)]
    0x1e56d0bc4269579c190ea75b6196c0b660e6b2010edad31070870fcc13facb95b2e5c806108008eca70b3a1382090b3452fefcc1bd4eff887fa4a7e7e956d5ba = true := by
  decide +kernel

theorem test_12_15_run : runN 0
    248645677777923958561442786042544014908375049343271925740951650813080574068584825494372675303861863 41 0 0
    [(1, 11), (12, 3)]
    0x7b79758160258b45ce96cb710fb7ed2697a5ca6f33cab1d2a17caab53dfb900683cf7be122894e927608b7bd4ff711d61a38afa1257eb8e2926f5f95ff82933c = true := by
  decide +kernel

theorem test_13_15_run : runN 0
    248645677777923958561442786042544014908375049343271925740951650813080574068584825494372675303861863 41 0 0
    [(1, 12), (13, 2)]
    0xff4598008eb2505a45abcbeeae1d821c1c96f299343e556cc5f0b1668c4ca8d82ee67f6ded14ff75b96dbd4e4ab0e317235d110b4bc27183e0a6a62dd22ebdd9 = true := by
  decide +kernel

theorem test_14_15_run : runN 0
    248645677777923958561442786042544014908375049343271925740951650813080574068584825494372675303861863 41 0 0
    [(1, 13), (14, 1)]
    0x87a45401326688a1f3289a9146612628660f98963e25225617916cb438fc964472c761ac62dc752f46e1946be65df36a3cfb26fc0bf8e96ba38c577a943d6a28 = true := by
  decide +kernel

theorem test_row_run : runN 0
    248645677777923958561442786042544014908375049343271925740951650813080574068584825494372675303861863 41 0 0
    [(1, 1), (2, 1), (3, 1), (4, 1), (5, 1), (6, 1), (7, 1), (8, 1), (9, 1), (10, 1), (11, 1),
    (12, 1), (13, 1), (14, 1)]
    0x5967954c9209f48a838c2899756d23b76cc8a87c1346db4f5f42b305ecc74e8357ff472e3d35c4e8d46f2fc601c0172ace39f14ca6ddd8f60011a4490bf6c291 = true := by
  decide +kernel

theorem api_15_run : runN 0
    4586703183003413535316733553681294696980720430063449546784794331652683951783393660407900278420238016438590880222899815 49 0 0
    [(1, 14)]
    0x7833bd423a433152eb2d09bac39fc6f6e184cc32ab66735457008daec28719011ae5a98e62bd75fcd146c0e7434f473d4166c50722a71d1ae986a61a0bf82b0e = true := by
  decide +kernel

theorem api_row_run : runN 0
    4586703183003413535316733553681294696980720430063449546784794331652683951783393660407900278420238016438590880222899815 49 0 0
    [(1, 1), (2, 1), (3, 1), (4, 1), (5, 1), (6, 1), (7, 1), (8, 1), (9, 1), (10, 1), (11, 1),
    (12, 1), (13, 1), (14, 1)]
    0x1b70e861b4848f01cfef1f28f0eb1ec7f289d18d06e8261a22eb91f91827935eb2921081a1b52713b5bada9278b89ffb2f81c92b11d4118f4c4d97c41cc1ca07 = true := by
  decide +kernel

theorem ffi_15_run : runN 0
    180294092628454835924802091445118347241088504627859037102646319362769542843604327893637888521891431 41 180294092628454835924802091445118347241088504627859037102646319362769542843604327893637888521891431 41
    [(1, 14)]
    0x2ae3e54ee0d346fdbb762699750fde303227f07b61706f3160fcb412c33183faac47bc9e647f7fc92b3101529b65dab36a16ee95325ad68e72e981559c043b0f = true := by
  decide +kernel

theorem test_15 : Runs sha512 32 testSeed 0 [(15, [])] := by
  refine runs_of (useed := []) (by rw [testSeed_length]; omega) (by simp) [15] plan_15 (f := 0xf8495f7bd18fc02e89d67c08719e54f9b953b78fe765655fc594fe6c101bf5fca006b18261ea256878e3ecb7f30e60c1fc53350c1c38f94ec0cc9a541c07aa22) ?_
  rw [testSeed_num, testSeed_length]
  exact test_15_run

theorem test_two : ∀ j, 2 ≤ j → j < 15 → Runs sha512 32 testSeed 0 [(j, []), (15, [])] := by
  intro j h1 h2
  have key := fun {ts : List Nat} {l : List (Nat × Nat)} {f : Nat} (hl : plan 32 1 ts = infos l)
    (h : runN 0 (beNat testSeed) testSeed.length 0 0 l f = true) =>
    runs_of (seed := testSeed) (useed := []) (by rw [testSeed_length]; omega) (by simp) ts hl h
  rw [testSeed_num, testSeed_length] at key
  have hj : j = 2 ∨ j = 3 ∨ j = 4 ∨ j = 5 ∨ j = 6 ∨ j = 7 ∨ j = 8 ∨ j = 9 ∨ j = 10 ∨ j = 11 ∨ j = 12 ∨ j = 13 ∨ j = 14 := by
    omega
  rcases hj with rfl | rfl | rfl | rfl | rfl | rfl | rfl | rfl | rfl | rfl | rfl | rfl | rfl
  · exact key plan_2_15 test_2_15_run
  · exact key plan_3_15 test_3_15_run
  · exact key plan_4_15 test_4_15_run
  · exact key plan_5_15 test_5_15_run
  · exact key plan_6_15 test_6_15_run
  · exact key plan_7_15 test_7_15_run
  · exact key plan_8_15 test_8_15_run
  · exact key plan_9_15 test_9_15_run
  · exact key plan_10_15 test_10_15_run
  · exact key plan_11_15 test_11_15_run
  · exact key plan_12_15 test_12_15_run
  · exact key plan_13_15 test_13_15_run
  · exact key plan_14_15 test_14_15_run

theorem test_row : InARow sha512 32 testSeed 0 [] 16 := by
  refine runs_of (useed := []) (by rw [testSeed_length]; omega) (by simp) (List.range' 2 14) plan_row (f := 0x5967954c9209f48a838c2899756d23b76cc8a87c1346db4f5f42b305ecc74e8357ff472e3d35c4e8d46f2fc601c0172ace39f14ca6ddd8f60011a4490bf6c291) ?_
  rw [testSeed_num, testSeed_length]
  exact test_row_run

theorem api_15 : Runs sha512 32 apiSeed 0 [(15, [])] := by
  refine runs_of (useed := []) (by rw [apiSeed_length]; omega) (by simp) [15] plan_15 (f := 0x7833bd423a433152eb2d09bac39fc6f6e184cc32ab66735457008daec28719011ae5a98e62bd75fcd146c0e7434f473d4166c50722a71d1ae986a61a0bf82b0e) ?_
  rw [apiSeed_num, apiSeed_length]
  exact api_15_run

theorem api_row : InARow sha512 32 apiSeed 0 [] 16 := by
  refine runs_of (useed := []) (by rw [apiSeed_length]; omega) (by simp) (List.range' 2 14) plan_row (f := 0x1b70e861b4848f01cfef1f28f0eb1ec7f289d18d06e8261a22eb91f91827935eb2921081a1b52713b5bada9278b89ffb2f81c92b11d4118f4c4d97c41cc1ca07) ?_
  rw [apiSeed_num, apiSeed_length]
  exact api_row_run

theorem ffi_15 : Runs sha512 32 ffiSeed 0 [(15, ffiSeed)] := by
  refine runs_of (useed := ffiSeed) (by rw [ffiSeed_length]; omega) (by rw [ffiSeed_length]; omega) [15] plan_15 (f := 0x2ae3e54ee0d346fdbb762699750fde303227f07b61706f3160fcb412c33183faac47bc9e647f7fc92b3101529b65dab36a16ee95325ad68e72e981559c043b0f) ?_
  rw [ffiSeed_num, ffiSeed_length]
  exact ffi_15_run

theorem aggSeeds_num : aggSeeds.map beNat = (List.range 10).map (fun i =>
    Nat.add 4171582243546630284360374893077546127625028411842731244891905891247628416552646431641397158070756111819568 i) := by
  decide +kernel

theorem aggSeeds_length : ∀ s ∈ aggSeeds, s.length = 44 := by decide +kernel

theorem agg_0_run : runN 0
    4171582243546630284360374893077546127625028411842731244891905891247628416552646431641397158070756111819568
    44 0 0 [(1, 14)]
    0x27d4304ba6a0503eb747df916f10d012814007b8812313380e0f7ed5aaa9eab73c8dbd1ab68fcb27aa3b0a8ec648398ff5ab41a65cb6ae772c752b94937ddf82 = true := by
  decide +kernel

theorem agg_1_run : runN 0
    4171582243546630284360374893077546127625028411842731244891905891247628416552646431641397158070756111819569
    44 0 0 [(1, 14)]
    0xde48c18cdac66626578127a3544d798324fb9d6f00d81b8d253482b1891a2ea3b56ba4dba39b44ed4923daebb661366475861f290642d5273e27dc29c8d279cc = true := by
  decide +kernel

theorem agg_2_run : runN 0
    4171582243546630284360374893077546127625028411842731244891905891247628416552646431641397158070756111819570
    44 0 0 [(1, 14)]
    0xa1fbd40c180b88f3cef104d402cf1aa604595b9b1bc1c766a01692581ba0ff73e9fca4e5926b57fe141d564d42c71f2a534c1379312650a6bac374d9186244be = true := by
  decide +kernel

theorem agg_3_run : runN 0
    4171582243546630284360374893077546127625028411842731244891905891247628416552646431641397158070756111819571
    44 0 0 [(1, 14)]
    0x75d8d28dc160861f3c973c504e60670c19a00f53490a754b4bf3692cae5758088fe0f9ebf307e09837a2d00d8828132d16602ea54a1d8a037ca53c82f0458373 = true := by
  decide +kernel

theorem agg_4_run : runN 0
    4171582243546630284360374893077546127625028411842731244891905891247628416552646431641397158070756111819572
    44 0 0 [(1, 14)]
    0x187695604375c1428fc7ec4e3bc64468a8284b9c6bfa93237996360b156a76edff5530a917db2c83c66fb1415cdb69079339107ced1e3cf9cb0a6bc97cf534d3 = true := by
  decide +kernel

theorem agg_5_run : runN 0
    4171582243546630284360374893077546127625028411842731244891905891247628416552646431641397158070756111819573
    44 0 0 [(1, 14)]
    0x814a4074e677019cabb101204a771b3910d95e36df146ed443895d671d91d4c1525f82fbed69dfa473db9d3e34cf3bdb1d7ef927cf3751e8dc87cffba6b5e6bd = true := by
  decide +kernel

theorem agg_6_run : runN 0
    4171582243546630284360374893077546127625028411842731244891905891247628416552646431641397158070756111819574
    44 0 0 [(1, 14)]
    0x91131a119b0eee227cdd8594a43fac40247c52dd035bdf641fe85d5de212f70b55da23265f967a0fd29fce6bc895f343fde529a29e1ce05eddc67a739e59ee63 = true := by
  decide +kernel

theorem agg_7_run : runN 0
    4171582243546630284360374893077546127625028411842731244891905891247628416552646431641397158070756111819575
    44 0 0 [(1, 14)]
    0x4167e7dbedcde48c3a4a2318558755b7a6cc59d99e098264e7d6a53e1069e7aa777e7359a253f35aec55b8b00023c3f7cb65a23cd79c5ce3cb968fe627ec6abb = true := by
  decide +kernel

theorem agg_8_run : runN 0
    4171582243546630284360374893077546127625028411842731244891905891247628416552646431641397158070756111819576
    44 0 0 [(1, 14)]
    0x7c86a0e4fd0be58d9b35379e5bc80b41d1bae484563201068174716676d166969bbec1773697017984b349eecd8989df3f9848fdaf191e72982b7e2b515d7bf6 = true := by
  decide +kernel

theorem agg_9_run : runN 0
    4171582243546630284360374893077546127625028411842731244891905891247628416552646431641397158070756111819577
    44 0 0 [(1, 14)]
    0x1132ac85f6a7572ea634f7e7a0385262b2e305ee6641bfe3aa9cbdd2b287d97be98f739b2dab75c49c36f05eff389213fe501ccc585fb525c0ca3286c03d4dd9 = true := by
  decide +kernel

theorem agg_run : ∀ n ∈ aggSeeds.map beNat, ∃ f, runN 0 n 44 0 0 [(1, 14)] f = true := by
  rw [aggSeeds_num]
  intro n hn
  obtain ⟨i, hi, rfl⟩ := List.mem_map.1 hn
  have hj : i = 0 ∨ i = 1 ∨ i = 2 ∨ i = 3 ∨ i = 4 ∨ i = 5 ∨ i = 6 ∨ i = 7 ∨ i = 8 ∨ i = 9 := by
    have := List.mem_range.1 hi
    omega
  rcases hj with rfl | rfl | rfl | rfl | rfl | rfl | rfl | rfl | rfl | rfl
  · exact ⟨_, agg_0_run⟩
  · exact ⟨_, agg_1_run⟩
  · exact ⟨_, agg_2_run⟩
  · exact ⟨_, agg_3_run⟩
  · exact ⟨_, agg_4_run⟩
  · exact ⟨_, agg_5_run⟩
  · exact ⟨_, agg_6_run⟩
  · exact ⟨_, agg_7_run⟩
  · exact ⟨_, agg_8_run⟩
  · exact ⟨_, agg_9_run⟩

theorem agg_15 : ∀ s ∈ aggSeeds, Runs sha512 32 s 0 [(15, [])] := by
  intro s hs
  obtain ⟨f, hf⟩ := agg_run (beNat s) (List.mem_map.2 ⟨s, hs, rfl⟩)
  have hl := aggSeeds_length s hs
  refine runs_of (useed := []) (by rw [hl]; omega) (by simp) [15] plan_15 (f := f) ?_
  rw [hl]
  exact hf

end Pixel.Fast
