import Verif.Fast.Run
import Verif.Spec.Vectors

/-!
# The PRNG states of the keys of the test-vector programs

The seed of `/repo/test_vector/src/main.rs` 18-19, `/repo/pixel-python/test_vector.py` 28 and
`/repo/c_wrapper/test.c` 16, the empty update seed, and the bound 64 of their loops.
-/

namespace Pixel.Fast

open Pixel Pixel.Sha512 Pixel.Spec Pixel.Props

/-- `let seed = "this is a very long seed for pixel tests"` -/
def vectorSeed : Bytes := text "this is a very long seed for pixel tests"

theorem vectorSeed_num : beNat vectorSeed =
    971272178820015463130635882978687558173313828571382672354468884399334015413966391311849250583667 := by
  decide +kernel

theorem vectorSeed_length : vectorSeed.length = 40 := by decide +kernel

theorem seq_plan : plan 32 1 (List.range' 2 62) = infos
    [(1, 1), (2, 1), (3, 1), (4, 1), (5, 1), (6, 1), (7, 1), (8, 1), (9, 1), (10, 1), (11, 1),
    (12, 1), (13, 1), (14, 1), (15, 1), (16, 1), (17, 1), (18, 1), (19, 1), (20, 1), (21, 1),
    (22, 1), (23, 1), (24, 1), (25, 1), (26, 1), (27, 1), (28, 1), (29, 1), (30, 1), (31, 1),
    (32, 0), (33, 0), (34, 1), (35, 0), (36, 0), (37, 1), (38, 1), (39, 0), (40, 0), (41, 1),
    (42, 0), (43, 0), (44, 1), (45, 1), (46, 1), (47, 0), (48, 0), (49, 1), (50, 0), (51, 0),
    (52, 1), (53, 1), (54, 0), (55, 0), (56, 1), (57, 0), (58, 0), (59, 1), (60, 1), (61, 1),
    (62, 1)] := by
  decide +kernel

theorem ff_plan : plan 32 1 ((List.range' 2 62).map tri) = infos
    [(1, 2), (3, 3), (6, 4), (10, 5), (15, 6), (21, 7), (28, 2), (36, 1), (45, 1), (55, 3), (66,
    3), (78, 1), (91, 2), (105, 1), (120, 2), (136, 0), (153, 2), (171, 4), (190, 0), (210, 2),
    (231, 4), (253, 1), (276, 4), (300, 3), (325, 4), (351, 1), (378, 1), (406, 3), (435, 0),
    (465, 2), (496, 0), (528, 6), (561, 1), (595, 1), (630, 2), (666, 2), (703, 3), (741, 2),
    (780, 5), (820, 5), (861, 1), (903, 3), (946, 3), (990, 2), (1035, 5), (1081, 3), (1128, 0),
    (1176, 1), (1225, 3), (1275, 5), (1326, 2), (1378, 0), (1431, 2), (1485, 1), (1540, 6),
    (1596, 1), (1653, 4), (1711, 3), (1770, 4), (1830, 4), (1891, 3), (1953, 2)] := by
  decide +kernel

theorem seq_run : runN 0
    971272178820015463130635882978687558173313828571382672354468884399334015413966391311849250583667 40 0 0
    [(1, 1), (2, 1), (3, 1), (4, 1), (5, 1), (6, 1), (7, 1), (8, 1), (9, 1), (10, 1), (11, 1),
    (12, 1), (13, 1), (14, 1), (15, 1), (16, 1), (17, 1), (18, 1), (19, 1), (20, 1), (21, 1),
    (22, 1), (23, 1), (24, 1), (25, 1), (26, 1), (27, 1), (28, 1), (29, 1), (30, 1), (31, 1),
    (32, 0), (33, 0), (34, 1), (35, 0), (36, 0), (37, 1), (38, 1), (39, 0), (40, 0), (41, 1),
    (42, 0), (43, 0), (44, 1), (45, 1), (46, 1), (47, 0), (48, 0), (49, 1), (50, 0), (51, 0),
    (52, 1), (53, 1), (54, 0), (55, 0), (56, 1), (57, 0), (58, 0), (59, 1), (60, 1), (61, 1),
    (62, 1)]
    0x712bb211763f5b8cb3557ce7aeed4936f15a52e4a5fe9718d8cdcc16672b3b4106cbb40d03b07a246045539f0939fec8b1d8e676682613ef95679965446fab11 = true := by
  decide +kernel

theorem ff_run : runN 0
    971272178820015463130635882978687558173313828571382672354468884399334015413966391311849250583667 40 0 0
    [(1, 2), (3, 3), (6, 4), (10, 5), (15, 6), (21, 7), (28, 2), (36, 1), (45, 1), (55, 3), (66,
    3), (78, 1), (91, 2), (105, 1), (120, 2), (136, 0), (153, 2), (171, 4), (190, 0), (210, 2),
    (231, 4), (253, 1), (276, 4), (300, 3), (325, 4), (351, 1), (378, 1), (406, 3), (435, 0),
    (465, 2), (496, 0), (528, 6), (561, 1), (595, 1), (630, 2), (666, 2), (703, 3), (741, 2),
    (780, 5), (820, 5), (861, 1), (903, 3), (946, 3), (990, 2), (1035, 5), (1081, 3), (1128, 0),
    (1176, 1), (1225, 3), (1275, 5), (1326, 2), (1378, 0), (1431, 2), (1485, 1), (1540, 6),
    (1596, 1), (1653, 4), (1711, 3), (1770, 4), (1830, 4), (1891, 3), (1953, 2)]
    0xfd72ac4beba4f408097787ea34c9826eb27bf86eb4cdc1560c9b73c74953e10aaeea53c38c8eff8c5ce27205fb168c901efefd5ccbfc1863083c88d46995bcb3 = true := by
  decide +kernel

theorem seq_stream : ∃ q, prngStream sha512 32 (firstState sha512 vectorSeed 0) 1
    (sequentialUpdates 64 []) = some q ∧ beNat q.seed =
    0x712bb211763f5b8cb3557ce7aeed4936f15a52e4a5fe9718d8cdcc16672b3b4106cbb40d03b07a246045539f0939fec8b1d8e676682613ef95679965446fab11 := by
  refine runN_eq 0 (useed := []) (by rw [vectorSeed_length]; omega) (by simp) 32 (List.range' 2 62)
    seq_plan ?_
  rw [vectorSeed_num, vectorSeed_length]
  exact seq_run

theorem ff_stream : ∃ q, prngStream sha512 32 (firstState sha512 vectorSeed 0) 1
    (fastForwardUpdates 64 []) = some q ∧ beNat q.seed =
    0xfd72ac4beba4f408097787ea34c9826eb27bf86eb4cdc1560c9b73c74953e10aaeea53c38c8eff8c5ce27205fb168c901efefd5ccbfc1863083c88d46995bcb3 := by
  have h := runN_eq 0 (seed := vectorSeed) (useed := []) (by rw [vectorSeed_length]; omega) (by simp)
    32 ((List.range' 2 62).map tri) ff_plan (by
      rw [vectorSeed_num, vectorSeed_length]
      exact ff_run)
  rw [List.map_map] at h
  exact h

/-- No PRNG state comes back in the test-vector programs. -/
theorem vector_streams : StreamsDefined sha512 vectorSeed [] 0 64 := by
  obtain ⟨q, h1, _⟩ := seq_stream
  obtain ⟨q', h2, _⟩ := ff_stream
  unfold StreamsDefined
  rw [h1, h2]
  exact ⟨rfl, rfl⟩

end Pixel.Fast
