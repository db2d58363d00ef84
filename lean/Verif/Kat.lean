import Verif.Sha512
import Verif.Proof.Prng
import Verif.Spec.Laws

/-!
# Known-answer tests

The test vectors of `/repo/src/test/prng.rs` (which its authors compared with a Python
implementation), replayed on the model with the concrete SHA-512.  They check the reading of
`hkdf`, `hmac` and `os2ip_mod_p` that the model rests on.
-/

namespace Pixel.Kat

open Pixel Pixel.Sha512

/-- the three PRNG states of the test -/
def seed1 : Bytes := natToBE 64
  0xde08dee9f271a6a061f0c76b10b0e4a7107da1eb849f7e46d480f3ab935bd563297516348f3a04437e9984808adeabc5408f78c0667dd0157c6ecbf7a74b69b7
/-- see `seed1` -/
def seed2 : Bytes := natToBE 64
  0x41fa662776b3ff97541fdaf8b1fadaef551531cbb62b23281eedc037a77776b2ec3fe2a33ade722176962b9c4f313cb5e6cd177f3340a40f587c121d07fe5769
/-- see `seed1` -/
def seed3 : Bytes := natToBE 64
  0x1a70b782dd2a334acaaea14f050296392b212a99bc230f6b6b5ffeeceeeb4b23264f09a0eac1fd1839540998e6b2c654925170e770622a54cb6dfcec289a0984

/-- FIPS 180-4 example "abc" -/
theorem sha_abc : sha512 (ascii "abc") = natToBE 64
    0xddaf35a193617abacc417349ae20413112e6fa4e89a97ea20a9eeee64b55d39a2192992a274fc1a836ba3c23a3feebbd454d4423643ce80e2a9ac94fa54ca49f := by
  decide +kernel

/-- `/repo/src/test/prng.rs` 17-55 -/
theorem kat_os2ip : os2ipModP [0, 0] = .ok 0 ∧ os2ipModP [0, 1] = .ok 1 ∧
    os2ipModP [0, 0xff] = .ok 255 ∧ os2ipModP [1, 0] = .ok 256 ∧
    os2ipModP [0xff, 0xff] = .ok 65535 ∧
    os2ipModP (1 :: List.replicate 16 0) = .ok (340282366920938463463374607431768211456 : Nat) ∧
    os2ipModP (1 :: List.replicate 32 0) = .ok
      (10920338887063814464675503992315976177888879664585288394250266608035967270910 : Nat) ∧
    os2ipModP (1 :: List.replicate 48 0) = .ok
      (20690987792304517493546419304065979215229097455316523017309531943206242971949 : Nat) := by
  decide +kernel

/-- `/repo/src/test/prng.rs` 65-77 -/
theorem kat_init : Prng.init sha512 (ascii "seed") (ascii "salt") = .ok { seed := seed1 } := by
  decide +kernel

/-- `/repo/src/test/prng.rs` 79-98 -/
theorem kat_sample_then_update :
    Prng.sampleThenUpdate sha512 (ascii "info") { seed := seed1 } =
      (.ok (43319743699496810973708981086850604276149960407194162211265932872777355818354 : Nat),
        { seed := seed2 }) := by
  decide +kernel

/-- `/repo/src/test/prng.rs` 100-110 -/
theorem kat_sample : Prng.sample sha512 (ascii "info") { seed := seed2 } =
    (.ok (22074932395097706468768456200905687926580984780754047608537081666156889203804 : Nat),
      { seed := seed2 }) := by
  decide +kernel

/-- `/repo/src/test/prng.rs` 112-133 -/
theorem kat_rerandomize :
    (do Prng.rerandomize sha512 (ascii "seed") (ascii "info")
        Prng.sampleThenUpdate sha512 (ascii "info")).run { seed := seed2 } =
      (.ok (48069835158087822550484484210577332719983619747502722069618962092332582181716 : Nat),
        { seed := seed3 }) := by
  decide +kernel

/-! ## The concrete hash has the assumed output length -/

theorem rounds_cont (ks w : List Nat) (a b c d e f g h : Nat) (cont : List Nat → List Nat) :
    ∃ r : List Nat, r.length = 8 ∧ rounds ks w a b c d e f g h cont = cont r := by
  induction ks generalizing w a b c d e f g h with
  | nil => exact ⟨_, rfl, rfl⟩
  | cons k ks ih =>
    rw [rounds]
    simp only [force_eq]
    exact ih _ _ _ _ _ _ _ _ _

theorem compress_length {st w : List Nat} (h : st.length = 8) : (compress st w).length = 8 := by
  unfold compress
  obtain ⟨r, hr, he⟩ := rounds_cont K w (st.getD 0 0) (st.getD 1 0) (st.getD 2 0) (st.getD 3 0)
    (st.getD 4 0) (st.getD 5 0) (st.getD 6 0) (st.getD 7 0)
    fun r => List.zipWith (fun x y => (x + y) % 2 ^ 64) st r
  rw [he, List.length_zipWith, h, hr]
  rfl

theorem blocks_length (n : Nat) (b : Bytes) {st : List Nat} (h : st.length = 8) :
    (blocks n b st).length = 8 := by
  induction n generalizing b st with
  | zero => exact h
  | succ n ih => exact ih _ (compress_length h)

/-- `HashLaws` holds for the function the code uses. -/
theorem sha512_length (m : Bytes) : (sha512 m).length = 64 := by
  unfold sha512
  have h := blocks_length ((pad m).length / 128) (pad m) (st := H0) rfl
  generalize blocks ((pad m).length / 128) (pad m) H0 = l at h
  rw [List.length_flatMap]
  have : (l.map fun x => (natToBE 8 x).length) = List.replicate 8 8 := by
    rw [List.eq_replicate_iff]
    refine ⟨by simpa using h, fun y hy => ?_⟩
    obtain ⟨x, _, rfl⟩ := List.mem_map.1 hy
    exact natToBE_length 8 x
  rw [this]
  rfl

end Pixel.Kat
