import Verif.Proof.Hkdf
import Verif.Kat
import Verif.Props.Prng

/-!
# C73: HKDF as in RFC 5869
-/

namespace Pixel.Props

open Pixel Pixel.Spec

variable {sha : Bytes → Bytes}

/-- C73: `hmac` is that of RFC 2104. -/
theorem C73_hmac (h : ∀ m, (sha m).length = 64) (K m : Bytes) :
    hmac sha K m = Rfc.HMAC sha K m ∧ hkdfExtract sha K m = Rfc.extract sha K m :=
  ⟨Hkdf.hmac_eq h K m, Hkdf.hmac_eq h K m⟩

/-- C73: `expand` gives the output key material of RFC 5869, of any length that is allowed there, and an
error for the others. -/
theorem C73_expand (h : ∀ m, (sha m).length = 64) (prk info : Bytes) (L : Nat) :
    (∀ o, hkdfExpand sha prk info L = some o ↔ Rfc.Expand sha prk info L o) ∧
    (hkdfExpand sha prk info L = none ↔ 255 * 64 < L) := by
  refine ⟨fun o => Hkdf.expand_some h, ?_⟩
  unfold hkdfExpand
  split <;> simp <;> omega

/-- C73: a shorter output is the beginning of a longer one (the reason why `sample` and
`sample_then_update` draw the same number). -/
theorem C73_expand_prefix (h : ∀ m, (sha m).length = 64) {prk info o o' : Bytes} {L L' : Nat}
    (ho : hkdfExpand sha prk info L = some o) (ho' : hkdfExpand sha prk info L' = some o')
    (hL : L ≤ L') : o <+: o' := by
  obtain ⟨-, h2, N, h3, h4, h5⟩ := (Hkdf.expand_some h).1 ho
  obtain ⟨-, g2, M, g3, g4, g5⟩ := (Hkdf.expand_some h).1 ho'
  have hNM : N ≤ M := by omega
  refine List.prefix_of_prefix_length_le (h5.trans ?_) g5 (by omega)
  obtain ⟨k, rfl⟩ := Nat.exists_eq_add_of_le hNM
  rw [List.range_add, List.map_append, List.flatten_append]
  exact List.prefix_append _ _

/-- C73: key blocks: two keys that fit in a block give the same HMAC key if and only if they differ
in zeros at the end.  In particular the states of the PRNG, all of the same length, are kept apart. -/
theorem C73_key_blocks {K K' : Bytes} (hK : K.length ≤ 128) (hl : K.length ≤ K'.length)
    (hK' : K'.length ≤ 128) :
    hmacKey sha K = hmacKey sha K' ↔ K' = K ++ List.replicate (K'.length - K.length) 0 := by
  unfold hmacKey
  rw [if_neg (by omega), if_neg (by omega)]
  obtain ⟨k, hk⟩ := Nat.exists_eq_add_of_le hl
  have e : List.replicate (128 - K.length) (0 : UInt8) =
      List.replicate k 0 ++ List.replicate (128 - K'.length) 0 := by
    rw [List.replicate_append_replicate]; congr 1; omega
  simp only
  rw [e, ← List.append_assoc, List.append_left_inj, show K'.length - K.length = k by omega]
  exact eq_comm

/-- C73: the four functions of the PRNG in terms of the RFC.  Each leaves 64 bytes of state and none
of them fails; numbers are read big endian, modulo the group order. -/
theorem C73_prng (h : ∀ m, (sha m).length = 64) (p : Prng) (seed salt info : Bytes) :
    Prng.init sha seed salt = .ok { seed := Rfc.extract sha salt seed } ∧
    (∃ o x, Rfc.Expand sha p.seed info 64 o ∧ Prng.sample sha info p = (.ok x, p) ∧
      x = ((Nat.ofDigits 256 (o.map UInt8.toNat).reverse : Nat) : Fr)) ∧
    (∃ o s x, Rfc.Expand sha p.seed info 128 (o ++ s) ∧ o.length = 64 ∧ s.length = 64 ∧
      Prng.sampleThenUpdate sha info p = (.ok x, { seed := s }) ∧
      x = ((Nat.ofDigits 256 (o.map UInt8.toNat).reverse : Nat) : Fr)) ∧
    (∃ m₁ m₂, Rfc.Expand sha p.seed info 128 (m₁ ++ m₂) ∧ m₁.length = 64 ∧ m₂.length = 64 ∧
      Prng.rerandomize sha seed info p =
        (.ok (), { seed := Rfc.extract sha m₂ (m₁ ++ seed) })) := by
  have e64 : Rfc.Expand sha p.seed info 64 (okm1 sha p.seed info) := by
    have e := expandAsserted_64 h p.seed info
    unfold expandAsserted at e
    split at e
    · cases e
    · rename_i o ho
      cases Res.ok.inj e
      exact (Hkdf.expand_some h).1 ho
  have e128 : Rfc.Expand sha p.seed info 128 (okm1 sha p.seed info ++ okm2 sha p.seed info) := by
    have e := expandAsserted_128 h p.seed info
    unfold expandAsserted at e
    split at e
    · cases e
    · rename_i o ho
      rw [← Res.ok.inj e]
      exact (Hkdf.expand_some h).1 ho
  refine ⟨?_, ⟨_, _, e64, sample_eq h info p, ?_⟩,
    ⟨_, _, _, e128, okm1_length h _ _, okm2_length h _ _, sampleThenUpdate_eq h info p, ?_⟩,
    ⟨_, _, e128, okm1_length h _ _, okm2_length h _ _, ?_⟩⟩
  · rw [init_prng_eq h, Hkdf.hmac_eq h]
    rfl
  · rw [← beNat_eq_ofDigits]; rfl
  · rw [← beNat_eq_ofDigits]; rfl
  · rw [rerandomize_eq h, mixed, Hkdf.hmac_eq h]
    rfl

/-! ### concrete cases -/

open Sha512 in
/-- C73: test cases 1, 2, 3 and 6 of RFC 4231 (the last one with a key longer than a block) -/
theorem C73_rfc4231 :
    hmac sha512 (List.replicate 20 0x0b) (ascii "Hi There") = natToBE 64
      0x87aa7cdea5ef619d4ff0b4241a1d6cb02379f4e2ce4ec2787ad0b30545e17cdedaa833b7d6b8a702038b274eaea3f4e4be9d914eeb61f1702e696c203a126854 ∧
    hmac sha512 (ascii "Jefe") (ascii "what do ya want for nothing?") = natToBE 64
      0x164b7a7bfcf819e2e395fbe73b56e0a387bd64222e831fd610270cd7ea2505549758bf75c05a994a6d034f65f8f0e6fdcaeab1a34d4a6b4b636e070a38bce737 ∧
    hmac sha512 (List.replicate 20 0xaa) (List.replicate 50 0xdd) = natToBE 64
      0xfa73b0089d56a284efb0f0756c890be9b1b5dbdd8ee81a3655f83e33b2279d39bf3e848279a722c806b485a47e67c807b946a337bee8942674278859e13292fb ∧
    hmac sha512 (List.replicate 131 0xaa)
        (ascii "Test Using Larger Than Block-Size Key - Hash Key First") = natToBE 64
      0x80b24263c7c1a3ebb71493c1dd7be8b49b46d1f41b4aeec1121b013783f8f3526b56d037e05f2598bd0fd2215d6a1e5295e64f73f63f0aec8b915a985d786598 := by
  decide +kernel

/-- C73: SHA-512 has the output length the theorems ask for; 65 bytes of output need two blocks -/
example : (∀ m, (Sha512.sha512 m).length = 64) ∧
    (∃ o, hkdfExpand Sha512.sha512 [1] [2] 65 = some o ∧ Rfc.Expand Sha512.sha512 [1] [2] 65 o) := by
  refine ⟨Kat.sha512_length, ?_⟩
  rcases ho : hkdfExpand Sha512.sha512 [1] [2] 65 with _ | o
  · have := (C73_expand Kat.sha512_length [1] [2] 65).2.1 ho
    omega
  · exact ⟨o, rfl, (Hkdf.expand_some Kat.sha512_length).1 ho⟩

/-- C73: a key and the same key with a zero after it are one HMAC key -/
example : hmacKey id [1, 2] = hmacKey id [1, 2, 0] ∧ hmacKey id [1, 2] ≠ hmacKey id [1, 2, 3] := by
  decide +kernel

end Pixel.Props
