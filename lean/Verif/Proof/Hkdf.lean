import Verif.Proof.Prng
import Verif.Spec.Hkdf

/-! # HMAC and HKDF: the model against the RFCs -/

namespace Pixel.Hkdf

open Pixel Pixel.Spec

variable {sha : Bytes → Bytes}

theorem pad_eq {k : Bytes} (hk : k.length ≤ 128) :
    k ++ List.replicate (128 - k.length) 0 = (List.range 128).map fun i => (k[i]?).getD 0 := by
  refine List.ext_getElem (by simp; omega) fun i h1 h2 => ?_
  rw [List.getElem_map, List.getElem_range]
  rcases Nat.lt_or_ge i k.length with hi | hi
  · rw [List.getElem_append_left hi, List.getElem?_eq_getElem hi]
    rfl
  · rw [List.getElem_append_right hi, List.getElem?_eq_none hi, List.getElem_replicate]
    rfl

theorem hmacKey_eq (h : ∀ m, (sha m).length = 64) (K : Bytes) :
    hmacKey sha K = (List.range 128).map (Rfc.keyByte sha K) := by
  unfold hmacKey Rfc.keyByte
  exact pad_eq (by split; · rw [h]; omega
                   · omega)

theorem hmac_eq (h : ∀ m, (sha m).length = 64) (K m : Bytes) : hmac sha K m = Rfc.HMAC sha K m := by
  unfold hmac Rfc.HMAC
  simp only [hmacKey_eq h, List.map_map, Function.comp_def, UInt8.xor_comm]

theorem blocks_eq (h : ∀ m, (sha m).length = 64) (prk info : Bytes) (n : Nat) : ∀ c,
    hkdfBlocks sha prk info n (c + 1) (Rfc.T sha prk info c) =
      ((List.range' c n).map fun i => Rfc.T sha prk info (i + 1)).flatten := by
  induction n with
  | zero => intro c; rfl
  | succ n ih =>
    intro c
    rw [List.range'_succ, List.map_cons, List.flatten_cons, ← ih (c + 1)]
    rw [hkdfBlocks, hmac_eq h]
    rfl

theorem expand_some {prk info o : Bytes} {L : Nat} (h : ∀ m, (sha m).length = 64) :
    hkdfExpand sha prk info L = some o ↔ Rfc.Expand sha prk info L o := by
  have e := blocks_eq h prk info ((L + 63) / 64) 0
  have hl := hkdfBlocks_length h prk info ((L + 63) / 64) 1 []
  unfold hkdfExpand Rfc.Expand
  split
  · rename_i hL
    exact ⟨fun h => (nomatch h), fun h => absurd h.1 (by omega)⟩
  · rename_i hL
    have hb : hkdfBlocks sha prk info ((L + 63) / 64) 1 [] =
        ((List.range ((L + 63) / 64)).map fun i => Rfc.T sha prk info (i + 1)).flatten := by
      rw [List.range_eq_range']; exact e
    rw [Option.some_inj]
    constructor
    · rintro rfl
      refine ⟨by omega, by rw [List.length_take, hl]; omega, (L + 63) / 64, by omega, by omega, ?_⟩
      rw [← hb]
      exact List.take_prefix _ _
    · rintro ⟨-, h2, N, h3, h4, h5⟩
      obtain rfl : N = (L + 63) / 64 := by omega
      rw [← hb] at h5
      subst h2
      exact (List.prefix_iff_eq_take.1 h5).symm

end Pixel.Hkdf
