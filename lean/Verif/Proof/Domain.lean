import Verif.Proof.Prng
import Verif.Spec.Domain
import Verif.Model.Sig

/-! # Lemmas about the derivation strings -/

namespace Pixel

open Spec

theorem timeBytes_eq (t : Nat) : timeBytes t = be32 t := by
  have e : (0xFF : Nat) = 2 ^ 8 - 1 := rfl
  have hm : ∀ n, UInt8.ofNat (n % 2 ^ 8) = UInt8.ofNat n := by
    intro n
    apply UInt8.toNat_inj.1
    simp
  simp only [timeBytes, be32, e, Nat.and_two_pow_sub_one_eq_mod, Nat.shiftRight_eq_div_pow, hm]

theorem beNat_be32 (t : Nat) : beNat (be32 t) = t % 2 ^ 32 := by
  simp only [be32, beNat, List.foldl_cons, List.foldl_nil, UInt8.toNat_ofNat']
  omega

theorem be32_length (t : Nat) : (be32 t).length = 4 := rfl

theorem timeBytes_length (t : Nat) : (timeBytes t).length = 4 := rfl

theorem beNat_timeBytes (t : Nat) : beNat (timeBytes t) = t % 2 ^ 32 := by
  rw [timeBytes_eq, beNat_be32]

theorem timeBytes_mod {s t : Nat} (h : s % 2 ^ 32 = t % 2 ^ 32) : timeBytes s = timeBytes t := by
  simp only [timeBytes_eq, be32]
  have h1 : UInt8.ofNat (s / 2 ^ 24) = UInt8.ofNat (t / 2 ^ 24) := by
    apply UInt8.toNat_inj.1; simp only [UInt8.toNat_ofNat']; omega
  have h2 : UInt8.ofNat (s / 2 ^ 16) = UInt8.ofNat (t / 2 ^ 16) := by
    apply UInt8.toNat_inj.1; simp only [UInt8.toNat_ofNat']; omega
  have h3 : UInt8.ofNat (s / 2 ^ 8) = UInt8.ofNat (t / 2 ^ 8) := by
    apply UInt8.toNat_inj.1; simp only [UInt8.toNat_ofNat']; omega
  have h4 : UInt8.ofNat s = UInt8.ofNat t := by
    apply UInt8.toNat_inj.1; simp only [UInt8.toNat_ofNat']; omega
  rw [h1, h2, h3, h4]

theorem timeBytes_inj {s t : Nat} (h : timeBytes s = timeBytes t) : s % 2 ^ 32 = t % 2 ^ 32 := by
  rw [← beNat_timeBytes, h, beNat_timeBytes]

theorem text_sig : DOM_SEP_SIG = text "Pixel randomness for signing" := by decide +kernel
theorem text_update : DOM_SEP_SK_UPDATE = text "Pixel secret key update" := by decide +kernel
theorem text_init : DOM_SEP_SK_INIT = text "Pixel secret key init" := by decide +kernel
theorem text_reseed : DOM_SEP_SK_RERANDOMIZE_INFO = text "Pixel secret key rerandomize expand" := by
  decide +kernel
theorem text_master : ascii "key initialization" = text "key initialization" := by decide +kernel

theorem signInfo_for (msg : Bytes) (t : Nat) : InfoFor .signing (signInfo msg t) := by
  rw [signInfo, timeBytes_eq, text_sig]; exact .signing msg t

theorem update_for : InfoFor .keyUpdate DOM_SEP_SK_UPDATE := by rw [text_update]; exact .keyUpdate

theorem reseed_for (t : Nat) : InfoFor .reseed (DOM_SEP_SK_RERANDOMIZE_INFO ++ timeBytes t) := by
  rw [text_reseed, timeBytes_eq]; exact .reseed t

theorem init_for : InfoFor .keyInit (DOM_SEP_SK_INIT ++ [0, 0, 0, 1]) := by
  rw [text_init]; exact .keyInit

theorem master_for : InfoFor .masterKey (ascii "key initialization") := by
  rw [text_master]; exact .masterKey

/-- two characters that tell the purposes apart -/
def Spec.Purpose.tag : Purpose → Option UInt8 × Option UInt8
  | .masterKey => (some 105, some 110)
  | .keyInit => (some 115, some 105)
  | .signing => (some 114, some 102)
  | .keyUpdate => (some 115, some 117)
  | .reseed => (some 115, some 114)

theorem tag_of_append {a b : Bytes} (h : 17 < a.length) :
    (((a ++ b)[6]?, (a ++ b)[17]?) : Option UInt8 × Option UInt8) = (a[6]?, a[17]?) := by
  rw [List.getElem?_append_left (by omega), List.getElem?_append_left h]

theorem infoFor_tag {p : Purpose} {b : Bytes} (h : InfoFor p b) :
    (b[6]?, b[17]?) = p.tag := by
  cases h with
  | masterKey => decide +kernel
  | keyInit => decide +kernel
  | signing msg t =>
    rw [List.append_assoc, tag_of_append (by decide +kernel)]
    decide +kernel
  | keyUpdate => decide +kernel
  | reseed t =>
    rw [tag_of_append (by decide +kernel)]
    decide +kernel

theorem tag_prefix {a b c : Bytes} {p : Purpose} (h : a = b ++ c) (hb : (b[6]?, b[17]?) = p.tag) :
    (a[6]?, a[17]?) = p.tag := by
  have hl : 17 < b.length := by
    by_contra hc
    have h1 : b[17]? = none := List.getElem?_eq_none (by omega)
    rw [h1] at hb
    cases p <;> simp [Purpose.tag] at hb
  rw [h, tag_of_append hl, hb]

theorem tag_inj {p q : Purpose} (h : p.tag = q.tag) : p = q := by
  cases p <;> cases q <;> first | rfl | (simp [Purpose.tag] at h)

end Pixel
