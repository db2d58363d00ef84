import Verif.Spec.Laws
import Verif.Proof.Prng
import Mathlib.Algebra.Group.TypeTags.Basic
import Mathlib.Algebra.BigOperators.Group.List.Lemmas

/-!
# A concrete instance of the external interface

Not a cryptographic group: the source groups are `Z/r × Z/3` (so that there *are* points outside
the order-`r` subgroup `Z/r × 0`), the pairing multiplies the first components.  It shows that the
assumptions in `Verif/Spec/Laws.lean` are satisfiable together, and serves in the examples.
-/

namespace Pixel.Toy

open Pixel Pixel.Spec

/-- both source groups -/
abbrev G := ZMod rOrder × ZMod 3

/-- the target group -/
abbrev T := Multiplicative (ZMod rOrder)

/-- Point encoding: a flag byte, 32 bytes, one byte, zero padding up to `len`. -/
def enc (len : Nat) (c : Bool) (a : G) : Bytes :=
  [if c then 1 else 0] ++ natToBE 32 a.1.val ++ [UInt8.ofNat a.2.val] ++ List.replicate (len - 34) 0

/-- inverse of `enc` on encodings -/
def parse (b : Bytes) : G := ((beNat ((b.drop 1).take 32) : Nat), (((b.drop 33).headD 0).toNat : Nat))

/-- Decoder: takes `len` bytes and accepts exactly the encodings of subgroup points. -/
def dec (len : Nat) (c : Bool) : SM Bytes G where
  run inp :=
    let b := inp.take len
    if enc len c (parse b) = b ∧ (parse b).2 = 0 then (.ok (parse b), inp.drop len)
    else (.err .codec, inp)

/-- encoded length of `PixelG1` -/
def len1 (c : Bool) : Nat := if c then 96 else 192

/-- encoded length of `PixelG2` -/
def len2 (c : Bool) : Nat := if c then 48 else 96

/-- a parameter of depth `d` with ciphersuite `cs` -/
def param (d : Nat) (cs : UInt8) : PubParam G G where
  depth := d
  ciphersuite := cs
  g2 := (1, 0)
  h := (7, 0)
  hlist := (List.range (d + 1)).map (fun i => (((i * i + 3 * i + 5 : Nat) : ZMod rOrder), 0))

/-- the instance, over any hash function -/
def ext (sha : Bytes → Bytes) : Ext G G T where
  inSub1 a := decide (a.2 = 0)
  inSub2 a := decide (a.2 = 0)
  pairing l := some (l.map (fun p => Multiplicative.ofAdd (p.1.1 * p.2.1))).prod
  sha512 := sha
  hashToG1 m c := ((beNat (m ++ c) + 1 : Nat), 0)
  gen2 := (1, 0)
  encG1 c a := enc (len1 c) c a
  encG2 c a := enc (len2 c) c a
  decG1 c := dec (len1 c) c
  decG2 c := dec (len2 c) c
  defaultParam := param 32 0

theorem ext_sha (sha : Bytes → Bytes) : (ext sha).sha512 = sha := rfl

theorem pair_eq (sha : Bytes → Bytes) (a b : G) :
    pair (ext sha) a b = Multiplicative.ofAdd (a.1 * b.1) := by
  simp [pair, ext]

theorem smul_zero_of_sub {a : G} (h : a.2 = 0) : rOrder • a = 0 := by
  ext
  · simp
  · simp [h]

theorem groupLaws (sha : Bytes → Bytes) : GroupLaws (ext sha) where
  sub1_zero := by simp [ext]
  sub1_add a b := by
    simp only [ext, decide_eq_true_eq, Prod.snd_add]
    intro h1 h2; rw [h1, h2]; rfl
  sub1_neg a := by simp [ext]
  sub1_order a h := smul_zero_of_sub (by simpa [ext] using h)
  sub2_zero := by simp [ext]
  sub2_add a b := by
    simp only [ext, decide_eq_true_eq, Prod.snd_add]
    intro h1 h2; rw [h1, h2]; rfl
  sub2_neg a := by simp [ext]
  sub2_order a h := smul_zero_of_sub (by simpa [ext] using h)
  gen2_sub := by simp [ext]
  gen2_gen a h := by
    refine ⟨a.1.val, ?_⟩
    have h2 : a.2 = 0 := by simpa [ext] using h
    ext
    · simp [ext]
    · simp [ext, h2]
  hash_sub m c := by simp [ext]
  pairing_prod l _ := by
    simp only [pair_eq]
    rfl
  pair_add_left a a' b _ _ _ := by
    simp only [pair_eq, Prod.fst_add, add_mul, ofAdd_add]
  pair_add_right a b b' _ _ _ := by
    simp only [pair_eq, Prod.fst_add, mul_add, ofAdd_add]
  pair_nondeg b hb h := by
    rw [pair_eq] at h
    have h2 : b.2 = 0 := by simpa [ext] using hb
    have h1 : b.1 = 0 := by simpa [ext] using h
    ext
    · rw [h1]; rfl
    · rw [h2]; rfl

theorem enc_length {len : Nat} (h : 34 ≤ len) (c : Bool) (a : G) : (enc len c a).length = len := by
  simp [enc, natToBE_length]
  omega

theorem mid_take {n : Nat} (x : UInt8) (l m : Bytes) (h : l.length = n) :
    (([x] ++ l ++ m).drop 1).take n = l := by
  simp [← h]

theorem mid_drop {n : Nat} (x : UInt8) (l m : Bytes) (h : l.length = n) :
    ([x] ++ l ++ m).drop (n + 1) = m := by
  simp [← h]

attribute [local irreducible] natToBE rOrder in
theorem parse_enc (len : Nat) (c : Bool) (a : G) : parse (enc len c a) = a := by
  have e0 : enc len c a = [if c then 1 else 0] ++ natToBE 32 a.1.val ++
      (UInt8.ofNat a.2.val :: List.replicate (len - 34) 0) := by
    rw [enc, List.append_assoc _ [_]]; rfl
  have e1 : ((enc len c a).drop 1).take 32 = natToBE 32 a.1.val := by
    rw [e0]; exact mid_take _ _ _ (natToBE_length _ _)
  have e2 : (enc len c a).drop 33 = UInt8.ofNat a.2.val :: List.replicate (len - 34) 0 := by
    rw [e0]; exact mid_drop _ _ _ (natToBE_length _ _)
  have hlt : a.1.val < rOrder := ZMod.val_lt _
  have h3 : a.2.val < 3 := ZMod.val_lt _
  unfold parse
  rw [e1, e2, beNat_natToBE, Nat.mod_eq_of_lt (lt_trans hlt rOrder_lt)]
  refine Prod.ext ?_ ?_
  · exact ZMod.natCast_zmod_val _
  · rw [List.headD_cons, UInt8.toNat_ofNat', Nat.mod_eq_of_lt (by omega)]
    exact ZMod.natCast_zmod_val _

theorem dec_enc {len : Nat} (hl : 34 ≤ len) (c : Bool) (a : G) (rest : Bytes) (h : a.2 = 0) :
    dec len c (enc len c a ++ rest) = (.ok a, rest) := by
  have ht : (enc len c a ++ rest).take len = enc len c a :=
    List.take_left' (enc_length hl c a)
  have hd : (enc len c a ++ rest).drop len = rest := List.drop_left' (enc_length hl c a)
  simp only [dec, ht, hd, parse_enc]
  simp [h]

theorem dec_canon {len : Nat} {c : Bool} {inp : Bytes} {a : G} {rest : Bytes}
    (h : dec len c inp = (.ok a, rest)) : inp = enc len c a ++ rest ∧ a.2 = 0 := by
  simp only [dec] at h
  by_cases hc : enc len c (parse (inp.take len)) = inp.take len ∧ (parse (inp.take len)).2 = 0
  · rw [if_pos hc] at h
    obtain ⟨h1, h2⟩ := Prod.mk.inj h
    have h1 := Res.ok.inj h1
    subst h2
    rw [← h1, hc.1, List.take_append_drop]
    exact ⟨rfl, hc.2⟩
  · rw [if_neg hc] at h
    cases (Prod.mk.inj h).1

theorem dec_flag {len len' : Nat} (hl : 34 ≤ len) (c : Bool) (a : G) (rest : Bytes) :
    (dec len c (enc len' (!c) a ++ rest)).1.isErr = true := by
  simp only [dec]
  rw [if_neg]
  · rfl
  · rintro ⟨h, _⟩
    obtain ⟨k, rfl⟩ : ∃ k, len = k + 1 := ⟨len - 1, by omega⟩
    simp only [enc, List.append_assoc, List.cons_append, List.take_succ_cons] at h
    have := (List.cons.inj h).1
    cases c <;> simp at this

theorem dec_total (len : Nat) (c : Bool) (inp : Bytes) : (dec len c inp).1.isPanic = false := by
  simp only [dec]
  split <;> rfl

theorem codecLaws (sha : Bytes → Bytes) : CodecLaws (ext sha) where
  enc1_len c a := enc_length (by cases c <;> simp [len1]) c a
  enc2_len c a := enc_length (by cases c <;> simp [len2]) c a
  dec1_enc c a rest h := dec_enc (by cases c <;> simp [len1]) c a rest (by simpa [ext] using h)
  dec2_enc c a rest h := dec_enc (by cases c <;> simp [len2]) c a rest (by simpa [ext] using h)
  dec1_canon c inp a rest h := by
    obtain ⟨h1, h2⟩ := dec_canon h
    exact ⟨h1, by simpa [ext] using h2⟩
  dec2_canon c inp a rest h := by
    obtain ⟨h1, h2⟩ := dec_canon h
    exact ⟨h1, by simpa [ext] using h2⟩
  dec1_flag c a rest := dec_flag (by cases c <;> simp [len1]) c a rest
  dec2_flag c a rest := dec_flag (by cases c <;> simp [len2]) c a rest
  dec1_total c inp := dec_total _ _ _
  dec2_total c inp := dec_total _ _ _

theorem param_wf (sha : Bytes → Bytes) {d : Nat} (h1 : 1 ≤ d) (h2 : d ≤ 63) (cs : UInt8) :
    ParamWF (ext sha) (param d cs) where
  depth_pos := h1
  depth_le := h2
  hlist_len := by simp [param]
  hlist_sub a ha := by
    simp only [param, List.mem_map] at ha
    obtain ⟨i, _, rfl⟩ := ha
    simp [ext]
  h_sub := by simp [ext, param]
  g2_gen := rfl

theorem defaultLaws (sha : Bytes → Bytes) : DefaultLaws (ext sha) where
  wf := param_wf sha (by omega) (by omega) 0
  depth := rfl
  suite := Or.inl rfl

/-- a simple function with 64-byte outputs that depends on all of its input -/
def sha0 (m : Bytes) : Bytes := natToBE 64 ((2 ^ 500 + 1 + 65537 * beNat m) % (2 ^ 511 - 187))

theorem hashLaws : HashLaws (ext sha0) where
  sha_len _ := natToBE_length _ _

end Pixel.Toy
