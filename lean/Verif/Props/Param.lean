import Verif.Model.PyParam
import Verif.Spec.Param
import Verif.Fast.Stream
import Verif.Props.Keys
import Verif.Proof.PyRef
import Verif.Proof.Prime
import Verif.Curve.Bls
import Verif.Toy

/-!
# C65: the generation of the public parameter
-/

set_option linter.unusedSectionVars false

namespace Pixel.Props

open Pixel Pixel.Spec Pixel.Curve

variable {G1 G2 GT : Type} [AddCommGroup G1] [AddCommGroup G2] [CommGroup GT]

section
variable {E : Ext G1 G2 GT}

theorem text_h2g : text "H2G_h" = ascii "H2G_h" := by decide +kernel
theorem text_param : text "Pixel public parameter generation" = Py.DOM_SEP_PARAM_GEN := by
  decide +kernel

theorem expand_32 {sha : Bytes → Bytes} (m info : Bytes) :
    Py.expand sha m info 32 = (hmac sha m (info ++ [1])).take 32 := by
  unfold Py.expand
  simp [hkdfBlocks]

theorem paramLoop_eq (m : Bytes) (cs : UInt8) (is : List Nat) (h : ∀ i ∈ is, i < 256) :
    Py.paramLoop E m cs is = .ok (is.map fun i =>
      E.hashToG1 ((hmac E.sha512 m (text "H2G_h" ++ [UInt8.ofNat i] ++ [1])).take 32) [cs]) := by
  induction is with
  | nil => rfl
  | cons i is ih =>
    have hi : i < 256 := h i (by simp)
    rw [Py.paramLoop, Py.i2osp1, if_pos hi, Res.ok_bind, ih fun j hj => h j (by simp [hj]),
      Res.ok_bind, expand_32, List.map_cons, text_h2g]

theorem paramLoop_large (m : Bytes) (cs : UInt8) (is : List Nat) (h : ∃ i ∈ is, 256 ≤ i) :
    Py.paramLoop E m cs is = .panic .overflow := by
  induction is with
  | nil => simp at h
  | cons i is ih =>
    rw [Py.paramLoop, Py.i2osp1]
    by_cases hi : i < 256
    · rw [if_pos hi, Res.ok_bind, ih ?_]
      · rfl
      · obtain ⟨j, hj, h1⟩ := h
        rcases List.mem_cons.1 hj with rfl | hj
        · omega
        · exact ⟨j, hj, h1⟩
    · rw [if_neg hi]
      rfl

/-- C65: the script makes the parameter the document describes, for every seed, ciphersuite and depth
below 256, and throws an exception for larger depths. -/
theorem C65_generation (E : Ext G1 G2 GT) (seed : Bytes) (cs : UInt8) (d : Nat) :
    (d < 256 → ∃ pp, Py.paramGen E seed cs d = .ok pp ∧ IsParam E seed cs d pp) ∧
    (256 ≤ d → Py.paramGen E seed cs d = .panic .overflow) := by
  constructor
  · intro hd
    unfold Py.paramGen
    simp only
    rw [paramLoop_eq _ _ _ (fun i hi => by have := List.mem_range.1 hi; omega), Res.ok_bind]
    refine ⟨_, rfl, rfl, rfl, rfl, ?_⟩
    simp only [paramElements, paramInfos, List.map_cons, List.map_map]
    rw [expand_32, ← text_h2g, ← text_param]
    rfl
  · intro hd
    unfold Py.paramGen
    simp only
    rw [paramLoop_large _ _ _ ⟨d, List.mem_range.2 (by omega), hd⟩]
    rfl

/-- C65: what is assumed of parameters everywhere else holds of the generated ones. -/
theorem C65_well_formed (L : GroupLaws E) {seed : Bytes} {cs : UInt8} {d : Nat} (h1 : 1 ≤ d)
    (h63 : d ≤ 63) {pp : PubParam G1 G2} (h : IsParam E seed cs d pp) : ParamWF E pp := by
  have he := h.elements
  have hm : ∀ a ∈ pp.h :: pp.hlist, E.inSub1 a = true := by
    rw [he]
    intro a ha
    obtain ⟨i, _, rfl⟩ := List.mem_map.1 ha
    exact L.hash_sub _ _
  have hl := congrArg List.length he
  simp only [paramElements, paramInfos, List.length_cons, List.length_map, List.length_range] at hl
  exact
    { depth_pos := by rw [h.depth]; exact h1
      depth_le := by rw [h.depth]; exact h63
      hlist_len := by rw [h.depth]; omega
      hlist_sub := fun a ha => hm a (by simp [ha])
      h_sub := hm _ (by simp)
      g2_gen := h.gen }

/-- C65: so the assumption on `PubParam::default()` follows from its being the output of the script. -/
theorem C65_default (L : GroupLaws E) (h : Py.paramGen E Py.paramSeed 0 32 = .ok E.defaultParam) :
    DefaultLaws E := by
  obtain ⟨pp, e, hp⟩ := (C65_generation E Py.paramSeed 0 32).1 (by omega)
  rw [e] at h
  cases h
  exact ⟨C65_well_formed L (by omega) (by omega) hp, hp.depth, Or.inl hp.suite⟩

/-- C65: the seed of the default parameter is the initial value of SHA-512. -/
theorem C65_seed : Py.paramSeed = Sha512.H0.flatMap (natToBE 8) := by decide +kernel

theorem paramInfos_nodup {d : Nat} (hd : d < 256) : (paramInfos d).Nodup := by
  unfold paramInfos
  rw [List.nodup_cons]
  constructor
  · intro h
    obtain ⟨i, _, hi⟩ := List.mem_map.1 h
    have := congrArg List.length hi
    simp at this
  · refine (List.nodup_range).map_on fun i hi j hj e => ?_
    have e1 := List.append_cancel_left e
    have e2 : UInt8.ofNat i = UInt8.ofNat j := by simpa using e1
    have e3 := congrArg UInt8.toNat e2
    rw [UInt8.toNat_ofNat', UInt8.toNat_ofNat'] at e3
    have := List.mem_range.1 hi
    have := List.mem_range.1 hj
    omega

/-- C65: if two of the `d + 2` elements agree, then the first 32 bytes of HMAC collide on two of the
different inputs, or the hash-to-curve collides on two of the strings. -/
theorem C65_elements_differ {seed : Bytes} {cs : UInt8} {d : Nat} (hd : d < 256)
    {pp : PubParam G1 G2} (h : IsParam E seed cs d pp) (hdup : ¬ (pp.h :: pp.hlist).Nodup) :
    (∃ a ∈ paramInfos d, ∃ b ∈ paramInfos d, a ≠ b ∧
      paramString E.sha512 seed a = paramString E.sha512 seed b) ∨
    ∃ a ∈ paramStrings E.sha512 seed d, ∃ b ∈ paramStrings E.sha512 seed d, Collide E cs a b := by
  by_contra hn
  rw [not_or] at hn
  apply hdup
  rw [h.elements]
  refine (paramInfos_nodup hd).map_on fun a ha b hb e => ?_
  by_contra hab
  exact hn.2 ⟨_, List.mem_map.2 ⟨a, ha, rfl⟩, _, List.mem_map.2 ⟨b, hb, rfl⟩,
    fun e2 => hn.1 ⟨a, ha, b, hb, hab, e2⟩, e⟩

theorem paramString_length (hsha : ∀ m, (E.sha512 m).length = 64) (seed info : Bytes) :
    (paramString E.sha512 seed info).length = 32 := by
  rw [paramString, List.length_take, hmac_length hsha]
  rfl

/-- C65: the master secret behind a public key `x·g2` is `x·h`, and its proof of possession is `x`
times a hash.  An accepted proof is not `x·h`, nor `x` times another element of the parameter, unless
the hash-to-curve collides on a string of the parameter and the string of the proof, which have
different lengths. -/
theorem C65_proof_is_not_the_secret [DecidableEq GT] (H : HashLaws E) (L : GroupLaws E)
    (C : CodecLaws E) {seed : Bytes} {cs : UInt8} {d : Nat} {pp : PubParam G1 G2}
    (h : IsParam E seed cs d pp) {pk : PublicKey G2} {pop : ProofOfPossession G1}
    (hs : pk.ciphersuite = cs) (hv : pk.validate E pop = true) {x : Nat} (hx : pk.pk = x • pp.g2)
    (h0 : pk.pk ≠ 0) {e : G1} (he : e ∈ pp.h :: pp.hlist) (hbad : pop.pop = x • e) :
    ∃ a ∈ paramStrings E.sha512 seed d,
      Collide E cs a (text "Pixel public key POP" ++ E.encG2 true pk.pk) := by
  rw [h.gen] at hx
  obtain ⟨-, -, hp⟩ := (C13_pop_exact L hx pop).1 hv
  rw [hs] at hp
  rw [h.elements] at he
  obtain ⟨info, hi, rfl⟩ := List.mem_map.1 he
  refine ⟨paramString E.sha512 seed info, List.mem_map.2 ⟨info, hi, rfl⟩, ?_, ?_⟩
  · intro e1
    have l1 := congrArg List.length e1
    rw [paramString_length H.sha_len, List.length_append, C.enc2_len,
      show (text "Pixel public key POP").length = 20 by decide +kernel] at l1
    simp at l1
  · rw [hbad] at hp
    have hA := L.hash_sub (paramString E.sha512 seed info) [cs]
    have hB := L.hash_sub (text "Pixel public key POP" ++ E.encG2 true pk.pk) [cs]
    generalize E.hashToG1 (paramString E.sha512 seed info) [cs] = A at *
    generalize E.hashToG1 (text "Pixel public key POP" ++ E.encG2 true pk.pk) [cs] = B at *
    have d1 : addOrderOf (A - B) ∣ rOrder := addOrderOf_dvd_of_nsmul_eq_zero (by
      rw [nsmul_sub, L.sub1_order A hA, L.sub1_order B hB, sub_zero])
    have d2 : addOrderOf (A - B) ∣ x := addOrderOf_dvd_of_nsmul_eq_zero (by
      rw [nsmul_sub, hp, sub_self])
    rcases (Nat.dvd_prime rOrder_prime).1 d1 with h1 | h1
    · rw [AddMonoid.addOrderOf_eq_one_iff] at h1
      exact sub_eq_zero.1 h1
    · rw [h1] at d2
      obtain ⟨k, rfl⟩ := d2
      refine absurd (hx.trans ?_) h0
      rw [mul_nsmul, L.sub2_order _ L.gen2_sub, nsmul_zero]

/-- C65: the salt of the parameter generation and the salts of the key generation give different HMAC
key blocks, so that one seed used for both gives unrelated strings. -/
theorem C65_salt_separated (sha : Bytes → Bytes) (cs : UInt8) :
    hmacKey sha (text "Pixel public parameter generation") ≠
      hmacKey sha (text "Pixel master key" ++ [cs]) := by
  have l1 : (text "Pixel public parameter generation").length = 33 := by decide +kernel
  have l2 : (text "Pixel master key").length = 16 := by decide +kernel
  intro h
  unfold hmacKey at h
  rw [if_neg (by rw [l1]; omega), if_neg (by rw [List.length_append, l2]; simp)] at h
  have e1 := congrArg (fun l : Bytes => l[6]?) h
  simp only at e1
  rw [List.getElem?_append_left (by rw [l1]; omega),
    List.getElem?_append_left (by rw [List.length_append, l2]; omega),
    List.getElem?_append_left (by rw [l2]; omega)] at e1
  revert e1
  decide +kernel

/-- C65: the file has `2 + 96 + 192·(d + 2)` bytes: 6626 for depth 32. -/
theorem C65_file_length (C : CodecLaws E) {seed : Bytes} {cs : UInt8} {d : Nat} (hd : d < 256)
    {pp : PubParam G1 G2} (h : IsParam E seed cs d pp) :
    ∃ b, Py.paramFile E pp = .ok b ∧ b.length = 98 + 192 * (d + 2) := by
  have hl := congrArg List.length h.elements
  simp only [paramElements, paramInfos, List.length_cons, List.length_map, List.length_range] at hl
  unfold Py.paramFile Py.i2osp1
  rw [h.depth, if_pos hd, Res.ok_bind]
  refine ⟨_, rfl, ?_⟩
  have e : ∀ l : List G1, (l.flatMap (E.encG1 false)).length = 192 * l.length := by
    intro l
    induction l with
    | nil => rfl
    | cons a l ih =>
      rw [List.flatMap_cons, List.length_append, ih, C.enc1_len, List.length_cons]
      simp
      ring
  simp only [List.length_append, e, C.enc1_len, C.enc2_len, List.length_cons, List.length_nil]
  simp
  omega

theorem enc1_inj (C : CodecLaws E) {a b : G1} {r s : Bytes} (ha : E.inSub1 a = true)
    (hb : E.inSub1 b = true) (h : E.encG1 false a ++ r = E.encG1 false b ++ s) : a = b ∧ r = s := by
  have e := C.dec1_enc false a r ha
  rw [h, C.dec1_enc false b s hb] at e
  cases e
  exact ⟨rfl, rfl⟩

theorem enc2_inj (C : CodecLaws E) {a b : G2} {r s : Bytes} (ha : E.inSub2 a = true)
    (hb : E.inSub2 b = true) (h : E.encG2 false a ++ r = E.encG2 false b ++ s) : a = b ∧ r = s := by
  have e := C.dec2_enc false a r ha
  rw [h, C.dec2_enc false b s hb] at e
  cases e
  exact ⟨rfl, rfl⟩

theorem encs_inj (C : CodecLaws E) : ∀ {l m : List G1}, (∀ a ∈ l, E.inSub1 a = true) →
    (∀ a ∈ m, E.inSub1 a = true) → l.length = m.length →
    l.flatMap (E.encG1 false) = m.flatMap (E.encG1 false) → l = m
  | [], [], _, _, _, _ => rfl
  | [], _ :: _, _, _, h, _ => by simp at h
  | _ :: _, [], _, _, h, _ => by simp at h
  | a :: l, b :: m, hl, hm, h, e => by
    rw [List.flatMap_cons, List.flatMap_cons] at e
    obtain ⟨rfl, e2⟩ := enc1_inj C (hl a (by simp)) (hm b (by simp)) e
    rw [encs_inj C (fun x hx => hl x (by simp [hx])) (fun x hx => hm x (by simp [hx]))
      (by simpa using h) e2]

/-- C65: the file determines the parameter.  So the comparison of the two files `param_bin.txt` at
the end of the script passes (if the contents are looked at) only if the crate's parameter is the
script's. -/
theorem C65_file_determines (L : GroupLaws E) (C : CodecLaws E) {pp pp' : PubParam G1 G2}
    (W : ParamWF E pp) (W' : ParamWF E pp') {b : Bytes} (h : Py.paramFile E pp = .ok b)
    (h' : Py.paramFile E pp' = .ok b) : pp = pp' := by
  have d1 := W.depth_le
  have d2 := W'.depth_le
  unfold Py.paramFile Py.i2osp1 at h h'
  rw [if_pos (by omega), Res.ok_bind] at h h'
  simp only [List.append_assoc, List.cons_append, List.nil_append, Res.ok.injEq] at h h'
  rw [← h'] at h
  obtain ⟨e1, e2, e3⟩ : pp.ciphersuite = pp'.ciphersuite ∧ UInt8.ofNat pp.depth =
      UInt8.ofNat pp'.depth ∧ _ := by simpa using h
  have e4 : pp.depth = pp'.depth := by
    have := congrArg UInt8.toNat e2
    rw [UInt8.toNat_ofNat', UInt8.toNat_ofNat'] at this
    omega
  have s1 : E.inSub2 pp.g2 = true := by rw [W.g2_gen]; exact L.gen2_sub
  have s2 : E.inSub2 pp'.g2 = true := by rw [W'.g2_gen]; exact L.gen2_sub
  obtain ⟨e5, e6⟩ := enc2_inj C s1 s2 e3
  obtain ⟨e7, e8⟩ := enc1_inj C W.h_sub W'.h_sub e6
  have e9 := encs_inj C W.hlist_sub W'.hlist_sub (by rw [W.hlist_len, W'.hlist_len, e4]) e8
  obtain ⟨a, b, c, d, e⟩ := pp
  obtain ⟨a', b', c', d', e'⟩ := pp'
  simp only at e1 e4 e5 e7 e9
  rw [e1, e4, e5, e7, e9]

end

/-! ## the default parameter, with the real hash and the real curves -/

/-- the first 32 bytes of the first output block of HKDF, as a number -/
theorem paramString_num (seed info : Bytes) :
    beNat (paramString Sha512.sha512 seed info) =
      beNat (hmac Sha512.sha512 (hmac Sha512.sha512 (text "Pixel public parameter generation") seed)
        (info ++ [1])) / 2 ^ 256 := by
  have hl : ∀ k m, (hmac Sha512.sha512 k m).length = 64 := hmac_length Fast.sha_len
  unfold paramString
  generalize e : hmac Sha512.sha512 (hmac Sha512.sha512 (text "Pixel public parameter generation") seed)
    (info ++ [1]) = t
  have ht : t.length = 64 := by rw [← e]; exact hl _ _
  have l2 : (t.drop 32).length = 32 := by rw [List.length_drop, ht]
  conv_rhs => rw [← List.take_append_drop 32 t]
  rw [beNat_append, l2, show (256 : Nat) ^ 32 = 2 ^ 256 by rfl, mul_comm,
    Nat.mul_add_div (by decide), Nat.div_eq_of_lt ?_, add_zero]
  have := beNat_lt (t.drop 32)
  rw [l2] at this
  exact this

/-- the strings with the infos `is` (numbers and lengths), none of which is to be in `acc` -/
def freshN (m : Nat) (is : List (Nat × Nat)) (acc : List Nat) : Bool :=
  List.rec (motive := fun _ => List Nat → Bool) (fun _ => true)
    (fun i _ ih acc => Prod.rec (fun v l => Fast.hmacN m 64 (Nat.add (Nat.mul v 256) 1) (Nat.add l 1)
      fun t => Fast.fo (Nat.shiftRight t 256) fun s =>
        Bool.rec (ih (s :: acc)) false (acc.any (Nat.beq s))) i) is acc

theorem freshN_eq {m : Bytes} (hm : m.length = 64) (is : List Bytes) (hi : ∀ i ∈ is, i.length < 2 ^ 63)
    (acc : List Nat)
    (h : freshN (beNat m) (is.map fun i => (beNat i, i.length)) acc = true) :
    ((is.map fun i => beNat (hmac Sha512.sha512 m (i ++ [1])) / 2 ^ 256)).Nodup ∧
      ∀ x ∈ is.map fun i => beNat (hmac Sha512.sha512 m (i ++ [1])) / 2 ^ 256, x ∉ acc := by
  induction is generalizing acc with
  | nil => simp
  | cons i is ih =>
    have hl : i.length < 2 ^ 63 := hi i (by simp)
    have e := Fast.hmacN_eq (key := m) (m := i ++ [1]) (by omega)
      (by rw [List.length_append, List.length_singleton]; omega)
      (fun t => Fast.fo (Nat.shiftRight t 256) fun s =>
        Bool.rec (motive := fun _ => Bool) (freshN (beNat m) (is.map fun i => (beNat i, i.length))
          (s :: acc)) false (acc.any (Nat.beq s)))
    rw [hm, beNat_append, List.length_append, List.length_singleton, pow_one] at e
    rw [show freshN (beNat m) ((i :: is).map fun i => (beNat i, i.length)) acc = _ from e,
      Fast.fo_eq] at h
    have es : Nat.shiftRight (beNat (hmac Sha512.sha512 m (i ++ [1]))) 256 =
        beNat (hmac Sha512.sha512 m (i ++ [1])) / 2 ^ 256 := Nat.shiftRight_eq_div_pow _ _
    rw [es] at h
    rw [List.map_cons, List.nodup_cons]
    generalize beNat (hmac Sha512.sha512 m (i ++ [1])) / 2 ^ 256 = s at *
    rcases hb : acc.any (Nat.beq s) with _ | _
    · rw [hb] at h
      obtain ⟨h1, h2⟩ := ih (fun j hj => hi j (by simp [hj])) (s :: acc) h
      have hs : s ∉ acc := by
        intro hs
        have := List.any_eq_false.1 hb s hs
        simp at this
      refine ⟨⟨fun hx => h2 s hx (by simp), h1⟩, fun x hx => ?_⟩
      rcases List.mem_cons.1 hx with rfl | hx
      · exact hs
      · exact fun hh => h2 x hx (by simp [hh])
    · rw [hb] at h
      cases h

theorem infos_num : ((paramInfos 32).map fun i => (beNat i, i.length)) = [
    (310081183592, 5), (79380782999552, 6), (79380782999553, 6), (79380782999554, 6),
    (79380782999555, 6), (79380782999556, 6), (79380782999557, 6), (79380782999558, 6),
    (79380782999559, 6), (79380782999560, 6), (79380782999561, 6), (79380782999562, 6),
    (79380782999563, 6), (79380782999564, 6), (79380782999565, 6), (79380782999566, 6),
    (79380782999567, 6), (79380782999568, 6), (79380782999569, 6), (79380782999570, 6),
    (79380782999571, 6), (79380782999572, 6), (79380782999573, 6), (79380782999574, 6),
    (79380782999575, 6), (79380782999576, 6), (79380782999577, 6), (79380782999578, 6),
    (79380782999579, 6), (79380782999580, 6), (79380782999581, 6), (79380782999582, 6),
    (79380782999583, 6), (79380782999584, 6)] := by decide +kernel

theorem secret_num : (Fast.hmacN
    9311072709725783532774203680447052134209531454415890445084208840879568740511598 33
    5553695886275756354114946136778835491165961296423526488018107560760635245050263663676120264669891125477075321720197875136066046164503496587506630822601081
    64 fun m => Nat.beq m
      6481174787582168325426836204485610356854565999771154800929012937317086615336040767236302293027111569332256943979754715569361990614180939926174630404755635) =
      true := by
  decide +kernel

theorem strings_fresh : freshN
    6481174787582168325426836204485610356854565999771154800929012937317086615336040767236302293027111569332256943979754715569361990614180939926174630404755635 [
    (310081183592, 5), (79380782999552, 6), (79380782999553, 6), (79380782999554, 6),
    (79380782999555, 6), (79380782999556, 6), (79380782999557, 6), (79380782999558, 6),
    (79380782999559, 6), (79380782999560, 6), (79380782999561, 6), (79380782999562, 6),
    (79380782999563, 6), (79380782999564, 6), (79380782999565, 6), (79380782999566, 6),
    (79380782999567, 6), (79380782999568, 6), (79380782999569, 6), (79380782999570, 6),
    (79380782999571, 6), (79380782999572, 6), (79380782999573, 6), (79380782999574, 6),
    (79380782999575, 6), (79380782999576, 6), (79380782999577, 6), (79380782999578, 6),
    (79380782999579, 6), (79380782999580, 6), (79380782999581, 6), (79380782999582, 6),
    (79380782999583, 6), (79380782999584, 6)] [] = true := by
  decide +kernel

theorem secret_eq :
    beNat (hmac Sha512.sha512 (text "Pixel public parameter generation") Py.paramSeed) =
      6481174787582168325426836204485610356854565999771154800929012937317086615336040767236302293027111569332256943979754715569361990614180939926174630404755635 := by
  have h := Fast.hmacN_eq (key := text "Pixel public parameter generation") (m := Py.paramSeed)
    (by decide +kernel) (by decide +kernel) (fun m => Nat.beq m
      6481174787582168325426836204485610356854565999771154800929012937317086615336040767236302293027111569332256943979754715569361990614180939926174630404755635)
  rw [show beNat (text "Pixel public parameter generation") =
      9311072709725783532774203680447052134209531454415890445084208840879568740511598 by decide +kernel,
    show (text "Pixel public parameter generation").length = 33 by decide +kernel,
    show beNat Py.paramSeed =
      5553695886275756354114946136778835491165961296423526488018107560760635245050263663676120264669891125477075321720197875136066046164503496587506630822601081
      by decide +kernel, show Py.paramSeed.length = 64 by decide +kernel, secret_num] at h
  exact Nat.eq_of_beq_eq_true h.symm

/-- C65: with SHA-512, the 34 strings that are hashed to the curve for the default parameter are
different from each other. -/
theorem C65_default_strings :
    (paramStrings Sha512.sha512 Py.paramSeed 32).Nodup := by
  unfold paramStrings
  have h := strings_fresh
  rw [← infos_num, ← secret_eq] at h
  have hi : ∀ i ∈ paramInfos 32, i.length < 2 ^ 63 := by
    intro i hi
    have h1 : i.length ∈ ((paramInfos 32).map fun i => (beNat i, i.length)).map (·.2) :=
      List.mem_map.2 ⟨_, List.mem_map.2 ⟨i, hi, rfl⟩, rfl⟩
    rw [infos_num] at h1
    have h2 : ∀ x ∈ List.map (fun x : Nat × Nat => x.2) [
    (310081183592, 5), (79380782999552, 6), (79380782999553, 6), (79380782999554, 6),
    (79380782999555, 6), (79380782999556, 6), (79380782999557, 6), (79380782999558, 6),
    (79380782999559, 6), (79380782999560, 6), (79380782999561, 6), (79380782999562, 6),
    (79380782999563, 6), (79380782999564, 6), (79380782999565, 6), (79380782999566, 6),
    (79380782999567, 6), (79380782999568, 6), (79380782999569, 6), (79380782999570, 6),
    (79380782999571, 6), (79380782999572, 6), (79380782999573, 6), (79380782999574, 6),
    (79380782999575, 6), (79380782999576, 6), (79380782999577, 6), (79380782999578, 6),
    (79380782999579, 6), (79380782999580, 6), (79380782999581, 6), (79380782999582, 6),
    (79380782999583, 6), (79380782999584, 6)], x < 2 ^ 63 := by decide +kernel
    exact h2 _ h1
  obtain ⟨h1, -⟩ := freshN_eq (hmac_length Fast.sha_len _ _) _ hi [] h
  refine List.Nodup.of_map beNat ?_
  rw [List.map_map]
  refine Eq.subst (motive := fun l : List Nat => l.Nodup) (List.map_congr_left fun i _ => ?_) h1
  exact (paramString_num _ _).symm

/-- C65: so on the real curves with SHA-512 the 34 elements of the default parameter are different,
unless the hash-to-curve collides on two of these strings. -/
theorem C65_default_elements {R : Rest GT} (hs : R.sha512 = Sha512.sha512)
    (h : Py.paramGen (bls R) Py.paramSeed 0 32 = .ok R.defaultParam)
    (hn : ∀ a ∈ paramStrings Sha512.sha512 Py.paramSeed 32,
      ∀ b ∈ paramStrings Sha512.sha512 Py.paramSeed 32, ¬ Collide (bls R) 0 a b) :
    (R.defaultParam.h :: R.defaultParam.hlist).Nodup := by
  obtain ⟨pp, e, hp⟩ := (C65_generation (bls R) Py.paramSeed 0 32).1 (by omega)
  rw [e] at h
  cases h
  by_contra hd
  have hd := C65_elements_differ (by omega) hp hd
  rw [show (bls R).sha512 = Sha512.sha512 from hs] at hd
  rcases hd with ⟨a, ha, b, hb, hab, e⟩ | ⟨a, ha, b, hb, h⟩
  · exact hab (List.inj_on_of_nodup_map C65_default_strings ha hb e)
  · exact hn a ha b hb h

/-- C65: on the real curves, all that is assumed elsewhere follows from additivity and non-triviality
of the pairing, hashing into the subgroup, and the default parameter being that of the script. -/
theorem C65_assumptions {R : Rest GT} (hs : R.sha512 = Sha512.sha512)
    (P : PairingOk R) (hh : ∀ m c, rOrder • R.hashToG1 m c = 0)
    (h : Py.paramGen (bls R) Py.paramSeed 0 32 = .ok R.defaultParam) :
    HashLaws (bls R) ∧ GroupLaws (bls R) ∧ CodecLaws (bls R) ∧ DefaultLaws (bls R) :=
  ⟨⟨fun m => by rw [show (bls R).sha512 = Sha512.sha512 from hs]; exact Kat.sha512_length m⟩,
    bls_group P hh, bls_codec R, C65_default (bls_group P hh) h⟩

/-! ## the hypotheses can be met -/

/-- the parts of `bls` that are not modelled, with a hash-to-curve that tells the strings of the default
parameter apart -/
noncomputable def restHash : Rest (Multiplicative (ZMod rOrder)) :=
  { rest0 Sha512.sha512 with
    hashToG1 := fun m _ => ((paramStrings Sha512.sha512 Py.paramSeed 32).idxOf m + 1) • gen1 }

/-- the same with the parameter of the script -/
noncomputable def restGen : Rest (Multiplicative (ZMod rOrder)) :=
  { restHash with
    defaultParam :=
      match Py.paramGen (bls restHash) Py.paramSeed 0 32 with
      | .ok pp => pp
      | _ => restHash.defaultParam }

theorem restGen_pairing : PairingOk restGen where
  prod := (rest0_pairing Sha512.sha512).prod
  add_left := (rest0_pairing Sha512.sha512).add_left
  add_right := (rest0_pairing Sha512.sha512).add_right
  nontrivial := (rest0_pairing Sha512.sha512).nontrivial

theorem zmod_small {n a b : Nat} (ha : a < n) (hb : b < n) (h : (a : ZMod n) = b) : a = b := by
  rw [ZMod.natCast_eq_natCast_iff] at h
  exact Nat.ModEq.eq_of_lt_of_lt h ha hb

/-- C65: the hypotheses of `C65_assumptions` and of `C65_default_elements` can be met. -/
theorem C65_hypotheses_met : restGen.sha512 = Sha512.sha512 ∧ PairingOk restGen ∧
    (∀ m c, rOrder • restGen.hashToG1 m c = 0) ∧
    Py.paramGen (bls restGen) Py.paramSeed 0 32 = .ok restGen.defaultParam ∧
    ∀ a ∈ paramStrings Sha512.sha512 Py.paramSeed 32,
      ∀ b ∈ paramStrings Sha512.sha512 Py.paramSeed 32, ¬ Collide (bls restGen) 0 a b := by
  refine ⟨rfl, restGen_pairing, fun m c => tors_nsmul gen1_order _, ?_, ?_⟩
  · obtain ⟨pp, e, -⟩ := (C65_generation (bls restHash) Py.paramSeed 0 32).1 (by omega)
    have e1 : Py.paramGen (bls restGen) Py.paramSeed 0 32 =
      Py.paramGen (bls restHash) Py.paramSeed 0 32 := rfl
    have e2 : restGen.defaultParam = pp := by
      show (match Py.paramGen (bls restHash) Py.paramSeed 0 32 with
        | .ok pp => pp
        | _ => restHash.defaultParam) = pp
      rw [e]
    rw [e1, e2, e]
  · intro a ha b hb ⟨hab, h⟩
    have hl : (paramStrings Sha512.sha512 Py.paramSeed 32).length = 34 := by
      simp [paramStrings, paramInfos]
    have h : ((paramStrings Sha512.sha512 Py.paramSeed 32).idxOf a + 1) • gen1 =
        ((paramStrings Sha512.sha512 Py.paramSeed 32).idxOf b + 1) • gen1 := h
    have h := congrArg dlog1 h
    rw [dlog1_nsmul, dlog1_nsmul] at h
    have ia := List.idxOf_lt_length_of_mem ha
    have ib := List.idxOf_lt_length_of_mem hb
    rw [hl] at ia ib
    have hr : 34 < rOrder := by decide +kernel
    have := zmod_small (lt_of_le_of_lt ia hr) (lt_of_le_of_lt ib hr) h
    exact hab ((List.idxOf_inj ha).1 (Nat.succ.inj this))

section Examples
open Pixel.Toy

/-- the example instance with a hash-to-curve that always gives the same point -/
def extFlat (sha : Bytes → Bytes) : Ext G G T := { ext sha with hashToG1 := fun _ _ => (1, 0) }

theorem extFlat_group (sha : Bytes → Bytes) : GroupLaws (extFlat sha) :=
  have L := groupLaws sha
  { sub1_zero := L.sub1_zero, sub1_add := L.sub1_add, sub1_neg := L.sub1_neg
    sub1_order := L.sub1_order, sub2_zero := L.sub2_zero, sub2_add := L.sub2_add
    sub2_neg := L.sub2_neg, sub2_order := L.sub2_order, gen2_sub := L.gen2_sub
    gen2_gen := L.gen2_gen, hash_sub := fun _ _ => rfl, pairing_prod := L.pairing_prod
    pair_add_left := L.pair_add_left, pair_add_right := L.pair_add_right
    pair_nondeg := L.pair_nondeg }

theorem extFlat_codec (sha : Bytes → Bytes) : CodecLaws (extFlat sha) :=
  have C := codecLaws sha
  { enc1_len := C.enc1_len, enc2_len := C.enc2_len, dec1_enc := C.dec1_enc
    dec2_enc := C.dec2_enc, dec1_canon := C.dec1_canon, dec2_canon := C.dec2_canon
    dec1_flag := C.dec1_flag, dec2_flag := C.dec2_flag, dec1_total := C.dec1_total
    dec2_total := C.dec2_total }

/-- C65: with such a hash the proof of possession *is* the master secret: the hypotheses of
`C65_proof_is_not_the_secret` and of `C65_elements_differ` can be met. -/
example : ∃ pp : PubParam G G, IsParam (extFlat Sha512.sha512) Py.paramSeed 0 4 pp ∧
    ¬ (pp.h :: pp.hlist).Nodup ∧
    PublicKey.validate (extFlat Sha512.sha512) ({ ciphersuite := 0, pk := (3, 0) } : PublicKey G)
      { ciphersuite := 0, pop := 3 • pp.h } = true ∧
    ({ ciphersuite := 0, pk := (3, 0) } : PublicKey G).pk = 3 • pp.g2 := by
  obtain ⟨pp, -, h⟩ := (C65_generation (extFlat Sha512.sha512) Py.paramSeed 0 4).1 (by omega)
  have he := h.elements
  have h1 : pp.h = (1, 0) := (List.cons.inj he).1
  refine ⟨pp, h, ?_, ?_, ?_⟩
  · rw [he]
    have : paramElements (extFlat Sha512.sha512) Py.paramSeed 0 4 = List.replicate 6 (1, 0) := rfl
    rw [this]
    simp
  · rw [h1, C13_pop_exact (extFlat_group _) (x := 3) (by decide +kernel)]
    exact ⟨Or.inl rfl, rfl, rfl⟩
  · rw [h.gen]
    decide +kernel

/-- C65: a parameter of depth 4 and its file -/
example : ∃ pp b, Py.paramGen (ext Sha512.sha512) Py.paramSeed 0 4 = .ok pp ∧
    ParamWF (ext Sha512.sha512) pp ∧ Py.paramFile (ext Sha512.sha512) pp = .ok b ∧
    b.length = 1250 := by
  obtain ⟨pp, e, h⟩ := (C65_generation (ext Sha512.sha512) Py.paramSeed 0 4).1 (by omega)
  obtain ⟨b, e2, h2⟩ := C65_file_length (codecLaws _) (by omega) h
  exact ⟨pp, b, e, C65_well_formed (groupLaws _) (by omega) (by omega) h, e2, h2⟩

end Examples

end Pixel.Props
