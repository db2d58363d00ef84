import Verif.Proof.Vectors
import Verif.Toy

/-!
# C61: the test-vector programs of the repository (`make test`)
-/

namespace Pixel.Props

open Pixel Spec Vectors

set_option linter.unusedSectionVars false

variable {G1 G2 GT : Type} [AddCommGroup G1] [AddCommGroup G2] [CommGroup GT]

/-- Two files hold an honest key for time `t` and a signature for time `t` that verifies. -/
def HonestFiles [DecidableEq GT] (E : Ext G1 G2 GT) (x : Nat) (pk : PublicKey G2) (msg : Bytes)
    (t : Nat) (d : Disk) (skName sigName : Bytes) : Prop :=
  ∃ (sk : SecretKey G1 G2) (sig : Signature G1 G2),
    d.read skName = some (skLayout E true sk) ∧ KeyFor E.defaultParam (x • E.defaultParam.h) t sk ∧
    d.read sigName = some (sigLayout E true sig) ∧ sig.time = t ∧
    ∀ pf, Signature.verifyBytes E pf sig pk E.defaultParam msg = .ok true

variable [DecidableEq GT] {E : Ext G1 G2 GT}

/-- C61: the Rust program.  For every seed of at least 32 bytes and every disk it completes exactly
if no PRNG state comes back within an update.  Then the files hold what their names say: public key
and proof of possession, which match; for each time below `n` a key and a signature for this time;
for each jump a key and a signature for the triangular number it ends at.  Nothing is written
outside its directory. -/
theorem C61_rust_program (H : HashLaws E) (L : GroupLaws E) (C : CodecLaws E) (D : DefaultLaws E)
    (pf : Profile) {seed : Bytes} (hl : 32 ≤ seed.length) (rngseed msg : Bytes) {n : Nat}
    (hn : tri (n - 1) ≤ 2 ^ 32 - 1) (d : Disk) :
    (¬ StreamsDefined E.sha512 seed rngseed E.defaultParam.ciphersuite n →
      ∃ d', rustMain E pf seed rngseed msg n d = (.panic .assertion, d')) ∧
    (StreamsDefined E.sha512 seed rngseed E.defaultParam.ciphersuite n →
      ∃ d', rustMain E pf seed rngseed msg n d = (.ok (), d') ∧ SameOutside rustDir d d' ∧
        ∃ x pk pop, pk.pk = x • E.defaultParam.g2 ∧ pk.validate E pop = true ∧
          d'.read (pkFile rustDir) = some (pkLayout E true pk) ∧
          d'.read (popFile rustDir) = some (popLayout E true pop) ∧
          (∀ i, 1 ≤ i → i < n →
            HonestFiles E x pk msg i d' (skFile rustDir i) (sigFile rustDir i)) ∧
          ∀ i, 2 ≤ i → i < n →
            HonestFiles E x pk msg (tri i) d' (skFileFF rustDir (tri (i - 1)) (tri i))
              (sigFileFF rustDir (tri (i - 1)) (tri i))) := by
  rcases rustMain_outcome H L C D pf hl rngseed msg hn d with
    ⟨x, pk, sk, pop, sig, es, fs, R, h, hS⟩ | ⟨d', h, hS⟩
  swap
  · exact ⟨fun _ => ⟨d', h⟩, fun hh => absurd hh hS⟩
  refine ⟨fun hh => absurd hS hh, fun _ => ⟨_, h, final_outside d, x, pk, pop, R.pk_eq, R.pop_ok,
    final_pk d, final_pop d, ?_, ?_⟩⟩
  · intro i i1 i2
    obtain ⟨g, t1⟩ := R.seq_good H L D hn
    have n1 := tar_nodup (targets_seq hn) t1
    rcases Nat.lt_or_ge 1 i with hi | hi
    · obtain ⟨e, he, rfl⟩ := (mem_seq t1 i).2 ⟨hi, i2⟩
      obtain ⟨r1, r2⟩ := final_seq (E := E) (pk := pk) (sk := sk) (pop := pop) (sig := sig)
        (fs := fs) n1 d e he
      exact ⟨e.sk, e.sig, r1, (g e he).key, r2, (g e he).time, (g e he).ver pk R.pk_eq⟩
    · obtain rfl : i = 1 := by omega
      obtain ⟨r1, r2⟩ := final_one (E := E) (pk := pk) (sk := sk) (pop := pop) (sig := sig)
        (fs := fs) (es := es) (fun e he hh => by
          have := (mem_seq t1 1).1 ⟨e, he, hh⟩
          omega) d
      exact ⟨sk, sig, r1, R.key, r2, R.sig_time, R.sig_ver pk R.pk_eq⟩
  · intro i i1 i2
    obtain ⟨g, t1⟩ := R.ff_good H L D hn
    have n1 := tar_nodup (targets_ff hn) t1
    obtain ⟨e, he, hq⟩ := (mem_ff t1 (q := (tri (i - 1), tri i))).2 ⟨i, i1, i2, rfl⟩
    obtain ⟨q1, q2⟩ := Prod.mk.inj hq
    obtain ⟨r1, r2⟩ := final_ff (E := E) (pk := pk) (sk := sk) (pop := pop) (sig := sig)
      (es := es) n1 d e he
    rw [q1, q2] at r1 r2
    rw [← q2]
    rw [← q2] at r1 r2
    exact ⟨e.sk, e.sig, r1, (g e he).key, r2, (g e he).time, (g e he).ver pk R.pk_eq⟩

/-- C61: the Python program, after the Rust program has succeeded and whatever happened to the disk
since.  It completes exactly if `filecmp` lets every checked file pass; else an exception ends it.
It writes nothing outside its directory. -/
theorem C61_python_exact (H : HashLaws E) (L : GroupLaws E) (C : CodecLaws E) (D : DefaultLaws E)
    (hc : E.defaultParam.ciphersuite = 0) {pf : Profile} {seed rngseed msg : Bytes} {n : Nat}
    (h2 : 2 ≤ n) (hn : tri (n - 1) ≤ 2 ^ 32 - 1) {d0 d1 : Disk}
    (hr : rustMain E pf seed rngseed msg n d0 = (.ok (), d1)) (mtime : Bytes → Bytes → Bool)
    (d : Disk) :
    ∃ d', SameOutside pyDir d d' ∧
      (((∀ name ∈ checkedFiles n, Passes mtime d1 d name) ∧
          pyMain E mtime seed rngseed msg n d = (.ok (), d')) ∨
       (¬ (∀ name ∈ checkedFiles n, Passes mtime d1 d name) ∧
          ∃ p, pyMain E mtime seed rngseed msg n d = (.panic p, d'))) := by
  obtain ⟨x, pk, sk, pop, sig, es, fs, R, rfl⟩ := rustMain_ok H L C D hn hr
  exact pyMain_outcome H L C D hc R hn mtime d _ (checked_iff H L D R hn h2 mtime d0 d)

/-- C61: the C program makes, from any disk, the files of the first loop of the Rust program. -/
theorem C61_c_program (H : HashLaws E) (L : GroupLaws E) (C : CodecLaws E) (D : DefaultLaws E)
    {pf : Profile} {seed rngseed msg : Bytes} (hl : 36 ≤ seed.length) {n : Nat}
    (h3 : 3 ≤ n) (h100 : n ≤ 100) {d0 d1 : Disk}
    (hr : rustMain E pf seed rngseed msg n d0 = (.ok (), d1)) (d : Disk) :
    ∃ d', cMain E pf seed rngseed msg n d = (.ok (), d') ∧ SameOutside cDir d d' ∧
      ∀ i, 1 ≤ i → i < n →
        (∃ b, d1.read (skFile rustDir i) = some b ∧ d'.read (skFile cDir i) = some b) ∧
        ∃ b, d1.read (sigFile rustDir i) = some b ∧ d'.read (sigFile cDir i) = some b := by
  have hn : tri (n - 1) ≤ 2 ^ 32 - 1 := by
    unfold tri
    have : (n - 1) * (n - 1 + 1) ≤ 100 * 100 := Nat.mul_le_mul (by omega) (by omega)
    omega
  obtain ⟨x, pk, sk, pop, sig, es, fs, R, rfl⟩ := rustMain_ok H L C D hn hr
  refine ⟨_, cMain_run H L C D R hl h3 h100 hn d, ?_, ?_⟩
  · have p : ∀ l : Bytes, cDir <+: cDir ++ l := fun l => List.prefix_append _ _
    exact sameOutside_trans (sameOutside_trans (sameOutside_cons (p _) _ _)
      (sameOutside_cons (p _) _ _)) (cDisk_outside es _)
  · intro i i1 i2
    obtain ⟨g, t1⟩ := R.seq_good H L D hn
    have n1 := tar_nodup (targets_seq hn) t1
    rcases Nat.lt_or_ge 1 i with hi | hi
    · obtain ⟨e, he, rfl⟩ := (mem_seq t1 i).2 ⟨hi, i2⟩
      obtain ⟨r1, r2⟩ := final_seq (E := E) (pk := pk) (sk := sk) (pop := pop) (sig := sig)
        (fs := fs) n1 d0 e he
      obtain ⟨c1, c2⟩ := cDisk_read (E := E) n1 ((skFile cDir 1, skLayout E true sk) ::
        (sigFile cDir 1, sigLayout E true sig) :: d) e he
      exact ⟨⟨_, r1, c1⟩, _, r2, c2⟩
    · obtain rfl : i = 1 := by omega
      have hne : ∀ e ∈ es, e.tar ≠ 1 := fun e he hh => by
        have := (mem_seq t1 1).1 ⟨e, he, hh⟩
        omega
      obtain ⟨r1, r2⟩ := final_one (E := E) (pk := pk) (sk := sk) (pop := pop) (sig := sig)
        (fs := fs) (es := es) hne d0
      refine ⟨⟨_, r1, ?_⟩, _, r2, ?_⟩
      · rw [cDisk_frame fun e he => ⟨fun hh => hne e he (skFile_inj hh),
          fun hh => sk_ne_sig _ _ _ hh.symm⟩]
        exact read_cons_eq _ _ _
      · rw [cDisk_frame fun e he => ⟨sk_ne_sig _ _ _, fun hh => hne e he (sigFile_inj hh)⟩,
          read_cons_ne _ _ (sk_ne_sig _ _ _)]
        exact read_cons_eq _ _ _

/-- C61: the stages of `make test` after the Rust program, on every disk on which the checked files
are as the Rust program left them. -/
theorem C61_later_stages (H : HashLaws E) (L : GroupLaws E) (C : CodecLaws E) (D : DefaultLaws E)
    (hc : E.defaultParam.ciphersuite = 0) {pf : Profile} {seed rngseed msg : Bytes}
    (hl : 36 ≤ seed.length) {n : Nat} (h3 : 3 ≤ n) (h100 : n ≤ 100) {d0 d1 : Disk}
    (hr : rustMain E pf seed rngseed msg n d0 = (.ok (), d1)) (mtime : Bytes → Bytes → Bool)
    {d : Disk} (hd : ∀ name ∈ checkedFiles n, d.read (name rustDir) = d1.read (name rustDir)) :
    ∃ d2 d3, pyMain E mtime seed rngseed msg n d = (.ok (), d2) ∧
      cMain E pf seed rngseed msg n d2 = (.ok (), d3) ∧ compareMain mtime n d3 = (.ok (), d3) := by
  have hn : tri (n - 1) ≤ 2 ^ 32 - 1 := by
    unfold tri
    have : (n - 1) * (n - 1 + 1) ≤ 100 * 100 := Nat.mul_le_mul (by omega) (by omega)
    omega
  have hself : ∀ name ∈ checkedFiles n, Passes (fun _ _ => false) d1 d1 name := by
    obtain ⟨x, pk, sk, pop, sig, es, fs, R, rfl⟩ := rustMain_ok H L C D hn hr
    rw [checked_iff H L D R hn (by omega)]
    obtain ⟨-, t1⟩ := R.seq_good H L D hn
    obtain ⟨-, t2⟩ := R.ff_good H L D hn
    have n1 := tar_nodup (targets_seq hn) t1
    have n2 := tar_nodup (targets_ff hn) t2
    have hne : ∀ e ∈ es, e.tar ≠ 1 := fun e he hh => by
      have := (mem_seq t1 1).1 ⟨e, he, hh⟩
      omega
    obtain ⟨o1, o2⟩ := final_one (E := E) (pk := pk) (sk := sk) (pop := pop) (sig := sig)
      (fs := fs) (es := es) hne d0
    refine ⟨⟨_, final_pk d0, Or.inl rfl⟩, ⟨_, o1, Or.inl rfl⟩, ⟨_, o2, Or.inl rfl⟩, ?_, ?_⟩
    · intro e he
      obtain ⟨r1, r2⟩ := final_seq (E := E) (pk := pk) (sk := sk) (pop := pop) (sig := sig)
        (fs := fs) n1 d0 e he
      exact ⟨⟨_, r1, Or.inl rfl⟩, ⟨_, r2, Or.inl rfl⟩⟩
    · intro e he
      obtain ⟨r1, r2⟩ := final_ff (E := E) (pk := pk) (sk := sk) (pop := pop) (sig := sig)
        (es := es) n2 d0 e he
      exact ⟨⟨_, r1, Or.inl rfl⟩, ⟨_, r2, Or.inl rfl⟩⟩
  have hpass : ∀ name ∈ checkedFiles n, Passes mtime d1 d name := by
    intro name hm
    obtain ⟨a, b, h1, h2, _⟩ := hself name hm
    exact ⟨a, a, h1, by rw [hd name hm]; exact h1, Or.inl rfl⟩
  obtain ⟨d2, o2, ⟨_, p⟩ | ⟨hh, _⟩⟩ := C61_python_exact H L C D hc (by omega) hn hr mtime d
  swap
  · exact absurd hpass hh
  obtain ⟨d3, c1, o3, c2⟩ := C61_c_program H L C D hl h3 h100 hr d2
  refine ⟨d2, d3, p, c1, compareLoop_ok mtime ?_⟩
  intro i hi
  rw [List.mem_range'_1] at hi
  obtain ⟨⟨a, a1, a2⟩, b, b1, b2⟩ := c2 i hi.1 (by omega)
  have hm : ∀ f : Bytes, rustDir <+: f → d3.read f = d.read f := fun f hf =>
    (o3 f (not_prefix_c hf)).trans (o2 f (not_prefix_py hf))
  have m1 : (fun dir => skFile dir i) ∈ checkedFiles n := by
    refine List.mem_cons_of_mem _ (List.mem_append_left _ (List.mem_flatMap.2 ⟨i, ?_, by simp⟩))
    rw [List.mem_range'_1]
    exact hi
  have m2 : (fun dir => sigFile dir i) ∈ checkedFiles n := by
    refine List.mem_cons_of_mem _ (List.mem_append_left _ (List.mem_flatMap.2 ⟨i, ?_, by simp⟩))
    rw [List.mem_range'_1]
    exact hi
  refine ⟨⟨a, ?_, a2⟩, b, ?_, b2⟩
  · exact (hm (skFile rustDir i) (List.prefix_append _ _)).trans ((hd _ m1).trans a1)
  · exact (hm (sigFile rustDir i) (List.prefix_append _ _)).trans ((hd _ m2).trans b1)

/-- C61: `make test` passes: after the Rust program all later stages succeed, whatever the times of
modification are. -/
theorem C61_make_test (H : HashLaws E) (L : GroupLaws E) (C : CodecLaws E) (D : DefaultLaws E)
    (hc : E.defaultParam.ciphersuite = 0) {pf : Profile} {seed rngseed msg : Bytes}
    (hl : 36 ≤ seed.length) {n : Nat} (h3 : 3 ≤ n) (h100 : n ≤ 100)
    (hS : StreamsDefined E.sha512 seed rngseed E.defaultParam.ciphersuite n)
    (mtime : Bytes → Bytes → Bool) (d0 : Disk) :
    ∃ d1 d2 d3, rustMain E pf seed rngseed msg n d0 = (.ok (), d1) ∧
      pyMain E mtime seed rngseed msg n d1 = (.ok (), d2) ∧
      cMain E pf seed rngseed msg n d2 = (.ok (), d3) ∧ compareMain mtime n d3 = (.ok (), d3) := by
  have hn : tri (n - 1) ≤ 2 ^ 32 - 1 := by
    unfold tri
    have : (n - 1) * (n - 1 + 1) ≤ 100 * 100 := Nat.mul_le_mul (by omega) (by omega)
    omega
  obtain ⟨d1, hr, _⟩ :=
    (C61_rust_program H L C D pf (by omega) rngseed msg hn d0).2 hS
  obtain ⟨d2, d3, h1, h2, h4⟩ := C61_later_stages H L C D hc hl h3 h100 hr mtime (d := d1)
    (fun _ _ => rfl)
  exact ⟨d1, d2, d3, hr, h1, h2, h4⟩

/-- C61: the proof of possession is not checked: `make test` passes also if the Rust program had
written any other bytes to `pop_bin.txt`. -/
theorem C61_pop_unchecked (H : HashLaws E) (L : GroupLaws E) (C : CodecLaws E) (D : DefaultLaws E)
    (hc : E.defaultParam.ciphersuite = 0) {pf : Profile} {seed rngseed msg : Bytes}
    (hl : 36 ≤ seed.length) {n : Nat} (h3 : 3 ≤ n) (h100 : n ≤ 100) {d0 d1 : Disk}
    (hr : rustMain E pf seed rngseed msg n d0 = (.ok (), d1)) (mtime : Bytes → Bytes → Bool)
    (b : Bytes) :
    ∃ d2 d3, pyMain E mtime seed rngseed msg n ((popFile rustDir, b) :: d1) = (.ok (), d2) ∧
      cMain E pf seed rngseed msg n d2 = (.ok (), d3) ∧ compareMain mtime n d3 = (.ok (), d3) :=
  C61_later_stages H L C D hc hl h3 h100 hr mtime
    (fun _ hm => read_cons_ne _ _ (pop_not_checked hm))

/-- C61: where times of modification are told apart, the Python program detects every change of a
checked file. -/
theorem C61_python_detects (H : HashLaws E) (L : GroupLaws E) (C : CodecLaws E) (D : DefaultLaws E)
    (hc : E.defaultParam.ciphersuite = 0) {pf : Profile} {seed rngseed msg : Bytes} {n : Nat}
    (h2 : 2 ≤ n) (hn : tri (n - 1) ≤ 2 ^ 32 - 1) {d0 d1 : Disk}
    (hr : rustMain E pf seed rngseed msg n d0 = (.ok (), d1)) {mtime : Bytes → Bytes → Bool}
    {name : Bytes → Bytes} (hm : name ∈ checkedFiles n)
    (ht : mtime (name pyDir) (name rustDir) = false) {d : Disk}
    (hd : d.read (name rustDir) ≠ d1.read (name rustDir)) :
    ∃ d' p, pyMain E mtime seed rngseed msg n d = (.panic p, d') := by
  obtain ⟨d2, _, ⟨hh, _⟩ | ⟨_, p, h⟩⟩ := C61_python_exact H L C D hc h2 hn hr mtime d
  · exfalso
    obtain ⟨a, b, h1, h3, h4 | ⟨_, h4⟩⟩ := hh name hm
    · rw [h1, h3, h4] at hd
      exact hd rfl
    · rw [ht] at h4
      cases h4
  · exact ⟨d2, p, h⟩

/-- C61: but `filecmp.cmp` is shallow: where the times of modification agree, any bytes of the right
length pass in place of the secret key of time 1 (or of any other checked file). -/
theorem C61_shallow_comparison (H : HashLaws E) (L : GroupLaws E) (C : CodecLaws E)
    (D : DefaultLaws E) (hc : E.defaultParam.ciphersuite = 0) {pf : Profile}
    {seed rngseed msg : Bytes} (hl : 36 ≤ seed.length) {n : Nat} (h3 : 3 ≤ n) (h100 : n ≤ 100)
    {d0 d1 : Disk} (hr : rustMain E pf seed rngseed msg n d0 = (.ok (), d1))
    {mtime : Bytes → Bytes → Bool} {name : Bytes → Bytes} (hm : name ∈ checkedFiles n)
    (ht : mtime (name pyDir) (name rustDir) = true) {b b' : Bytes}
    (hb : d1.read (name rustDir) = some b) (hlen : b'.length = b.length) :
    ∃ d', pyMain E mtime seed rngseed msg n ((name rustDir, b') :: d1) = (.ok (), d') := by
  have hn : tri (n - 1) ≤ 2 ^ 32 - 1 := by
    unfold tri
    have : (n - 1) * (n - 1 + 1) ≤ 100 * 100 := Nat.mul_le_mul (by omega) (by omega)
    omega
  have hself : ∀ name' ∈ checkedFiles n, Passes mtime d1 d1 name' := by
    obtain ⟨d2, _, h, _⟩ := C61_later_stages H L C D hc hl h3 h100 hr mtime (d := d1)
      (fun _ _ => rfl)
    obtain ⟨d2', _, ⟨hh, _⟩ | ⟨_, p, h'⟩⟩ := C61_python_exact H L C D hc (by omega) hn hr mtime d1
    · exact hh
    · rw [h] at h'
      cases (Prod.mk.inj h').1
  obtain ⟨d2, _, ⟨_, h⟩ | ⟨hh, _⟩⟩ :=
    C61_python_exact H L C D hc (by omega) hn hr mtime ((name rustDir, b') :: d1)
  · exact ⟨d2, h⟩
  · refine absurd ?_ hh
    intro name' hm'
    by_cases he : name rustDir = name' rustDir
    · obtain ⟨u, v, h1, _⟩ := hself name' hm'
      obtain ⟨s, hs⟩ := checked_form hm
      obtain ⟨s', hs'⟩ := checked_form hm'
      have hss : s = s' := by
        rw [hs, hs'] at he
        exact List.append_cancel_left he
      rw [← he, hb] at h1
      cases Option.some.inj h1
      refine ⟨b, b', by rw [← he]; exact hb, by rw [he]; exact read_cons_eq _ _ _,
        Or.inr ⟨hlen.symm, ?_⟩⟩
      rw [hs' pyDir, hs' rustDir, ← hss, ← hs, ← hs]
      exact ht
    · obtain ⟨u, v, h1, h4, h5⟩ := hself name' hm'
      exact ⟨u, v, h1, by rw [read_cons_ne _ _ he]; exact h4, h5⟩

/-! ### concrete cases -/

open Toy

/-- C61: in the toy instance, with a seed of 40 bytes, an empty seed for the updates and the bound 6,
the streams are defined, so the four programs run through -/
theorem toy_streams : StreamsDefined sha0 (List.replicate 40 7) [] 0 6 := by
  unfold StreamsDefined
  decide +kernel

theorem toy_make_test (msg : Bytes) (mtime : Bytes → Bytes → Bool) (d0 : Disk) :
    ∃ d1 d2 d3, rustMain (ext sha0) .debug (List.replicate 40 7) [] msg 6 d0 = (.ok (), d1) ∧
      pyMain (ext sha0) mtime (List.replicate 40 7) [] msg 6 d1 = (.ok (), d2) ∧
      cMain (ext sha0) .debug (List.replicate 40 7) [] msg 6 d2 = (.ok (), d3) ∧
      compareMain mtime 6 d3 = (.ok (), d3) :=
  C61_make_test hashLaws (groupLaws sha0) (codecLaws sha0) (defaultLaws sha0) rfl (by simp) (by omega)
    (by omega) toy_streams mtime d0

/-- C61: a run in which a stream is not defined: with a constant hash function every state comes back
at the first draw, and the Rust program panics -/
example (msg : Bytes) (d0 : Disk) :
    ∃ d', rustMain (ext (fun _ => List.replicate 64 0)) .debug (List.replicate 32 7) [] msg 3 d0 =
      (.panic .assertion, d') :=
  (C61_rust_program (E := ext (fun _ => List.replicate 64 0)) ⟨fun _ => List.length_replicate⟩
    (groupLaws _) (codecLaws _) (defaultLaws _) .debug (by simp) [] msg (by decide) d0).1
    (by unfold StreamsDefined; decide +kernel)

/-- C61: so there is a Rust run after which the Python program accepts zeros for the key of time 1 if
it looks at times of modification only, and refuses an empty disk -/
example (msg : Bytes) : ∃ d1 b, rustMain (ext sha0) .debug (List.replicate 40 7) [] msg 6 [] =
      (.ok (), d1) ∧ d1.read (skFile rustDir 1) = some b ∧
    (∃ d', pyMain (ext sha0) (fun _ _ => true) (List.replicate 40 7) [] msg 6
      ((skFile rustDir 1, List.replicate b.length 0) :: d1) = (.ok (), d')) ∧
    ∃ d' p, pyMain (ext sha0) (fun _ _ => false) (List.replicate 40 7) [] msg 6 [] =
      (.panic p, d') := by
  have H := hashLaws
  have L := groupLaws sha0
  have C := codecLaws sha0
  have D := defaultLaws sha0
  obtain ⟨d1, hr, _, x, pk, pop, _, _, _, _, h, _⟩ := (C61_rust_program H L C D .debug
    (seed := List.replicate 40 7) (by simp) [] msg (n := 6) (by decide) []).2 toy_streams
  obtain ⟨sk, sig, h1, _⟩ := h 1 (by omega) (by omega)
  have hm : (fun dir => skFile dir 1) ∈ checkedFiles 6 :=
    List.mem_cons_of_mem _ (List.mem_append_left _ (List.mem_flatMap.2 ⟨1, by decide, by simp⟩))
  exact ⟨d1, _, hr, h1,
    C61_shallow_comparison H L C D rfl (by simp) (by omega) (by omega) hr hm rfl h1 (by simp),
    C61_python_detects H L C D rfl (by omega) (by decide) hr (mtime := fun _ _ => false) hm rfl
      (by rw [h1]; simp [Disk.read])⟩

/-- C61: the checked files of the bound 3: public key, two keys and signatures, one jump -/
theorem C61_file_names : (checkedFiles 3).map (fun f => f (ascii "")) =
    [ascii "pk_bin.txt", ascii "sk_bin_01.txt", ascii "sig_bin_01.txt", ascii "sk_bin_02.txt",
      ascii "sig_bin_02.txt", ascii "sk_bin_ff_0001_0003.txt", ascii "sig_bin_ff_0001_0003.txt"] := by
  decide +kernel

/-- C61: the bound 100 of `C61_c_program` is needed: the buffer for the name in the C program has room
for two digits, the last letter of the name of file 100 is cut off -/
example : cSkName 99 = skFile cDir 99 ∧ cSkName 100 = ascii "test_buf/sk_bin_100.tx" := by
  decide +kernel

end Pixel.Props
