import Verif.Model.Ffi

/-!
# Model of `/repo/src/ffi.rs` with pointers

`Model/Ffi.lean` treats the arguments of the C functions as byte lists.  Here they are pointers into
a heap shared with the C program.  A heap is a list of blocks, numbered in the order of allocation;
a freed block keeps its number.  Reading through a pointer that is null, or a range that does not
lie in one live block, is undefined behaviour, as the contract of `std::slice::from_raw_parts`
has it (also for a range of length zero through a null pointer).  `pixel_pk`, `pixel_pop` and
`pixel_sig` are passed and returned by value.  Vectors that a call allocates and drops again do not
appear in the heap; `shrink_to_fit` is taken to shrink.
-/

namespace Pixel

variable {G1 G2 GT : Type} [AddCommGroup G1] [AddCommGroup G2] [CommGroup GT]

namespace CHeap

/-- A pointer that is not null: number of the block, and offset. -/
structure Ptr where
  block : Nat
  off : Nat
deriving DecidableEq, Repr

/-- The heap; `none` is a block that was freed. -/
structure Heap where
  blocks : List (Option Bytes)
deriving DecidableEq, Repr

/-- How a call ends: it returns, a panic reaches the `extern "C"` boundary, or the behaviour is
undefined. -/
inductive COut (α : Type) where
  | ret (a : α)
  | abort (p : Panic)
  | ub
deriving DecidableEq, Repr

/-- A C function working on the heap. -/
structure CM (α : Type) where
  run : Heap → COut α × Heap

instance {α : Type} : CoeFun (CM α) (fun _ => Heap → COut α × Heap) := ⟨CM.run⟩

instance : Monad CM where
  pure a := ⟨fun h => (.ret a, h)⟩
  bind x f := ⟨fun h => match x h with
    | (.ret a, h') => f a h'
    | (.abort p, h') => (.abort p, h')
    | (.ub, h') => (.ub, h')⟩

/-- The bytes a pointer and a length denote, when reading them is defined. -/
def Heap.read (h : Heap) (p : Option Ptr) (n : Nat) : Option Bytes :=
  match p with
  | none => none
  | some q => match h.blocks[q.block]? with
    | some (some b) => if q.off + n ≤ b.length then some ((b.drop q.off).take n) else none
    | _ => none

/-- `std::slice::from_raw_parts` for bytes. -/
def fromRawParts (p : Option Ptr) (n : Nat) : CM Bytes := ⟨fun h => match h.read p n with
  | some b => (.ret b, h)
  | none => (.ub, h)⟩

/-- `std::slice::from_raw_parts` for `n` structures of `k` bytes. -/
def fromRawPartsOf (k : Nat) (p : Option Ptr) (n : Nat) : CM (List Bytes) := do
  let b ← fromRawParts p (n * k)
  pure ((List.range n).map (fun i => (b.drop (i * k)).take k))

/-- A vector whose ownership is given up: `as_mut_ptr`, `len`, `std::mem::forget`. -/
def forget (b : Bytes) : CM Ptr := ⟨fun h =>
  (.ret ⟨h.blocks.length, 0⟩, ⟨h.blocks ++ [some b]⟩)⟩

/-- Code that does not touch the shared heap.  The functions of `Model/Ffi.lean` return no `err`
(the C interface has no errors). -/
def lift {α : Type} (r : Res α) : CM α := ⟨fun h => match r with
  | .ok a => (.ret a, h)
  | .err _ => (.abort .explicit, h)
  | .panic p => (.abort p, h)⟩

/-- Models `pixel_sk`, `/repo/src/ffi.rs` 12-17. -/
structure Sk where
  data : Option Ptr
  len : Nat
deriving DecidableEq, Repr

/-- Models `pixel_keys`, `/repo/src/ffi.rs` 54-61. -/
structure Keys where
  pk : Bytes
  sk : Sk
  pop : Bytes
deriving DecidableEq, Repr

/-- Models `c_keygen`, `/repo/src/ffi.rs` 86-142. -/
def cKeygen (E : Ext G1 G2 GT) (seed : Option Ptr) (seedLen : Nat) : CM Keys := do
  let s ← fromRawParts seed seedLen
  let keys ← lift (Ffi.cKeygen E s)
  let skPtr ← forget keys.sk
  pure { pk := keys.pk, sk := { data := some skPtr, len := keys.sk.length }, pop := keys.pop }

/-- Models `c_sign_present`, `/repo/src/ffi.rs` 149-183. -/
def cSignPresent (E : Ext G1 G2 GT) (pf : Profile) (sk : Sk) (msg : Option Ptr) (msgLen : Nat)
    (tarTime : Nat) : CM Bytes := do
  let m ← fromRawParts msg msgLen
  let skLocal ← fromRawParts sk.data sk.len
  lift (Ffi.cSignPresent E pf skLocal m tarTime)

/-- Models `c_verify`, `/repo/src/ffi.rs` 188-220. -/
def cVerify [DecidableEq GT] (E : Ext G1 G2 GT) (pf : Profile) (pk : Bytes) (msg : Option Ptr)
    (msgLen : Nat) (sig : Bytes) : CM Bool := do
  let m ← fromRawParts msg msgLen
  lift (Ffi.cVerify E pf pk m sig)

/-- Models `c_sk_update`, `/repo/src/ffi.rs` 227-275. -/
def cSkUpdate (E : Ext G1 G2 GT) (pf : Profile) (sk : Sk) (seed : Option Ptr) (seedLen : Nat)
    (tarTime : Nat) : CM Sk := do
  let s ← fromRawParts seed seedLen
  let skLocal ← fromRawParts sk.data sk.len
  let kBuf ← lift (Ffi.cSkUpdate E pf skLocal s tarTime)
  let skPtr ← forget kBuf
  pure { data := some skPtr, len := kBuf.length }

/-- Models `c_aggregation`, `/repo/src/ffi.rs` 281-319; `SIG_LEN` is 149 (`/repo/src/lib.rs` 72). -/
def cAggregation (E : Ext G1 G2 GT) (sigList : Option Ptr) (sigNum : Nat) : CM Bytes := do
  let sigs ← fromRawPartsOf 149 sigList sigNum
  lift (Ffi.cAggregation E sigs)

/-- Models `c_verify_agg`, `/repo/src/ffi.rs` 323-360: the keys are read and decoded before the
message is looked at; `PK_LEN` is 49 (`/repo/src/lib.rs` 67). -/
def cVerifyAgg [DecidableEq GT] (E : Ext G1 G2 GT) (pf : Profile) (pkList : Option Ptr)
    (pkNum : Nat) (msg : Option Ptr) (msgLen : Nat) (aggSig : Bytes) : CM Bool := do
  let pks ← fromRawPartsOf 49 pkList pkNum
  let pkVec ← lift (Ffi.parseAll (PublicKey.deserialize E true) pks)
  let m ← fromRawParts msg msgLen
  let sig ← lift (Ffi.parse (Signature.deserialize E true) aggSig)
  lift (Signature.verifyBytesAggregated E pf sig pkVec E.defaultParam m)

/-- One step of a C program: a call into the library, or something the program does itself.
`c_verify_pop`, `c_estimate_sk_size` and `c_get_depth` take no pointers and are left out. -/
inductive Step where
  | keygen (seed : Option Ptr) (len : Nat)
  | sign (sk : Sk) (msg : Option Ptr) (len : Nat) (t : Nat)
  | verify (pk : Bytes) (msg : Option Ptr) (len : Nat) (sig : Bytes)
  | update (sk : Sk) (seed : Option Ptr) (len : Nat) (t : Nat)
  | aggregate (sigs : Option Ptr) (n : Nat)
  | verifyAgg (pks : Option Ptr) (n : Nat) (msg : Option Ptr) (len : Nat) (sig : Bytes)
  /-- the program allocates a block with these contents -/
  | malloc (b : Bytes)
  /-- the program writes through a pointer -/
  | write (p : Ptr) (b : Bytes)
  /-- the program frees a block -/
  | free (p : Ptr)
deriving DecidableEq, Repr

/-- What a step gives back. -/
inductive Reply where
  | keys (k : Keys)
  | sk (k : Sk)
  | sig (b : Bytes)
  | bool (b : Bool)
  | ptr (p : Ptr)
  | unit
deriving DecidableEq, Repr

/-- Writing of a C program: inside one live block, otherwise undefined. -/
def clientWrite (p : Ptr) (b : Bytes) : CM Unit := ⟨fun h => match h.blocks[p.block]? with
  | some (some c) => if p.off + b.length ≤ c.length then
      (.ret (), ⟨h.blocks.set p.block (some (c.take p.off ++ b ++ c.drop (p.off + b.length)))⟩)
    else (.ub, h)
  | _ => (.ub, h)⟩

/-- `free` of a C program: of the start of a live block, otherwise undefined. -/
def clientFree (p : Ptr) : CM Unit := ⟨fun h => match h.blocks[p.block]? with
  | some (some _) => if p.off = 0 then (.ret (), ⟨h.blocks.set p.block none⟩) else (.ub, h)
  | _ => (.ub, h)⟩

/-- The effect of one step. -/
def Step.exec [DecidableEq GT] (E : Ext G1 G2 GT) (pf : Profile) : Step → CM Reply
  | .keygen s n => do return .keys (← cKeygen E s n)
  | .sign k m n t => do return .sig (← cSignPresent E pf k m n t)
  | .verify pk m n s => do return .bool (← cVerify E pf pk m n s)
  | .update k s n t => do return .sk (← cSkUpdate E pf k s n t)
  | .aggregate p n => do return .sig (← cAggregation E p n)
  | .verifyAgg p n m l s => do return .bool (← cVerifyAgg E pf p n m l s)
  | .malloc b => do return .ptr (← forget b)
  | .write p b => do clientWrite p b; return .unit
  | .free p => do clientFree p; return .unit

/-- A run of a C program: the steps it performs, one after the other; it ends early when a step does
not return.  Gives the replies so far and the last outcome. -/
def run [DecidableEq GT] (E : Ext G1 G2 GT) (pf : Profile) : List Step → Heap →
    (List Reply × COut Unit) × Heap
  | [], h => (([], .ret ()), h)
  | s :: ss, h => match s.exec E pf h with
    | (.ret r, h') => match run E pf ss h' with
      | ((rs, o), h'') => ((r :: rs, o), h'')
    | (.abort p, h') => (([], .abort p), h')
    | (.ub, h') => (([], .ub), h')

end CHeap

end Pixel
