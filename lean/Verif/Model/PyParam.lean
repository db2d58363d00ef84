import Verif.Model.PyRef

/-!
# Model of the generation of the public parameter, `/repo/pixel-python/param.py`

The crate takes `PubParam` from the external crate `pixel_param`; the only code in the repository
that makes one is the Python script.  The seed, the ciphersuite byte and the depth, constants of the
script, are arguments here.  `map2curve_osswu2` is the hash-to-curve of `bls_sigs_ref`
(`E.hashToG1`), `serialize` its point encoding (`E.encG1`, `E.encG2`).  Python exceptions are
`Res.panic`.
-/

namespace Pixel.Py

open Pixel

variable {G1 G2 GT : Type} [AddCommGroup G1] [AddCommGroup G2] [CommGroup GT]

/-- `DOM_SEP_PARAM_GEN`, `/repo/pixel-python/param.py` 19. -/
def DOM_SEP_PARAM_GEN : Bytes := ascii "Pixel public parameter generation"

/-- `seed`, `/repo/pixel-python/param.py` 43-48. -/
def paramSeed : Bytes := [
  0x6a, 0x09, 0xe6, 0x67, 0xf3, 0xbc, 0xc9, 0x08, 0xbb, 0x67, 0xae, 0x85, 0x84, 0xca, 0xa7, 0x3b,
  0x3c, 0x6e, 0xf3, 0x72, 0xfe, 0x94, 0xf8, 0x2b, 0xa5, 0x4f, 0xf5, 0x3a, 0x5f, 0x1d, 0x36, 0xf1,
  0x51, 0x0e, 0x52, 0x7f, 0xad, 0xe6, 0x82, 0xd1, 0x9b, 0x05, 0x68, 0x8c, 0x2b, 0x3e, 0x6c, 0x1f,
  0x1f, 0x83, 0xd9, 0xab, 0xfb, 0x41, 0xbd, 0x6b, 0x5b, 0xe0, 0xcd, 0x19, 0x13, 0x7e, 0x21, 0x79]

/-- `I2OSP(x, 1)` and `b"%c" % x`: one byte, an exception when too large. -/
def i2osp1 (x : Nat) : Res Bytes :=
  if x < 256 then .ok [UInt8.ofNat x] else .panic .overflow

/-- The loop `/repo/pixel-python/param.py` 66-72. -/
def paramLoop (E : Ext G1 G2 GT) (m : Bytes) (ciphersuite : UInt8) : List Nat → Res (List G1)
  | [] => .ok []
  | i :: is => do
    let b ← i2osp1 i
    let info := ascii "H2G_h" ++ b
    let key := expand E.sha512 m info 32
    let hi := E.hashToG1 key [ciphersuite]
    let hlist ← paramLoop E m ciphersuite is
    .ok (hi :: hlist)

/-- Models `/repo/pixel-python/param.py` 50-74. -/
def paramGen (E : Ext G1 G2 GT) (seed : Bytes) (ciphersuite : UInt8) (d : Nat) :
    Res (PubParam G1 G2) := do
  let m := hkdfExtract E.sha512 DOM_SEP_PARAM_GEN seed
  let info := ascii "H2G_h"
  let key := expand E.sha512 m info 32
  let h := E.hashToG1 key [ciphersuite]
  let hlist ← paramLoop E m ciphersuite (List.range (d + 1))
  .ok { depth := d, ciphersuite := ciphersuite, g2 := E.gen2, h := h, hlist := hlist }

/-- The file `param_bin.txt`, `/repo/pixel-python/param.py` 77-87. -/
def paramFile (E : Ext G1 G2 GT) (pp : PubParam G1 G2) : Res Bytes := do
  let buf := [pp.ciphersuite]
  let d ← i2osp1 pp.depth
  let buf := buf ++ d
  let buf := buf ++ E.encG2 false pp.g2
  let buf := buf ++ E.encG1 false pp.h
  .ok (buf ++ pp.hlist.flatMap (E.encG1 false))

end Pixel.Py
