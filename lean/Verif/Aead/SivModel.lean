import Verif.Mac.Model
import Verif.Aead.Base
/-
Model of mode/siv/cipher.go and siv.go over any `hash.Hash` object `o` (CMAC or PMAC) with state `σ` and values of `n`
bytes.  The buffers `tmp1` and `tmp2` are filled before they are read in every call, so they carry nothing from call to
call and are not part of the state.
-/
namespace Verif.Aead
open Verif.Mac (dblM)

variable {σ : Type}

/-- mode/siv/cipher.go:155-166: the loop over the associated data items. -/
def sivItems (o : Hash.Obj σ) : σ → Bytes → List Bytes → Res (σ × Bytes)
  | s, d, [] => .ok (s, d)
  | s, d, v :: items => do
    let s ← o.write s v
    let r ← o.sum s []
    sivItems o (o.reset r.1) (xorInto (dblM 0x87 d) r.2) items

/-- mode/siv/cipher.go:140-191 `s2v`. -/
def sivS2v (o : Hash.Obj σ) (n : Nat) (s : σ) (items : List Bytes) (sn : Bytes) : Res (σ × Bytes) := do
  let s := o.reset s
  let s ← o.write s (List.replicate n 0)
  let r ← o.sum s []
  let r ← sivItems o (o.reset r.1) (copyInto (List.replicate n 0) r.2) items
  let d := r.2
  if sn.length ≥ n then do
    let k := sn.length - d.length
    let tmp := copyInto (List.replicate n 0) (sn.drop k)
    let s ← o.write r.1 (sn.take k)
    let s ← o.write s (xorInto tmp d)
    o.sum s []
  else do
    let tmp := copyInto (List.replicate n 0) sn
    let tmp := tmp.set sn.length 0x80
    let s ← o.write r.1 (xorInto tmp (dblM 0x87 d))
    o.sum s []

/-- mode/siv/cipher.go:193-199 `zeroIVBits`. -/
def zeroIVBits (iv : Bytes) : Bytes :=
  let iv := iv.set (iv.length - 8) (iv.getD (iv.length - 8) 0 &&& 0x7f)
  iv.set (iv.length - 4) (iv.getD (iv.length - 4) 0 &&& 0x7f)

/-- mode/siv/cipher.go:39-54, 57-72 `NewCMACCipher` / `NewPMACCipher`: the MAC object made by `cmac.New` / `pmac.New`
(hash/cmac/cmac.go:51-53, hash/pmac/pmac.go:55-57: the tag size is the block size). -/
def sivNewCmac (macBlock : BlockCipher) : Res (Mac.Cmac × Mac.CmacSt) := Mac.cmacNew macBlock macBlock.bs
@[inherit_doc sivNewCmac]
def sivNewPmac (macBlock : BlockCipher) : Res (Mac.Pmac × Mac.PmacSt) := Mac.pmacNew macBlock macBlock.bs

/-- mode/siv/cipher.go:86-103 `Cipher.Seal`; `none` is the returned error. -/
def sivSealItems (o : Hash.Obj σ) (n : Nat) (c : BlockCipher) (s : σ) (h : Heap) (dst pt : Slice) (items : List Slice) :
    Res (Heap × Option Slice × σ) :=
  if items.length > 126 then .ok (h, none, s)
  else do
    let r ← sivS2v o n s (items.map h.bytes) (h.bytes pt)
    let iv := r.2
    let a := sliceForAppend h dst (iv.length + pt.len)
    let out := a.2.2
    let m := a.1.mem.write out.ptr iv
    let m ← ctrXor c (zeroIVBits iv) m ⟨out.ptr + iv.length, out.len - iv.length, out.cap - iv.length⟩ pt
    .ok (⟨m, a.1.brk⟩, some a.2.1, r.1)

/-- mode/siv/cipher.go:113-138 `Cipher.Open`; `none` is the returned error. -/
def sivOpenItems (o : Hash.Obj σ) (n : Nat) (c : BlockCipher) (s : σ) (h : Heap) (dst ct : Slice) (items : List Slice) :
    Res (Heap × Option Slice × σ) :=
  if items.length > 126 then .ok (h, none, s)
  else if ct.len < n then .ok (h, none, s)
  else do
    let iv := zeroIVBits (copyInto (List.replicate n 0) (h.bytes ct))
    let a := sliceForAppend h dst (ct.len - n)
    let out := a.2.2
    let m ← ctrXor c iv a.1.mem out ⟨ct.ptr + n, ct.len - n, ct.cap - n⟩
    let r ← sivS2v o n s (items.map fun x => m.read x.ptr x.len) (m.read out.ptr out.len)
    if m.read ct.ptr n ≠ r.2 then .ok (⟨m, a.1.brk⟩, none, r.1)
    else .ok (⟨m, a.1.brk⟩, some a.2.1, r.1)

/-- mode/siv/siv.go:64-81 `aead.Seal`; `ad = none` is a nil slice. -/
def sivSeal (o : Hash.Obj σ) (n : Nat) (c : BlockCipher) (nonceSize : Int) (s : σ) (h : Heap) (dst nonce pt : Slice)
    (ad : Option Slice) : Res (Heap × Slice × σ) :=
  if (nonce.len : Int) ≠ nonceSize ∧ nonceSize ≥ 0 then .panic
  else do
    let r ← sivSealItems o n c s h dst pt (ad.toList ++ [nonce])
    match r.2.1 with
    | none => .panic
    | some x => .ok (r.1, x, r.2.2)

/-- mode/siv/siv.go:83-93 `aead.Open`. -/
def sivOpen (o : Hash.Obj σ) (n : Nat) (c : BlockCipher) (nonceSize : Int) (s : σ) (h : Heap) (dst nonce ct : Slice)
    (ad : Option Slice) : Res (Heap × Option Slice × σ) :=
  if (nonce.len : Int) ≠ nonceSize ∧ nonceSize ≥ 0 then .panic
  else sivOpenItems o n c s h dst ct (ad.toList ++ [nonce])

end Verif.Aead
