import Verif.Aead.Base
import Verif.Mode.StreamModel
import Verif.Go.Slice
/-
Model of mode/ccm/ccm.go.  Arrays local to a call (`counter`, `tagMask`, `out`, `block`) are lists; the caller's
slices live in the heap.  Ciphers with their own `NewCCM` (interface ccmAble) are not modelled.
-/
namespace Verif.Aead
open Verif.Mode (copyAt)
open Verif.Mode.Spec (natBe)

/-- mode/ccm/ccm.go:27-31 (`cipher` is a separate argument). -/
structure Ccm where
  nonceSize : Nat
  tagSize : Nat

/-- mode/ccm/ccm.go:57-84 `NewCCMWithNonceAndTagSize`. -/
def ccmNew (c : BlockCipher) (nonceSize tagSize : Int) : Res Ccm :=
  if tagSize < 4 ∨ tagSize > 16 ∨ tagSize % 2 ≠ 0 then .err
  else if nonceSize ≤ 0 then .err
  else if 15 - nonceSize < 2 ∨ 15 - nonceSize > 8 then .err
  else if c.bs ≠ 16 then .err
  else .ok ⟨nonceSize.toNat, tagSize.toNat⟩

/-- mode/ccm/ccm.go:98-109 `maxlen` with 64-bit ints; `uint64(1) << 64` is 0. -/
def ccmMaxlen (L tagsize : Nat) : Nat :=
  let max := (2 ^ (8 * L) % 2 ^ 64 + (2 ^ 64 - 1)) % 2 ^ 64
  let m64 := 2 ^ 63 - 1 - tagsize
  if L > 8 ∨ max > m64 then m64 else max

/-- mode/ccm/ccm.go:112-115 `deriveCounter`. -/
def ccmCounter (nonceSize : Nat) (nonce : Bytes) : Bytes :=
  copyAt (byteOf (14 - nonceSize) :: List.replicate 15 0) 1 nonce

/-- mode/ccm/ccm.go:117-130, the loop; the first argument bounds the number of iterations. -/
def ccmCmacLoop (c : BlockCipher) : Nat → Bytes → Bytes → Bytes
  | 0, out, _ => out
  | f + 1, out, data =>
    if 16 ≤ data.length then ccmCmacLoop c f (c.E (xorInto out data)) (data.drop 16)
    else if 0 < data.length then c.E (xorInto out data)
    else out

/-- mode/ccm/ccm.go:117-130 `cmac` (`out` has 16 bytes); every iteration shortens `data`, so `len(data)` iterations
are enough (`ccmCmac_cons`). -/
def ccmCmac (c : BlockCipher) (out data : Bytes) : Bytes := ccmCmacLoop c data.length out data

/-- mode/ccm/ccm.go:150-170 : the length field, without the bytes of `additionalData`. -/
def ccmLenField (n : Nat) : Bytes :=
  if n ≤ 0xfeff then natBe 2 n
  else if n < 2 ^ 32 then 0xff :: 0xfe :: natBe 4 n
  else 0xff :: 0xff :: natBe 8 n

/-- mode/ccm/ccm.go:133-182 `auth`; the slices are only read. -/
def ccmAuth (c : BlockCipher) (x : Ccm) (nonce pt ad tagMask : Bytes) : Bytes :=
  let f0 : Byte := if 0 < ad.length then 64 else 0
  let f1 := f0 ||| (byteOf (x.tagSize - 2) <<< 2)
  let f2 := f1 ||| byteOf (14 - x.nonceSize)
  let out := copyAt (copyAt (f2 :: List.replicate 15 0) 8 (natBe 8 pt.length)) 1 nonce
  let out := c.E out
  let out :=
    if 0 < ad.length then
      let fld := ccmLenField ad.length
      let block := copyAt (fld ++ List.replicate (16 - fld.length) 0) fld.length ad
      let i := min (16 - fld.length) ad.length
      ccmCmac c (ccmCmac c out block) (ad.drop i)
    else out
  let out := if 0 < pt.length then ccmCmac c out pt else out
  (xorb out tagMask).take x.tagSize

/-- mode/ccm/ccm.go:200 `counter[len(counter)-1] |= 1`. -/
def ccmCounter1 (counter : Bytes) : Bytes := counter.set 15 (counter.getD 15 0 ||| 1)

/-- mode/ccm/ccm.go:184-208 `Seal`. -/
def ccmSeal (c : BlockCipher) (x : Ccm) (h : Heap) (dst nonce pt ad : Slice) : Res (Heap × Slice) :=
  if nonce.len ≠ x.nonceSize then .panic
  else if pt.len > ccmMaxlen (15 - x.nonceSize) x.tagSize then .panic
  else
    let a := sliceForAppend h dst (pt.len + x.tagSize)
    let out := a.2.2
    if inexactOverlap out pt then .panic
    else
      let counter := ccmCounter x.nonceSize (a.1.bytes nonce)
      let tagMask := c.E counter
      do
        let m ← ctrXor c (ccmCounter1 counter) a.1.mem out pt
        let tag := ccmAuth c x (m.read nonce.ptr nonce.len) (m.read pt.ptr pt.len) (m.read ad.ptr ad.len) tagMask
        .ok (⟨m.write (out.ptr + pt.len) (tag.take (out.len - pt.len)), a.1.brk⟩, a.2.1)

/-- mode/ccm/ccm.go:210-258 `Open`: heap afterwards, and the slice unless an error is returned. -/
def ccmOpen (c : BlockCipher) (x : Ccm) (h : Heap) (dst nonce ct ad : Slice) : Res (Heap × Option Slice) :=
  if nonce.len ≠ x.nonceSize then .panic
  else if x.tagSize < 4 then .panic
  else if ct.len < x.tagSize then .ok (h, none)
  else if ct.len > ccmMaxlen (15 - x.nonceSize) x.tagSize + x.tagSize then .ok (h, none)
  else
    let n := ct.len - x.tagSize
    let ct' : Slice := ⟨ct.ptr, n, ct.cap⟩
    let counter := ccmCounter x.nonceSize (h.bytes nonce)
    let tagMask := c.E counter
    let a := sliceForAppend h dst n
    let out := a.2.2
    if inexactOverlap out ct' then .panic
    else do
      let m ← ctrXor c (ccmCounter1 counter) a.1.mem out ct'
      let expected := ccmAuth c x (m.read nonce.ptr nonce.len) (m.read out.ptr out.len) (m.read ad.ptr ad.len) tagMask
      if expected ≠ m.read (ct.ptr + n) x.tagSize then
        .ok (⟨m.write out.ptr (List.replicate out.len 0), a.1.brk⟩, none)
      else .ok (⟨m, a.1.brk⟩, some a.2.1)

end Verif.Aead
