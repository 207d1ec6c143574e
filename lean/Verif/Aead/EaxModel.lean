import Verif.Aead.Base
import Verif.Go.Slice
/-
Model of mode/eax/eax.go and of the helpers it uses from tool/bytes/bytes.go.  Slices made inside a call are lists.
-/
namespace Verif.Aead

/-- tool/bytes/bytes.go:35-44 `ShiftLeft`. -/
def shiftLeft1 : Bytes → Bytes
  | [] => []
  | [b] => [b <<< 1]
  | a :: b :: t => ((a <<< 1) ||| (b >>> 7)) :: shiftLeft1 (b :: t)

/-- tool/bytes/bytes.go:22-32 `GfnDouble`. -/
def gfnDouble (x : Bytes) : Res Bytes :=
  if x.length ≠ 16 then .panic
  else
    let s := shiftLeft1 x
    .ok (s.set 15 (s.getD 15 0 ^^^ ((x.getD 0 0 >>> 7) * 0x87)))

/-- tool/bytes/bytes.go:74-83 `RightXOR` for `len(Y) ≤ len(X)` (otherwise the code panics). -/
def rightXor (X Y : Bytes) : Res Bytes :=
  if X.length < Y.length then .panic
  else .ok (X.take (X.length - Y.length) ++ xorb (X.drop (X.length - Y.length)) Y)

/-- Standard library `cipher.NewCBCEncrypter(c, iv).CryptBlocks`, on the blocks of the input. -/
def stdCbc (E : Bytes → Bytes) : Bytes → List Bytes → Bytes
  | _, [] => []
  | iv, b :: bs => let y := E (xorb b iv); y ++ stdCbc E y bs

/-- mode/eax/eax.go:21-25 (`block` is a separate argument). -/
structure Eax where
  nonceSize : Nat
  tagSize : Nat

/-- mode/eax/eax.go:58-76 `NewEAXWithNonceAndTagSize`. The code also accepts a negative tagSize; the model keeps 0
for it and the theorems about `Seal`/`Open` require a non-negative one. -/
def eaxNew (c : BlockCipher) (nonceSize tagSize : Int) : Res Eax :=
  if nonceSize < 1 then .err
  else if tagSize > c.bs then .err
  else .ok ⟨nonceSize.toNat, tagSize.toNat⟩

/-- mode/eax/eax.go:163-175 `pad`. -/
def eaxPad (bs : Nat) (M B P : Bytes) : Res Bytes :=
  if M.length ≠ 0 ∧ M.length % bs = 0 then rightXor M B
  else rightXor (M ++ (List.replicate (bs - M.length % bs) 0).set 0 0x80) P

/-- mode/eax/eax.go:145-161 `omac`. -/
def eaxOmac (c : BlockCipher) (M : Bytes) : Res Bytes := do
  let B ← gfnDouble (c.E (List.replicate c.bs 0))
  let P ← gfnDouble B
  let padded ← eaxPad c.bs M B P
  let ct := stdCbc c.E (List.replicate c.bs 0) (Mode.chunks c.bs padded)
  .ok (ct.drop (ct.length - c.bs))

/-- mode/eax/eax.go:137-143 `omacT`. -/
def eaxOmacT (c : BlockCipher) (t : Byte) (M : Bytes) : Res Bytes :=
  eaxOmac c ((List.replicate c.bs 0).set (c.bs - 1) t ++ M)

/-- mode/eax/eax.go:94-97, 118-121 : `tag[i] = omacCiphertext[i] ^ omacNonce[i] ^ omacAdata[i]`. -/
def eaxTagOf (ts : Nat) (oc on oa : Bytes) : Bytes := (xorb (xorb oc on) oa).take ts

/-- mode/eax/eax.go:78-100 `Seal`. -/
def eaxSeal (c : BlockCipher) (x : Eax) (h : Heap) (dst nonce pt ad : Slice) : Res (Heap × Slice) :=
  if nonce.len > x.nonceSize then .panic
  else
    let a := sliceForAppend h dst (pt.len + x.tagSize)
    let out := a.2.2
    do
      let on ← eaxOmacT c 0 (a.1.bytes nonce)
      let oa ← eaxOmacT c 1 (a.1.bytes ad)
      let m ← ctrXor c on a.1.mem ⟨out.ptr, pt.len, out.cap⟩ pt
      let oc ← eaxOmacT c 2 (m.read out.ptr pt.len)
      .ok (⟨m.write (out.ptr + pt.len) (eaxTagOf x.tagSize oc on oa), a.1.brk⟩, a.2.1)

/-- mode/eax/eax.go:102-134 `Open`: heap afterwards, and the slice unless an error is returned.
`ret[:sep]` reslices within the capacity. -/
def eaxOpen (c : BlockCipher) (x : Eax) (h : Heap) (dst nonce ct ad : Slice) : Res (Heap × Option Slice) :=
  if nonce.len > x.nonceSize then .panic
  else if ct.len < x.tagSize then .ok (h, none)
  else
    let sep := ct.len - x.tagSize
    do
      let on ← eaxOmacT c 0 (h.bytes nonce)
      let oa ← eaxOmacT c 1 (h.bytes ad)
      let oc ← eaxOmacT c 2 (h.mem.read ct.ptr sep)
      if h.mem.read (ct.ptr + sep) x.tagSize ≠ eaxTagOf x.tagSize oc on oa then .ok (h, none)
      else
        let a := sliceForAppend h dst ct.len
        let m ← ctrXor c on a.1.mem a.2.2 ⟨ct.ptr, sep, ct.cap⟩
        .ok (⟨m, a.1.brk⟩, some { a.2.1 with len := sep })

end Verif.Aead
