import Verif.Xoodyak.Cyclist
import Verif.Go.Heap
/-!
# Seal and Open of the Xoodyak AEAD

Model of /repo/cipher/xoodoo/xoodyak/aead.go:79-155 on a heap.  `slack` is the growth policy of `append`.
-/
namespace Verif.Xoodyak
open Verif

/-- `AbsorbKey`, xoodyak.go:188-189: `append(key, id...)` and the append of the length byte, on the caller's key slice. -/
def keyEffect (slack : Nat → Nat) (h : Heap) (key id : Slice) : Heap :=
  let a := appendM slack h key (h.bytes id)
  (appendM slack a.1 a.2 [BitVec.ofNat 8 id.len]).1

/-- `NewXoodyakAEAD`, aead.go:85-92: the object is the key slice itself. -/
def newAead (key : Slice) : Res Slice := if key.len ≠ 16 then .err else .ok key

/-- `Seal`, aead.go:111-125.  Associated data and plaintext are read after the key was absorbed.  A nil `dst` is a slice of
capacity 0. -/
def sealX (slack : Nat → Nat) (key : Slice) (h : Heap) (dst nonce pt ad : Slice) : Res (Heap × Slice) :=
  if nonce.len ≠ 16 then .panic
  else
    let h1 := keyEffect slack h key nonce
    (encAead (h1.bytes pt) (h.bytes key) (h.bytes nonce) (h1.bytes ad)).bind fun r =>
    let a := appendM slack h1 dst r.1
    .ok (appendM slack a.1 a.2 r.2)

/-- `Open`, aead.go:138-155: `none` is the error. -/
def openX (slack : Nat → Nat) (key : Slice) (h : Heap) (dst nonce ct ad : Slice) : Res (Heap × Option Slice) :=
  if nonce.len ≠ 16 then .ok (h, none)
  else if ct.len < 16 then .ok (h, none)
  else
    let h1 := keyEffect slack h key nonce
    let c : Slice := ⟨ct.ptr, ct.len - 16, ct.cap⟩
    let t : Slice := ⟨ct.ptr + (ct.len - 16), 16, ct.cap - (ct.len - 16)⟩
    (decAead (h1.bytes c) (h.bytes key) (h.bytes nonce) (h1.bytes ad) (h1.bytes t)).bind fun r =>
    match r with
    | none => .ok (h1, none)
    | some p =>
      let a := appendM slack h1 dst p
      .ok (a.1, some a.2)

end Verif.Xoodyak
