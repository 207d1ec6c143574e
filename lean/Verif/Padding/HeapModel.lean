import Verif.Go.Heap
import Verif.Padding.Model
/-
Model of the `Padding` methods of /repo/padding/*.go at the level of the heap: Go `append` writes into the
spare capacity of the caller's slice when there is any.
-/
namespace Verif.Padding

/-- The block size test and the computation of the number of padding bytes shared by the block paddings:
`none` when `blockSize < 1`. -/
def sizeM (text : Slice) (blockSize : Int) : Option Nat :=
  if blockSize < 1 then none else some (padSize text.len blockSize.toNat)

/-- padding/pkcs7.go:22-33 -/
def pkcs7PadM (slack : Nat → Nat) (h : Heap) (text : Slice) (blockSize : Int) : Heap × Slice :=
  match sizeM text blockSize with
  | none => (h, text)
  | some p => appendM slack h text (List.replicate p (byteOf p))

/-- padding/pkcs5.go:22-35 -/
def pkcs5PadM (slack : Nat → Nat) (h : Heap) (text : Slice) (_blockSize : Int) : Heap × Slice :=
  let p := padSize text.len 8
  appendM slack h text (List.replicate p (byteOf p))

/-- padding/x923.go:24-38 : append zeros, then `text[len(text)-1] = byte(overhead)`. -/
def x923PadM (slack : Nat → Nat) (h : Heap) (text : Slice) (blockSize : Int) : Heap × Slice :=
  match sizeM text blockSize with
  | none => (h, text)
  | some p =>
    let (h1, t) := appendM slack h text (List.replicate p 0)
    (storeM h1 t (t.len - 1) (byteOf p), t)

/-- padding/iso10126.go:23-36 : two appends. -/
def iso10126PadM (slack : Nat → Nat) (rnd : Nat → Nat) (h : Heap) (text : Slice) (blockSize : Int) :
    Heap × Slice :=
  match sizeM text blockSize with
  | none => (h, text)
  | some p =>
    let (h1, t) := appendM slack h text (randomBytes rnd (p - 1))
    appendM slack h1 t [byteOf p]

/-- padding/iso7816_4.go:23-37, iso97971.go:23-36, pboc2.go:24-37 : append zeros, `text[num] = 0x80`. -/
def iso7816PadM (slack : Nat → Nat) (h : Heap) (text : Slice) (blockSize : Int) : Heap × Slice :=
  match sizeM text blockSize with
  | none => (h, text)
  | some p =>
    let (h1, t) := appendM slack h text (List.replicate p 0)
    (storeM h1 t text.len 0x80, t)

/-- padding/zero.go:22-33 -/
def zeroPadM (slack : Nat → Nat) (h : Heap) (text : Slice) (blockSize : Int) : Heap × Slice :=
  match sizeM text blockSize with
  | none => (h, text)
  | some p => appendM slack h text (List.replicate p 0)

/-- padding/tbc.go:23-49 -/
def tbcPadM (slack : Nat → Nat) (h : Heap) (text : Slice) (blockSize : Int) : Heap × Slice :=
  match sizeM text blockSize with
  | none => (h, text)
  | some p =>
    let b : Byte :=
      if text.len > 0 then
        if h.mem (text.ptr + (text.len - 1)) &&& 1 ≠ 0 then 0x00 else 0xFF
      else 0xFF
    appendM slack h text (List.replicate p b)

/-- padding/pkcs1.go:32-77 : a sequence of appends. -/
def pkcs1PadM (slack : Nat → Nat) (rnd : Nat → Nat) (bt : String) (h : Heap) (text : Slice)
    (blockSize : Int) : Heap × Slice :=
  let n := text.len
  if blockSize < 1 then (h, text)
  else
    let paddingSize : Int := blockSize - 3 - n
    if paddingSize < 8 then (h, text)
    else
      let p := paddingSize.toNat
      let (h, t) := appendM slack h text [0x00]
      let (h, t) :=
        if bt = "00" then
          let (h, t) := appendM slack h t [0x00]
          appendM slack h t (List.replicate p 0x00)
        else if bt = "01" then
          let (h, t) := appendM slack h t [0x01]
          appendM slack h t (List.replicate p 0xFF)
        else if bt = "02" then
          let (h, t) := appendM slack h t [0x02]
          appendM slack h t (randomBytes rnd p)
        else (h, t)
      let (h, t) := appendM slack h t [0x00]
      appendM slack h t [byteOf n]

end Verif.Padding
