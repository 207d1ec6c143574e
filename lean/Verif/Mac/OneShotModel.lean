import Verif.Mac.Model
import Verif.Padding.HeapModel
/-
Model of package mac (mac/*.go).  `MAC(src)` works on the caller's slice: `src = pad.Padding(src, blockSize)` appends to
it, so the heap is part of the result.  The tag is a slice made by the call, hence a list.  `creator` is the
`BlockCipherFunc`, `none` standing for an error.
-/
namespace Verif.Mac
open Verif.Aead (xorInto)

/-- padding/iso97971.go:23-36 applied to the caller's slice, and the bytes of the result. -/
def isoPad (slack : Nat → Nat) (h : Heap) (src : Slice) (bs : Nat) : Heap × Bytes :=
  let r := Padding.iso7816PadM slack h src bs
  (r.1, r.1.bytes r.2)

/-- mac/cbc_mac.go:43-48, ansi_retail_mac.go:52-57, emac.go:53-58, mac_des.go:70-75, tr_cbc_mac.go:46-51 (`stop = 0`) and
lmac.go:66-70, cbcr_mac.go:48-53 (`stop = bs`): `for len(src) > stop`, with what is left of `src`.  `fuel` bounds the
rounds by the length.  (`src[:blockSize]` of a shorter slice panics; reslicing into its capacity is not modelled, the
lengths here are multiples of the block size.) -/
def macLoop (c : BlockCipher) (stop : Nat) : Nat → Bytes → Bytes → Res (Bytes × Bytes)
  | 0, tag, src => .ok (tag, src)
  | fuel + 1, tag, src =>
    if src.length > stop then
      if src.length < c.bs then .panic
      else macLoop c stop fuel (c.E (xorInto tag (src.take c.bs))) (src.drop c.bs)
    else .ok (tag, src)

/-- The size check of every constructor, e.g. mac/cbc_mac.go:21-23. -/
def badSize (c : BlockCipher) (size : Int) : Prop := size ≤ 0 ∨ size > c.bs

instance (c : BlockCipher) (size : Int) : Decidable (badSize c size) := by unfold badSize; infer_instance

/-- mac/cbc_mac.go:20-30 `NewCBCMAC` (also NewTRCBCMAC, NewCBCRMAC): the stored size. -/
def newSized (c : BlockCipher) (size : Int) : Res Nat := if badSize c size then .panic else .ok size.toNat

/-- mac/cbc_mac.go:38-51 `MAC`. -/
def cbcMacM (slack : Nat → Nat) (c : BlockCipher) (size : Nat) (h : Heap) (src : Slice) : Res (Heap × Bytes) := do
  let p := isoPad slack h src c.bs
  let t ← macLoop c 0 p.2.length (List.replicate c.bs 0) p.2
  .ok (p.1, t.1.take size)

/-- mac/emac.go:20-42 `NewEMAC`, mac/ansi_retail_mac.go:19-41 `NewANSIRetailMAC`. -/
def newTwo (creator : Bytes → Option BlockCipher) (key1 key2 : Bytes) (size : Int) : Res (BlockCipher × BlockCipher × Nat) :=
  match creator key1 with
  | none => .panic
  | some b1 =>
    if badSize b1 size then .panic
    else match creator key2 with
      | none => .panic
      | some b2 => .ok (b1, b2, size.toNat)

/-- mac/emac.go:48-63 `MAC`. -/
def emacM (slack : Nat → Nat) (b1 b2 : BlockCipher) (size : Nat) (h : Heap) (src : Slice) : Res (Heap × Bytes) := do
  let p := isoPad slack h src b1.bs
  let t ← macLoop b1 0 p.2.length (List.replicate b1.bs 0) p.2
  .ok (p.1, (b2.E t.1).take size)

/-- mac/ansi_retail_mac.go:47-63 `MAC`. -/
def retailM (slack : Nat → Nat) (b1 b2 : BlockCipher) (size : Nat) (h : Heap) (src : Slice) : Res (Heap × Bytes) := do
  let p := isoPad slack h src b1.bs
  let t ← macLoop b1 0 p.2.length (List.replicate b1.bs 0) p.2
  .ok (p.1, (b1.E (b2.D t.1)).take size)

/-- mac/mac_des.go:19-53 `NewMACDES`. -/
def newMacDes (creator : Bytes → Option BlockCipher) (key1 key2 : Bytes) (size : Int) :
    Res (BlockCipher × BlockCipher × BlockCipher × Nat) :=
  match creator key1 with
  | none => .panic
  | some b1 =>
    if badSize b1 size then .panic
    else match creator key2 with
      | none => .panic
      | some b2 => match creator (key2.map (· ^^^ 0xF0)) with
        | none => .panic
        | some b3 => .ok (b1, b2, b3, size.toNat)

/-- mac/mac_des.go:59-80 `MAC`. -/
def macDesM (slack : Nat → Nat) (b1 b2 b3 : BlockCipher) (size : Nat) (h : Heap) (src : Slice) : Res (Heap × Bytes) := do
  let p := isoPad slack h src b1.bs
  if p.2.length < b1.bs then .panic
  else
    let tag := b3.E (b1.E (copyInto (List.replicate b1.bs 0) (p.2.take b1.bs)))
    let t ← macLoop b1 0 p.2.length tag (p.2.drop b1.bs)
    .ok (p.1, (b2.E t.1).take size)

/-- mac/lmac.go:18-55 `NewLMAC`. -/
def newLmac (creator : Bytes → Option BlockCipher) (key : Bytes) (size : Int) : Res (BlockCipher × BlockCipher × Nat) :=
  match creator key with
  | none => .panic
  | some b =>
    if badSize b size then .panic
    else
      match creator (b.E ((List.replicate b.bs 0).set (b.bs - 1) 1)) with
      | none => .panic
      | some b1 => match creator (b.E ((List.replicate b.bs 0).set (b.bs - 1) 2)) with
        | none => .panic
        | some b2 => .ok (b1, b2, size.toNat)

/-- mac/lmac.go:57-59 `Size`. -/
def lmacSize (b1 : BlockCipher) (_size : Nat) : Nat := b1.bs

/-- mac/lmac.go:61-77 `MAC`: the stored size is not used. -/
def lmacM (slack : Nat → Nat) (b1 b2 : BlockCipher) (_size : Nat) (h : Heap) (src : Slice) : Res (Heap × Bytes) := do
  let p := isoPad slack h src b1.bs
  let t ← macLoop b1 b1.bs p.2.length (List.replicate b1.bs 0) p.2
  if t.2.length < b1.bs then .panic
  else .ok (p.1, b2.E (xorInto t.1 (t.2.take b1.bs)))

/-- mac/cmac.go:18-43 `NewCMAC`: the two masks.  `msb * 0b10000111` is 0x87 or 0. -/
def newCmac (c : BlockCipher) (size : Int) : Res (Bytes × Bytes × Nat) :=
  if badSize c size then .panic
  else
    let k1 := dblM 0x87 (c.E (List.replicate c.bs 0))
    .ok (k1, dblM 0x87 k1, size.toNat)

/-- mac/cmac.go:62-72, and what is left of `src` for lines 74-81. -/
def cmacLoop1 (c : BlockCipher) (k1 : Bytes) : Nat → Bytes → Bytes → Bytes × Bytes
  | 0, tag, src => (tag, src)
  | fuel + 1, tag, src =>
    if src.length ≥ c.bs then
      let tag := xorb (src.take c.bs) tag
      let tag := if src.length = c.bs then xorb k1 tag else tag
      cmacLoop1 c k1 fuel (c.E tag) (src.drop c.bs)
    else (tag, src)

/-- mac/cmac.go:49-84 `MAC` on the contents of `src` (which is only read). -/
def cmac1M (c : BlockCipher) (k1 k2 : Bytes) (size : Nat) (src : Bytes) : Bytes :=
  let tag := List.replicate c.bs 0
  if src.length = 0 then
    let tag := copyInto tag k2
    c.E (tag.set src.length (tag.getD src.length 0 ^^^ 0x80))
  else
    let r := cmacLoop1 c k1 src.length tag src
    let tag := if r.2.length > 0 then
        let tag := xorInto r.1 r.2
        let tag := xorb k2 tag
        c.E (tag.set r.2.length (tag.getD r.2.length 0 ^^^ 0x80))
      else r.1
    tag.take size

/-- mac/tr_cbc_mac.go:36-58 `MAC`. -/
def trCbcM (slack : Nat → Nat) (c : BlockCipher) (size : Nat) (h : Heap) (src : Slice) : Res (Heap × Bytes) := do
  let padded := src.len = 0 ∨ src.len % c.bs ≠ 0
  let p := if padded then isoPad slack h src c.bs else (h, h.bytes src)
  let t ← macLoop c 0 p.2.length (List.replicate c.bs 0) p.2
  .ok (p.1, if padded then t.1.drop (c.bs - size) else t.1.take size)

/-- mac/cbcr_mac.go:70-72: the loop of `shiftRight`, with the bit carried out. -/
def shiftRC : Byte → Bytes → Bytes × Byte
  | lsb, [] => ([], lsb)
  | lsb, a :: t => let r := shiftRC (a <<< 7) t; (((a >>> 1) ||| lsb) :: r.1, r.2)

/-- mac/cbcr_mac.go:68-75 `shiftRight`. -/
def shiftRightM (x : Bytes) : Bytes :=
  let r := shiftRC 0 x
  r.1.set 0 (r.1.getD 0 0 ^^^ r.2)

/-- mac/cbcr_mac.go:36-66 `MAC`.  The value of `shiftLeft` (the bit shifted out) is discarded. -/
def cbcrM (slack : Nat → Nat) (c : BlockCipher) (size : Nat) (h : Heap) (src : Slice) : Res (Heap × Bytes) := do
  let tag := c.E (List.replicate c.bs 0)
  let padded := src.len = 0 ∨ src.len % c.bs ≠ 0
  let p := if padded then isoPad slack h src c.bs else (h, h.bytes src)
  let t ← macLoop c c.bs p.2.length tag p.2
  if t.2.length < c.bs then .panic
  else
    let tag := xorInto t.1 (t.2.take c.bs)
    let tag := if padded then (shiftC tag).1 else shiftRightM tag
    .ok (p.1, (c.E tag).take size)

end Verif.Mac
