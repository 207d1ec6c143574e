import Verif.Go.Slice
/-
Model of /repo/padding/*.go on slice contents.  Go `int` block sizes are `Int`; slice lengths are `Nat`
(the 64-bit overflow of lengths is not modelled).
-/
namespace Verif.Padding

/-- `blockSize - n%blockSize`, for `blockSize ≥ 1` (padding/pkcs7.go:28, pkcs5.go:30, x923.go:31,
iso10126.go:30, iso7816_4.go:31, iso97971.go:30, pboc2.go:31, zero.go:29, tbc.go:30). -/
def padSize (n bs : Nat) : Nat := bs - n % bs

/-- The loop `for i := i0; i < i0+cnt; i++ { if padding[i] != want { return err } }`
(padding/pkcs7.go:50-54, pkcs5.go:52-56, x923.go:54-58, iso7816_4.go:51-55). -/
def checkEq (padding : Bytes) (want : Byte) : (i cnt : Nat) → Res Unit
  | _, 0 => .ok ()
  | i, c + 1 => do
    let b ← idx padding i
    if b ≠ want then .err else checkEq padding want (i + 1) c

/-- padding/pkcs7.go:22-33 -/
def pkcs7Pad (text : Bytes) (blockSize : Int) : Bytes :=
  if blockSize < 1 then text
  else
    let p := padSize text.length blockSize.toNat
    text ++ List.replicate p (byteOf p)

/-- padding/pkcs7.go:36-58 -/
def pkcs7Unpad (src : Bytes) : Res Bytes :=
  let n := src.length
  if n = 0 then .err else do
    let last ← idx src (n - 1)
    let unpadding := last.toNat
    let num : Int := (n : Int) - unpadding
    if num < 0 then .err else do
      let padding ← sliceFrom src num.toNat
      checkEq padding (byteOf unpadding) 0 unpadding
      sliceTo src num.toNat

/-- padding/pkcs5.go:22-35 (the block size argument is ignored). -/
def pkcs5Pad (text : Bytes) (_blockSize : Int) : Bytes :=
  let p := padSize text.length 8
  text ++ List.replicate p (byteOf p)

/-- padding/pkcs5.go:38-60 -/
def pkcs5Unpad (src : Bytes) : Res Bytes :=
  let n := src.length
  if n = 0 then .err else do
    let last ← idx src (n - 1)
    let unpadding := last.toNat
    let num : Int := (n : Int) - unpadding
    if num < 0 ∨ unpadding > 8 then .err else do
      let padding ← sliceFrom src num.toNat
      checkEq padding (byteOf unpadding) 0 unpadding
      sliceTo src num.toNat

/-- padding/x923.go:24-38 -/
def x923Pad (text : Bytes) (blockSize : Int) : Bytes :=
  if blockSize < 1 then text
  else
    let p := padSize text.length blockSize.toNat
    let t := text ++ List.replicate p 0
    t.set (t.length - 1) (byteOf p)

/-- padding/x923.go:40-61. The loop bound `unpadding - 1` may be -1, i.e. no iterations. -/
def x923Unpad (src : Bytes) : Res Bytes :=
  let n := src.length
  if n = 0 then .err else do
    let last ← idx src (n - 1)
    let unpadding := last.toNat
    let num : Int := (n : Int) - unpadding
    if num < 0 then .err else do
      let padding ← sliceFrom src num.toNat
      checkEq padding 0 0 (unpadding - 1)
      sliceTo src num.toNat

/-- padding/padding.go:17 : the 61 characters used as random filler. -/
def charset : Bytes :=
  "abcdefghijklmnopqrstuvwxyzABCDEFGHIJKLMNOPQRSTUVWXYZ123456789".toList.map (fun c => byteOf c.toNat)

/-- padding/padding.go:16-26. `rnd i` is the i-th value returned by `rand.Int63()`. -/
def randomBytes (rnd : Nat → Nat) (length : Nat) : Bytes :=
  (List.range length).map (fun i => charset.getD (rnd i % charset.length) 0)

/-- padding/iso10126.go:23-36 -/
def iso10126Pad (rnd : Nat → Nat) (text : Bytes) (blockSize : Int) : Bytes :=
  if blockSize < 1 then text
  else
    let p := padSize text.length blockSize.toNat
    text ++ randomBytes rnd (p - 1) ++ [byteOf p]

/-- padding/iso10126.go:38-50 -/
def iso10126Unpad (src : Bytes) : Res Bytes :=
  let n := src.length
  if n = 0 then .err else do
    let last ← idx src (n - 1)
    let num : Int := (n : Int) - last.toNat
    if num < 0 then .err else sliceTo src num.toNat

/-- padding/iso7816_4.go:23-37; iso97971.go:23-36 and pboc2.go:24-37 are the same code. -/
def iso7816Pad (text : Bytes) (blockSize : Int) : Bytes :=
  if blockSize < 1 then text
  else
    let p := padSize text.length blockSize.toNat
    let t := text ++ List.replicate p 0
    t.set text.length 0x80

/-- `bytes.LastIndexByte` : scan downwards from the end; `none` is -1. -/
def lastIndexByte (s : Bytes) (c : Byte) : Nat → Option Nat
  | 0 => none
  | i + 1 => if s.getD i 0 = c then some i else lastIndexByte s c i

/-- padding/iso7816_4.go:39-58; iso97971.go:38-57 and pboc2.go:39-58 are the same code. -/
def iso7816Unpad (src : Bytes) : Res Bytes :=
  let n := src.length
  if n = 0 then .err else
    match lastIndexByte src 0x80 n with
    | none => .err
    | some num => do
      let padding ← sliceFrom src num
      checkEq padding 0 1 (n - num - 1)
      sliceTo src num

/-- padding/zero.go:22-33 -/
def zeroPad (text : Bytes) (blockSize : Int) : Bytes :=
  if blockSize < 1 then text
  else text ++ List.replicate (padSize text.length blockSize.toNat) 0

/-- padding/zero.go:35-37 : `bytes.TrimRight(src, "\x00")`, dropping the longest suffix of zero bytes. -/
def zeroUnpad (src : Bytes) : Res Bytes :=
  .ok (src.reverse.dropWhile (fun b => b == 0)).reverse

/-- padding/tbc.go:23-49 -/
def tbcPad (text : Bytes) (blockSize : Int) : Bytes :=
  if blockSize < 1 then text
  else
    let n := text.length
    let p := padSize n blockSize.toNat
    let paddingByte : Byte :=
      if n > 0 then
        let lastBit := text.getD (n - 1) 0 &&& 1
        if lastBit ≠ 0 then 0x00 else 0xFF
      else 0xFF
    text ++ List.replicate p paddingByte

/-- The scan `for i := n-2; i >= 0; i-- { if src[i] != c { res = src[:i+1]; break } }`
(padding/tbc.go:63-68, 80-85), `k` = number of remaining indices. -/
def tbcScan (src : Bytes) (c : Byte) : Nat → Bytes
  | 0 => []
  | i + 1 => if src.getD i 0 ≠ c then src.take (i + 1) else tbcScan src c i

/-- padding/tbc.go:51-97 -/
def tbcUnpad (src : Bytes) : Res Bytes :=
  let n := src.length
  if n = 0 then .err else do
    let lastByte ← idx src (n - 1)
    if lastByte = 0x00 then
      let res := tbcScan src 0x00 (n - 1)
      if res.length > 0 then
        if res.getD (res.length - 1) 0 &&& 1 = 0 then .err else .ok res
      else .err
    else if lastByte = 0xFF then
      let res := tbcScan src 0xFF (n - 1)
      if res.length > 0 then
        if res.getD (res.length - 1) 0 &&& 1 ≠ 0 then .err else .ok res
      else .ok res
    else .err

/-- padding/pkcs1.go:32-77 -/
def pkcs1Pad (rnd : Nat → Nat) (bt : String) (text : Bytes) (blockSize : Int) : Bytes :=
  let n := text.length
  if blockSize < 1 then text
  else
    let paddingSize : Int := blockSize - 3 - n
    if paddingSize < 8 then text
    else
      let p := paddingSize.toNat
      let t := text ++ [0x00]
      let t :=
        if bt = "00" then t ++ [0x00] ++ List.replicate p 0x00
        else if bt = "01" then t ++ [0x01] ++ List.replicate p 0xFF
        else if bt = "02" then t ++ [0x02] ++ randomBytes rnd p
        else t
      t ++ [0x00] ++ [byteOf n]

/-- padding/pkcs1.go:79-91 -/
def pkcs1Unpad (src : Bytes) : Res Bytes :=
  let n := src.length
  if n = 0 then .err else do
    let last ← idx src (n - 1)
    let count := last.toNat
    if count > n then .err else sliceTo src count

end Verif.Padding
