import Verif.Zuc.Zuc
/-
Model of /repo/gm/zuc/zuc_mac.go, /repo/gm/zuc/zuc256_mac.go and the integrity half of /repo/gm/zuc/eea.go.

Simplifications.  Only the first `macbits/32` entries of the arrays `T` and `K0` of `Zuc256Mac` are kept: the code
never touches the others.  A call that panics gives `.panic` and no object.
-/
namespace Verif.Zuc
open Verif.Cipher

/-! ### The buffer handling the two `Write` methods share -/

/-- The state of a MAC object: the absorbing part, `buf [4]byte` and `buflen` (gm/zuc/zuc_mac.go:7-15,
gm/zuc/zuc256_mac.go:11-20). -/
structure Buf (σ : Type) where
  s : σ
  buf : Bytes
  buflen : Nat

/-- Go's `copy(dst[i:], src)`. -/
def copyAt (dst : Bytes) (i : Nat) (src : Bytes) : Bytes :=
  dst.take i ++ src.take (dst.length - i) ++ dst.drop (i + src.length)

/-- gm/zuc/zuc_mac.go:107-126 and gm/zuc/zuc256_mac.go:136-159, `for dataLen >= 4`; with the data left. -/
def wordsGo {σ : Type} (ab : σ → W → σ) (s : σ) (data : Bytes) : σ × Bytes :=
  if 4 ≤ data.length then wordsGo ab (ab s (getU32 data)) (data.drop 4) else (s, data)
termination_by data.length
decreasing_by rw [List.length_drop]; omega

/-- gm/zuc/zuc_mac.go:107-131 and gm/zuc/zuc256_mac.go:136-164, `Write` after the pending word. -/
def writeRest {σ : Type} (ab : σ → W → σ) (b : Buf σ) (data : Bytes) : Buf σ :=
  let r := wordsGo ab b.s data
  if 0 < r.2.length then ⟨r.1, copyAt b.buf 0 r.2, r.2.length⟩ else ⟨r.1, b.buf, b.buflen⟩

/-- gm/zuc/zuc_mac.go:57-139 and gm/zuc/zuc256_mac.go:89-167 `Write`; `ab` absorbs a word of 32 bits. -/
def macWrite {σ : Type} (ab : σ → W → σ) (b : Buf σ) (data : Bytes) : Buf σ :=
  if data.length = 0 then b
  else if 0 < b.buflen then
    let num := 4 - b.buflen
    if data.length < num then ⟨b.s, copyAt b.buf b.buflen data, b.buflen + data.length⟩
    else
      let buf := copyAt b.buf b.buflen (data.take num)
      writeRest ab ⟨ab b.s (getU32 buf), buf, 0⟩ (data.drop num)
  else writeRest ab b data

/-- gm/zuc/zuc_mac.go:153-174 and gm/zuc/zuc256_mac.go:176-191, the part of `Sum` that takes in `data` and `nbits`: the
object, whether there is a last word, and its number of bits (`buflen*8 + nbits`, which may be negative). -/
def sumIn {σ : Type} (ab : σ → W → σ) (b : Buf σ) (data : Bytes) (nbits : Int) : Res (Buf σ × Bool × Int) :=
  let nbits := if data.length = 0 then 0 else nbits
  let mid : Res (Buf σ × Bytes × Int) :=
    if nbits ≥ 8 then
      if (data.length : Int) < nbits.tdiv 8 then .panic
      else .ok (macWrite ab b (data.take (nbits.tdiv 8).toNat), data.drop (nbits.tdiv 8).toNat, nbits.tmod 8)
    else .ok (b, data, nbits)
  mid.bind fun (b, data, nbits) =>
    if nbits > 0 then
      if data.length = 0 ∨ 4 ≤ b.buflen then .panic
      else .ok (⟨b.s, b.buf.set b.buflen (data.getD 0 0), b.buflen⟩, true, b.buflen * 8 + nbits)
    else .ok (b, 0 < b.buflen, b.buflen * 8 + nbits)

/-! ### ZucMac -/

/-- gm/zuc/zuc_mac.go:7-15, the absorbing part. -/
structure Mac where
  g : St
  t : W
  k0 : W

/-- gm/zuc/zuc_mac.go:94-100, one pass of the bit loop on `(T, K0, K1, M)`. -/
def macBit (x : W × W × W × W) : W × W × W × W :=
  let (t, k0, k1, m) := x
  (if m &&& 0x80000000#32 ≠ 0 then t ^^^ k0 else t, (k0 <<< 1) ||| (k1 >>> 31), k1 <<< 1, m <<< 1)

/-- gm/zuc/zuc_mac.go:88-101, 110-122 and 176-189: the next key word, then `k` bits of `m`. -/
def macAbsorb (k : Nat) (a : Mac) (m : W) : Mac :=
  let r := keyword a.g
  let x := Strm.iterate macBit k (a.t, a.k0, r.1, m)
  ⟨r.2, x.1, x.2.1⟩

/-- gm/zuc/zuc_mac.go:17-30 and 47-55 `NewZucMac`: the registers are copied before the first key word is generated. -/
def newMac (key iv : Bytes) : Res (Buf Mac) :=
  if key.length ≠ 16 then .panic else if iv.length ≠ 16 then .panic
  else (newState key iv).bind fun s => .ok ⟨⟨s, 0, (keyword s).1⟩, [0, 0, 0, 0], 0⟩

/-- gm/zuc/zuc_mac.go:40-45 `Reset`. -/
def macReset (b : Buf Mac) : Buf Mac := ⟨⟨⟨List.replicate 16 0, b.s.g.r1, b.s.g.r2⟩, 0, b.s.k0⟩, [0, 0, 0, 0], 0⟩

/-- gm/zuc/zuc_mac.go:57-139 `Write`. -/
def macWr (b : Buf Mac) (data : Bytes) : Buf Mac := macWrite (macAbsorb 32) b data

/-- gm/zuc/zuc_mac.go:141-202 `Sum`: the tag, and the object after it (`R1`, `R2` and `K0` are not stored back). -/
def macSum (b : Buf Mac) (data : Bytes) (nbits : Int) : Res (Bytes × Buf Mac) :=
  (sumIn (macAbsorb 32) b data nbits).bind fun (b, last, k) =>
    let a := if last then macAbsorb k.toNat b.s (getU32 b.buf) else b.s
    let r := keyword a.g
    let t := a.t ^^^ a.k0 ^^^ r.1
    .ok (putU32 t, ⟨⟨⟨r.2.lfsr, b.s.g.r1, b.s.g.r2⟩, t, b.s.k0⟩, b.buf, b.buflen⟩)

/-- gm/zuc/eea.go:45-64 `SetEiaIV`. -/
def eiaIV (count bearer direction : W) : Bytes :=
  let b0 : Byte := (count >>> 24).setWidth 8
  let b1 : Byte := (count >>> 16).setWidth 8
  let b2 : Byte := (count >>> 8).setWidth 8
  let b3 : Byte := count.setWidth 8
  let b4 : Byte := (bearer <<< 3).setWidth 8
  [b0, b1, b2, b3, b4, 0, 0, 0, (b0.setWidth 32 ^^^ (direction <<< 7)).setWidth 8, b1, b2, b3, b4, 0,
    (direction <<< 7).setWidth 8, 0]

/-- gm/zuc/eea.go:66-85 `EiaGenerateMac`. -/
def eiaMac (data : List W) (nbits : Int) (key : Bytes) (count bearer direction : W) : Res W :=
  (newMac key (eiaIV count bearer direction)).bind fun b =>
    (macSum b (data.flatMap putU32) nbits).bind fun r => .ok (getU32 r.1)

/-! ### Zuc256Mac -/

/-- gm/zuc/zuc256_mac.go:11-20, the absorbing part. -/
structure Mac256 where
  g : St
  t : List W
  k0 : List W

/-- gm/zuc/zuc256_mac.go:124-128, the shift of `K0` by one bit. -/
def shiftK : List W → W → List W
  | [], _ => []
  | [a], k1 => [(a <<< 1) ||| (k1 >>> 31)]
  | a :: b :: r, k1 => ((a <<< 1) ||| (b >>> 31)) :: shiftK (b :: r) k1

/-- gm/zuc/zuc256_mac.go:117-129, one pass of the bit loop. -/
def macBit256 (x : List W × List W × W × W) : List W × List W × W × W :=
  let (t, k0, k1, m) := x
  (if m &&& 0x80000000#32 ≠ 0 then List.zipWith (· ^^^ ·) t k0 else t, shiftK k0 k1, k1 <<< 1, m <<< 1)

/-- gm/zuc/zuc256_mac.go:114-130, 139-155 and 194-210: the next key word, then `k` bits of `m`. -/
def macAbsorb256 (k : Nat) (a : Mac256) (m : W) : Mac256 :=
  let r := keyword a.g
  let x := Strm.iterate macBit256 k (a.t, a.k0, r.1, m)
  ⟨r.2, x.1, x.2.1⟩

/-- gm/zuc/zuc256_mac.go:22-35 and 54-71 `NewZuc256Mac`. -/
def newMac256 (key iv : Bytes) (macbits : Int) : Res (Buf Mac256) :=
  if key.length ≠ 32 then .panic else if iv.length ≠ 23 then .panic
  else
    let macbits := if macbits < 32 then 32 else if macbits > 64 then 128 else macbits
    (newState256 key iv macbits).bind fun s =>
      let n := (macbits.tdiv 32).toNat
      let t := keywords n s
      let k := keywords n t.2
      .ok ⟨⟨k.2, t.1, k.1⟩, [0, 0, 0, 0], 0⟩

/-- gm/zuc/zuc256_mac.go:45-50 `Reset`. -/
def macReset256 (b : Buf Mac256) : Buf Mac256 :=
  ⟨⟨⟨List.replicate 16 0, b.s.g.r1, b.s.g.r2⟩, b.s.t.map fun _ => 0, b.s.k0⟩, [0, 0, 0, 0], 0⟩

/-- gm/zuc/zuc256_mac.go:89-167 `Write`. -/
def macWr256 (b : Buf Mac256) (data : Bytes) : Buf Mac256 := macWrite (macAbsorb256 32) b data

/-- gm/zuc/zuc256_mac.go:169-219 `Sum`: the tag, and the object after it. -/
def macSum256 (b : Buf Mac256) (data : Bytes) (nbits : Int) : Res (Bytes × Buf Mac256) :=
  (sumIn (macAbsorb256 32) b data nbits).bind fun (b, last, k) =>
    let a := if last then macAbsorb256 k.toNat b.s (getU32 b.buf) else b.s
    let t := List.zipWith (· ^^^ ·) a.t a.k0
    .ok (t.flatMap putU32, ⟨⟨a.g, t, a.k0⟩, b.buf, b.buflen⟩)

end Verif.Zuc
