import Verif.Mode.Blocks
import Verif.Go.Slice
import Verif.Mode.StreamSpec
/-
Model of mode/hctr/hctr.go over an abstract block cipher.
-/
namespace Verif.Hctr
open Verif.Mode.Spec (natBe beNat)

/-- mode/hctr/hctr.go:230-232 `hctrFieldElement`. -/
structure Fe where
  low : BitVec 64
  high : BitVec 64
  deriving DecidableEq, Inhabited

/-- mode/hctr/hctr.go:234-238 `reverseBits`. -/
def reverseBits (i : Nat) : Nat :=
  let i := ((i <<< 2) &&& 0xc) ||| ((i >>> 2) &&& 0x3)
  ((i <<< 1) &&& 0xa) ||| ((i >>> 1) &&& 0x5)

/-- mode/hctr/hctr.go:240-242 `hctrAdd`. -/
def add (x y : Fe) : Fe := ⟨x.low ^^^ y.low, x.high ^^^ y.high⟩

/-- mode/hctr/hctr.go:244-256 `hctrDouble`. -/
def double (x : Fe) : Fe :=
  let high := (x.high >>> 1) ||| (x.low <<< 63)
  let low := x.low >>> 1
  if x.high &&& 1 = 1 then ⟨low ^^^ 0xe100000000000000, high⟩ else ⟨low, high⟩

/-- mode/hctr/hctr.go:19-24 `hctrReductionTable`. -/
def reductionTable : List (BitVec 16) := [
  0x0000, 0x1c20, 0x3840, 0x2460, 0x7080, 0x6ca0, 0x48c0, 0x54e0,
  0xe100, 0xfd20, 0xd940, 0xc560, 0x9180, 0x8da0, 0xa9c0, 0xb5e0]

/-- `encoding/binary` `BigEndian.Uint64`. -/
def be64 (b : Bytes) : BitVec 64 := BitVec.ofNat 64 (beNat (b.take 8))

/-- mode/hctr/hctr.go:49-52: one turn of the loop that fills the product table, for `i`. -/
def tableStep (x : Fe) (t : List Fe) (i : Nat) : List Fe :=
  let t := t.set (reverseBits i) (double (t.getD (reverseBits (i / 2)) default))
  t.set (reverseBits (i + 1)) (add (t.getD (reverseBits i) default) x)

/-- mode/hctr/hctr.go:42-52: the product table of the hash key. -/
def table (hkey : Bytes) : List Fe :=
  let x : Fe := ⟨be64 hkey, be64 (hkey.drop 8)⟩
  let t := (List.replicate 16 ⟨0, 0⟩).set (reverseBits 1) x
  [2, 4, 6, 8, 10, 12, 14].foldl (tableStep x) t

/-- mode/hctr/hctr.go:26-30 `hctr`; `conc` is `Concurrency()` when the cipher has the methods of `concurrentBlocks`. -/
structure St where
  c : BlockCipher
  conc : Option Nat
  tweak : Bytes
  table : List Fe

/-- mode/hctr/hctr.go:32-55 `NewHCTR`. -/
def new (c : BlockCipher) (conc : Option Nat) (tweak hkey : Bytes) : Res St :=
  if tweak.length ≠ 16 ∨ hkey.length ≠ 16 then .panic
  else .ok ⟨c, conc, tweak, table hkey⟩

/-- mode/hctr/hctr.go:125-138: one turn of the inner loop of `mul`. -/
def mulStep (t : List Fe) (z : Fe) (word : BitVec 64) : Fe :=
  let msw := z.high &&& 0xf
  let high := (z.high >>> 4) ||| (z.low <<< 60)
  let low := (z.low >>> 4) ^^^ ((reductionTable.getD msw.toNat 0).setWidth 64 <<< 48)
  let e := t.getD (word &&& 0xf).toNat default
  ⟨low ^^^ e.low, high ^^^ e.high⟩

/-- mode/hctr/hctr.go:124-139: `n` turns of the inner loop of `mul`. -/
def mulWord (t : List Fe) : Nat → Fe → BitVec 64 → Fe
  | 0, z, _ => z
  | n + 1, z, w => mulWord t n (mulStep t z w) (w >>> 4)

/-- mode/hctr/hctr.go:115-143 `mul`. -/
def mul (t : List Fe) (y : Fe) : Fe := mulWord t 16 (mulWord t 16 ⟨0, 0⟩ y.high) y.low

/-- mode/hctr/hctr.go:145-150 `updateBlock`. -/
def updateBlock (t : List Fe) (b : Bytes) (y : Fe) : Fe := mul t ⟨y.low ^^^ be64 b, y.high ^^^ be64 (b.drop 8)⟩

/-- mode/hctr/hctr.go:156-160: the loop over whole blocks; returns the rest of the message. -/
def hashLoop (t : List Fe) : Nat → Bytes → Fe → Fe × Bytes
  | 0, msg, y => (y, msg)
  | n + 1, msg, y => if msg.length ≥ 16 then hashLoop t n (msg.drop 16) (updateBlock t msg y) else (y, msg)

/-- mode/hctr/hctr.go:152-187 `uhash`; the loop turns at most `len(m)` times. -/
def uhash (s : St) (m : Bytes) : Bytes :=
  let r := hashLoop s.table m.length m ⟨0, 0⟩
  let msg := r.2
  let y := if msg.length > 0 then
      let p := copyInto (List.replicate 16 0) msg
      let p := p.take msg.length ++ copyInto (p.drop msg.length) s.tweak
      let y := updateBlock s.table p r.1
      let p := copyInto p (s.tweak.drop msg.length)
      let p := p.take msg.length ++ List.replicate (16 - msg.length) 0
      updateBlock s.table p y
    else updateBlock s.table s.tweak r.1
  let y := mul s.table ⟨y.low, y.high ^^^ BitVec.ofNat 64 ((m.length + 16) * 8)⟩
  natBe 8 y.low.toNat ++ natBe 8 y.high.toNat

/-- `Block.Encrypt(dst, src)` / `Block.Decrypt(dst, src)` (`f`) with arrays of 16 bytes: works on the first block and
panics if the arrays are shorter than a block. -/
def blkOp (c : BlockCipher) (f : Bytes → Bytes) (dst src : Bytes) : Res Bytes :=
  if c.bs > 16 then .panic else .ok (copyInto dst (f (src.take c.bs)))

/-- mode/hctr/hctr.go:201-202, 215-217: the counter block number `i`. -/
def ctrBlk (base : Bytes) (i : Nat) : Bytes := xorb base (List.replicate 8 0 ++ natBe 8 i)

/-- mode/hctr/hctr.go:214-227: the loop over single blocks; `crypto/subtle` `XORBytes(dst, src, ctr)` writes
`min(len(src), 16)` bytes. It turns at most `len(src)` times. -/
def ctrLoop (c : BlockCipher) (base : Bytes) : Nat → Mem → Slice → Slice → Nat → Res Mem
  | 0, m, _, _, _ => .ok m
  | fuel + 1, m, dst, src, i =>
    if src.len > 0 then do
      let k ← blkOp c c.E (ctrBlk base i) (ctrBlk base i)
      let n := min src.len 16
      if dst.len < n then .panic
      else
        ctrLoop c base fuel (m.write dst.ptr (xorb (m.read src.ptr n) k)) ⟨dst.ptr + n, dst.len - n, dst.cap - n⟩
          ⟨src.ptr + n, src.len - n, src.cap - n⟩ (i + 1)
    else .ok m

/-- mode/hctr/hctr.go:199-210: the loop over batches of `n` blocks; `EncryptBlocks` encrypts each block of the batch. -/
def batchLoop (c : BlockCipher) (base : Bytes) (n : Nat) : Nat → Mem → Slice → Slice → Nat → Res (Mem × Slice × Slice × Nat)
  | 0, m, dst, src, i => .ok (m, dst, src, i)
  | fuel + 1, m, dst, src, i =>
    if src.len ≥ n * 16 then
      let k := ((List.range n).map fun j => c.E (ctrBlk base (i + j))).flatten
      if dst.len < n * 16 then .panic
      else
        batchLoop c base n fuel (m.write dst.ptr (xorb (m.read src.ptr (n * 16)) k)) ⟨dst.ptr + n * 16, dst.len - n * 16, dst.cap - n * 16⟩
          ⟨src.ptr + n * 16, src.len - n * 16, src.cap - n * 16⟩ (i + n)
    else .ok (m, dst, src, i)

/-- mode/hctr/hctr.go:189-228 `ctr`. A batch of no blocks makes the first loop run forever. -/
def ctr (s : St) (base : Bytes) (m : Mem) (dst src : Slice) : Res Mem := do
  let r ← match s.conc with
    | none => Res.ok (m, dst, src, 1)
    | some 0 => .hang
    | some n => batchLoop s.c base n src.len m dst src 1
  ctrLoop s.c base r.2.2.1.len r.1 r.2.1 r.2.2.1 r.2.2.2

/-- mode/hctr/hctr.go:61-86 `Encrypt`. -/
def encrypt (s : St) (m : Mem) (ct pt : Slice) : Res Mem :=
  if ct.len < pt.len then .panic
  else if pt.len < 16 then .panic
  else if inexactOverlap ⟨ct.ptr, pt.len, ct.cap⟩ pt then .panic
  else do
    let z1 := uhash s (m.read (pt.ptr + 16) (pt.len - 16))
    let z1 := xorb z1 (m.read pt.ptr 16)
    let z2 ← blkOp s.c s.c.E (List.replicate 16 0) z1
    let z1 := xorb z1 z2
    let m ← ctr s z1 m ⟨ct.ptr + 16, ct.len - 16, ct.cap - 16⟩ ⟨pt.ptr + 16, pt.len - 16, pt.cap - 16⟩
    let z1 := uhash s (m.read (ct.ptr + 16) (ct.len - 16))
    .ok (m.write ct.ptr (xorb z2 z1))

/-- mode/hctr/hctr.go:88-113 `Decrypt`. -/
def decrypt (s : St) (m : Mem) (pt ct : Slice) : Res Mem :=
  if pt.len < ct.len then .panic
  else if ct.len < 16 then .panic
  else if inexactOverlap ⟨pt.ptr, ct.len, pt.cap⟩ ct then .panic
  else do
    let z2 := uhash s (m.read (ct.ptr + 16) (ct.len - 16))
    let z2 := xorb z2 (m.read ct.ptr 16)
    let z1 ← blkOp s.c s.c.D (List.replicate 16 0) z2
    let z2 := xorb z2 z1
    let m ← ctr s z2 m ⟨pt.ptr + 16, pt.len - 16, pt.cap - 16⟩ ⟨ct.ptr + 16, ct.len - 16, ct.cap - 16⟩
    let z2 := uhash s (m.read (pt.ptr + 16) (pt.len - 16))
    .ok (m.write pt.ptr (xorb z2 z1))

end Verif.Hctr
