import Verif.Mode.Cipher
import Verif.Aead.Base
import Verif.Go.Slice
import Verif.Aead.OcbSpec
import Verif.Hash.Iface
/-
Model of hash/cmac and hash/pmac.  The buffers of these objects are never reachable by the caller, so they are byte
lists; `xor(a, b)` is `Aead.xorInto a b`.
-/
namespace Verif.Mac
open Verif.Aead (xorInto)

/-- hash/cmac/utils.go:7-16 `shift`, hash/pmac/block.go:41-45 (loop of `Dbl`), mac/cmac.go:87-94 `shiftLeft`:
from the last byte to the first, the shifted bytes and the bit shifted out. -/
def shiftC : Bytes → Bytes × Byte
  | [] => ([], 0)
  | a :: t => let r := shiftC t; (((a <<< 1) ||| r.2) :: r.1, a >>> 7)

/-- hash/cmac/cmac.go:89-93, hash/pmac/block.go:47: `b[n-1] ^= byte(subtle.ConstantTimeSelect(v, p, 0))`. -/
def dblM (p : Nat) (x : Bytes) : Bytes :=
  let s := shiftC x
  s.1.set (x.length - 1) (s.1.getD (x.length - 1) 0 ^^^ byteOf (if s.2 = 1 then p else 0))

/-- hash/cmac/cmac.go:42-48, without `cipher`, which is a separate argument, and the changing fields. -/
structure Cmac where
  k0 : Bytes
  k1 : Bytes
  tagsize : Nat
deriving DecidableEq

/-- hash/cmac/cmac.go:45-46: the changing fields. -/
structure CmacSt where
  buf : Bytes
  off : Nat
deriving DecidableEq

/-- hash/cmac/cmac.go:27-34, 64-78. -/
def cmacP (bs : Nat) : Option Nat :=
  match bs with
  | 8 => some 0x1b | 16 => some 0x87 | 32 => some 0x425 | 64 => some 0x125 | 128 => some 0x80043 | _ => none

/-- hash/cmac/cmac.go:57-96 `NewWithTagSize`. -/
def cmacNew (c : BlockCipher) (tagsize : Int) : Res (Cmac × CmacSt) :=
  if tagsize ≤ 0 ∨ tagsize > c.bs then .err
  else match cmacP c.bs with
    | none => .err
    | some p =>
      let k0 := dblM p (c.E (List.replicate c.bs 0))
      let k1 := dblM p k0
      .ok (⟨k0, k1, tagsize.toNat⟩, ⟨List.replicate c.bs 0, 0⟩)

/-- hash/cmac/cmac.go:106-111 `Reset`. -/
def cmacReset (s : CmacSt) : CmacSt := ⟨List.replicate s.buf.length 0, 0⟩

/-- hash/cmac/cmac.go:138-142: `k` rounds of the loop. -/
def cmacBlocks (c : BlockCipher) : Nat → Bytes → Bytes → Bytes
  | 0, buf, _ => buf
  | k + 1, buf, msg => cmacBlocks c k (c.E (xorInto buf (msg.take c.bs))) (msg.drop c.bs)

/-- hash/cmac/cmac.go:147: `xor(d.buf[d.off:], msg)`. -/
def xorAt (buf : Bytes) (off : Nat) (msg : Bytes) : Bytes := buf.take off ++ xorInto (buf.drop off) msg

/-- hash/cmac/cmac.go:133-150: `Write` after a started block has been dealt with.  `length & ^(bs-1)` is
`length - (length & (bs-1))`. -/
def cmacWriteTail (c : BlockCipher) (s : CmacSt) (msg : Bytes) : CmacSt :=
  let r : Bytes × Bytes :=
    if msg.length > c.bs then
      let nn := msg.length - (msg.length &&& (c.bs - 1))
      let nn := if msg.length = nn then nn - c.bs else nn
      (cmacBlocks c (nn / c.bs) s.buf msg, msg.drop nn)
    else (s.buf, msg)
  if r.2.length > 0 then ⟨xorAt r.1 s.off r.2, s.off + r.2.length⟩ else ⟨r.1, s.off⟩

/-- hash/cmac/cmac.go:113-153 `Write`. -/
def cmacWrite (c : BlockCipher) (s : CmacSt) (msg : Bytes) : CmacSt :=
  if s.off > 0 then
    let dif := c.bs - s.off
    if msg.length > dif then
      cmacWriteTail c ⟨c.E (xorAt s.buf s.off (msg.take dif)), 0⟩ (msg.drop dif)
    else ⟨xorAt s.buf s.off msg, s.off + msg.length⟩
  else cmacWriteTail c s msg

/-- hash/cmac/cmac.go:162-183 `checkSum`. -/
def cmacCheckSum (c : BlockCipher) (d : Cmac) (s : CmacSt) : Bytes :=
  let hash := xorInto (if s.off < c.bs then d.k1 else d.k0) s.buf
  let hash := if s.off < c.bs then hash.set s.off (hash.getD s.off 0 ^^^ 0x80) else hash
  (c.E hash).take d.tagsize

/-- The methods of the object; hash/cmac/cmac.go:155-160 `Sum` works on a copy of the struct, and `checkSum` writes
only to the slice it makes, so the state is unchanged. -/
def cmacObj (c : BlockCipher) (d : Cmac) : Hash.Obj CmacSt where
  write s x := .ok (cmacWrite c s x)
  sum s p := .ok (s, p ++ cmacCheckSum c d s)
  reset := cmacReset

/-- hash/cmac/verify.go:9-17 `Sum`. -/
def cmacSum (msg : Bytes) (c : BlockCipher) (tagsize : Int) : Res Bytes := do
  let h ← cmacNew c tagsize
  let s ← (cmacObj c h.1).write h.2 msg
  let r ← (cmacObj c h.1).sum s []
  .ok r.2

/-- hash/cmac/verify.go:22-29 `Verify`. -/
def cmacVerify (mac msg : Bytes) (c : BlockCipher) (tagsize : Int) : Bool :=
  match cmacSum msg c tagsize with
  | .ok s => mac == s
  | _ => false

/-! PMAC -/

/-- hash/pmac/pmac.go:18-52, the fixed fields (`pcbs` is the length of `l`). -/
structure Pmac where
  l : List Bytes
  lInv : Bytes
  tagsize : Nat

/-- hash/pmac/pmac.go:18-52, the changing fields.  `finished` is set only on a copy (line 181), so it stays false
in the object. -/
structure PmacSt where
  digest : Bytes
  offset : Bytes
  buf : Bytes
  pos : Nat
  ctr : Nat
deriving DecidableEq

/-- hash/pmac/pmac.go:90-95: the table of doublings, starting from `tmp`. -/
def pmacTable : Nat → Bytes → List Bytes
  | 0, _ => []
  | k + 1, tmp => tmp :: pmacTable k (dblM 0x87 tmp)

/-- hash/pmac/pmac.go:105-110: every byte is shifted right, taking in the low bit of its left neighbour. -/
def shrC : Byte → Bytes → Bytes
  | _, [] => []
  | p, a :: t => ((a >>> 1) ||| (if p &&& 1 = 1 then 0x80 else 0)) :: shrC a t

/-- hash/pmac/pmac.go:102-113. -/
def pmacInv (x : Bytes) : Bytes :=
  let s := shrC 0 x
  if (x.getD (x.length - 1) 0 &&& 1) = 1 then
    let s := s.set 0 (s.getD 0 0 ^^^ 0x80)
    s.set (x.length - 1) (s.getD (x.length - 1) 0 ^^^ byteOf (0x87 >>> 1))
  else s

/-- hash/pmac/pmac.go:61-116 `NewWithTagSize`. -/
def pmacNew (c : BlockCipher) (tagsize : Int) : Res (Pmac × PmacSt) :=
  if tagsize ≤ 0 ∨ tagsize > c.bs then .err
  else if ¬ (c.bs = 8 ∨ c.bs = 16 ∨ c.bs = 32 ∨ c.bs = 64 ∨ c.bs = 128) then .err
  else
    let tmp := c.E (List.replicate c.bs 0)
    let z := List.replicate c.bs 0
    .ok (⟨pmacTable (2 * c.bs - 1) tmp, pmacInv tmp, tagsize.toNat⟩, ⟨z, z, z, 0, 0⟩)

/-- hash/pmac/pmac.go:119-126 `Reset`. -/
def pmacReset (s : PmacSt) : PmacSt :=
  ⟨List.replicate s.digest.length 0, List.replicate s.offset.length 0, List.replicate s.buf.length 0, 0, 0⟩

/-- hash/pmac/pmac.go:210-218 `processBuffer`.  Indexing the table beyond its end panics. -/
def pmacProcess (c : BlockCipher) (d : Pmac) (s : PmacSt) : Res PmacSt :=
  match d.l[Aead.Spec.ntz (s.ctr + 1)]? with
  | none => .panic
  | some l =>
    let offset := xorInto s.offset l
    let buf := c.E (xorInto s.buf offset)
    .ok ⟨xorInto s.digest buf, offset, buf, 0, s.ctr + 1⟩

/-- hash/pmac/pmac.go:160-167: whole blocks while more than a block is left (`fuel` bounds the rounds by the length
of the message). -/
def pmacLoop (c : BlockCipher) (d : Pmac) : Nat → PmacSt → Bytes → Res (PmacSt × Bytes)
  | 0, s, msg => .ok (s, msg)
  | fuel + 1, s, msg =>
    if msg.length > c.bs then do
      let s ← pmacProcess c d { s with buf := copyInto s.buf (msg.take c.bs) }
      pmacLoop c d fuel s (msg.drop c.bs)
    else .ok (s, msg)

/-- hash/pmac/pmac.go:137-175 `Write`. -/
def pmacWrite (c : BlockCipher) (d : Pmac) (s : PmacSt) (msg : Bytes) : Res PmacSt := do
  let remaining := c.bs - s.pos
  let r ← (if msg.length > remaining then do
      let s ← pmacProcess c d { s with buf := s.buf.take s.pos ++ copyInto (s.buf.drop s.pos) (msg.take remaining) }
      .ok (s, msg.drop remaining)
    else .ok (s, msg) : Res (PmacSt × Bytes))
  let r ← pmacLoop c d r.2.length r.1 r.2
  let s := r.1
  if r.2.length > 0 then
    .ok { s with buf := s.buf.take s.pos ++ copyInto (s.buf.drop s.pos) r.2, pos := s.pos + r.2.length }
  else .ok s

/-- hash/pmac/pmac.go:188-207 `checkSum`: the new contents of `digest`. -/
def pmacCheckSum (c : BlockCipher) (d : Pmac) (s : PmacSt) : Bytes :=
  if s.pos = c.bs then c.E (xorInto (xorInto s.digest s.buf) d.lInv)
  else
    let g := xorInto s.digest (s.buf.take s.pos)
    c.E (g.set s.pos (g.getD s.pos 0 ^^^ 0x80))

/-- The methods of the object; hash/pmac/pmac.go:179-184: `d0 := *d` copies the slice headers only, so `checkSum`
overwrites the contents of the object's own `digest`. -/
def pmacObj (c : BlockCipher) (d : Pmac) : Hash.Obj PmacSt where
  write := pmacWrite c d
  sum s p := .ok ({ s with digest := pmacCheckSum c d s }, p ++ (pmacCheckSum c d s).take d.tagsize)
  reset := pmacReset

end Verif.Mac
