import Verif.Aead.Base
import Verif.Aead.OcbSpec
import Verif.Aead.EaxModel
/-
Model of mode/ocb/ocb.go on a 64-bit machine, with the object's caches and with the memory written by the code,
including what `append` writes behind the slices it is applied to.  `bits.TrailingZeros` is `Spec.ntz` (its arguments
are positive).  `byteutil.XORBytes` reads its operands before it writes (exact for equal or disjoint ranges).
-/
namespace Verif.Aead

/-- mode/ocb/ocb.go:14-42: sizes, `mask` and `reusableKtop`. -/
structure Ocb where
  tagSize : Int
  nonceSize : Nat
  lAst : Bytes
  lDol : Bytes
  L : List Bytes
  noncePrefix : Bytes
  Ktop : Bytes

/-- mode/ocb/ocb.go:63-91 `NewWithNonceAndTagSize`, 321-338 `initializeMaskTable`. -/
def ocbNew (c : BlockCipher) (nonceSize tagSize : Int) : Res Ocb :=
  if c.bs ≠ 16 then .err
  else if nonceSize < 1 then .err
  else if nonceSize ≥ c.bs then .err
  else if tagSize > c.bs then .err
  else do
    let lAst := c.E (List.replicate c.bs 0)
    let lDol ← gfnDouble lAst
    let l0 ← gfnDouble lDol
    .ok ⟨tagSize, nonceSize.toNat, lAst, lDol, [l0], [], []⟩

/-- mode/ocb/ocb.go:341-345 `extendTable`: `k` more entries. -/
def ocbExtend : Nat → List Bytes → Res (List Bytes)
  | 0, L => .ok L
  | k + 1, L => do
    let d ← gfnDouble (L.getLastD [])
    ocbExtend k (L ++ [d])

/-- mode/ocb/ocb.go:200-205, 287-294: `L[ntz(i)]`, extending the table when it is too short. -/
def ocbMask (L : List Bytes) (i : Nat) : Res (Bytes × List Bytes) := do
  let L' ← if L.length < Spec.ntz i + 1 then ocbExtend (Spec.ntz i + 1 - L.length) L else .ok L
  .ok (L'.getD (Spec.ntz i) [], L')

/-- tool/bytes/bytes.go:47-60 `ShiftLeftN`, the loop over the bits: `bits < 8`. -/
def shiftBits (b : Nat) : Bytes → Bytes
  | [] => []
  | [x] => [x <<< b]
  | x :: y :: t => ((x <<< b) ||| (y >>> (8 - b))) :: shiftBits b (y :: t)

/-- tool/bytes/bytes.go:47-63 `ShiftLeftN(dst, x, n)` into a zeroed `dst` of the length of `x`. -/
def shiftLeftN (x : Bytes) (n : Nat) : Bytes := shiftBits (n % 8) (x.drop (n / 8) ++ List.replicate (n / 8) 0)

/-- mode/ocb/ocb.go:155-159: the nonce with its last 6 bits cleared. -/
def ocbTrunc (nonce : Bytes) : Bytes := nonce.set (nonce.length - 1) (nonce.getD (nonce.length - 1) 0 &&& 192)

/-- mode/ocb/ocb.go:167-172: the block that is enciphered to `Ktop`. -/
def ocbPadded (ts : Int) (trunc : Bytes) : Bytes :=
  let p := List.replicate (15 - trunc.length) 0 ++ [1] ++ trunc
  let p := p.set 0 (p.getD 0 0 ||| BitVec.ofInt 8 (((8 * ts).tmod 128) * 2))
  p.set 15 (p.getD 15 0 &&& 192)

/-- mode/ocb/ocb.go:155-190: `offset` and the updated cache; an empty nonce makes line 159 panic. -/
def ocbInit (c : BlockCipher) (o : Ocb) (nonce : Bytes) : Res (Bytes × Ocb) :=
  if nonce.length = 0 then .panic
  else
    let trunc := ocbTrunc nonce
    let o := if trunc = o.noncePrefix then o else { o with noncePrefix := trunc, Ktop := c.E (ocbPadded o.tagSize trunc) }
    let xorHalves := xorb (o.Ktop.take 8) ((o.Ktop.drop 1).take 8)
    let bottom := (nonce.getD (nonce.length - 1) 0 &&& 63).toNat
    .ok ((shiftLeftN (o.Ktop ++ xorHalves) bottom).take 16, o)

/-- mode/ocb/ocb.go:285-300: the loop of `hash`, on the copy of the additional data. -/
def ocbHashLoop (c : BlockCipher) : Nat → Nat → Bytes → Bytes → List Bytes → Bytes → Res (Bytes × Bytes × List Bytes)
  | 0, _, off, sum, L, _ => .ok (off, sum, L)
  | k + 1, i, off, sum, L, A => do
    let r ← ocbMask L (i + 1)
    let off := xorb off r.1
    ocbHashLoop c k (i + 1) off (xorb sum (c.E (xorb (A.take 16) off))) r.2 (A.drop 16)

/-- mode/ocb/ocb.go:271-319 `hash`. -/
def ocbHashM (c : BlockCipher) (o : Ocb) (A : Bytes) : Res (Bytes × Ocb) := do
  let r ← ocbHashLoop c (A.length / 16) 0 (List.replicate 16 0) (List.replicate 16 0) o.L A
  let o := { o with L := r.2.2 }
  if A.length % 16 ≠ 0 then
    let off := xorb r.1 o.lAst
    let ending := (List.replicate (16 - A.length % 16) 0).set 0 (0x80 : Byte)
    .ok (xorb r.2.1 (c.E (xorb (A.drop (16 * (A.length / 16)) ++ ending) off)), o)
  else .ok (r.2.1, o)

/-- mode/ocb/ocb.go:199-220: the loop over whole blocks; `dec` selects the instruction. The checksum takes `blockX`
(encryption) or `blockY` (decryption) from memory after `blockY` was written. -/
def ocbLoop (c : BlockCipher) (dec : Bool) : Nat → Nat → Mem → Nat → Nat → Bytes → Bytes → List Bytes →
    Res (Mem × Bytes × Bytes × List Bytes)
  | 0, _, m, _, _, off, ck, L => .ok (m, off, ck, L)
  | k + 1, i, m, Y, X, off, ck, L => do
    let r ← ocbMask L (i + 1)
    let off := xorb off r.1
    let m := m.write Y (xorb (m.read X 16) off)
    let m := if dec then m.write Y (c.D (m.read Y 16)) else m.write Y (c.E (m.read Y 16))
    let m := m.write Y (xorb (m.read Y 16) off)
    let ck := xorb ck (if dec then m.read Y 16 else m.read X 16)
    ocbLoop c dec k (i + 1) m (Y + 16) (X + 16) off ck r.2

/-- mode/ocb/ocb.go:225-265: the last partial block and the tag. `Y` and `X` are the slices, `q` the number of whole
blocks. `slack` is the growth policy of `append`. -/
def ocbFinal (slack : Nat → Nat) (c : BlockCipher) (dec : Bool) (o : Ocb) (h : Heap) (Y X ad : Slice) (off ck : Bytes) :
    Res (Heap × Ocb) :=
  let q := X.len / 16
  if X.len % 16 ≠ 0 then do
    let off := xorb off o.lAst
    let pad := c.E off
    let chunkX : Slice := ⟨X.ptr + 16 * q, X.len - 16 * q, X.cap - 16 * q⟩
    let chunkY : Slice := ⟨Y.ptr + 16 * q, X.len - 16 * q, Y.cap - 16 * q⟩
    let h : Heap := ⟨h.mem.write chunkY.ptr (xorb (h.bytes chunkX) (pad.take chunkX.len)), h.brk⟩
    let p1 := appendM slack h (if dec then chunkY else chunkX) [128]
    let p2 := appendM slack p1.1 p1.2 (List.replicate (16 - chunkX.len - 1) 0)
    let h := p2.1
    let ck := xorb ck (h.bytes p2.2)
    let tag := c.E (xorb (xorb ck off) o.lDol)
    let r ← ocbHashM c o (h.bytes ad)
    .ok (⟨h.mem.write (Y.ptr + X.len) ((xorb tag r.1).take o.tagSize.toNat), h.brk⟩, r.2)
  else do
    let tag := c.E (xorb (xorb ck off) o.lDol)
    let r ← ocbHashM c o (h.bytes ad)
    .ok (⟨h.mem.write (Y.ptr + X.len) ((xorb tag r.1).take o.tagSize.toNat), h.brk⟩, r.2)

/-- mode/ocb/ocb.go:142-266 `crypt`. -/
def ocbCryptM (slack : Nat → Nat) (c : BlockCipher) (dec : Bool) (o : Ocb) (h : Heap) (Y nonce ad X : Slice) :
    Res (Heap × Ocb) := do
  let r ← ocbInit c o (h.bytes nonce)
  let s ← ocbLoop c dec (X.len / 16) 0 h.mem Y.ptr X.ptr r.1 (List.replicate 16 0) r.2.L
  ocbFinal slack c dec { r.2 with L := s.2.2.2 } ⟨s.1, h.brk⟩ Y X ad s.2.1 s.2.2.1

/-- mode/ocb/ocb.go:101-110 `Seal`: new heap, result and the object afterwards. A negative tag size makes every call
panic (at the latest in `tag[:o.tagSize]`). -/
def ocbSeal (slack : Nat → Nat) (c : BlockCipher) (o : Ocb) (h : Heap) (dst nonce pt ad : Slice) : Res (Heap × Slice × Ocb) :=
  if nonce.len > o.nonceSize then .panic
  else if o.tagSize < 0 then .panic
  else
    let a := sliceForAppend h dst (pt.len + o.tagSize.toNat)
    do
      let r ← ocbCryptM slack c false o a.1 a.2.2 nonce ad pt
      .ok (r.1, a.2.1, r.2)

/-- mode/ocb/ocb.go:112-138 `Open`: `none` stands for a returned error. -/
def ocbOpen (slack : Nat → Nat) (c : BlockCipher) (o : Ocb) (h : Heap) (dst nonce ct ad : Slice) :
    Res (Heap × Option Slice × Ocb) :=
  if nonce.len > o.nonceSize then .panic
  else if o.tagSize < 0 then .panic
  else if ct.len < o.tagSize.toNat then .ok (h, none, o)
  else
    let sep := ct.len - o.tagSize.toNat
    let a := sliceForAppend h dst ct.len
    let ret := a.2.1
    let out := a.2.2
    do
      let r ← ocbCryptM slack c true o a.1 out nonce ad ⟨ct.ptr, sep, ct.cap⟩
      if r.1.mem.read (ret.ptr + sep) (ret.len - sep) = r.1.mem.read (ct.ptr + sep) o.tagSize.toNat then
        .ok (r.1, some ⟨ret.ptr, sep, ret.cap⟩, r.2)
      else
        .ok (⟨r.1.mem.write out.ptr (List.replicate out.len 0), r.1.brk⟩, none, r.2)

end Verif.Aead
