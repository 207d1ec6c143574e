import Verif.Mode.Stream
/-
Model of the stream modes of /repo/mode: cfb.go, cfb1.go, cfb8.go, cfb16.go, cfb32.go, cfb64.go, ofb.go,
ofb8.go, nofb.go, ncfb.go, ocfb.go, gcfb.go, gofb.go, g3413cfb.go, g3413ctr.go, g3413ofb.go.
Every `…Step` is one iteration of the loop in `XORKeyStream`; `d`, `s` are the current positions of dst and
src, `l` the bytes of src that remain, `e` the extra length of dst.
-/
namespace Verif.Mode

/-- Go `copy(v[k:], src)`. -/
def copyAt (v : Bytes) (k : Nat) (src : Bytes) : Bytes := v.take k ++ copyInto (v.drop k) src

/-! ### CFB -/

/-- Registers of mode/cfb.go:11-18. -/
structure Cfb where
  next : Bytes
  out : Bytes
  used : Nat
  deriving DecidableEq, Repr

/-- mode/cfb.go:67-84 `newCFB` -/
def cfbNew (c : BlockCipher) (iv : Bytes) : Res Cfb :=
  if iv.length ≠ c.bs then .panic
  else .ok { next := copyInto (List.replicate c.bs 0) iv, out := List.replicate c.bs 0, used := c.bs }

/-- mode/cfb.go:29-32 : new key stream block when the old one is used up. -/
def cfbFill (c : BlockCipher) (x : Cfb) : Cfb :=
  if x.used = x.out.length then { x with out := c.E x.next, used := 0 } else x

/-- mode/cfb.go:28-50, one iteration.  On encryption `copy(x.next[x.outUsed:], dst)` is bounded only by
`len(dst)`, so it may copy bytes of dst beyond the ones just produced. -/
def cfbStep (c : BlockCipher) (dec : Bool) (e : Nat) (x : Cfb) (m : Mem) (d s l : Nat) :
    Res (Nat × Mem × Cfb) :=
  let x := cfbFill c x
  let x := if dec then { x with next := copyAt x.next x.used (m.read s l) } else x
  let n := min l (x.out.length - x.used)
  let m := m.write d (xorb (m.read s l) (x.out.drop x.used))
  let x := if dec then x else { x with next := copyAt x.next x.used (m.read d (l + e)) }
  .ok (n, m, { x with used := x.used + n })

/-- mode/cfb.go:20-51 `XORKeyStream` -/
def cfbXor (c : BlockCipher) (dec : Bool) := xorKeyStream (cfbStep c dec)

/-! ### CFB1 -/

/-- mode/cfb1.go:59-80 `leftShiftBytes` (never called on an empty slice). -/
def leftShiftBytes : Bytes → Byte → Bytes
  | [], _ => []
  | [b], carry => [(b <<< 1) ||| carry]
  | b :: b' :: r, carry => ((b <<< 1) ||| ((b' >>> 7) &&& 1)) :: leftShiftBytes (b' :: r) carry

/-- mode/cfb1.go:82-97 (also cfb8.go:43-60, cfb16.go:58-73, cfb32.go, cfb64.go): the iv check and copy. -/
def segNew (c : BlockCipher) (iv : Bytes) : Res Bytes :=
  if iv.length ≠ c.bs then .panic else .ok (copyInto (List.replicate c.bs 0) iv)

/-- mode/cfb1.go:31-55, the body for one bit `j`; the bit is written into memory at once. -/
def cfb1Bit (c : BlockCipher) (dec : Bool) (d s : Nat) (p : Bytes × Mem) (j : Nat) : Bytes × Mem :=
  let out := c.E p.1
  let outbit := ((out.getD 0 0) >>> 7) &&& 1
  let srcbit := ((p.2 s) >>> (7 - j)) &&& 1
  let dstbit := outbit ^^^ srcbit
  let movebit := if dec then srcbit else dstbit
  let m := if dstbit = 1 then p.2.write d [p.2 d ||| ((1 : Byte) <<< (7 - j))]
    else p.2.write d [p.2 d &&& ~~~((1 : Byte) <<< (7 - j))]
  (leftShiftBytes p.1 movebit, m)

/-- mode/cfb1.go:30-56, one byte. -/
def cfb1Step (c : BlockCipher) (dec : Bool) (_e : Nat) (x : Bytes) (m : Mem) (d s _l : Nat) :
    Res (Nat × Mem × Bytes) :=
  let r := (List.range 8).foldl (cfb1Bit c dec d s) (x, m)
  .ok (1, r.2, r.1)

/-- mode/cfb1.go:22-57 `XORKeyStream` -/
def cfb1Xor (c : BlockCipher) (dec : Bool) := xorKeyStream (cfb1Step c dec)

/-! ### CFB8 -/

/-- mode/cfb8.go:28-40, one byte. -/
def cfb8Step (c : BlockCipher) (dec : Bool) (_e : Nat) (x : Bytes) (m : Mem) (d s _l : Nat) :
    Res (Nat × Mem × Bytes) :=
  let out := c.E x
  let x := copyInto (x.take (c.bs - 1)) (x.drop 1) ++ x.drop (c.bs - 1)
  let x := if dec then x.set (c.bs - 1) (m s) else x
  let m := m.write d [m s ^^^ out.getD 0 0]
  let x := if dec then x else x.set (c.bs - 1) (m d)
  .ok (1, m, x)

/-- mode/cfb8.go:20-41 `XORKeyStream` -/
def cfb8Xor (c : BlockCipher) (dec : Bool) := xorKeyStream (cfb8Step c dec)

/-! ### CFB16, CFB32, CFB64 : `seg` = 2, 4, 8 -/

/-- mode/cfb16.go:32-55 (cfb32.go:32-55, cfb64.go:33-56), one segment.  `x.in[startIn:]` panics when the
segment is longer than the register. -/
def cfbSegStep (c : BlockCipher) (seg : Nat) (dec : Bool) (_e : Nat) (x : Bytes) (m : Mem) (d s l : Nat) :
    Res (Nat × Mem × Bytes) :=
  let n := min seg l
  let out := c.E x
  let srcBytes := m.read s n
  let dstBytes := copyInto (List.replicate n 0) (xorb srcBytes out)
  if x.length < n then .panic
  else
    let x := copyInto x (x.drop n)
    let x := copyAt x n (if dec then srcBytes else dstBytes)
    .ok (n, m.write d dstBytes, x)

/-- mode/cfb16.go:23-56, cfb32.go:23-56, cfb64.go:24-57 `XORKeyStream` -/
def cfbSegXor (c : BlockCipher) (seg : Nat) (dec : Bool) := xorKeyStream (cfbSegStep c seg dec)

/-! ### Key stream buffers (OFB family) -/

/-- `streamBufferSize` (mode/ofb8.go:9) and the capacity rule of the constructors (e.g. mode/ofb.go:27-30). -/
def bufCap (bs : Nat) : Nat := if 512 < bs then bs else 512

/-- Registers of the OFB-like streams: the generator register, the buffered key stream `out` and how much of
it is used.  `out` is the slice `x.out`; the bytes between `len` and `cap` are always overwritten before they
are read and are not modelled. -/
structure KsBuf (ρ : Type) where
  reg : ρ
  out : Bytes
  used : Nat
  deriving DecidableEq, Repr

/-- The refill loop: while fewer than `lim` bytes are buffered, append what `gen` produces
(mode/ofb.go:53-57, ofb8.go:52-62, nofb.go:58-64, gofb.go:63-81, g3413ctr.go:77-91, g3413ofb.go:58-67). -/
def refillLoop {ρ : Type} (lim : Nat) (gen : ρ → Bytes × ρ) : Nat → ρ → Bytes → Res (ρ × Bytes)
  | 0, r, out => if out.length < lim then .hang else .ok (r, out)
  | fuel + 1, r, out =>
    if out.length < lim then
      let g := gen r
      refillLoop lim gen fuel g.2 (out ++ g.1)
    else .ok (r, out)

/-- `refill()`; `early` is the test `if remain > x.outUsed { return }` (absent in g3413ctr.go). -/
def refill {ρ : Type} (early : Bool) (lim : Nat) (gen : ρ → Bytes × ρ) (x : KsBuf ρ) : Res (KsBuf ρ) :=
  if early && decide (x.out.length - x.used > x.used) then .ok x
  else if x.out.length < x.used then .panic
  else do
    let r ← refillLoop lim gen lim x.reg (x.out.drop x.used)
    .ok { reg := r.1, out := r.2, used := 0 }

/-- mode/ofb.go:43-61: one output block is `E(cipher)`, which becomes the register. -/
def ofbGen (c : BlockCipher) (r : Bytes) : Bytes × Bytes := (c.E r, c.E r)

/-- mode/ofb.go:21-41 `NewOFB` (nofb.go:26-46 is the same). -/
def ofbNew (c : BlockCipher) (iv : Bytes) : Res (KsBuf Bytes) :=
  if iv.length ≠ c.bs then .panic
  else .ok { reg := copyInto (List.replicate c.bs 0) iv, out := [], used := 0 }

/-- mode/ofb.go:71-80 (gofb.go:101-112, g3413ofb.go:81-92), one iteration: refill when fewer than a block
(`x.outUsed >= len(x.out)-bs` over Go ints) is left, XOR as much as is buffered. -/
def ofbStep {ρ : Type} (bs : Nat) (gen : ρ → Bytes × ρ) (_e : Nat) (x : KsBuf ρ) (m : Mem) (d s l : Nat) :
    Res (Nat × Mem × KsBuf ρ) := do
  let x ← if x.used + bs ≥ x.out.length then refill true (bufCap bs - bs) gen x else .ok x
  let n := min l (x.out.length - x.used)
  .ok (n, m.write d (xorb (m.read s l) (x.out.drop x.used)), { x with used := x.used + n })

/-- mode/ofb.go:63-81 `XORKeyStream` -/
def ofbXor (c : BlockCipher) := xorKeyStream (ofbStep c.bs (ofbGen c))

/-- mode/ofb8.go:53-61 : one key stream byte, register shifted left by one byte. -/
def ofb8Gen (c : BlockCipher) (r : Bytes) : Bytes × Bytes :=
  let o := (c.E r).getD 0 0
  ([o], (copyInto r (r.drop 1)).set (r.length - 1) o)

/-- mode/ofb8.go:76-87, one iteration. -/
def ofb8Step (c : BlockCipher) (_e : Nat) (x : KsBuf Bytes) (m : Mem) (d s _l : Nat) :
    Res (Nat × Mem × KsBuf Bytes) := do
  let x ← if x.used + c.bs ≥ x.out.length then refill true (bufCap c.bs) (ofb8Gen c) x else .ok x
  if x.out.length ≤ x.used then .panic
  else .ok (1, m.write d [m s ^^^ x.out.getD x.used 0], { x with used := x.used + 1 })

/-- mode/ofb8.go:68-88 `XORKeyStream` -/
def ofb8Xor (c : BlockCipher) := xorKeyStream (ofb8Step c)

/-- mode/nofb.go:79-97, one iteration: works on blocks; a short last block still uses up a whole one. -/
def nofbStep (c : BlockCipher) (_e : Nat) (x : KsBuf Bytes) (m : Mem) (d s l : Nat) :
    Res (Nat × Mem × KsBuf Bytes) := do
  let x ← if x.used + c.bs ≥ x.out.length then refill true (bufCap c.bs - c.bs) (ofbGen c) x else .ok x
  let n := min c.bs l
  if x.out.length < x.used then .panic
  else
    .ok (n, m.write d (copyInto (List.replicate n 0) (xorb (m.read s n) (x.out.drop x.used))),
      { x with used := x.used + c.bs })

/-- mode/nofb.go:70-98 `XORKeyStream` -/
def nofbXor (c : BlockCipher) := xorKeyStream (nofbStep c)

/-- mode/ncfb.go:35-62, one iteration. -/
def ncfbStep (c : BlockCipher) (dec : Bool) (_e : Nat) (x : Cfb) (m : Mem) (d s l : Nat) :
    Res (Nat × Mem × Cfb) :=
  let x := cfbFill c x
  let n := min c.bs l
  let srcBytes := m.read s n
  let x := if dec then { x with next := copyAt x.next x.used srcBytes } else x
  if x.out.length < x.used then .panic
  else
    let dstBytes := copyInto (List.replicate n 0) (xorb srcBytes (x.out.drop x.used))
    let x := if dec then x else { x with next := copyAt x.next x.used dstBytes }
    .ok (n, m.write d dstBytes, { x with used := x.used + c.bs })

/-- mode/ncfb.go:26-63 `XORKeyStream`; the constructor (:73-89) is the one of CFB, `cfbNew`. -/
def ncfbXor (c : BlockCipher) (dec : Bool) := xorKeyStream (ncfbStep c dec)

/-! ### OpenPGP CFB -/

/-- Registers of mode/ocfb.go:10-14, 84-88. -/
structure Ocfb where
  fre : Bytes
  used : Nat
  deriving DecidableEq, Repr

/-- mode/ocfb.go:31-62 `NewOCFBEncrypter`: the stream and the prefix (bs+2 bytes of ciphertext).
With a block of one byte `randData[blockSize-2]` panics. -/
def ocfbNewEnc (c : BlockCipher) (randData : Bytes) (resync : Bool) : Res (Ocfb × Bytes) :=
  if randData.length ≠ c.bs then .panic
  else if c.bs < 2 then .panic
  else
    let fre := c.E (List.replicate c.bs 0)
    let p0 := xorb randData fre
    let fre := c.E p0
    let a := fre.getD 0 0 ^^^ randData.getD (c.bs - 2) 0
    let b := fre.getD 1 0 ^^^ randData.getD (c.bs - 1) 0
    let prefx := p0 ++ [a, b]
    if resync then .ok ({ fre := c.E (prefx.drop 2), used := 0 }, prefx)
    else .ok ({ fre := (fre.set 0 a).set 1 b, used := 2 }, prefx)

/-- mode/ocfb.go:97-134 `NewOCFBDecrypter`: the stream and the new contents of the caller's `prefix` slice,
which is overwritten with the decrypted prefix. -/
def ocfbNewDec (c : BlockCipher) (prefx : Bytes) (resync : Bool) : Res (Ocfb × Bytes) :=
  if prefx.length ≠ c.bs + 2 then .panic
  else if c.bs < 2 then .panic
  else
    let fre := c.E (List.replicate c.bs 0)
    let pc0 := xorb (prefx.take c.bs) fre
    let fre := c.E (prefx.take c.bs)
    let a := prefx.getD c.bs 0 ^^^ fre.getD 0 0
    let b := prefx.getD (c.bs + 1) 0 ^^^ fre.getD 1 0
    if pc0.getD (c.bs - 2) 0 ≠ a ∨ pc0.getD (c.bs - 1) 0 ≠ b then .panic
    else if resync then .ok ({ fre := c.E (prefx.drop 2), used := 0 }, pc0 ++ [a, b])
    else .ok ({ fre := (fre.set 0 (prefx.getD c.bs 0)).set 1 (prefx.getD (c.bs + 1) 0), used := 2 },
      pc0 ++ [a, b])

/-- mode/ocfb.go:72-81 (encrypt) and :144-154 (decrypt), one byte. -/
def ocfbStep (c : BlockCipher) (dec : Bool) (_e : Nat) (x : Ocfb) (m : Mem) (d s _l : Nat) :
    Res (Nat × Mem × Ocfb) :=
  let x := if x.used = x.fre.length then { fre := c.E x.fre, used := 0 } else x
  let o := x.fre.getD x.used 0 ^^^ m s
  .ok (1, m.write d [o], { fre := x.fre.set x.used (if dec then m s else o), used := x.used + 1 })

/-- mode/ocfb.go:64-82, 136-155 `XORKeyStream` -/
def ocfbXor (c : BlockCipher) (dec : Bool) := xorKeyStream (ocfbStep c dec)

/-! ### GOST CFB with key meshing -/

/-- mode/gcfb.go:9-14 -/
def gcfbC : Bytes := [
  0x69, 0x00, 0x72, 0x22, 0x64, 0xC9, 0x04, 0x23,
  0x8D, 0x3A, 0xDB, 0x96, 0x46, 0xE9, 0x2A, 0xC4,
  0x18, 0xFE, 0xAC, 0x94, 0x00, 0xED, 0x07, 0x12,
  0xC0, 0x86, 0xDC, 0xC2, 0xEF, 0x4C, 0xA9, 0x2B]

/-- Registers of mode/gcfb.go:21-30.  `eng` is the cipher inside `cfbEngine` and `fb` its feedback block
(the engine only ever sees whole blocks, where Go's `crypto/cipher` CFB is `c = p ⊕ E(fb); fb = c`). -/
structure Gcfb where
  eng : BlockCipher
  fb : Bytes
  key : Bytes
  iv : Bytes
  counter : Nat

/-- mode/gcfb.go:98-129 `newGCFB` -/
def gcfbNew (newKey : Bytes → Option BlockCipher) (key iv : Bytes) : Res Gcfb :=
  match newKey key with
  | none => .panic
  | some c =>
    if iv.length ≠ c.bs then .panic
    else .ok { eng := c, fb := iv, key := key, iv := iv, counter := 0 }

/-- mode/gcfb.go:41-73, the key meshing.  `base.Encrypt(nextKey[0:8], …)` needs an 8-byte block cipher; the
repository's ciphers panic otherwise. -/
def gcfbMesh (newKey : Bytes → Option BlockCipher) (x : Gcfb) : Res Gcfb :=
  match newKey x.key with
  | none => .panic
  | some base =>
    if base.bs ≠ 8 then .panic
    else
      let nextKey := base.E (gcfbC.take 8) ++ base.E ((gcfbC.drop 8).take 8)
        ++ base.E ((gcfbC.drop 16).take 8) ++ base.E ((gcfbC.drop 24).take 8)
      match newKey nextKey with
      | none => .panic
      | some nb =>
        let iv := nb.E x.iv
        if iv.length ≠ nb.bs then .panic
        else .ok { eng := nb, fb := iv, key := copyInto x.key nextKey, iv := iv, counter := x.counter }

/-- mode/gcfb.go:40-81, one block of `bs` bytes; `src[:bs]`, `src[bs:]` panic on a short block. -/
def gcfbStep (newKey : Bytes → Option BlockCipher) (bs : Nat) (dec : Bool) (_e : Nat) (x : Gcfb) (m : Mem)
    (d s l : Nat) : Res (Nat × Mem × Gcfb) := do
  let x ← if x.counter > 0 ∧ x.counter % 1024 = 0 then gcfbMesh newKey x else .ok x
  if l < bs then .panic
  else
    let p := m.read s bs
    let o := xorb p (x.eng.E x.fb)
    .ok (bs, m.write d o, { x with fb := if dec then p else o, counter := x.counter + bs })

/-- mode/gcfb.go:32-82 `XORKeyStream` -/
def gcfbXor (newKey : Bytes → Option BlockCipher) (bs : Nat) (dec : Bool) :=
  xorKeyStream (gcfbStep newKey bs dec)

/-! ### GOST 28147 counter mode -/

/-- `binary.LittleEndian.PutUint32` -/
def le32 (w : BitVec 32) : Bytes :=
  [w.setWidth 8, (w >>> 8).setWidth 8, (w >>> 16).setWidth 8, (w >>> 24).setWidth 8]

/-- `binary.LittleEndian.Uint32` of the first four bytes. -/
def getLe32 (b : Bytes) : BitVec 32 :=
  (b.getD 0 0).setWidth 32 ||| ((b.getD 1 0).setWidth 32 <<< 8) ||| ((b.getD 2 0).setWidth 32 <<< 16)
    ||| ((b.getD 3 0).setWidth 32 <<< 24)

/-- Generator registers of mode/gofb.go:15-24. -/
structure GofbReg where
  cipher : Bytes
  N3 : BitVec 32
  N4 : BitVec 32
  deriving DecidableEq, Repr

/-- mode/gofb.go:45-46 -/
def gofbC1 : BitVec 32 := 16843012
def gofbC2 : BitVec 32 := 16843009

/-- mode/gofb.go:65-71 : `N4 += C1` with the (signed) correction. -/
def gofbN4 (n4 : BitVec 32) : BitVec 32 :=
  let n := n4 + gofbC1
  if n.slt gofbC1 then (if (0#32).slt n then n + 1 else n) else n

/-- mode/gofb.go:64-78, one block of key stream. -/
def gofbGen (c : BlockCipher) (r : GofbReg) : Bytes × GofbReg :=
  let n3 := r.N3 + gofbC2
  let n4 := gofbN4 r.N4
  let ci := copyAt (copyInto r.cipher (le32 n3)) 4 (le32 n4)
  let ci := c.E ci
  (ci, { cipher := ci, N3 := n3, N4 := n4 })

/-- mode/gofb.go:29-51 `NewGOFB` -/
def gofbNew (c : BlockCipher) (iv : Bytes) : Res (KsBuf GofbReg) :=
  if iv.length ≠ c.bs then .panic
  else .ok { reg := { cipher := copyInto (List.replicate c.bs 0) iv, N3 := 0, N4 := 0 }, out := [], used := 0 }

/-- mode/gofb.go:95-99 : at the start of every call N3, N4 are set from `E(x.cipher)`. -/
def gofbStart (c : BlockCipher) (x : KsBuf GofbReg) : KsBuf GofbReg :=
  let v := c.E x.reg.cipher
  { x with reg := { x.reg with N3 := getLe32 v, N4 := getLe32 (v.drop 4) } }

/-- mode/gofb.go:87-113 `XORKeyStream` (`Uint32(ofbOutV[4:])` panics for blocks shorter than 8 bytes). -/
def gofbXor (c : BlockCipher) (x : KsBuf GofbReg) (m : Mem) (dst src : Slice) :
    Res (Mem × KsBuf GofbReg) :=
  if c.bs < 8 then .panic
  else xorKeyStream (ofbStep c.bs (gofbGen c)) (gofbStart c x) m dst src

/-! ### GOST R 34.13 CFB, CTR, OFB -/

/-- mode/g3413cfb.go:81-107 `newG3413CFB`; `bits` is `bitBlockSize`. -/
def g3413cfbNew (c : BlockCipher) (iv : Bytes) (bits : Int) : Res (Cfb × Nat) :=
  if iv.length ≠ 2 * c.bs then .panic
  else if bits < 0 ∨ bits > (c.bs * 8 : Nat) then .panic
  else
    let s := bits.toNat / 8
    .ok ({ next := copyInto (List.replicate (2 * c.bs) 0) iv, out := List.replicate c.bs 0, used := s }, s)

/-- mode/g3413cfb.go:36-56, one iteration, segment size `sg` = `x.s`. -/
def g3413cfbStep (c : BlockCipher) (sg : Nat) (dec : Bool) (e : Nat) (x : Cfb) (m : Mem) (d s l : Nat) :
    Res (Nat × Mem × Cfb) :=
  let x := if x.used = sg then { x with out := c.E (x.next.take c.bs), used := 0 } else x
  if x.out.length < x.used + sg then .panic
  else if x.next.length < x.used + sg then .panic
  else if x.next.length < x.used + (2 * c.bs - sg) then .panic
  else
    let n := min l sg
    let m' := m.write d (xorb (m.read s l) ((x.out.drop x.used).take sg))
    let nx := copyInto x.next (x.next.drop (x.used + sg))
    let nx := copyAt nx (x.used + (2 * c.bs - sg)) (if dec then m'.read s l else m'.read d (l + e))
    .ok (n, m', { x with next := nx, used := x.used + n })

/-- mode/g3413cfb.go:26-57 `XORKeyStream` -/
def g3413cfbXor (c : BlockCipher) (sg : Nat) (dec : Bool) := xorKeyStream (g3413cfbStep c sg dec)

/-- mode/g3413ctr.go:85-90 : big-endian increment, on the reversed list (least significant byte first). -/
def incLe : Bytes → Bytes
  | [] => []
  | b :: r => if b + 1 ≠ 0 then (b + 1) :: r else 0 :: incLe r

/-- mode/g3413ctr.go:85-90 -/
def incBe (ctr : Bytes) : Bytes := (incLe ctr.reverse).reverse

/-- mode/g3413ctr.go:78-90 : `out[:s]` of `E(ctr)`. -/
def ctrGen (c : BlockCipher) (s : Nat) (ctr : Bytes) : Bytes × Bytes := ((c.E ctr).take s, incBe ctr)

/-- mode/g3413ctr.go:32-65 `NewG3413CTRWithBitBlockSize` (a non-negative `bitBlockSize`); returns the object
and `s`. -/
def g3413ctrNew (c : BlockCipher) (iv : Bytes) (bits : Nat) : Res (KsBuf Bytes × Nat) :=
  if iv.length ≠ c.bs / 2 then .panic
  else .ok ({ reg := copyInto (List.replicate c.bs 0) iv, out := [], used := 0 }, bits / 8)

/-- mode/g3413ctr.go:105-116, one iteration.  `out[:s]` panics for `s` larger than the block.  Slicing
`x.out[x.outUsed:x.outUsed+x.s]` beyond `len` but within `cap` would expose stale buffer bytes; that branch is
given as a panic here and is shown unreachable for `s ≤ 256`. -/
def g3413ctrStep (c : BlockCipher) (sg : Nat) (_e : Nat) (x : KsBuf Bytes) (m : Mem) (d s l : Nat) :
    Res (Nat × Mem × KsBuf Bytes) := do
  if c.bs < sg then .panic
  else
    let x ← if x.used + sg ≥ x.out.length then refill false (bufCap c.bs - sg + 1) (ctrGen c sg) x else .ok x
    if x.out.length < x.used + sg then .panic
    else
      let n := min l sg
      .ok (n, m.write d (xorb (m.read s l) ((x.out.drop x.used).take sg)), { x with used := x.used + n })

/-- mode/g3413ctr.go:97-117 `XORKeyStream` -/
def g3413ctrXor (c : BlockCipher) (sg : Nat) := xorKeyStream (g3413ctrStep c sg)

/-- mode/g3413ofb.go:58-67 : `y = E(r1)`, register `r1 ‖ r2` becomes `r2 ‖ y`. -/
def g3413ofbGen (c : BlockCipher) (r : Bytes) : Bytes × Bytes :=
  let y := c.E (r.take c.bs)
  (y, copyAt (copyInto r (r.drop c.bs)) c.bs y)

/-- mode/g3413ofb.go:25-46 `NewG3413OFB` -/
def g3413ofbNew (c : BlockCipher) (iv : Bytes) : Res (KsBuf Bytes) :=
  if iv.length ≠ 2 * c.bs then .panic
  else .ok { reg := copyInto (List.replicate (2 * c.bs) 0) iv, out := [], used := 0 }

/-- mode/g3413ofb.go:73-93 `XORKeyStream` -/
def g3413ofbXor (c : BlockCipher) := xorKeyStream (ofbStep c.bs (g3413ofbGen c))

end Verif.Mode
