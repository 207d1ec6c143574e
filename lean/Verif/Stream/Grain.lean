import Verif.Stream.Base
import Verif.Aead.Base
import Verif.Cipher.Common
/-
Model of /repo/cipher/grain.
-/
namespace Verif.Strm.Grain
open Verif.Mode Verif.Cipher

abbrev W := BitVec 32
abbrev D := BitVec 64

/-- cipher/grain/utils.go:107-112 `lfsr`, `nfsr`. -/
structure Reg where
  lo : D
  hi : D
deriving DecidableEq

/-- cipher/grain/utils.go:119-124 `shift`. -/
def Reg.shift (r : Reg) (x : W) : Reg := ⟨(r.lo >>> 32) ||| (r.hi <<< 32), (r.hi >>> 32) ||| (x.setWidth 64 <<< 32)⟩

/-- cipher/grain/utils.go:127-132 `xor`. -/
def Reg.xor (r : Reg) (x : W) : Reg :=
  let hi32 : W := (r.hi >>> 32).setWidth 32 ^^^ x
  ⟨r.lo, (hi32.setWidth 64 <<< 32) ||| (r.hi &&& 0xffffffff)⟩

/-- cipher/grain/utils.go:143-149 `words`. -/
def Reg.u0 (r : Reg) : D := r.lo
def Reg.u1 (r : Reg) : D := (r.lo >>> 32) ||| (r.hi <<< 32)
def Reg.u2 (r : Reg) : D := r.hi
def Reg.u3 (r : Reg) : D := r.hi >>> 32

/-- cipher/grain/grain.go:46-87 `state`. -/
structure State where
  key : List W
  lfsr : Reg
  nfsr : Reg
  acc : D
  reg : D

/-- cipher/grain/grain.go:320-326 : the LFSR feedback. -/
def fbL (l : Reg) : W :=
  let v := l.u0 ^^^ l.u3
  let v := v ^^^ ((l.u1 ^^^ l.u2) >>> 6)
  let v := v ^^^ (l.u0 >>> 7)
  let v := v ^^^ (l.u2 >>> 17)
  v.setWidth 32

/-- cipher/grain/grain.go:330-345 : the NFSR feedback. -/
def fbN (l n : Reg) : W :=
  let u := l.u0
  let u := u ^^^ n.u0
  let u := u ^^^ (n.u0 >>> 26)
  let u := u ^^^ n.u3
  let u := u ^^^ (n.u1 >>> 24)
  let u := u ^^^ (((n.u0 &&& n.u1) ^^^ n.u2) >>> 27)
  let u := u ^^^ ((n.u0 &&& n.u2) >>> 3)
  let u := u ^^^ ((n.u0 >>> 11) &&& (n.u0 >>> 13))
  let u := u ^^^ ((n.u0 >>> 17) &&& (n.u0 >>> 18))
  let u := u ^^^ ((n.u1 >>> 8) &&& (n.u1 >>> 16))
  let u := u ^^^ ((n.u1 >>> 29) &&& (n.u2 >>> 1))
  let u := u ^^^ ((n.u2 >>> 4) &&& (n.u2 >>> 20))
  let u := u ^^^ ((n.u2 >>> 24) &&& (n.u2 >>> 28) &&& (n.u2 >>> 29) &&& (n.u2 >>> 31))
  let u := u ^^^ ((n.u0 >>> 22) &&& (n.u0 >>> 24) &&& (n.u0 >>> 25))
  let u := u ^^^ ((n.u2 >>> 6) &&& (n.u2 >>> 14) &&& (n.u2 >>> 18))
  u.setWidth 32

/-- cipher/grain/grain.go:348-361 : the pre-output. -/
def preOut (l n : Reg) : W :=
  let x := n.u0 >>> 2
  let x := x ^^^ (n.u0 >>> 15)
  let x := x ^^^ (n.u1 >>> 4)
  let x := x ^^^ (n.u1 >>> 13)
  let x := x ^^^ n.u2
  let x := x ^^^ (n.u2 >>> 9)
  let x := x ^^^ (n.u2 >>> 25)
  let x := x ^^^ (l.u2 >>> 29)
  let x := x ^^^ ((n.u0 >>> 12) &&& (l.u0 >>> 8))
  let x := x ^^^ ((l.u0 >>> 13) &&& (l.u0 >>> 20))
  let x := x ^^^ ((n.u2 >>> 31) &&& (l.u1 >>> 10))
  let x := x ^^^ ((l.u1 >>> 28) &&& (l.u2 >>> 15))
  let x := x ^^^ ((n.u0 >>> 12) &&& (n.u2 >>> 31) &&& (l.u2 >>> 30))
  x.setWidth 32

/-- cipher/grain/grain.go:317-362 `nextGeneric`. -/
def next (s : State) : W × State :=
  (preOut s.lfsr s.nfsr, { s with lfsr := s.lfsr.shift (fbL s.lfsr), nfsr := s.nfsr.shift (fbN s.lfsr s.nfsr) })

/-- cipher/grain/grain.go:364-380 `accumulateGeneric`, the loop. -/
def accLoop : Nat → D → D → D → W → BitVec 16 → D × D × D
  | 0, reg, acc, acctmp, _, _ => (reg, acc, acctmp)
  | n + 1, reg, acc, acctmp, regtmp, pt =>
    let mask : D := 0 - (pt &&& 1).setWidth 64
    accLoop n (reg >>> 1) (acc ^^^ (reg &&& mask)) (acctmp ^^^ (regtmp.setWidth 64 &&& mask)) (regtmp >>> 1) (pt >>> 1)

/-- cipher/grain/grain.go:364-380 `accumulateGeneric`: the new `reg` and `acc`. -/
def accumulate (reg acc : D) (ms pt : BitVec 16) : D × D :=
  let r := accLoop 16 reg acc 0 (ms.setWidth 32 <<< 16) pt
  (r.1 ||| (ms.setWidth 64 <<< 48), r.2.1 ^^^ (r.2.2 <<< 48))

/-- cipher/grain/grain.go:388-398, the loop of `accumulate8`. -/
def accLoop8 : Nat → D → D → Byte → BitVec 16 → Byte → D × D × Byte
  | 0, reg, acc, acctmp, _, _ => (reg, acc, acctmp)
  | n + 1, reg, acc, acctmp, regtmp, pt =>
    let mask : D := 0 - (pt &&& 1).setWidth 64
    accLoop8 n (reg >>> 1) (acc ^^^ (reg &&& mask)) (acctmp ^^^ (regtmp.setWidth 8 &&& mask.setWidth 8)) (regtmp >>> 1) (pt >>> 1)

/-- cipher/grain/grain.go:382-402 `accumulate8`: the new `reg` and `acc`. -/
def accumulate8 (reg acc : D) (ms pt : Byte) : D × D :=
  let r := accLoop8 8 reg acc 0 (ms.setWidth 16 <<< 8) pt
  (r.1 ||| (ms.setWidth 64 <<< 56), r.2.1 ^^^ (r.2.2.setWidth 64 <<< 56))

def fold1 (x m : W) (k : Nat) : W := (x ^^^ (x &&& m)) ||| ((x &&& m) >>> k)

/-- cipher/grain/utils.go:17-40 `getmb`. -/
def getmb (num : W) : BitVec 16 :=
  let x := num &&& 0xAAAAAAAA
  let x := fold1 x 0x22222222 1
  let x := fold1 x 0x18181818 2
  let x := fold1 x 0x07800780 4
  let x := fold1 x 0x007f8000 8
  let x := fold1 x 0x80000000 16
  x.setWidth 16

/-- cipher/grain/utils.go:42-63 `getkb`. -/
def getkb (num : W) : BitVec 16 :=
  let x := num &&& 0x55555555
  let x := fold1 x 0x44444444 1
  let x := fold1 x 0x30303030 2
  let x := fold1 x 0x0f000f00 4
  let x := fold1 x 0x00ff0000 8
  x.setWidth 16

/-- `binary.LittleEndian.Uint16`, `PutUint16`, `Uint32`. -/
def le16 (a b : Byte) : BitVec 16 := b ++ a
def lo8 (v : BitVec 16) : Byte := v.setWidth 8
def hi8 (v : BitVec 16) : Byte := (v >>> 8).setWidth 8
def le32 (l : Bytes) (i : Nat) : W := BitVec.ofNat 32 (leN ((l.drop i).take 4))

/-- cipher/grain/grain.go:281-287 `setKey`. -/
def setKey (key : Bytes) : List W := [le32 key 0, le32 key 4, le32 key 8, le32 key 12]

/-- cipher/grain/grain.go:299-303, `n` iterations. -/
def warm : Nat → State → State
  | 0, s => s
  | n + 1, s =>
    let (ks, s) := next s
    warm n { s with lfsr := s.lfsr.xor ks, nfsr := s.nfsr.xor ks }

/-- One iteration of the loops in lines 306-310 and 313-317: the output word, and the key word added to the LFSR. -/
def keyed (s : State) (k : W) : W × State :=
  let (ks, s) := next s
  (ks, { s with lfsr := s.lfsr.xor k })

/-- cipher/grain/grain.go:289-318 `init`, for 12 bytes of nonce. -/
def init (s : State) (nonce : Bytes) : State :=
  let nfsr := s.key.foldl Reg.shift s.nfsr
  let lfsr := (((s.lfsr.shift (le32 nonce 0)).shift (le32 nonce 4)).shift (le32 nonce 8)).shift 0x7fffffff
  let s := warm 8 { s with lfsr := lfsr, nfsr := nfsr }
  let (a0, s) := keyed s (s.key.getD 0 0)
  let (a1, s) := keyed s (s.key.getD 1 0)
  let (r0, s) := keyed s (s.key.getD 2 0)
  let (r1, s) := keyed s (s.key.getD 3 0)
  { s with acc := a0.setWidth 64 ||| (a1.setWidth 64 <<< 32), reg := r0.setWidth 64 ||| (r1.setWidth 64 <<< 32) }

/-- cipher/grain/utils.go:91-95, the loop of `encode`. -/
def encLoop : Nat → Nat → Bytes → Bytes
  | 0, _, d => d
  | i + 1, n, d => encLoop i (n / 256) (d.set (i + 1) (BitVec.ofNat 8 n))

/-- `bits.Len`. -/
def bitLen (x : Nat) : Nat := if x = 0 then 0 else x.log2 + 1

/-- cipher/grain/utils.go:88-97 `encode`, the array of 10 bytes. -/
def encode (x : Nat) : Bytes :=
  let n := (bitLen x + 7) / 8
  encLoop n n ((List.replicate 10 0).set 0 (0x80 ||| BitVec.ofNat 8 n))

/-- cipher/grain/utils.go:76-79 `len`. -/
def derLen (d : Bytes) : Nat := (d.getD 0 0 &&& ~~~(0x80 : Byte)).toNat + 1

/-- cipher/grain/grain.go:150-170 (`encrypt`) and 217-236 (`decrypt`): `der` and what is left of `ad`. -/
def split (ad : Bytes) : Bytes × Bytes :=
  if ad.length ≤ 127 then
    if ad.length > 0 then ([BitVec.ofNat 8 ad.length, ad.getD 0 0], ad.drop 1)
    else ([], [BitVec.ofNat 8 ad.length])
  else
    let d := encode ad.length
    let n := derLen d
    if n % 2 ≠ 0 then ((d.set n (ad.getD 0 0)).take (n + 1), ad.drop 1)
    else (d.take n, ad)

/-- cipher/grain/grain.go:172-182: both loops, each over pairs of bytes; the state and the bytes left (none or one). -/
def pairs (s : State) : Bytes → State × Bytes
  | a :: b :: l =>
    let (w, s) := next s
    let r := accumulate s.reg s.acc (getmb w) (le16 a b)
    pairs { s with reg := r.1, acc := r.2 } l
  | l => (s, l)

/-- What a byte or pair of bytes contributes to the tag: the plaintext, which is the input of `encrypt` and the output of `decrypt`. -/
def auth8 (dec : Bool) (inp out : Byte) : Byte := if dec then out else inp
def auth16 (dec : Bool) (inp out : BitVec 16) : BitVec 16 := if dec then out else inp

/-- cipher/grain/grain.go:195-213 (`encrypt`), 262-278 (`decrypt`). -/
def body (dec : Bool) (s : State) : Bytes → Bytes × State
  | a :: b :: l =>
    let (w, s) := next s
    let v := le16 a b
    let c := getkb w ^^^ v
    let r := accumulate s.reg s.acc (getmb w) (auth16 dec v c)
    let (o, s) := body dec { s with reg := r.1, acc := r.2 } l
    (lo8 c :: hi8 c :: o, s)
  | [a] =>
    let (w, s) := next s
    let c := lo8 (getkb w) ^^^ a
    let r := accumulate s.reg s.acc (getmb w) (0x100 ||| (auth8 dec a c).setWidth 16)
    ([c], { s with reg := r.1, acc := r.2 })
  | [] =>
    let (w, s) := next s
    let r := accumulate s.reg s.acc (getmb w) 0x01
    ([], { s with reg := r.1, acc := r.2 })

/-- cipher/grain/grain.go:145-211 `encrypt`, 213-279 `decrypt`: the output and the state.  `src` is read in order, each byte
before the byte of `dst` at the same position is written, and `ad` before the first is: as `dst` is `src` or disjoint from it, the result is that of
reading everything first. -/
def crypt (dec : Bool) (s : State) (src ad : Bytes) : Bytes × State :=
  let (der, ad) := split ad
  let (s, _) := pairs s der
  let (s, rest) := pairs s ad
  match rest with
  | [] => body dec s src
  | x :: _ =>
    let (w, s) := next s
    let r := accumulate8 s.reg s.acc (lo8 (getmb w)) x
    let s := { s with reg := r.1, acc := r.2 }
    match src with
    | [] => body dec s []
    | b :: src =>
      let c := hi8 (getkb w) ^^^ b
      let r := accumulate8 s.reg s.acc (hi8 (getmb w)) (auth8 dec b c)
      let (o, s) := body dec { s with reg := r.1, acc := r.2 } src
      (c :: o, s)

/-- cipher/grain/grain.go:281-283 `tag`. -/
def tag (s : State) : Bytes := leBytes 8 s.acc.toNat

/-- cipher/grain/grain.go:93-103 `NewCipher`. -/
def newCipher (key : Bytes) : Res State := if key.length ≠ 16 then .err else .ok ⟨setKey key, ⟨0, 0⟩, ⟨0, 0⟩, 0, 0⟩

/-- cipher/grain/grain.go:113-129 `Seal`: the state is part of the object, and is left changed. -/
def sealA (s : State) (h : Heap) (dst nonce pt ad : Slice) : Res (Heap × Slice × State) :=
  if nonce.len ≠ 12 then .panic
  else
    let s := init s (h.bytes nonce)
    let a := Aead.sliceForAppend h dst (pt.len + 8)
    if inexactOverlap a.2.2 pt then .panic
    else
      let r := crypt false s (a.1.bytes pt) (a.1.bytes ad)
      .ok (⟨a.1.mem.write a.2.2.ptr (r.1 ++ tag r.2), a.1.brk⟩, a.2.1, r.2)

/-- cipher/grain/grain.go:131-165 `Open`: the tag is compared after the output is written. -/
def openA (s : State) (h : Heap) (dst nonce ct ad : Slice) : Res (Heap × Option Slice × State) :=
  if nonce.len ≠ 12 then .panic
  else if ct.len < 8 then .ok (h, none, s)
  else
    let s := init s (h.bytes nonce)
    let n := ct.len - 8
    let ct' : Slice := ⟨ct.ptr, n, ct.cap⟩
    let a := Aead.sliceForAppend h dst n
    if inexactOverlap a.2.2 ct' then .panic
    else
      let r := crypt true s (a.1.bytes ct') (a.1.bytes ad)
      let m := a.1.mem.write a.2.2.ptr r.1
      if tag r.2 ≠ m.read (ct.ptr + n) 8 then .ok (⟨m.write a.2.2.ptr (List.replicate n 0), a.1.brk⟩, none, r.2)
      else .ok (⟨m, a.1.brk⟩, some a.2.1, r.2)

/-! ### The stream cipher -/

/-- cipher/grain/stream.go:25-32 `stream`. -/
structure Stream where
  s : State
  ks : BitVec 16

/-- cipher/grain/stream.go:38-48 `NewStreamCipher`.  `backing` are the bytes of the nonce up to its capacity: `nonce[i : i+4]` is checked against the
capacity, not the length. -/
def newStream (key backing : Bytes) : Res Stream :=
  if key.length ≠ 16 then .err
  else if backing.length < 12 then .panic
  else .ok ⟨init ⟨setKey key, ⟨0, 0⟩, ⟨0, 0⟩, 0, 0⟩ backing, 0⟩

/-- cipher/grain/stream.go:72-86. -/
def streamLoop (s : State) : Bytes → Bytes × Stream
  | a :: b :: l =>
    let (w, s) := next s
    let c := le16 a b ^^^ getkb w
    let (o, x) := streamLoop s l
    (lo8 c :: hi8 c :: o, x)
  | [a] =>
    let (w, s) := next s
    ([a ^^^ lo8 (getkb w)], ⟨s, 0xff00 ||| (getkb w >>> 8)⟩)
  | [] => ([], ⟨s, 0⟩)

/-- cipher/grain/stream.go:65-86, for a non-empty `src`. -/
def streamCrypt (x : Stream) (l : Bytes) : Bytes × Stream :=
  if x.ks &&& 0xff00 ≠ 0 then
    match l with
    | [] => ([], x)
    | a :: l =>
      let (o, y) := streamLoop x.s l
      ((a ^^^ lo8 x.ks) :: o, y)
  else streamLoop x.s l

/-- cipher/grain/stream.go:50-87 `XORKeyStream`. -/
def streamCall (x : Stream) (m : Mem) (dst src : Slice) : Res (Mem × Stream) :=
  if src.len = 0 then .ok (m, x)
  else if dst.len < src.len then .panic
  else if inexactOverlap ⟨dst.ptr, src.len, dst.cap⟩ src then .panic
  else
    let r := streamCrypt x (m.read src.ptr src.len)
    .ok (m.write dst.ptr r.1, r.2)

end Verif.Strm.Grain
