import Verif.Stream.KCipher2Tables
import Verif.Stream.Base
import Verif.Cipher.Common
/-
Model of /repo/cipher/kcipher2.
-/
namespace Verif.Strm.KCipher2
open Verif.Mode Verif.Cipher

abbrev W := BitVec 32

/-- Entry `i` of a packed table of 32-bit words. -/
def tab32 (t i : Nat) : W := BitVec.ofNat 32 (t >>> (32 * (255 - i)))
/-- Entry `i` of a packed table of bytes. -/
def tab8 (t i : Nat) : Byte := BitVec.ofNat 8 (t >>> (8 * (255 - i)))

/-- cipher/kcipher2/utils.go:10-18 `gfMultBy2`. -/
def gfMultBy2 (t : Byte) : Byte :=
  let lq : W := t.setWidth 32 <<< 1
  let lq := if lq &&& 0x100 ≠ 0 then lq ^^^ 0x11B else lq
  lq.setWidth 8 ^^^ 0xFF

/-- cipher/kcipher2/utils.go:27-35 `gfMultBy3`. -/
def gfMultBy3 (t : Byte) : Byte :=
  let lq : W := (t.setWidth 32 <<< 1) ^^^ t.setWidth 32
  let lq := if lq &&& 0x100 ≠ 0 then lq ^^^ 0x11B else lq
  lq.setWidth 8 ^^^ 0xFF

/-- cipher/kcipher2/utils.go:42-61 `subK2`. -/
def subK2 (x : W) : W :=
  let t0 := tab8 sBoxN (x.setWidth 8).toNat
  let t1 := tab8 sBoxN ((x >>> 8).setWidth 8).toNat
  let t2 := tab8 sBoxN ((x >>> 16).setWidth 8).toNat
  let t3 := tab8 sBoxN ((x >>> 24).setWidth 8).toNat
  let q0 := gfMultBy2 t0 ^^^ gfMultBy3 t1 ^^^ t2 ^^^ t3
  let q1 := t0 ^^^ gfMultBy2 t1 ^^^ gfMultBy3 t2 ^^^ t3
  let q2 := t0 ^^^ t1 ^^^ gfMultBy2 t2 ^^^ gfMultBy3 t3
  let q3 := gfMultBy3 t0 ^^^ t1 ^^^ t2 ^^^ gfMultBy2 t3
  (q3.setWidth 32 <<< 24) ||| (q2.setWidth 32 <<< 16) ||| (q1.setWidth 32 <<< 8) ||| q0.setWidth 32

/-- cipher/kcipher2/utils.go:71-74 `nlf`. -/
def nlf (a b c d : W) : W := (a + b) ^^^ c ^^^ d

/-- cipher/kcipher2/kcipher2.go:40-45, the fields of the state that survive the set-up. -/
structure St where
  a : List W
  b : List W
  l1 : W
  r1 : W
  l2 : W
  r2 : W

def at' (l : List W) (i : Nat) : W := l.getD i 0

/-- `(x << 8) ^ table[x >> 24]`. -/
def amul (t : Nat) (x : W) : W := (x <<< 8) ^^^ tab32 t (x >>> 24).toNat

/-- cipher/kcipher2/kcipher2.go:207-280 `next`. -/
def next (init : Bool) (k : St) : St :=
  let nL1 := subK2 (k.r2 + at' k.b 4)
  let nR1 := subK2 (k.l2 + at' k.b 9)
  let nL2 := subK2 k.l1
  let nR2 := subK2 k.r1
  let a4 := amul amul0N (at' k.a 0) ^^^ at' k.a 3
  let a4 := if init then a4 ^^^ nlf (at' k.b 0) k.r2 k.r1 (at' k.a 4) else a4
  let temp1 := if at' k.a 2 &&& 0x40000000 ≠ 0 then amul amul1N (at' k.b 0) else amul amul2N (at' k.b 0)
  let temp2 := if at' k.a 2 &&& 0x80000000 ≠ 0 then amul amul3N (at' k.b 8) else at' k.b 8
  let b10 := temp1 ^^^ at' k.b 1 ^^^ at' k.b 6 ^^^ temp2
  let b10 := if init then b10 ^^^ nlf (at' k.b 10) k.l2 k.l1 (at' k.a 0) else b10
  ⟨[at' k.a 1, at' k.a 2, at' k.a 3, at' k.a 4, a4],
   [at' k.b 1, at' k.b 2, at' k.b 3, at' k.b 4, at' k.b 5, at' k.b 6, at' k.b 7, at' k.b 8, at' k.b 9, at' k.b 10, b10],
   nL1, nR1, nL2, nR2⟩

/-- cipher/kcipher2/kcipher2.go:282-292 `stream`, as the eight bytes it is stored in (lines 78-79). -/
def stream (k : St) : Bytes := stBE 4 [nlf (at' k.b 10) k.l2 k.l1 (at' k.a 0), nlf (at' k.b 0) k.r2 k.r1 (at' k.a 4)]

/-- cipher/kcipher2/kcipher2.go:100-127 `keyExpansion`: `ik`. -/
def keyExpansion (key : List W) : List W :=
  let ik0 := at' key 0
  let ik1 := at' key 1
  let ik2 := at' key 2
  let ik3 := at' key 3
  let ik4 := ik0 ^^^ subK2 ((ik3 <<< 8) ^^^ (ik3 >>> 24)) ^^^ 0x01000000
  let ik5 := ik1 ^^^ ik4
  let ik6 := ik2 ^^^ ik5
  let ik7 := ik3 ^^^ ik6
  let ik8 := ik4 ^^^ subK2 ((ik7 <<< 8) ^^^ (ik7 >>> 24)) ^^^ 0x02000000
  let ik9 := ik5 ^^^ ik8
  let ik10 := ik6 ^^^ ik9
  let ik11 := ik7 ^^^ ik10
  [ik0, ik1, ik2, ik3, ik4, ik5, ik6, ik7, ik8, ik9, ik10, ik11]

/-- cipher/kcipher2/kcipher2.go:136-164 `setupStatueValues`. -/
def setup (key iv : List W) : St :=
  let ik := keyExpansion key
  ⟨[at' ik 4, at' ik 3, at' ik 2, at' ik 1, at' ik 0],
   [at' ik 10, at' ik 11, at' iv 0, at' iv 1, at' ik 8, at' ik 9, at' iv 2, at' iv 3, at' ik 7, at' ik 5, at' ik 6], 0, 0, 0, 0⟩

/-- cipher/kcipher2/kcipher2.go:39-49 `kcipher2Cipher`. -/
structure Obj where
  s : St
  sbytes : Bytes
  svalid : Nat

/-- cipher/kcipher2/kcipher2.go:177-199 `expandKey`. -/
def expandKey (key iv : Bytes) : St := iterate (next true) 24 (setup (ldBE 32 4 4 key) (ldBE 32 4 4 iv))

/-- cipher/kcipher2/kcipher2.go:51-65 `NewCipher`. -/
def newCipher (key iv : Bytes) : Res Obj :=
  if key.length ≠ 16 then .err
  else if iv.length ≠ 16 then .err
  else .ok ⟨expandKey key iv, List.replicate 8 0, 0⟩

/-- cipher/kcipher2/kcipher2.go:75-86, one iteration of the loop. -/
def gen (o : Obj) : Byte × Obj :=
  let o := if o.svalid = 0 then ⟨next false o.s, stream o.s, 8⟩ else o
  (o.sbytes.getD (8 - o.svalid) 0, { o with svalid := o.svalid - 1 })

/-- cipher/kcipher2/kcipher2.go:67-89 `XORKeyStream`: the last statement is `copy(dst, src)`. -/
def xorKS (o : Obj) (m : Mem) (dst src : Slice) : Res (Mem × Obj) :=
  match xorKeyStream (byteStep gen) o m dst src with
  | .ok (m', o') => .ok (m'.write dst.ptr (m'.read src.ptr (min dst.len src.len)), o')
  | .err => .err
  | .panic => .panic
  | .hang => .hang

end Verif.Strm.KCipher2
