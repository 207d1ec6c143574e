import Verif.Hash.Stream
/-
Model of hash/sm3 (the portable block function; the assembly versions are not modelled).
-/
namespace Verif.Hash.Sm3
open Verif.Cipher

abbrev W := BitVec 32

/-- The eight words `d.s`, also the working variables `A … H`. -/
structure W8 where
  a : W
  b : W
  c : W
  d : W
  e : W
  f : W
  g : W
  h : W
deriving DecidableEq

/-- hash/sm3/sbox.go:3-6. -/
def iv : W8 := ⟨0x7380166F, 0x4914B2B9, 0x172442D7, 0xDA8A0600, 0xA96F30BC, 0x163138AA, 0xE38DEE4D, 0xB0FB0E4E⟩

/-- hash/sm3/sbox.go:8-25. -/
def tSbox : List W := [
  0x79cc4519, 0xf3988a32, 0xe7311465, 0xce6228cb, 0x9cc45197, 0x3988a32f, 0x7311465e, 0xe6228cbc,
  0xcc451979, 0x988a32f3, 0x311465e7, 0x6228cbce, 0xc451979c, 0x88a32f39, 0x11465e73, 0x228cbce6,
  0x9d8a7a87, 0x3b14f50f, 0x7629ea1e, 0xec53d43c, 0xd8a7a879, 0xb14f50f3, 0x629ea1e7, 0xc53d43ce,
  0x8a7a879d, 0x14f50f3b, 0x29ea1e76, 0x53d43cec, 0xa7a879d8, 0x4f50f3b1, 0x9ea1e762, 0x3d43cec5,
  0x7a879d8a, 0xf50f3b14, 0xea1e7629, 0xd43cec53, 0xa879d8a7, 0x50f3b14f, 0xa1e7629e, 0x43cec53d,
  0x879d8a7a, 0x0f3b14f5, 0x1e7629ea, 0x3cec53d4, 0x79d8a7a8, 0xf3b14f50, 0xe7629ea1, 0xcec53d43,
  0x9d8a7a87, 0x3b14f50f, 0x7629ea1e, 0xec53d43c, 0xd8a7a879, 0xb14f50f3, 0x629ea1e7, 0xc53d43ce,
  0x8a7a879d, 0x14f50f3b, 0x29ea1e76, 0x53d43cec, 0xa7a879d8, 0x4f50f3b1, 0x9ea1e762, 0x3d43cec5]

/-- hash/sm3/utils.go:20-22. -/
def P0 (x : W) : W := x ^^^ rotl x 9 ^^^ rotl x 17
/-- hash/sm3/utils.go:24-26. -/
def P1 (x : W) : W := x ^^^ rotl x 15 ^^^ rotl x 23
/-- hash/sm3/utils.go:28-30. -/
def FF00 (x y z : W) : W := x ^^^ y ^^^ z
/-- hash/sm3/utils.go:32-34. -/
def FF16 (x y z : W) : W := (x &&& y) ||| (x &&& z) ||| (y &&& z)
/-- hash/sm3/utils.go:36-38. -/
def GG00 (x y z : W) : W := x ^^^ y ^^^ z
/-- hash/sm3/utils.go:40-42. -/
def GG16 (x y z : W) : W := ((y ^^^ z) &&& x) ^^^ z

/-- hash/sm3/block.go:18-25: the array `W[68]`; the entries are appended in the order the loop writes them. -/
def expand (data : Bytes) : List W :=
  (List.range 52).foldl (fun w k => let j := k + 16
    w ++ [P1 (w.getD (j - 16) 0 ^^^ w.getD (j - 9) 0 ^^^ rotl (w.getD (j - 3) 0) 15) ^^^ rotl (w.getD (j - 13) 0) 7 ^^^ w.getD (j - 6) 0])
    (ldBE 32 4 16 data)

/-- hash/sm3/block.go:27-42 and 44-59: one turn of either loop, which differ in `FF` and `GG`. -/
def turn (FF GG : W → W → W → W) (w : List W) (v : W8) (j : Nat) : W8 :=
  let ss1 := rotl (rotl v.a 12 + v.e + tSbox.getD j 0) 7
  let ss2 := ss1 ^^^ rotl v.a 12
  let tt1 := FF v.a v.b v.c + v.d + ss2 + (w.getD j 0 ^^^ w.getD (j + 4) 0)
  let tt2 := GG v.e v.f v.g + v.h + ss1 + w.getD j 0
  ⟨tt1, v.a, rotl v.b 9, v.c, P0 tt2, v.e, rotl v.f 19, v.g⟩

/-- hash/sm3/block.go:3-69 (`blockGeneric`). -/
def block (s : W8) (data : Bytes) : W8 :=
  let w := expand data
  let v := (List.range' 0 16).foldl (turn FF00 GG00 w) s
  let v := (List.range' 16 48).foldl (turn FF16 GG16 w) v
  ⟨s.a ^^^ v.a, s.b ^^^ v.b, s.c ^^^ v.c, s.d ^^^ v.d, s.e ^^^ v.e, s.f ^^^ v.f, s.g ^^^ v.g, s.h ^^^ v.h⟩

def W8.toList (s : W8) : List W := [s.a, s.b, s.c, s.d, s.e, s.f, s.g, s.h]

abbrev D := Buf W8

/-- hash/sm3/digest.go:17-29 (`newDigest`, `Reset`). -/
def new : D := ⟨iv, List.replicate 64 0, 0, 0⟩

/-- hash/sm3/digest.go:40-65 (`Write`): `d.nx &= 0x3f`, then the loop. -/
def write (d : D) (p : Bytes) : Res D := bufWrite 64 block { d with nx := d.nx % 64 } p

/-- hash/sm3/digest.go:74-98 (`checkSum`), on a copy of the digest. -/
def checkSum (d : D) : Bytes :=
  let nx := d.nx % 64
  let x := putAt (d.x.set nx 0x80#8) (nx + 1) (List.replicate 64 0#8)
  let sx := if 64 - nx < 9 then (block d.s x, copyInto x (List.replicate 64 0#8)) else (d.s, x)
  let bcount := d.len / 64
  let x := putAt sx.2 56 (leBytes 4 ((bcount >>> 23).setWidth 32).toNat).reverse
  let x := putAt x 60 (leBytes 4 ((bcount <<< 9 + (BitVec.ofNat 64 nx <<< 3)).setWidth 32).toNat).reverse
  stBE 4 (block sx.1 x).toList

/-- hash/sm3/digest.go:67-72 (`Sum`). -/
def sum (d : D) (p : Bytes) : Res (D × Bytes) := .ok (d, p ++ checkSum d)

/-- hash/sm3/sm3.go:8-10 (`New`). -/
def obj : Obj D := ⟨write, sum, fun _ => new⟩

/-- hash/sm3/sm3.go:13-20 (`Sum(data)`). -/
def sumData (data : Bytes) : Res Bytes := do
  let d ← write new data
  let r ← sum d []
  .ok (copyInto (List.replicate 32 0) r.2)

/-! ### saving and restoring the state -/

/-- hash/sm3/binary.go:10: `"sm3\x03"`. -/
def magic : Bytes := [0x73, 0x6d, 0x33, 0x03]

/-- hash/sm3/binary.go:14-33 (`MarshalBinary`): the reslice `b[:len(b)+len(x)-nx]` exposes zero bytes of the fresh
buffer. -/
def marshal (d : D) : Res Bytes :=
  if d.x.length < d.nx then .panic
  else .ok (magic ++ stBE 4 d.s.toList ++ d.x.take d.nx ++ List.replicate (64 - d.nx) 0#8 ++ (leBytes 8 d.len.toNat).reverse)

/-- hash/sm3/binary.go:35-67 (`UnmarshalBinary`). -/
def unmarshal (_ : D) (b : Bytes) : Res D :=
  if b.length < 4 ∨ b.take 4 ≠ magic then .err
  else if b.length ≠ 108 then .err
  else
    let b := b.drop 4
    let w := ldBE 32 4 8 b
    let len : BitVec 64 := BitVec.ofNat 64 (leN ((b.drop 96).take 8).reverse)
    .ok ⟨⟨w.getD 0 0, w.getD 1 0, w.getD 2 0, w.getD 3 0, w.getD 4 0, w.getD 5 0, w.getD 6 0, w.getD 7 0⟩,
      (b.drop 32).take 64, (len % 64).toNat, len⟩

end Verif.Hash.Sm3
