import Verif.Cipher.Common
/-
Model of cipher/camellia (camellia.go, utils.go, sboxs.go).
-/
namespace Verif.Cipher.Camellia

abbrev W := BitVec 64
abbrev St := W × W

/-- sboxs.go -/
def sbox1 : List Byte := [
  0x70, 0x82, 0x2c, 0xec, 0xb3, 0x27, 0xc0, 0xe5, 0xe4, 0x85, 0x57, 0x35, 0xea, 0x0c, 0xae, 0x41,
  0x23, 0xef, 0x6b, 0x93, 0x45, 0x19, 0xa5, 0x21, 0xed, 0x0e, 0x4f, 0x4e, 0x1d, 0x65, 0x92, 0xbd,
  0x86, 0xb8, 0xaf, 0x8f, 0x7c, 0xeb, 0x1f, 0xce, 0x3e, 0x30, 0xdc, 0x5f, 0x5e, 0xc5, 0x0b, 0x1a,
  0xa6, 0xe1, 0x39, 0xca, 0xd5, 0x47, 0x5d, 0x3d, 0xd9, 0x01, 0x5a, 0xd6, 0x51, 0x56, 0x6c, 0x4d,
  0x8b, 0x0d, 0x9a, 0x66, 0xfb, 0xcc, 0xb0, 0x2d, 0x74, 0x12, 0x2b, 0x20, 0xf0, 0xb1, 0x84, 0x99,
  0xdf, 0x4c, 0xcb, 0xc2, 0x34, 0x7e, 0x76, 0x05, 0x6d, 0xb7, 0xa9, 0x31, 0xd1, 0x17, 0x04, 0xd7,
  0x14, 0x58, 0x3a, 0x61, 0xde, 0x1b, 0x11, 0x1c, 0x32, 0x0f, 0x9c, 0x16, 0x53, 0x18, 0xf2, 0x22,
  0xfe, 0x44, 0xcf, 0xb2, 0xc3, 0xb5, 0x7a, 0x91, 0x24, 0x08, 0xe8, 0xa8, 0x60, 0xfc, 0x69, 0x50,
  0xaa, 0xd0, 0xa0, 0x7d, 0xa1, 0x89, 0x62, 0x97, 0x54, 0x5b, 0x1e, 0x95, 0xe0, 0xff, 0x64, 0xd2,
  0x10, 0xc4, 0x00, 0x48, 0xa3, 0xf7, 0x75, 0xdb, 0x8a, 0x03, 0xe6, 0xda, 0x09, 0x3f, 0xdd, 0x94,
  0x87, 0x5c, 0x83, 0x02, 0xcd, 0x4a, 0x90, 0x33, 0x73, 0x67, 0xf6, 0xf3, 0x9d, 0x7f, 0xbf, 0xe2,
  0x52, 0x9b, 0xd8, 0x26, 0xc8, 0x37, 0xc6, 0x3b, 0x81, 0x96, 0x6f, 0x4b, 0x13, 0xbe, 0x63, 0x2e,
  0xe9, 0x79, 0xa7, 0x8c, 0x9f, 0x6e, 0xbc, 0x8e, 0x29, 0xf5, 0xf9, 0xb6, 0x2f, 0xfd, 0xb4, 0x59,
  0x78, 0x98, 0x06, 0x6a, 0xe7, 0x46, 0x71, 0xba, 0xd4, 0x25, 0xab, 0x42, 0x88, 0xa2, 0x8d, 0xfa,
  0x72, 0x07, 0xb9, 0x55, 0xf8, 0xee, 0xac, 0x0a, 0x36, 0x49, 0x2a, 0x68, 0x3c, 0x38, 0xf1, 0xa4,
  0x40, 0x28, 0xd3, 0x7b, 0xbb, 0xc9, 0x43, 0xc1, 0x15, 0xe3, 0xad, 0xf4, 0x77, 0xc7, 0x80, 0x9e]
def sbox2 : List Byte := [
  0xe0, 0x05, 0x58, 0xd9, 0x67, 0x4e, 0x81, 0xcb, 0xc9, 0x0b, 0xae, 0x6a, 0xd5, 0x18, 0x5d, 0x82,
  0x46, 0xdf, 0xd6, 0x27, 0x8a, 0x32, 0x4b, 0x42, 0xdb, 0x1c, 0x9e, 0x9c, 0x3a, 0xca, 0x25, 0x7b,
  0x0d, 0x71, 0x5f, 0x1f, 0xf8, 0xd7, 0x3e, 0x9d, 0x7c, 0x60, 0xb9, 0xbe, 0xbc, 0x8b, 0x16, 0x34,
  0x4d, 0xc3, 0x72, 0x95, 0xab, 0x8e, 0xba, 0x7a, 0xb3, 0x02, 0xb4, 0xad, 0xa2, 0xac, 0xd8, 0x9a,
  0x17, 0x1a, 0x35, 0xcc, 0xf7, 0x99, 0x61, 0x5a, 0xe8, 0x24, 0x56, 0x40, 0xe1, 0x63, 0x09, 0x33,
  0xbf, 0x98, 0x97, 0x85, 0x68, 0xfc, 0xec, 0x0a, 0xda, 0x6f, 0x53, 0x62, 0xa3, 0x2e, 0x08, 0xaf,
  0x28, 0xb0, 0x74, 0xc2, 0xbd, 0x36, 0x22, 0x38, 0x64, 0x1e, 0x39, 0x2c, 0xa6, 0x30, 0xe5, 0x44,
  0xfd, 0x88, 0x9f, 0x65, 0x87, 0x6b, 0xf4, 0x23, 0x48, 0x10, 0xd1, 0x51, 0xc0, 0xf9, 0xd2, 0xa0,
  0x55, 0xa1, 0x41, 0xfa, 0x43, 0x13, 0xc4, 0x2f, 0xa8, 0xb6, 0x3c, 0x2b, 0xc1, 0xff, 0xc8, 0xa5,
  0x20, 0x89, 0x00, 0x90, 0x47, 0xef, 0xea, 0xb7, 0x15, 0x06, 0xcd, 0xb5, 0x12, 0x7e, 0xbb, 0x29,
  0x0f, 0xb8, 0x07, 0x04, 0x9b, 0x94, 0x21, 0x66, 0xe6, 0xce, 0xed, 0xe7, 0x3b, 0xfe, 0x7f, 0xc5,
  0xa4, 0x37, 0xb1, 0x4c, 0x91, 0x6e, 0x8d, 0x76, 0x03, 0x2d, 0xde, 0x96, 0x26, 0x7d, 0xc6, 0x5c,
  0xd3, 0xf2, 0x4f, 0x19, 0x3f, 0xdc, 0x79, 0x1d, 0x52, 0xeb, 0xf3, 0x6d, 0x5e, 0xfb, 0x69, 0xb2,
  0xf0, 0x31, 0x0c, 0xd4, 0xcf, 0x8c, 0xe2, 0x75, 0xa9, 0x4a, 0x57, 0x84, 0x11, 0x45, 0x1b, 0xf5,
  0xe4, 0x0e, 0x73, 0xaa, 0xf1, 0xdd, 0x59, 0x14, 0x6c, 0x92, 0x54, 0xd0, 0x78, 0x70, 0xe3, 0x49,
  0x80, 0x50, 0xa7, 0xf6, 0x77, 0x93, 0x86, 0x83, 0x2a, 0xc7, 0x5b, 0xe9, 0xee, 0x8f, 0x01, 0x3d]
def sbox3 : List Byte := [
  0x38, 0x41, 0x16, 0x76, 0xd9, 0x93, 0x60, 0xf2, 0x72, 0xc2, 0xab, 0x9a, 0x75, 0x06, 0x57, 0xa0,
  0x91, 0xf7, 0xb5, 0xc9, 0xa2, 0x8c, 0xd2, 0x90, 0xf6, 0x07, 0xa7, 0x27, 0x8e, 0xb2, 0x49, 0xde,
  0x43, 0x5c, 0xd7, 0xc7, 0x3e, 0xf5, 0x8f, 0x67, 0x1f, 0x18, 0x6e, 0xaf, 0x2f, 0xe2, 0x85, 0x0d,
  0x53, 0xf0, 0x9c, 0x65, 0xea, 0xa3, 0xae, 0x9e, 0xec, 0x80, 0x2d, 0x6b, 0xa8, 0x2b, 0x36, 0xa6,
  0xc5, 0x86, 0x4d, 0x33, 0xfd, 0x66, 0x58, 0x96, 0x3a, 0x09, 0x95, 0x10, 0x78, 0xd8, 0x42, 0xcc,
  0xef, 0x26, 0xe5, 0x61, 0x1a, 0x3f, 0x3b, 0x82, 0xb6, 0xdb, 0xd4, 0x98, 0xe8, 0x8b, 0x02, 0xeb,
  0x0a, 0x2c, 0x1d, 0xb0, 0x6f, 0x8d, 0x88, 0x0e, 0x19, 0x87, 0x4e, 0x0b, 0xa9, 0x0c, 0x79, 0x11,
  0x7f, 0x22, 0xe7, 0x59, 0xe1, 0xda, 0x3d, 0xc8, 0x12, 0x04, 0x74, 0x54, 0x30, 0x7e, 0xb4, 0x28,
  0x55, 0x68, 0x50, 0xbe, 0xd0, 0xc4, 0x31, 0xcb, 0x2a, 0xad, 0x0f, 0xca, 0x70, 0xff, 0x32, 0x69,
  0x08, 0x62, 0x00, 0x24, 0xd1, 0xfb, 0xba, 0xed, 0x45, 0x81, 0x73, 0x6d, 0x84, 0x9f, 0xee, 0x4a,
  0xc3, 0x2e, 0xc1, 0x01, 0xe6, 0x25, 0x48, 0x99, 0xb9, 0xb3, 0x7b, 0xf9, 0xce, 0xbf, 0xdf, 0x71,
  0x29, 0xcd, 0x6c, 0x13, 0x64, 0x9b, 0x63, 0x9d, 0xc0, 0x4b, 0xb7, 0xa5, 0x89, 0x5f, 0xb1, 0x17,
  0xf4, 0xbc, 0xd3, 0x46, 0xcf, 0x37, 0x5e, 0x47, 0x94, 0xfa, 0xfc, 0x5b, 0x97, 0xfe, 0x5a, 0xac,
  0x3c, 0x4c, 0x03, 0x35, 0xf3, 0x23, 0xb8, 0x5d, 0x6a, 0x92, 0xd5, 0x21, 0x44, 0x51, 0xc6, 0x7d,
  0x39, 0x83, 0xdc, 0xaa, 0x7c, 0x77, 0x56, 0x05, 0x1b, 0xa4, 0x15, 0x34, 0x1e, 0x1c, 0xf8, 0x52,
  0x20, 0x14, 0xe9, 0xbd, 0xdd, 0xe4, 0xa1, 0xe0, 0x8a, 0xf1, 0xd6, 0x7a, 0xbb, 0xe3, 0x40, 0x4f]
def sbox4 : List Byte := [
  0x70, 0x2c, 0xb3, 0xc0, 0xe4, 0x57, 0xea, 0xae, 0x23, 0x6b, 0x45, 0xa5, 0xed, 0x4f, 0x1d, 0x92,
  0x86, 0xaf, 0x7c, 0x1f, 0x3e, 0xdc, 0x5e, 0x0b, 0xa6, 0x39, 0xd5, 0x5d, 0xd9, 0x5a, 0x51, 0x6c,
  0x8b, 0x9a, 0xfb, 0xb0, 0x74, 0x2b, 0xf0, 0x84, 0xdf, 0xcb, 0x34, 0x76, 0x6d, 0xa9, 0xd1, 0x04,
  0x14, 0x3a, 0xde, 0x11, 0x32, 0x9c, 0x53, 0xf2, 0xfe, 0xcf, 0xc3, 0x7a, 0x24, 0xe8, 0x60, 0x69,
  0xaa, 0xa0, 0xa1, 0x62, 0x54, 0x1e, 0xe0, 0x64, 0x10, 0x00, 0xa3, 0x75, 0x8a, 0xe6, 0x09, 0xdd,
  0x87, 0x83, 0xcd, 0x90, 0x73, 0xf6, 0x9d, 0xbf, 0x52, 0xd8, 0xc8, 0xc6, 0x81, 0x6f, 0x13, 0x63,
  0xe9, 0xa7, 0x9f, 0xbc, 0x29, 0xf9, 0x2f, 0xb4, 0x78, 0x06, 0xe7, 0x71, 0xd4, 0xab, 0x88, 0x8d,
  0x72, 0xb9, 0xf8, 0xac, 0x36, 0x2a, 0x3c, 0xf1, 0x40, 0xd3, 0xbb, 0x43, 0x15, 0xad, 0x77, 0x80,
  0x82, 0xec, 0x27, 0xe5, 0x85, 0x35, 0x0c, 0x41, 0xef, 0x93, 0x19, 0x21, 0x0e, 0x4e, 0x65, 0xbd,
  0xb8, 0x8f, 0xeb, 0xce, 0x30, 0x5f, 0xc5, 0x1a, 0xe1, 0xca, 0x47, 0x3d, 0x01, 0xd6, 0x56, 0x4d,
  0x0d, 0x66, 0xcc, 0x2d, 0x12, 0x20, 0xb1, 0x99, 0x4c, 0xc2, 0x7e, 0x05, 0xb7, 0x31, 0x17, 0xd7,
  0x58, 0x61, 0x1b, 0x1c, 0x0f, 0x16, 0x18, 0x22, 0x44, 0xb2, 0xb5, 0x91, 0x08, 0xa8, 0xfc, 0x50,
  0xd0, 0x7d, 0x89, 0x97, 0x5b, 0x95, 0xff, 0xd2, 0xc4, 0x48, 0xf7, 0xdb, 0x03, 0xda, 0x3f, 0x94,
  0x5c, 0x02, 0x4a, 0x33, 0x67, 0xf3, 0x7f, 0xe2, 0x9b, 0x26, 0x37, 0x3b, 0x96, 0x4b, 0xbe, 0x2e,
  0x79, 0x8c, 0x6e, 0x8e, 0xf5, 0xb6, 0xfd, 0x59, 0x98, 0x6a, 0x46, 0xba, 0x25, 0x42, 0xa2, 0xfa,
  0x07, 0x55, 0xee, 0x0a, 0x49, 0x68, 0x38, 0xa4, 0x28, 0x7b, 0xc9, 0xc1, 0xe3, 0xf4, 0xc7, 0x9e]
def sigma1 : W := 0xA09E667F3BCC908B
def sigma2 : W := 0xB67AE8584CAA73B2
def sigma3 : W := 0xC6EF372FE94F82BE
def sigma4 : W := 0x54FF53A5F1D36F1C
def sigma5 : W := 0x10E527FADE682D1D
def sigma6 : W := 0xB05688C2B3E6C1FD

/-- `sbox[uint8(x >> n)]` -/
def sb (t : List Byte) (x : W) (n : Nat) : Byte := t.getD ((x >>> n).setWidth 8 : Byte).toNat 0

/-- utils.go:29-49 `f` -/
def f (fin ke : W) : W :=
  let x := fin ^^^ ke
  let t1 := sb sbox1 x 56
  let t2 := sb sbox2 x 48
  let t3 := sb sbox3 x 40
  let t4 := sb sbox4 x 32
  let t5 := sb sbox2 x 24
  let t6 := sb sbox3 x 16
  let t7 := sb sbox4 x 8
  let t8 := sb sbox1 x 0
  let y1 := t1 ^^^ t3 ^^^ t4 ^^^ t6 ^^^ t7 ^^^ t8
  let y2 := t1 ^^^ t2 ^^^ t4 ^^^ t5 ^^^ t7 ^^^ t8
  let y3 := t1 ^^^ t2 ^^^ t3 ^^^ t5 ^^^ t6 ^^^ t8
  let y4 := t2 ^^^ t3 ^^^ t4 ^^^ t5 ^^^ t6 ^^^ t7
  let y5 := t1 ^^^ t2 ^^^ t6 ^^^ t7 ^^^ t8
  let y6 := t2 ^^^ t3 ^^^ t5 ^^^ t7 ^^^ t8
  let y7 := t3 ^^^ t4 ^^^ t5 ^^^ t6 ^^^ t8
  let y8 := t1 ^^^ t4 ^^^ t5 ^^^ t6 ^^^ t7
  y1 ++ y2 ++ y3 ++ y4 ++ y5 ++ y6 ++ y7 ++ y8

/-- uint32(x >> 32), uint32(x & 0xffffffff), uint64(a) << 32 | uint64(b) -/
def hi (x : W) : BitVec 32 := hiP 32 32 x
def lo (x : W) : BitVec 32 := loP 32 32 x
def mk (a b : BitVec 32) : W := a ++ b

/-- utils.go:51-59 `fl` -/
def fl (flin ke : W) : W :=
  let x1 := hi flin
  let x2 := lo flin
  let k1 := hi ke
  let k2 := lo ke
  let x2 := x2 ^^^ rotl (x1 &&& k1) 1
  let x1 := x1 ^^^ (x2 ||| k2)
  mk x1 x2
/-- utils.go:61-69 `flinv` -/
def flinv (flin ke : W) : W :=
  let y1 := hi flin
  let y2 := lo flin
  let k1 := hi ke
  let k2 := lo ke
  let y1 := y1 ^^^ (y2 ||| k2)
  let y2 := y2 ^^^ rotl (y1 &&& k1) 1
  mk y1 y2

/-- utils.go:16-27 `rotl128` -/
def rotl128 (k : W × W) (rot : Nat) : W × W :=
  let (k0, k1, rot) := if rot > 64 then (k.2, k.1, rot - 64) else (k.1, k.2, rot)
  ((k0 <<< rot) ||| (k1 >>> (64 - rot)), (k1 <<< rot) ||| (k0 >>> (64 - rot)))

/-- The expanded key: `kw[1..4]`, `k[1..24]`, `ke[1..6]`, `klen`. The lists start at index 1 of the arrays. -/
structure Key where
  kw : List W
  k : List W
  ke : List W
  klen : Nat

def Key.kwAt (x : Key) (i : Nat) : W := x.kw.getD (i - 1) 0
def Key.kAt (x : Key) (i : Nat) : W := x.k.getD (i - 1) 0
def Key.keAt (x : Key) (i : Nat) : W := x.ke.getD (i - 1) 0

def pr (x : W × W) : List W := [x.1, x.2]

/-- camellia.go:194-289 `expandKey` -/
def expandKey (key : Bytes) : Key :=
  let w := ldBE 64 8 4 (key ++ List.replicate (32 - key.length) 0)
  let kl := (w.getD 0 0, w.getD 1 0)
  let kr := if key.length = 24 then (w.getD 2 0, ~~~ (w.getD 2 0)) else if key.length = 32 then (w.getD 2 0, w.getD 3 0) else ((0 : W), (0 : W))
  let d1 := kl.1 ^^^ kr.1
  let d2 := kl.2 ^^^ kr.2
  let d2 := d2 ^^^ f d1 sigma1
  let d1 := d1 ^^^ f d2 sigma2
  let d1 := d1 ^^^ kl.1
  let d2 := d2 ^^^ kl.2
  let d2 := d2 ^^^ f d1 sigma3
  let d1 := d1 ^^^ f d2 sigma4
  let ka := (d1, d2)
  let d1 := ka.1 ^^^ kr.1
  let d2 := ka.2 ^^^ kr.2
  let d2 := d2 ^^^ f d1 sigma5
  let d1 := d1 ^^^ f d2 sigma6
  let kb := (d1, d2)
  if key.length = 16 then
    ⟨pr (rotl128 kl 0) ++ pr (rotl128 ka 111),
     pr (rotl128 ka 0) ++ pr (rotl128 kl 15) ++ pr (rotl128 ka 15) ++ pr (rotl128 kl 45) ++ [(rotl128 ka 45).1, (rotl128 kl 60).2] ++ pr (rotl128 ka 60) ++
      pr (rotl128 kl 94) ++ pr (rotl128 ka 94) ++ pr (rotl128 kl 111),
     pr (rotl128 ka 30) ++ pr (rotl128 kl 77), 16⟩
  else
    ⟨pr (rotl128 kl 0) ++ pr (rotl128 kb 111),
     pr (rotl128 kb 0) ++ pr (rotl128 kr 15) ++ pr (rotl128 ka 15) ++ pr (rotl128 kb 30) ++ pr (rotl128 kl 45) ++ pr (rotl128 ka 45) ++
      pr (rotl128 kr 60) ++ pr (rotl128 kb 60) ++ pr (rotl128 kl 77) ++ pr (rotl128 kr 94) ++ pr (rotl128 ka 94) ++ pr (rotl128 kl 111),
     pr (rotl128 kr 30) ++ pr (rotl128 kl 60) ++ pr (rotl128 ka 77), key.length⟩

/-- camellia.go:91-96 (and 101-106, 111-116, 124-129): six rounds with the keys `i` to `i+5`. -/
def six (x : Key) (i : Nat) (d : St) : St :=
  let (d1, d2) := d
  let d2 := d2 ^^^ f d1 (x.kAt i)
  let d1 := d1 ^^^ f d2 (x.kAt (i + 1))
  let d2 := d2 ^^^ f d1 (x.kAt (i + 2))
  let d1 := d1 ^^^ f d2 (x.kAt (i + 3))
  let d2 := d2 ^^^ f d1 (x.kAt (i + 4))
  let d1 := d1 ^^^ f d2 (x.kAt (i + 5))
  (d1, d2)
/-- camellia.go:180-185 (and 149-154, 160-165, 170-175) -/
def sixInv (x : Key) (i : Nat) (d : St) : St :=
  let (d1, d2) := d
  let d1 := d1 ^^^ f d2 (x.kAt (i + 5))
  let d2 := d2 ^^^ f d1 (x.kAt (i + 4))
  let d1 := d1 ^^^ f d2 (x.kAt (i + 3))
  let d2 := d2 ^^^ f d1 (x.kAt (i + 2))
  let d1 := d1 ^^^ f d2 (x.kAt (i + 1))
  let d2 := d2 ^^^ f d1 (x.kAt i)
  (d1, d2)
/-- camellia.go:98-99, 108-109, 121-122 -/
def fls (x : Key) (i : Nat) (d : St) : St := (fl d.1 (x.keAt i), flinv d.2 (x.keAt (i + 1)))
/-- camellia.go:156-157, 167-168, 177-178 -/
def flsInv (x : Key) (i : Nat) (d : St) : St := (flinv d.1 (x.keAt i), fl d.2 (x.keAt (i + 1)))

/-- camellia.go:84-137 `encrypt`; the result is stored as `d2`, `d1`. -/
def enc (x : Key) (d : St) : St :=
  let d := (d.1 ^^^ x.kwAt 1, d.2 ^^^ x.kwAt 2)
  let d := six x 1 d
  let d := fls x 1 d
  let d := six x 7 d
  let d := fls x 3 d
  let d := six x 13 d
  let d := if x.klen > 16 then six x 19 (fls x 5 d) else d
  (d.2 ^^^ x.kwAt 3, d.1 ^^^ x.kwAt 4)
/-- camellia.go:139-192 `decrypt`; the input is loaded as `d2`, `d1`. -/
def dec (x : Key) (s : St) : St :=
  let d : St := (s.2 ^^^ x.kwAt 4, s.1 ^^^ x.kwAt 3)
  let d := if x.klen > 16 then flsInv x 5 (sixInv x 19 d) else d
  let d := sixInv x 13 d
  let d := flsInv x 3 d
  let d := sixInv x 7 d
  let d := flsInv x 1 d
  let d := sixInv x 1 d
  (d.1 ^^^ x.kwAt 1, d.2 ^^^ x.kwAt 2)

def encrypt (key : Bytes) : Bytes → Bytes := enc2BE 64 8 (enc (expandKey key))
def decrypt (key : Bytes) : Bytes → Bytes := enc2BE 64 8 (dec (expandKey key))

/-- camellia.go:33-82 -/
def newCipher (key : Bytes) : Res Obj :=
  if key.length = 16 ∨ key.length = 24 ∨ key.length = 32 then .ok ⟨16, guarded 16 (whole 16 (encrypt key)), guarded 16 (whole 16 (decrypt key))⟩ else .err

/-! Proofs -/

theorem sixInv_six (x : Key) (i : Nat) (d : St) : sixInv x i (six x i d) = d := by
  obtain ⟨a, b⟩ := d
  simp only [six, sixInv, xor_self_right]
theorem six_sixInv (x : Key) (i : Nat) (d : St) : six x i (sixInv x i d) = d := by
  obtain ⟨a, b⟩ := d
  simp only [six, sixInv, xor_self_right]

theorem hi_mk (a b : BitVec 32) : hi (mk a b) = a := hiP_append a b
theorem lo_mk (a b : BitVec 32) : lo (mk a b) = b := loP_append a b
theorem mk_hi_lo (x : W) : mk (hi x) (lo x) = x := append_hiP_loP (n := 32) (m := 32) x

theorem flinv_fl (x k : W) : flinv (fl x k) k = x := by
  simp only [fl, flinv, hi_mk, lo_mk, xor_self_right, mk_hi_lo]
theorem fl_flinv (x k : W) : fl (flinv x k) k = x := by
  simp only [fl, flinv, hi_mk, lo_mk, xor_self_right, mk_hi_lo]

theorem flsInv_fls (x : Key) (i : Nat) (d : St) : flsInv x i (fls x i d) = d := by
  simp only [fls, flsInv, flinv_fl, fl_flinv]
theorem fls_flsInv (x : Key) (i : Nat) (d : St) : fls x i (flsInv x i d) = d := by
  simp only [fls, flsInv, flinv_fl, fl_flinv]

theorem eta (x : St) : (x.1, x.2) = x := rfl

theorem dec_enc (x : Key) (d : St) : dec x (enc x d) = d := by
  unfold dec enc
  by_cases h : x.klen > 16 <;> simp only [h, if_true, if_false, xor_self_right, eta, sixInv_six, flsInv_fls]
theorem enc_dec (x : Key) (d : St) : enc x (dec x d) = d := by
  unfold dec enc
  by_cases h : x.klen > 16 <;> simp only [h, if_true, if_false, xor_self_right, eta, six_sixInv, fls_flsInv]

theorem implements : Implements newCipher (fun n => n = 16 ∨ n = 24 ∨ n = 32) 16 :=
  implements_of (ok := fun n => n = 16 ∨ n = 24 ∨ n = 32) fun key _ =>
    isBlock_2BE (w := 64) (sz := 8) 16 rfl rfl (f := enc (expandKey key)) (g := dec (expandKey key)) (dec_enc _) (enc_dec _)

end Verif.Cipher.Camellia
