import Verif.Hash.Stream
/-
Model of hash/belt.
-/
namespace Verif.Hash.Belt
open Verif.Cipher

abbrev W := BitVec 32

/-- hash/belt/sbox.go:3-20. -/
def S : List Byte := [
  0xb1, 0x94, 0xba, 0xc8, 0x0a, 0x08, 0xf5, 0x3b, 0x36, 0x6d, 0x00, 0x8e, 0x58, 0x4a, 0x5d, 0xe4,
  0x85, 0x04, 0xfa, 0x9d, 0x1b, 0xb6, 0xc7, 0xac, 0x25, 0x2e, 0x72, 0xc2, 0x02, 0xfd, 0xce, 0x0d,
  0x5b, 0xe3, 0xd6, 0x12, 0x17, 0xb9, 0x61, 0x81, 0xfe, 0x67, 0x86, 0xad, 0x71, 0x6b, 0x89, 0x0b,
  0x5c, 0xb0, 0xc0, 0xff, 0x33, 0xc3, 0x56, 0xb8, 0x35, 0xc4, 0x05, 0xae, 0xd8, 0xe0, 0x7f, 0x99,
  0xe1, 0x2b, 0xdc, 0x1a, 0xe2, 0x82, 0x57, 0xec, 0x70, 0x3f, 0xcc, 0xf0, 0x95, 0xee, 0x8d, 0xf1,
  0xc1, 0xab, 0x76, 0x38, 0x9f, 0xe6, 0x78, 0xca, 0xf7, 0xc6, 0xf8, 0x60, 0xd5, 0xbb, 0x9c, 0x4f,
  0xf3, 0x3c, 0x65, 0x7b, 0x63, 0x7c, 0x30, 0x6a, 0xdd, 0x4e, 0xa7, 0x79, 0x9e, 0xb2, 0x3d, 0x31,
  0x3e, 0x98, 0xb5, 0x6e, 0x27, 0xd3, 0xbc, 0xcf, 0x59, 0x1e, 0x18, 0x1f, 0x4c, 0x5a, 0xb7, 0x93,
  0xe9, 0xde, 0xe7, 0x2c, 0x8f, 0x0c, 0x0f, 0xa6, 0x2d, 0xdb, 0x49, 0xf4, 0x6f, 0x73, 0x96, 0x47,
  0x06, 0x07, 0x53, 0x16, 0xed, 0x24, 0x7a, 0x37, 0x39, 0xcb, 0xa3, 0x83, 0x03, 0xa9, 0x8b, 0xf6,
  0x92, 0xbd, 0x9b, 0x1c, 0xe5, 0xd1, 0x41, 0x01, 0x54, 0x45, 0xfb, 0xc9, 0x5e, 0x4d, 0x0e, 0xf2,
  0x68, 0x20, 0x80, 0xaa, 0x22, 0x7d, 0x64, 0x2f, 0x26, 0x87, 0xf9, 0x34, 0x90, 0x40, 0x55, 0x11,
  0xbe, 0x32, 0x97, 0x13, 0x43, 0xfc, 0x9a, 0x48, 0xa0, 0x2a, 0x88, 0x5f, 0x19, 0x4b, 0x09, 0xa1,
  0x7e, 0xcd, 0xa4, 0xd0, 0x15, 0x44, 0xaf, 0x8c, 0xa5, 0x84, 0x50, 0xbf, 0x66, 0xd2, 0xe8, 0x8a,
  0xa2, 0xd7, 0x46, 0x52, 0x42, 0xa8, 0xdf, 0xb3, 0x69, 0x74, 0xc5, 0x51, 0xeb, 0x23, 0x29, 0x21,
  0xd4, 0xef, 0xd9, 0xb4, 0x3a, 0x62, 0x28, 0x75, 0x91, 0x14, 0x10, 0xea, 0x77, 0x6c, 0xda, 0x1d]

/-- hash/belt/sbox.go:22-31. -/
def KIdx : List (List Nat) := [[0, 1, 2, 3, 4, 5, 6], [7, 0, 1, 2, 3, 4, 5], [6, 7, 0, 1, 2, 3, 4], [5, 6, 7, 0, 1, 2, 3],
  [4, 5, 6, 7, 0, 1, 2], [3, 4, 5, 6, 7, 0, 1], [2, 3, 4, 5, 6, 7, 0], [1, 2, 3, 4, 5, 6, 7]]

/-- hash/belt/sbox.go:33-38. -/
def iv : List (BitVec 64) := [0x3bf5080ac8ba94b1, 0xe45d4a588e006d36, 0xacc7b61b9dfa0485, 0x0dcefd02c2722e25]

/-- hash/belt/utils.go:54-64 (`GET_BYTE`, `PUT_BYTE`, `SB`). -/
def SB (x : W) (a : Nat) : W := (S.getD ((x >>> a).setWidth 8 : Byte).toNat 0).setWidth 32 <<< a

/-- hash/belt/utils.go:66-68. -/
def G (x : W) (r : Nat) : W := rotl (SB x 24 ||| SB x 16 ||| SB x 8 ||| SB x 0) r

/-- `getu32(p[4*i:])`. -/
def u32 (p : Bytes) (i : Nat) : W := BitVec.ofNat 32 (leN ((p.drop (4 * i)).take 4))

/-- hash/belt/utils.go:109-140: one turn of the loop of `belt_encrypt`. -/
def turn (ks : Bytes) (v : W × W × W × W) (i : Nat) : W × W × W × W :=
  let key := fun j => u32 ks ((KIdx.getD i []).getD j 0)
  match v with
  | (a, b, c, d) =>
    let b := b ^^^ G (a + key 0) 5
    let c := c ^^^ G (d + key 1) 21
    let a := a - G (b + key 2) 13
    let e := G (b + c + key 3) 21 ^^^ (BitVec.ofNat 32 i + 1)
    let b := b + e
    let c := c - e
    let d := d + G (c + key 4) 13
    let b := b ^^^ G (a + key 5) 21
    let c := c ^^^ G (d + key 6) 5
    -- a, b = b, a; c, d = d, c; b, c = c, b
    (b, d, a, c)

/-- hash/belt/utils.go:100-146 (`belt_encrypt`): `in` is 16 bytes, `ks` 32 bytes. -/
def encrypt (inp ks : Bytes) : Bytes :=
  match (List.range 8).foldl (turn ks) (u32 inp 0, u32 inp 1, u32 inp 2, u32 inp 3) with
  | (a, b, c, d) => stLE 4 [b, d, a, c]

/-- hash/belt/utils.go:200-228 (`sigma1Xor`); the loops over half blocks are written over whole blocks. -/
def sigma1Xor (x h s : Bytes) (useXor : Bool) : Bytes :=
  let tmp1 := xorb (h.take 16) (h.drop 16)
  if useXor then xorb s (xorb tmp1 (encrypt tmp1 x)) else xorb (encrypt tmp1 x) tmp1

/-- hash/belt/utils.go:230-272 (`sigma2`). -/
def sigma2 (x h : Bytes) : Bytes :=
  let tmp := h.take 16
  let teta := sigma1Xor x h (List.replicate 16 0) false ++ h.drop 16
  let r1 := xorb (encrypt (x.take 16) teta) (x.take 16)
  let teta := (teta.take 16).map (· ^^^ 0xff#8) ++ tmp
  let r2 := xorb (encrypt (x.drop 16) teta) (x.drop 16)
  r1 ++ r2

/-- The fields `s` and `h` of `digest`, hash/belt/digest.go:12-19. -/
structure St where
  s : Bytes
  h : Bytes
deriving DecidableEq

/-- hash/belt/digest.go:113-136 (`updateCtr`). -/
def updateCtr (st : St) (n : Nat) : St :=
  let a0 : BitVec 64 := BitVec.ofNat 64 (leN (st.s.take 8))
  let a1 : BitVec 64 := BitVec.ofNat 64 (leN ((st.s.drop 8).take 8))
  let b : BitVec 64 := BitVec.ofNat 64 n <<< 3
  let c := a0 + b
  let a1 := if c < b then a1 + 1 else a1
  { st with s := leBytes 8 c.toNat ++ leBytes 8 a1.toNat ++ st.s.drop 16 }

/-- hash/belt/digest.go:104-111 (`hashProcess`) and hash/belt/utils.go:263-267. -/
def process (st : St) (data : Bytes) : St :=
  let s := sigma1Xor data st.h (st.s.drop 16) true
  ⟨st.s.take 16 ++ s, sigma2 data st.h⟩

/-- hash/belt/digest.go:96-102 (`processBlock`). -/
def block (st : St) (data : Bytes) : St := process (updateCtr st 32) data

abbrev D := Buf St

def iv0 : St := ⟨List.replicate 32 0, stLE 8 iv⟩

/-- hash/belt/digest.go:22-36 (`newDigest`, `Reset`). -/
def new : D := ⟨iv0, List.replicate 32 0, 0, 0⟩

/-- hash/belt/digest.go:46-69 (`Write`). -/
def write (d : D) (p : Bytes) : Res D := bufWrite 32 block d p

/-- hash/belt/digest.go:78-94 (`checkSum`), on a copy. -/
def checkSum (d : D) : Bytes :=
  let st := if d.nx ≠ 0 then process (updateCtr d.s d.nx) (putAt d.x d.nx (List.replicate 32 0#8)) else d.s
  sigma2 st.s st.h

/-- hash/belt/digest.go:71-76 (`Sum`). -/
def sum (d : D) (p : Bytes) : Res (D × Bytes) := .ok (d, p ++ checkSum d)

/-- hash/belt/belt.go:13-15 (`New`). -/
def obj : Obj D := ⟨write, sum, fun _ => new⟩

/-- hash/belt/belt.go:18-25 (`Sum(data)`): `hashed[:Size]` panics if the digest is too short. -/
def sumData (data : Bytes) : Res Bytes := do
  let d ← write new data
  let r ← sum d []
  if r.2.length < 32 then .panic else .ok (copyInto (List.replicate 32 0) (r.2.take 32))

end Verif.Hash.Belt
