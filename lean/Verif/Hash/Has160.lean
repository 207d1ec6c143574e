import Verif.Hash.Stream
/-
Model of hash/has160.
-/
namespace Verif.Hash.Has160
open Verif.Cipher

abbrev W := BitVec 32

/-- hash/has160/sbox.go:4-10. -/
def initH : List W := [0x67452301, 0xefcdab89, 0x98badcfe, 0x10325476, 0xc3d2e1f0]
/-- hash/has160/sbox.go:12. -/
def s1 : List Nat := [5, 11, 7, 15, 6, 13, 8, 14, 7, 12, 9, 11, 8, 15, 6, 12, 9, 14, 5, 13]
/-- hash/has160/sbox.go:14-17. -/
def x1 : List Nat := [18, 0, 1, 2, 3, 19, 4, 5, 6, 7, 16, 8, 9, 10, 11, 17, 12, 13, 14, 15]
def x2 : List Nat := [18, 3, 6, 9, 12, 19, 15, 2, 5, 8, 16, 11, 14, 1, 4, 17, 7, 10, 13, 0]
def x3 : List Nat := [18, 12, 5, 14, 7, 19, 0, 9, 2, 11, 16, 4, 13, 6, 15, 17, 8, 1, 10, 3]
def x4 : List Nat := [18, 7, 2, 13, 8, 19, 3, 14, 9, 4, 16, 15, 10, 5, 0, 17, 11, 6, 1, 12]

/-- hash/has160/utils.go:50-68: the common shape of `f1 … f4`: `h[e] += rol(h[a], s1[j]) + x[xs[j]] + k + f(h[b],h[c],h[d]);
h[b] = rol(h[b], r)`. -/
def fstep (xs : List Nat) (k : W) (f : W → W → W → W) (r : Nat) (x : List W) (h : List W) (a b c d e j : Nat) : List W :=
  let h := h.set e (h.getD e 0 + (rotl (h.getD a 0) (s1.getD j 0) + x.getD (xs.getD j 0) 0 + k + f (h.getD b 0) (h.getD c 0) (h.getD d 0)))
  h.set b (rotl (h.getD b 0) r)

/-- hash/has160/utils.go:50-53. -/
def f1 := fstep x1 0x00000000 (fun b c d => (b &&& c) ||| (~~~b &&& d)) 10
/-- hash/has160/utils.go:55-58. -/
def f2 := fstep x2 0x5a827999 (fun b c d => b ^^^ c ^^^ d) 17
/-- hash/has160/utils.go:60-63. -/
def f3 := fstep x3 0x6ed9eba1 (fun b c d => c ^^^ (b ||| ~~~d)) 25
/-- hash/has160/utils.go:65-68. -/
def f4 := fstep x4 0x8f1bbcdc (fun b c d => b ^^^ c ^^^ d) 30

/-- `x[i] ^ x[j] ^ x[k] ^ x[l]`. -/
def x4of (x : List W) (i j k l : Nat) : W := x.getD i 0 ^^^ x.getD j 0 ^^^ x.getD k 0 ^^^ x.getD l 0

/-- The loop `for i := 0; i < 20; i++ { f(h, 4-(4+i)%5, 4-(3+i)%5, 4-(2+i)%5, 4-(1+i)%5, 4-i%5, x, i) }`
(hash/has160/digest.go:108-110 and three more). -/
def loop20 (f : List W → List W → Nat → Nat → Nat → Nat → Nat → Nat → List W) (x h : List W) : List W :=
  (List.range 20).foldl (fun h i => f x h (4 - (4 + i) % 5) (4 - (3 + i) % 5) (4 - (2 + i) % 5) (4 - (1 + i) % 5) (4 - i % 5) i) h

/-- `x[16..19]` of the four rounds (hash/has160/digest.go:104-107, 114-117, 124-127, 134-137); the rest of the 20-word
array is the message block. -/
def ext1 (m : List W) : List W := m ++ [x4of m 0 1 2 3, x4of m 4 5 6 7, x4of m 8 9 10 11, x4of m 12 13 14 15]
def ext2 (m : List W) : List W := m ++ [x4of m 3 6 9 12, x4of m 2 5 8 15, x4of m 1 4 11 14, x4of m 0 7 10 13]
def ext3 (m : List W) : List W := m ++ [x4of m 5 7 12 14, x4of m 0 2 9 11, x4of m 4 6 13 15, x4of m 1 3 8 10]
def ext4 (m : List W) : List W := m ++ [x4of m 2 7 8 13, x4of m 3 4 9 14, x4of m 0 5 10 15, x4of m 1 6 11 12]

/-- hash/has160/digest.go:93-150 (`stepBlock`). -/
def stepBlock (s : List W) (block : Bytes) : List W :=
  let m := ldLE 32 4 16 block
  let h := loop20 f1 (ext1 m) s
  let h := loop20 f2 (ext2 m) h
  let h := loop20 f3 (ext3 m) h
  let h := loop20 f4 (ext4 m) h
  List.zipWith (· + ·) s h

abbrev D := Buf (List W)

/-- hash/has160/digest.go:17-39 (`newDigest`, `Reset`). -/
def new : D := ⟨initH, List.replicate 64 0, 0, 0⟩

/-- hash/has160/digest.go:41-66 (`Write`); the byte count is added once instead of piecewise. -/
def write (d : D) (p : Bytes) : Res D := bufWrite 64 stepBlock d p

/-- hash/has160/digest.go:74-91 (`checkSum`), on a copy; `d.x[d.nx]` panics when the buffer is full. -/
def checkSum (d : D) : Res Bytes :=
  if d.x.length ≤ d.nx then .panic
  else
    let x := d.x.set d.nx 0x80#8
    let nx := d.nx + 1
    let r := if nx > 56 then
        let x := putAt x nx (List.replicate 64 0#8)
        (stepBlock d.s x, x, 0)
      else (d.s, x, nx)
    let x := putAt r.2.1 r.2.2 (List.replicate 64 0#8)
    let x := putAt x 56 (leBytes 8 (d.len * 8).toNat)
    .ok (copyInto (List.replicate 20 0#8) (stLE 4 (stepBlock r.1 x)))

/-- hash/has160/digest.go:68-72 (`Sum`). -/
def sum (d : D) (p : Bytes) : Res (D × Bytes) := do
  let h ← checkSum d
  .ok (d, p ++ h)

/-- hash/has160/has160.go:8-10 (`New`). -/
def obj : Obj D := ⟨write, sum, fun _ => new⟩

/-- hash/has160/has160.go:13-21 (`Sum(data)`). -/
def sumData (data : Bytes) : Res Bytes := do
  let d ← write new data
  let r ← sum d []
  .ok (copyInto (List.replicate 20 0) r.2)

end Verif.Hash.Has160
