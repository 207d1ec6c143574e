import Verif.Hash.Stream
/-
Model of hash/bash.  The digest is written for any 24-word permutation `F`; the code uses `bashF`.
-/
namespace Verif.Hash.Bash
open Verif.Cipher

abbrev W := BitVec 64

/-- hash/bash/sbox.go:3-28. -/
def rc : List W := [0x3bf5080ac8ba94b1, 0xc1d1659c1bbd92f6, 0x60e8b2ce0ddec97b, 0xec5fb8fe790fbc13, 0xaa043de6436706a7, 0x8929ff6a5e535bfd,
  0x98bf1e2c50c97550, 0x4c5f8f162864baa8, 0x262fc78b14325d54, 0x1317e3c58a192eaa, 0x098bf1e2c50c9755, 0xd8ee19681d669304,
  0x6c770cb40eb34982, 0x363b865a0759a4c1, 0xc73622b47c4c0ace, 0x639b115a3e260567, 0xede6693460f3da1d, 0xaad8d5034f9935a0,
  0x556c6a81a7cc9ad0, 0x2ab63540d3e64d68, 0x155b1aa069f326b4, 0x0aad8d5034f9935a, 0x0556c6a81a7cc9ad, 0xde8082cd72debc78]

/-- hash/bash/sbox.go:30-39. -/
def rot : List (Nat × Nat × Nat × Nat) := [(8, 53, 14, 1), (56, 51, 34, 7), (8, 37, 46, 49), (56, 3, 2, 23), (8, 21, 14, 33), (56, 19, 34, 39),
  (8, 5, 46, 17), (56, 35, 2, 55)]

/-- hash/bash/utils.go:47-57 (`BASH_ROTHI`). -/
def rothi (x : W) (y : Nat) : W := if y < 64 ∧ 0 < y then x <<< y ||| x >>> (64 - y) else x

/-- hash/bash/utils.go:59-74 (`BASH_L3_S3`). -/
def l3s3 (w0 w1 w2 : W) (m1 n1 m2 n2 : Nat) : W × W × W :=
  let t0 := rothi w0 m1
  let w0 := w0 ^^^ w1 ^^^ w2
  let t1 := w1 ^^^ rothi w0 n1
  let w1 := t0 ^^^ t1
  let w2 := w2 ^^^ rothi w2 m2 ^^^ rothi t1 n2
  let t0 := ~~~w2
  let t1 := w0 ||| w2
  let t2 := w0 &&& w1
  let t0 := t0 ||| w1
  (w0 ^^^ t0, w1 ^^^ t1, w2 ^^^ t2)

/-- hash/bash/utils.go:76-88 (`BASH_PERMUTE`). -/
def permute (s : List W) : List W :=
  [15, 10, 9, 12, 11, 14, 13, 8, 17, 16, 19, 18, 21, 20, 23, 22, 6, 3, 0, 5, 2, 7, 4, 1].map fun i => s.getD i 0

/-- hash/bash/utils.go:90-94 (`SWAP64`). -/
def swap64 (a : W) : W :=
  a <<< 56 ||| (a &&& 0xff00) <<< 40 ||| (a &&& 0xff0000) <<< 24 ||| (a &&& 0xff000000) <<< 8 ||| (a >>> 8 &&& 0xff000000) |||
    (a >>> 24 &&& 0xff0000) ||| (a >>> 40 &&& 0xff00) ||| a >>> 56

/-- hash/bash/utils.go:107-121: one round. -/
def round (s : List W) (r : Nat) : List W :=
  let s := (List.range 8).foldl (fun (s : List W) v =>
    let q := rot.getD v (0, 0, 0, 0)
    let o := l3s3 (s.getD v 0) (s.getD (v + 8) 0) (s.getD (v + 16) 0) q.1 q.2.1 q.2.2.1 q.2.2.2
    ((s.set v o.1).set (v + 8) o.2.1).set (v + 16) o.2.2) s
  let s := permute s
  s.set 23 (s.getD 23 0 ^^^ rc.getD r 0)

/-- hash/bash/utils.go:96-127 (`BASHF` with `bigend = true`). -/
def bashF (s : List W) : List W := ((List.range 24).foldl round (s.map swap64)).map swap64

/-- The fields of `digest`, hash/bash/digest.go:16-23: `hs` with `bs = 192 - 2*hs`, the 24 words, the buffer. -/
structure D where
  hs : Nat
  b : Buf (List W)

def D.bs (d : D) : Nat := 192 - 2 * d.hs

/-- hash/bash/digest.go:46-58 (`Reset`). -/
def reset (hs : Nat) : D :=
  ⟨hs, ⟨ldBE 64 8 24 ((List.replicate 192 0#8).set 184 (BitVec.ofNat 8 hs)), List.replicate 192 0#8, 0, 0⟩⟩

/-- hash/bash/digest.go:26-44 (`newDigest`) for a size that is not negative. -/
def new (hashsize : Nat) : Res D :=
  if hashsize = 0 then .err else if hashsize % 8 > 0 then .err else if hashsize > 512 then .err else .ok (reset (hashsize / 8))

/-- hash/bash/digest.go:112-121 (`processBlock`): all 192 bytes of the buffer are XORed into the state. -/
def process (F : List W → List W) (s : List W) (x : Bytes) : List W := F (List.zipWith (· ^^^ ·) s (ldBE 64 8 24 x))

/-- hash/bash/digest.go:68-91 (`Write`). -/
def write (F : List W → List W) (d : D) (p : Bytes) : Res D := do
  let b ← bufWrite d.bs (process F) d.b p
  .ok { d with b := b }

/-- hash/bash/digest.go:100-110 (`checkSum`), on a copy. -/
def checkSum (F : List W → List W) (d : D) : Res Bytes :=
  if d.b.x.length ≤ d.b.nx then .panic
  else
    let x := (putAt d.b.x d.b.nx (List.replicate d.bs 0#8)).set d.b.nx 0x40#8
    .ok ((stBE 8 (process F d.b.s x)).take d.hs)

/-- hash/bash/digest.go:93-98 (`Sum`). -/
def sum (F : List W → List W) (d : D) (p : Bytes) : Res (D × Bytes) := do
  let h ← checkSum F d
  .ok (d, p ++ h)

/-- hash/bash/bash.go:14-16 (`New`). -/
def obj (F : List W → List W) : Obj D := ⟨write F, sum F, fun d => reset d.hs⟩

end Verif.Hash.Bash
