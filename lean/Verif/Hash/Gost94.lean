import Verif.Hash.AppBuf
/-
Model of hash/gost/gost341194 (GOST R 34.11-94).  The package takes the block cipher as a parameter; so does the model:
`E k x` is what `cipher(k).Encrypt` leaves in the first 8 bytes for the input `x`.
-/
namespace Verif.Hash.Gost94
open Verif.Cipher

/-- hash/gost/gost341194/hash.go:18-23, 30-35 (`c2`, `c4`). -/
def c2 : Bytes := List.replicate 32 0#8
/-- hash/gost/gost341194/hash.go:24-29 (`c3`). -/
def c3 : Bytes := [0xff, 0x00, 0xff, 0xff, 0x00, 0x00, 0x00, 0xff, 0xff, 0x00, 0x00, 0xff, 0x00, 0xff, 0xff, 0x00,
  0x00, 0xff, 0x00, 0xff, 0x00, 0xff, 0x00, 0xff, 0xff, 0x00, 0xff, 0x00, 0xff, 0x00, 0xff, 0x00]

/-- hash/gost/gost341194/hash.go:127-139 (`fA`). -/
def fA (y : Bytes) : Bytes := (List.range 8).map (fun i => y.getD (16 + i) 0 ^^^ y.getD (24 + i) 0) ++ y.take 24

/-- hash/gost/gost341194/hash.go:141-149 (`fP`). -/
def fP (y : Bytes) : Bytes := [0, 8, 16, 24, 1, 9, 17, 25, 2, 10, 18, 26, 3, 11, 19, 27, 4, 12, 20, 28, 5, 13, 21, 29, 6, 14, 22, 30,
  7, 15, 23, 31].map fun i => y.getD i 0

/-- hash/gost/gost341194/hash.go:151-157 (`fChi`). -/
def fChi (y : Bytes) : Bytes :=
  [y.getD 30 0 ^^^ y.getD 28 0 ^^^ y.getD 26 0 ^^^ y.getD 24 0 ^^^ y.getD 0 0 ^^^ y.getD 6 0,
   y.getD 31 0 ^^^ y.getD 29 0 ^^^ y.getD 27 0 ^^^ y.getD 25 0 ^^^ y.getD 1 0 ^^^ y.getD 7 0] ++ y.take 30

/-- `f` applied `n` times. -/
def times {α : Type} (f : α → α) : Nat → α → α
  | 0, x => x
  | n + 1, x => times f n (f x)

/-- One of the four encryptions in `step`: bytes `hi-1 … lo` of `hin` are read downwards, the result is stored downwards. -/
def encPart (E : Bytes → Bytes → Bytes) (k hin : Bytes) (lo : Nat) : Bytes := (E k ((hin.drop lo).take 8).reverse).reverse

/-- hash/gost/gost341194/hash.go:171-274 (`step`); `blockReverse` (159-163) is list reversal, `blockXor` (165-169) is `xorb`. -/
def step (E : Bytes → Bytes → Bytes) (hin m : Bytes) : Bytes :=
  let u := hin
  let v := m
  let k := (fP (xorb u v)).reverse
  let s1 := encPart E k hin 24
  let u := xorb (fA u) c2
  let v := fA (fA v)
  let k := (fP (xorb u v)).reverse
  let s2 := encPart E k hin 16
  let u := xorb (fA u) c3
  let v := fA (fA v)
  let k := (fP (xorb u v)).reverse
  let s3 := encPart E k hin 8
  let u := xorb (fA u) c2
  let v := fA (fA v)
  let k := (fP (xorb u v)).reverse
  let s4 := encPart E k hin 0
  let out := s4 ++ s3 ++ s2 ++ s1
  let out := times fChi 12 out
  let out := xorb out m
  let out := fChi out
  let out := xorb out hin
  times fChi 61 out

/-- The fields of `digest` (hash/gost/gost341194/hash.go:40-47) changed by whole blocks; `chk` is a `big.Int`. -/
structure St where
  size : BitVec 64
  hsh : Bytes
  chk : Nat

structure D where
  st : St
  buf : Bytes

/-- hash/gost/gost341194/hash.go:276-284 (`chkAdd`). -/
def chkAdd (chk : Nat) (data : Bytes) : Nat :=
  let i := leN data.reverse + chk
  if i ≥ 2 ^ 256 then i - 2 ^ 256 else i

/-- hash/gost/gost341194/hash.go:66-76 (`Reset`). -/
def iv : St := ⟨0, List.replicate 32 0#8, 0⟩
def new : D := ⟨iv, []⟩

/-- hash/gost/gost341194/hash.go:81-87: the loop body of `Write`. -/
def block (E : Bytes → Bytes → Bytes) (s : St) (b : Bytes) : St := ⟨s.size + 256, step E s.hsh b.reverse, chkAdd s.chk b.reverse⟩

/-- hash/gost/gost341194/hash.go:78-90 (`Write`). -/
def write (E : Bytes → Bytes → Bytes) (d : D) (p : Bytes) : Res D := do
  let r ← appWrite 32 (block E) d.st d.buf p
  .ok ⟨r.1, r.2⟩

/-- hash/gost/gost341194/hash.go:99-125 (`checkSum`).  `chk.Bytes()` right-aligned in 32 zero bytes is the 32-byte
big-endian form; a number of more than 32 bytes would make the slice expression panic. -/
def checkSum (E : Bytes → Bytes → Bytes) (d : D) : Res Bytes :=
  let s := if d.buf.length ≠ 0 then
      let b := (copyInto (List.replicate 32 0#8) d.buf).reverse
      (⟨d.st.size + BitVec.ofNat 64 d.buf.length * 8, step E d.st.hsh b, chkAdd d.st.chk b⟩ : St)
    else d.st
  let hsh := step E s.hsh (List.replicate 24 0#8 ++ hx 8 s.size.toNat)
  if s.chk ≥ 2 ^ 256 then .panic
  else .ok (step E hsh (hx 32 s.chk)).reverse

/-- hash/gost/gost341194/hash.go:92-97 (`Sum`): on a copy. -/
def sum (E : Bytes → Bytes → Bytes) (d : D) (p : Bytes) : Res (D × Bytes) := do
  let h ← checkSum E d
  .ok (d, p ++ h)

def obj (E : Bytes → Bytes → Bytes) : Obj D := ⟨write E, sum E, fun _ => new⟩

end Verif.Hash.Gost94
