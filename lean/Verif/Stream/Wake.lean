import Verif.Stream.Base
import Verif.Cipher.Common
/-
Model of /repo/cipher/wake.
-/
namespace Verif.Strm.Wake
open Verif.Mode Verif.Cipher

abbrev W := BitVec 32

/-- cipher/wake/wake.go:21-25 `wakeCipher`. -/
structure Obj where
  t : List W
  r3 : W
  r4 : W
  r5 : W
  r6 : W
  counter : Nat

def at' (l : List W) (i : Nat) : W := l.getD i 0

/-- cipher/wake/wake.go:229-235 `M`. -/
def M (t : List W) (x y : W) : W :=
  let tmp := x + y
  ((tmp >>> 8) &&& 0x00ffffff) ^^^ at' t (tmp &&& 0xff).toNat

/-- cipher/wake/utils.go:36-41 `uint32ToBytes`. -/
def be4 (w : W) : Bytes := (leBytes 4 w.toNat).reverse
/-- cipher/wake/utils.go:30-34 `bytesToUint32`. -/
def unbe4 (b : Bytes) : W := BitVec.ofNat 32 (leN b.reverse)

/-- cipher/wake/wake.go:89-110 (`encrypt`) and 134-155 (`decrypt`), one iteration; `v` is the local word `r2` or `r1`, as its four bytes:
it receives the ciphertext byte in both. -/
def step (dec : Bool) (v : Bytes) (o : Obj) (b : Byte) : Byte × Bytes × Obj :=
  let out := b ^^^ (be4 o.r6).getD o.counter 0
  let v := v.set o.counter (if dec then b else out)
  if o.counter + 1 = 4 then
    let r3 := M o.t o.r3 (unbe4 v)
    let r4 := M o.t o.r4 r3
    let r5 := M o.t o.r5 r4
    let r6 := M o.t o.r6 r5
    (out, v, { o with r3 := r3, r4 := r4, r5 := r5, r6 := r6, counter := 0 })
  else (out, v, { o with counter := o.counter + 1 })

/-- The loop, with the number of iterations. -/
def loop (dec : Bool) : Nat → Bytes → Obj → Bytes → Bytes × Obj
  | 0, _, o, l => (l, o)
  | _ + 1, _, o, [] => ([], o)
  | n + 1, v, o, b :: l =>
    let (c, v', o') := step dec v o b
    let (r, o'') := loop dec n v' o' l
    (c :: r, o'')

/-- The number of iterations of `for i = 0; i < int32(len(input)); i++`, `i` an int32. -/
def iters (len : Nat) : Nat := if len % 2 ^ 32 < 2 ^ 31 then len % 2 ^ 32 else 0

/-- cipher/wake/wake.go:77-118 `encrypt` and 120-163 `decrypt`: the local word starts at 0 in every call. -/
def crypt (dec : Bool) (o : Obj) (l : Bytes) : Bytes × Obj := loop dec (iters l.length) (be4 0) o l

/-- cipher/wake/wake.go:49-61 `Encrypt`, 63-75 `Decrypt`. -/
def call (dec : Bool) (o : Obj) (m : Mem) (dst src : Slice) : Res (Mem × Obj) :=
  if dst.len < src.len then .panic
  else if inexactOverlap ⟨dst.ptr, src.len, dst.cap⟩ src then .panic
  else
    let r := crypt dec o (m.read src.ptr src.len)
    .ok (m.write dst.ptr r.1, r.2)

/-- cipher/wake/wake.go:165-174 `tt`. -/
def tt : List W := [0x726a8f3b, 0xe69a3b5c, 0xd3c71fe5, 0xab3c73d2, 0x4d3a8eb3, 0x0396d6e8, 0x3d4c2f7a, 0x9ee27cf3]

/-- cipher/wake/wake.go:191-194. -/
def grow : Nat → List W → List W
  | 0, t => t
  | n + 1, t =>
    let p := t.length
    let x := at' t (p - 4) + at' t (p - 1)
    grow n (t ++ [(x >>> 3) ^^^ at' tt (x &&& 7).toNat])

/-- cipher/wake/wake.go:204-207. -/
def mask (z : W) : List W → W → List W × W
  | [], x => ([], x)
  | a :: t, x =>
    let x := (x &&& 0xff7fffff) + z
    let r := mask z t x
    (((a &&& 0x00ffffff) ^^^ x) :: r.1, r.2)

/-- cipher/wake/wake.go:212-217, `n` iterations from `p` on. -/
def perm : Nat → Nat → W → List W → List W
  | 0, _, _, t => t
  | n + 1, p, x, t =>
    let x := (at' t (p ^^^ x.toNat) ^^^ x) &&& 0xff
    let t := t.set p (at' t x.toNat)
    let t := t.set x.toNat (at' t (p + 1))
    perm n (p + 1) x t

/-- cipher/wake/wake.go:176-227 `expandKey`. -/
def expandKey (key : Bytes) : Obj :=
  let k := ldBE 32 4 4 key
  let t := grow 252 k
  let t := (List.range 23).map (fun p => at' t p + at' t (p + 89)) ++ t.drop 23
  let z := (at' t 59 ||| 0x01000001) &&& 0xff7fffff
  let r := mask z t (at' t 33)
  let t := r.1 ++ [at' r.1 0]
  ⟨perm 256 0 (r.2 &&& 0xff) t, at' k 0, at' k 1, at' k 2, at' k 3, 0⟩

/-- cipher/wake/wake.go:31-43 `NewCipher`. -/
def newCipher (key : Bytes) : Res Obj := if key.length = 16 then .ok (expandKey key) else .err

end Verif.Strm.Wake
