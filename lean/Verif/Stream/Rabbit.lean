import Verif.Stream.Base
import Verif.Cipher.Common
/-
Model of /repo/cipher/rabbit.
-/
namespace Verif.Strm.Rabbit
open Verif.Mode Verif.Cipher

abbrev W := BitVec 32

/-- cipher/rabbit/sbox.go:3-6 `aro`. -/
def aro : List W := [0x4D34D34D, 0xD34D34D3, 0x34D34D34, 0x4D34D34D, 0xD34D34D3, 0x34D34D34, 0x4D34D34D, 0xD34D34D3]

/-- `math/bits.Sub32`, as its source computes it: difference and borrow out (the borrow in is any word here). -/
def sub32 (x y borrow : W) : W × W :=
  let d := x - y - borrow
  (d, ((~~~x &&& y) ||| (~~~(x ^^^ y) &&& d)) >>> 31)

/-- The mutable part of cipher/rabbit/rabbit.go:16-22 `rabbitCipher` that `nextState` works on. -/
structure St where
  x : List W
  c : List W
  carry : W
deriving DecidableEq

/-- cipher/rabbit/rabbit.go:131-133, the counter loop: `r.carry, r.cbit[i] = bits.Sub32(aro[i], r.cbit[i], r.carry)`. -/
def counters : List W → List W → W → List W × W
  | a :: as, c :: cs, b =>
    let r := sub32 a c b
    let t := counters as cs r.1
    (r.2 :: t.1, t.2)
  | _, _, b => ([], b)

/-- cipher/rabbit/utils.go:24-28 `gfunction`: the sum is taken in 64 bits. -/
def gfunction (u v : W) : W :=
  let uv : BitVec 64 := u.setWidth 64 + v.setWidth 64
  let q := uv * uv
  (q >>> 32).setWidth 32 ^^^ q.setWidth 32

/-- cipher/rabbit/rabbit.go:139-146, the new state words. -/
def mix (G : List W) : List W :=
  let g := fun i => G.getD i 0
  [g 0 + (g 7).rotateLeft 16 + (g 6).rotateLeft 16, g 1 + (g 0).rotateLeft 8 + g 7,
   g 2 + (g 1).rotateLeft 16 + (g 0).rotateLeft 16, g 3 + (g 2).rotateLeft 8 + g 1,
   g 4 + (g 3).rotateLeft 16 + (g 2).rotateLeft 16, g 5 + (g 4).rotateLeft 8 + g 3,
   g 6 + (g 5).rotateLeft 16 + (g 4).rotateLeft 16, g 7 + (g 6).rotateLeft 8 + g 5]

/-- cipher/rabbit/rabbit.go:129-147 `nextState`. -/
def nextState (s : St) : St :=
  let cc := counters aro s.c s.carry
  ⟨mix (List.zipWith gfunction s.x cc.1), cc.1, cc.2⟩

/-- cipher/rabbit/rabbit.go:82-112 `setupKey`. -/
def setupKey (k : List W) : St :=
  let k := fun i => k.getD i 0
  let hi : W := 0xffff0000
  let lo : W := 0xffff
  let x := [k 0, k 3 <<< 16 ||| k 2 >>> 16, k 1, k 0 <<< 16 ||| k 3 >>> 16, k 2, k 1 <<< 16 ||| k 0 >>> 16, k 3,
    k 2 <<< 16 ||| k 1 >>> 16]
  let c := [(k 2).rotateLeft 16, k 0 &&& hi ||| k 1 &&& lo, (k 3).rotateLeft 16, k 1 &&& hi ||| k 2 &&& lo,
    (k 0).rotateLeft 16, k 2 &&& hi ||| k 3 &&& lo, (k 1).rotateLeft 16, k 3 &&& hi ||| k 0 &&& lo]
  let s := nextState (nextState (nextState (nextState ⟨x, c, 0⟩)))
  { s with c := List.zipWith (· ^^^ ·) s.c (s.x.drop 4 ++ s.x.take 4) }

/-- cipher/rabbit/rabbit.go:114-122, the words the counters are XORed with. -/
def ivWords (v : List (BitVec 16)) : List W :=
  let v := fun i => (v.getD i 0).setWidth 32
  let w := [v 1 <<< 16 ||| v 0, v 3 <<< 16 ||| v 1, v 3 <<< 16 ||| v 2, v 2 <<< 16 ||| v 0]
  w ++ w

/-- cipher/rabbit/rabbit.go:114-127 `setupIV`. -/
def setupIV (s : St) (v : List (BitVec 16)) : St :=
  nextState (nextState (nextState (nextState { s with c := List.zipWith (· ^^^ ·) s.c (ivWords v) })))

/-- cipher/rabbit/rabbit.go:64-80 `expandKey` (cipher/rabbit/utils.go:8-14 read little-endian words). -/
def expandKey (key iv : Bytes) : St :=
  let s := setupKey ((List.range 4).map fun i => BitVec.ofNat 32 (leN ((key.drop (i * 4)).take 4)))
  if iv.length ≠ 0 then setupIV s ((List.range 4).map fun i => BitVec.ofNat 16 (leN ((iv.drop (i * 2)).take 2))) else s

/-- cipher/rabbit/rabbit.go:153-162, the 16 bytes taken from a state. -/
def output (x : List W) : Bytes :=
  let x := fun i => x.getD i 0
  [x 0 ^^^ (x 5 >>> 16 ||| x 3 <<< 16), x 2 ^^^ (x 7 >>> 16 ||| x 5 <<< 16),
   x 4 ^^^ (x 1 >>> 16 ||| x 7 <<< 16), x 6 ^^^ (x 3 >>> 16 ||| x 1 <<< 16)].flatMap fun w => leBytes 4 w.toNat

/-- cipher/rabbit/rabbit.go:16-22 `rabbitCipher`: the state and the unused bytes `ks` of the current block. -/
structure Obj where
  st : St
  ks : Bytes

/-- cipher/rabbit/rabbit.go:55-60, one iteration of the loop, with 149-163 `extract` in line. -/
def gen (o : Obj) : Byte × Obj :=
  let o := if o.ks.length = 0 then ⟨nextState o.st, output (nextState o.st).x⟩ else o
  (o.ks.getD 0 0, { o with ks := o.ks.drop 1 })

/-- cipher/rabbit/rabbit.go:24-39 `NewCipher`. -/
def newCipher (key iv : Bytes) : Res Obj :=
  if key.length ≠ 16 then .err
  else if iv.length ≠ 0 ∧ iv.length ≠ 8 then .err
  else .ok ⟨expandKey key iv, []⟩

/-- cipher/rabbit/rabbit.go:41-62 `XORKeyStream`. -/
def xorKS : Obj → Mem → Slice → Slice → Res (Mem × Obj) := skipEmpty (xorKeyStream (byteStep gen))

/-- The key stream by position: byte `i mod 16` of the block taken after `i / 16 + 1` steps from the state the key
and the IV set up. -/
def keystream (key iv : Bytes) (i : Nat) : Byte :=
  (output (nextState (iterate nextState (i / 16) (expandKey key iv))).x).getD (i % 16) 0

end Verif.Strm.Rabbit
