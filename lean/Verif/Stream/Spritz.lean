import Verif.Stream.Base
/-
Model of /repo/cipher/spritz.
-/
namespace Verif.Strm.Spritz
open Verif.Mode

/-- cipher/spritz/spritz.go:29-34 `spritzCipher`. -/
structure Obj where
  i : Byte
  j : Byte
  k : Byte
  z : Byte
  a : Byte
  w : Byte
  s : List Byte
  iv : Option Bytes

def at' (s : List Byte) (b : Byte) : Byte := s.getD b.toNat 0

/-- `s[x], s[y] = s[y], s[x]`. -/
def swap (s : List Byte) (x y : Byte) : List Byte := (s.set x.toNat (at' s y)).set y.toNat (at' s x)

/-- cipher/spritz/spritz.go:237-242 `update`. -/
def update (c : Obj) : Obj :=
  let i := c.i + c.w
  let j := c.k + at' c.s (c.j + at' c.s i)
  let k := i + c.k + at' c.s j
  { c with i := i, j := j, k := k, s := swap c.s i j }

/-- cipher/spritz/spritz.go:244-247 `output`. -/
def output (c : Obj) : Obj :=
  { c with z := at' c.s (c.j + at' c.s (c.i + at' c.s (c.z + c.k))) }

/-- cipher/spritz/spritz.go:192-198 `whip`. -/
def whip (r : Nat) (c : Obj) : Obj :=
  let c := iterate update r c
  { c with w := c.w + 2 }

/-- cipher/spritz/spritz.go:203-207, the iterations for `v` to `v + n - 1`. -/
def crushLoop : Nat → Nat → List Byte → List Byte
  | 0, _, s => s
  | n + 1, v, s =>
    let a := BitVec.ofNat 8 v
    let b := BitVec.ofNat 8 (255 - v)
    crushLoop n (v + 1) (if at' s b < at' s a then swap s a b else s)

/-- cipher/spritz/spritz.go:200-208 `crush`. -/
def crush (c : Obj) : Obj := { c with s := crushLoop 128 0 c.s }

/-- cipher/spritz/spritz.go:183-190 `shuffle`. -/
def shuffle (c : Obj) : Obj :=
  let c := whip 512 (crush (whip 512 (crush (whip 512 c))))
  { c with a := 0 }

/-- cipher/spritz/spritz.go:163-172 `absorbNibble`. -/
def absorbNibble (c : Obj) (x : Byte) : Obj :=
  let c := if c.a = 128 then shuffle c else c
  { c with s := swap c.s c.a (128 + x), a := c.a + 1 }

/-- cipher/spritz/spritz.go:158-161 `absorbByte`. -/
def absorbByte (c : Obj) (b : Byte) : Obj := absorbNibble (absorbNibble c (b &&& 0x0f)) ((b &&& 0xf0) >>> 4)

/-- cipher/spritz/spritz.go:152-156 `absorb`. -/
def absorb (c : Obj) (l : Bytes) : Obj := l.foldl absorbByte c

/-- cipher/spritz/spritz.go:174-181 `absorbStop`. -/
def absorbStop (c : Obj) : Obj :=
  let c := if c.a = 128 then shuffle c else c
  { c with a := c.a + 1 }

/-- `if c.a > 0 { c.shuffle() }`. -/
def settle (c : Obj) : Obj := if 0 < c.a then shuffle c else c

/-- cipher/spritz/spritz.go:227-235 `drip`. -/
def drip (c : Obj) : Obj := output (update (settle c))

/-- cipher/spritz/spritz.go:217-221, the loop of `squeeze`. -/
def drips : Nat → Obj → Bytes × Obj
  | 0, c => ([], c)
  | n + 1, c =>
    let c := drip c
    let r := drips n c
    (c.z :: r.1, r.2)

/-- cipher/spritz/spritz.go:210-225 `squeeze`. -/
def squeeze (r : Nat) (c : Obj) : Bytes × Obj := drips r (settle c)

/-- cipher/spritz/spritz.go:92-142: what happens before `squeeze` in `encrypt`, `decrypt` (nothing) and `encryptWithIV`, `decryptWithIV`. -/
def prepare (c : Obj) : Obj :=
  match c.iv with
  | none => c
  | some iv => absorb (absorbStop c) iv

/-- cipher/spritz/spritz.go:92-142 `encrypt`, `decrypt`, `encryptWithIV`, `decryptWithIV`. -/
def crypt (dec : Bool) (c : Obj) (l : Bytes) : Bytes × Obj :=
  let r := squeeze l.length (prepare c)
  (List.zipWith (fun m x => if dec then m - x else m + x) l r.1, r.2)

/-- cipher/spritz/spritz.go:64-90 `Encrypt`, `Decrypt`: the output is computed in a new buffer and copied. -/
def call (dec : Bool) (c : Obj) (m : Mem) (dst src : Slice) : Res (Mem × Obj) :=
  if dst.len < src.len then .panic
  else
    let r := crypt dec c (m.read src.ptr src.len)
    .ok (m.write dst.ptr r.1, r.2)

/-- cipher/spritz/spritz.go:144-150 `initializeState`, on the zero object. -/
def initial : Obj := ⟨0, 0, 0, 0, 0, 1, (List.range 256).map (BitVec.ofNat 8), none⟩

/-- cipher/spritz/spritz.go:37-58 `NewCipher` (no IV, or a nil one) and `NewCipherWithIV`; keySetup is lines 249-252. -/
def newCipher (key : Bytes) (iv : Option Bytes) : Res Obj :=
  if key.length = 0 then .err else .ok { absorb initial key with iv := iv }

/-- cipher/spritz/hash.go:3-15 `Hash`. -/
def hash (m : Bytes) (r : Byte) : Bytes := (squeeze r.toNat (absorbByte (absorbStop (absorb initial m)) r)).1

end Verif.Strm.Spritz
