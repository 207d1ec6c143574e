import Verif.Stream.Base
import Verif.Cipher.Common
/-
Model of /repo/cipher/hc (HC-128 and HC-256).
-/
namespace Verif.Strm.Hc
open Verif.Mode Verif.Cipher

abbrev W := BitVec 32

/-- cipher/hc/utils.go:43-49 `rotatel32`, `rotater32`. -/
def rol (x : W) (n : Nat) : W := x.rotateLeft n
def ror (x : W) (n : Nat) : W := rol x (32 - n)

/-- cipher/hc/utils.go:55-57 `f1`. -/
def f1 (x : W) : W := ror x 7 ^^^ ror x 18 ^^^ (x >>> 3)
/-- cipher/hc/utils.go:59-61 `f2`. -/
def f2 (x : W) : W := ror x 17 ^^^ ror x 19 ^^^ (x >>> 10)

/-- An array read (all indices are within the arrays, by `Ok` below). -/
def at' (l : List W) (i : Nat) : W := l.getD i 0

/-- The conversion `uint32(byte(x >> k))` used as an index. -/
def byteIx (x : W) (k : Nat) : Nat := (x >>> k).toNat % 256

/-- The formula in which the variants differ: the new `P[i+x]` from the other table, the old `P[i+x]`, `X[(x+13)%16]`,
`X[(x+6)%16]`, `X[(x+4)%16]` and the next element of `P`. -/
abbrev Upd := List W → W → W → W → W → W → W

/-- cipher/hc/utils.go:63-65 `g1` (HC-256). -/
def g1 (x y : W) (Q : List W) : W := (ror x 10 ^^^ ror y 23) + at' Q ((x ^^^ y) &&& 0x3ff).toNat
/-- cipher/hc/utils.go:67-69 `h1` (HC-256). -/
def h1 (x : W) (Q : List W) : W :=
  at' Q (byteIx x 0) + at' Q (256 + byteIx x 8) + at' Q (512 + byteIx x 16) + at' Q (768 + byteIx x 24)
/-- cipher/hc/utils.go:72 and 84, the new value in `P32` and `P32L`. -/
def upd256 : Upd := fun Q p x13 x6 _x4 nxt => p + x6 + g1 x13 nxt Q

/-- cipher/hc/utils.go:164-166 `g1_128`. -/
def g1_128 (x y z : W) : W := (ror x 10 ^^^ ror z 23) + ror y 8
/-- cipher/hc/utils.go:168-170 `g2_128`. -/
def g2_128 (x y z : W) : W := (rol x 10 ^^^ rol z 23) + rol y 8
/-- cipher/hc/utils.go:172-174 `h1_128`. -/
def h1_128 (x : W) (Q : List W) : W := at' Q (byteIx x 0) + at' Q (256 + byteIx x 16)
/-- cipher/hc/utils.go:177 and 189, `P32_128_P`, `P32_128L_P`. -/
def updP : Upd := fun Q p x13 x6 x4 nxt => (p + g1_128 x13 x6 nxt) ^^^ h1_128 x4 Q
/-- cipher/hc/utils.go:194 and 207, `P32_128_P_block`, `P32_128L_P_block`. -/
def updPb : Upd := fun _ p x13 x6 _x4 nxt => p + g1_128 x13 x6 nxt
/-- cipher/hc/utils.go:232 and 244, `P32_128_Q`, `P32_128L_Q`. -/
def updQ : Upd := fun Q p x13 x6 x4 nxt => (p + g2_128 x13 x6 nxt) ^^^ h1_128 x4 Q
/-- cipher/hc/utils.go:249 and 262, `P32_128_Q_block`, `P32_128L_Q_block`. -/
def updQb : Upd := fun _ p x13 x6 _x4 nxt => p + g2_128 x13 x6 nxt

/-- The tables one `gen_block` call writes. -/
structure Tab where
  P : List W
  X : List W
  blk : List W

/-- One call `P32…(P, Q, X, block, i, x)`: cipher/hc/utils.go:71-96, 176-210, 231-265.  `nx` is the index of the next element; `h`
the output filter.  The variants without `block` are the same without the last write. -/
def cell (u : Upd) (h : W → List W → W) (Q : List W) (i nx x : Nat) (t : Tab) : Tab :=
  let v := u Q (at' t.P (i + x)) (at' t.X ((x + 13) % 16)) (at' t.X ((x + 6) % 16)) (at' t.X ((x + 4) % 16)) (at' t.P nx)
  let P := t.P.set (i + x) v
  let X := t.X.set x v
  ⟨P, X, t.blk.set x (h (at' X ((x + 4) % 16)) Q ^^^ at' P (i + x))⟩

/-- cipher/hc/utils.go:98-134, 212-229, 267-322, the calls with `x = 0 … n-1`, `n ≤ 15`. -/
def cells (u : Upd) (h : W → List W → W) (Q : List W) (i : Nat) : Nat → Tab → Tab
  | 0, t => t
  | n + 1, t => cell u h Q i (i + 1 + n) n (cells u h Q i n t)

/-- The same functions with the last call, `P32L…`, whose next element is `P[0]` when `i` is `N - 16`. -/
def genBlock (N : Nat) (u : Upd) (h : W → List W → W) (Q : List W) (i : Nat) (t : Tab) : Tab :=
  cell u h Q i (if i = N - 16 then 0 else i + 1 + 15) 15 (cells u h Q i 15 t)

/-- cipher/hc/hc128.go:9-17, cipher/hc/hc256.go:9-17 without `pos`. -/
structure St where
  P : List W
  Q : List W
  X : List W
  Y : List W
  blk : List W
  words : Nat

/-- cipher/hc/utils.go:136-160 and 324-348, `generate_block…`.  `uP`, `uQ` are the formulas for the two tables.  (The variants
that produce no output do not write `block_`; here they do, and the first output block overwrites all of it.) -/
def generate (N : Nat) (uP uQ : Upd) (h : W → List W → W) (s : St) : St :=
  if s.words < N then
    let t := genBlock N uP h s.Q s.words ⟨s.P, s.X, s.blk⟩
    ⟨t.P, s.Q, t.X, s.Y, t.blk, s.words + 16⟩
  else
    let t := genBlock N uQ h s.P (s.words - N) ⟨s.Q, s.Y, s.blk⟩
    ⟨s.P, t.P, s.X, t.X, t.blk, if s.words + 16 = 2 * N then 0 else s.words + 16⟩

/-- cipher/hc/hc128.go:107-110, cipher/hc/hc256.go:107-110: the array `W`, `n` words beyond the first 16. -/
def wLoop (w0 : List W) : Nat → List W
  | 0 => w0
  | n + 1 =>
    let w := wLoop w0 n
    let i := 16 + n
    w ++ [f2 (at' w (i - 2)) + at' w (i - 7) + f1 (at' w (i - 15)) + at' w (i - 16) + BitVec.ofNat 32 i]

/-- cipher/hc/hc128.go:85-122 `expandKey`.  (`W` grows instead of starting at full length.) -/
def expand128 (key iv : Bytes) : St :=
  let k := ldLE 32 4 4 key
  let v := ldLE 32 4 4 iv
  let w := wLoop (k ++ k ++ v ++ v) (1280 - 16)
  let P := (w.drop 256).take 512
  let Q := (w.drop 768).take 512
  iterate (generate 512 updP updQ h1_128) (1024 / 16)
    ⟨P, Q, P.drop (512 - 16), Q.drop (512 - 16), List.replicate 16 0, 0⟩

/-- cipher/hc/hc256.go:85-122 `expandKey`. -/
def expand256 (key iv : Bytes) : St :=
  let w := wLoop (ldLE 32 4 8 key ++ ldLE 32 4 8 iv) (2560 - 16)
  let P := (w.drop 512).take 1024
  let Q := (w.drop 1536).take 1024
  iterate (generate 1024 upd256 upd256 h1) (4096 / 16)
    ⟨P, Q, P.drop (1024 - 16), Q.drop (1024 - 16), List.replicate 16 0, 0⟩

/-- A cipher object: the state and `pos`. -/
structure Obj where
  st : St
  pos : Nat

/-- cipher/hc/hc128.go:49-83, cipher/hc/hc256.go:49-83 `crypt`, one round: a byte of the current block while some are left
(lines 55-60); otherwise (65-82) the next block, used whole if 64 bytes of input are left, else as far as the input goes, with
`pos` left behind it.  (In the code the first loop runs before the second and not in turns with it; between the rounds of the second
`pos` is 0, so the order of the rounds is the same.) -/
def cryptStep (gen : St → St) (_e : Nat) (o : Obj) (m : Mem) (d s l : Nat) : Res (Nat × Mem × Obj) :=
  if 0 < o.pos ∧ o.pos < 64 then
    .ok (1, m.write d (xorb (m.read s 1) ((stLE 4 o.st.blk).drop o.pos |>.take 1)), { o with pos := o.pos + 1 })
  else
    let st := gen o.st
    if 64 ≤ l then .ok (64, m.write d (xorb (m.read s 64) (stLE 4 st.blk)), ⟨st, 0⟩)
    else .ok (l, m.write d (xorb (m.read s l) ((stLE 4 st.blk).take l)), ⟨st, l⟩)

/-- cipher/hc/hc128.go:34-47 `XORKeyStream`. -/
def xorKS128 : Obj → Mem → Slice → Slice → Res (Mem × Obj) := skipEmpty (xorKeyStream (cryptStep (generate 512 updPb updQb h1_128)))
/-- cipher/hc/hc256.go:34-47 `XORKeyStream`. -/
def xorKS256 : Obj → Mem → Slice → Slice → Res (Mem × Obj) := skipEmpty (xorKeyStream (cryptStep (generate 1024 upd256 upd256 h1)))

/-- cipher/hc/hc128.go:19-32 `NewCipher128`. -/
def newCipher128 (key iv : Bytes) : Res Obj :=
  if key.length ≠ 16 then .err else if iv.length ≠ 16 then .err else .ok ⟨expand128 key iv, 0⟩
/-- cipher/hc/hc256.go:19-32 `NewCipher256`. -/
def newCipher256 (key iv : Bytes) : Res Obj :=
  if key.length ≠ 32 then .err else if iv.length ≠ 32 then .err else .ok ⟨expand256 key iv, 0⟩

/-- The two kinds of object behind the `cipher.Stream` interface. -/
inductive Any128or256
  | c128 (o : Obj)
  | c256 (o : Obj)

/-- cipher/hc/hc.go:20-31 `NewCipher`. -/
def newCipher (key iv : Bytes) : Res Any128or256 :=
  if key.length = 16 then (newCipher128 key iv).bind fun o => .ok (.c128 o)
  else if key.length = 32 then (newCipher256 key iv).bind fun o => .ok (.c256 o)
  else .err

end Verif.Strm.Hc
