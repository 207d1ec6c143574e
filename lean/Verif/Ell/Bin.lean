import Verif.Pub.Big
/-
Elliptic curves over binary fields: elliptic/base_elliptic/curve.go and int.go.

Simplifications.  A `*big.Int` is a natural number (no operation makes a negative one); results are returned instead of stored in a receiver.
In `_bf_div` the number `sweeper` is not kept: it is always `1 << (rlen-1)`.  Loops whose length is not that of a list have a bound; `hang` when it is
reached (only for division by zero, `Verif/Ell/BinProps.lean`).  `one << uint(-1)`, a shift by 2⁶⁴ − 1, panics in `math/big` (the slice for the
result is too long).
-/
namespace Verif.Ell
open Verif.Pub

/-- elliptic/base_elliptic/int.go:74-91 (`Mul`): the loop over the bits of the second factor. -/
def mulLoop (a : Nat) : Nat → Nat → Nat → Nat → Nat
  | 0, _, _, acc => acc
  | n + 1, o, shift, acc =>
    if o = 0 then acc else mulLoop a n (o / 2) (shift + 1) (if o % 2 ≠ 0 then acc ^^^ (a <<< shift) else acc)

/-- elliptic/base_elliptic/int.go:74-91 (`Mul`). -/
def mul (a b : Nat) : Nat := mulLoop a (bitLen b) b 0 0

/-- elliptic/base_elliptic/int.go:164-169: the inner loop; the new `rlen`. -/
def sweep (r : Nat) : Nat → Nat
  | 0 => 0
  | n + 1 => if r.testBit n then n + 1 else sweep r n

/-- elliptic/base_elliptic/int.go:151-170: the outer loop. -/
def divLoop (b : Nat) : Nat → Nat → Nat → Nat → Res (Nat × Nat)
  | 0, _, _, _ => .hang
  | fuel + 1, r, q, rlen =>
    if rlen ≥ bitLen b then
      let shift := rlen - bitLen b
      let q := q ||| (1 <<< shift)
      let r := r ^^^ (b <<< shift)
      if r = 0 then .ok (q, r) else divLoop b fuel r q (sweep r rlen)
    else .ok (q, r)

/-- elliptic/base_elliptic/int.go:139-174 (`_bf_div`): quotient and remainder. -/
def bfDiv (a b : Nat) : Res (Nat × Nat) :=
  if bitLen a = 0 then .panic else divLoop b (bitLen a + 1) a 0 (bitLen a)

/-- elliptic/base_elliptic/int.go:93-97 (`Mod`). -/
def mod (a b : Nat) : Res Nat := do
  let qr ← bfDiv a b
  .ok qr.2

/-- elliptic/base_elliptic/int.go:117-134: the loop; `last_x` (`last_y` is not used). -/
def gcdLoop : Nat → Nat → Nat → Nat → Nat → Res Nat
  | 0, _, _, _, _ => .hang
  | fuel + 1, a, b, x, lastX =>
    if b = 0 then .ok lastX else do
      let qr ← bfDiv a b
      gcdLoop fuel b qr.2 (lastX ^^^ mul x qr.1) x

/-- elliptic/base_elliptic/int.go:63-67, 105-137 (`DivMod`, `_extended_gcd`). -/
def divMod (num den p : Nat) : Res Nat := do
  let inv ← gcdLoop (bitLen p + 1) den p 0 1
  .ok (mul inv num)

/-- elliptic/base_elliptic/curve.go:8-16: what is used of a curve. -/
structure BCurve where
  F : Nat
  A : Nat
  B : Nat
  Gx : Nat
  Gy : Nat
  N : Nat

/-- elliptic/base_elliptic/curve.go:45-72 (`IsOnCurve`). -/
def isOnCurve (c : BCurve) (x y : Nat) : Res Bool := do
  let ls ← mod (mul y y ^^^ mul x y) c.F
  let xx := mul x x
  let rs ← mod ((mul x xx ^^^ mul c.A xx) ^^^ c.B) c.F
  .ok (decide (ls = rs))

/-- elliptic/base_elliptic/curve.go:131-162 (`Double`, `double`). -/
def double (c : BCurve) (px py : Nat) : Res (Nat × Nat) := do
  let s ← divMod py px c.F
  let s := px ^^^ s
  let x ← mod ((mul s s ^^^ s) ^^^ c.A) c.F
  let s := mul (s ^^^ 1) x
  let y ← mod (mul px px ^^^ s) c.F
  .ok (x, y)

/-- elliptic/base_elliptic/curve.go:96-128: the sum of two points that are different and not the point at infinity. -/
def addDiff (c : BCurve) (px py qx qy : Nat) : Res (Nat × Nat) := do
  let s ← divMod (py ^^^ qy) (px ^^^ qx) c.F
  let x ← mod ((((mul s s ^^^ s) ^^^ px) ^^^ qx) ^^^ c.A) c.F
  let y ← mod ((mul s (px ^^^ x) ^^^ x) ^^^ py) c.F
  .ok (x, y)

/-- elliptic/base_elliptic/curve.go:74-129 (`Add`, `add`). -/
def add (c : BCurve) (px py qx qy : Nat) : Res (Nat × Nat) :=
  if px = 0 ∧ py = 0 then .ok (qx, qy) else
  if qx = 0 ∧ qy = 0 then .ok (px, py) else
  if px = qx ∧ py = qy then double c px py else
  addDiff c px py qx qy

/-- elliptic/base_elliptic/curve.go:175-191: the loop of `ScalarMult`. -/
def multLoop (c : BCurve) : Nat → Nat → Nat × Nat → Nat × Nat → Res (Nat × Nat)
  | 0, _, acc, _ => .ok acc
  | n + 1, num, acc, d =>
    if num = 0 then .ok acc else
    if num % 2 ≠ 0 then do
      let acc ← add c acc.1 acc.2 d.1 d.2
      let d ← double c d.1 d.2
      multLoop c n (num / 2) acc d
    else do
      let d ← double c d.1 d.2
      multLoop c n (num / 2) acc d

/-- elliptic/base_elliptic/curve.go:164-194 (`ScalarMult`). -/
def scalarMult (c : BCurve) (x y : Nat) (k : Bytes) : Res (Nat × Nat) :=
  multLoop c (bitLen (setBytes k)) (setBytes k) (0, 0) (x, y)

/-- elliptic/base_elliptic/curve.go:196-198 (`ScalarBaseMult`). -/
def scalarBaseMult (c : BCurve) (k : Bytes) : Res (Nat × Nat) := scalarMult c c.Gx c.Gy k

end Verif.Ell
