import Verif.Pub.Big
/-
Koblitz curves `y² = x³ + B` over prime fields: elliptic/bitcurves/params.go (the same code is used for secp160k1, secp192k1, secp224k1 and
secp256k1).

Simplifications.  A `*big.Int` is an integer; results are returned.  `Mod` by the positive number `P` is Euclidean, as `%` on `Int`.  The random
source of `GenerateKey` is a list of bytes; `err` when it ends.  `BitSize` is at least nine (`priv[1]`).
-/
namespace Verif.Ell.Bit
open Verif.Pub

/-- elliptic/bitcurves/params.go:11-18. -/
structure KCurve where
  P : Nat
  N : Nat
  B : Nat
  Gx : Nat
  Gy : Nat
  bitSize : Nat

/-- elliptic/bitcurves/params.go:33-46 (`IsOnCurve`). -/
def isOnCurve (c : KCurve) (x y : Int) : Bool :=
  let y2 := y * y % c.P
  let x3 := (x * x * x + c.B) % c.P
  x3 == y2

/-- elliptic/bitcurves/params.go:50-67 (`affineFromJacobian`); the inverse of a number that has none is nil, and `Mul` of nil panics. -/
def affine (c : KCurve) (p : Int × Int × Int) : Res (Int × Int) :=
  if p.2.2 = 0 then .panic else
  match modInv (p.2.2 % c.P).toNat c.P with
  | none => .panic
  | some zinv =>
    let zinv : Int := zinv
    let zinvsq := zinv * zinv
    .ok (p.1 * zinvsq % c.P, p.2.1 * (zinvsq * zinv) % c.P)

/-- elliptic/bitcurves/params.go:92-94, 104-106, 124-130: a difference that is negative is corrected by adding `P` once. -/
def fix (c : KCurve) (v : Int) : Int := if v < 0 then v + c.P else v

/-- elliptic/bitcurves/params.go:78-136 (`addJacobian`). -/
def addJ (c : KCurve) (p q : Int × Int × Int) : Int × Int × Int :=
  let x1 := p.1; let y1 := p.2.1; let z1 := p.2.2
  let x2 := q.1; let y2 := q.2.1; let z2 := q.2.2
  let z1z1 := z1 * z1 % c.P
  let z2z2 := z2 * z2 % c.P
  let u1 := x1 * z2z2 % c.P
  let u2 := x2 * z1z1 % c.P
  let h := fix c (u2 - u1)
  let i := (2 * h) * (2 * h)
  let j := h * i
  let s1 := y1 * z2 * z2z2 % c.P
  let s2 := y2 * z1 * z1z1 % c.P
  let r := 2 * fix c (s2 - s1)
  let v := u1 * i
  let x3 := (r * r - j - v - v) % c.P
  let y3 := (r * (v - x3) - 2 * (s1 * j)) % c.P
  let z3 := fix c (fix c ((z1 + z2) * (z1 + z2) - z1z1) - z2z2) * h % c.P
  (x3, y3, z3)

/-- elliptic/bitcurves/params.go:70-74 (`Add`). -/
def add (c : KCurve) (x1 y1 x2 y2 : Int) : Res (Int × Int) := affine c (addJ c (x1, y1, 1) (x2, y2, 1))

/-- elliptic/bitcurves/params.go:146-175 (`doubleJacobian`). -/
def doubleJ (c : KCurve) (p : Int × Int × Int) : Int × Int × Int :=
  let x := p.1; let y := p.2.1; let z := p.2.2
  let a := x * x
  let b := y * y
  let cc := b * b
  let d := ((x + b) * (x + b) - a - cc) * 2
  let e := 3 * a
  let f := e * e
  let x3 := (f - 2 * d) % c.P
  let y3 := (e * (d - x3) - 8 * cc) % c.P
  let z3 := 2 * (y * z) % c.P
  (x3, y3, z3)

/-- elliptic/bitcurves/params.go:139-142 (`Double`). -/
def double (c : KCurve) (x1 y1 : Int) : Res (Int × Int) := affine c (doubleJ c (x1, y1, 1))

/-- The bits of a byte string in the order of the loop of elliptic/bitcurves/params.go:192-206, most significant first. -/
def bits (k : Bytes) : List Bool := k.flatMap fun b => (List.range 8).map fun i => b.getLsbD (7 - i)

/-- elliptic/bitcurves/params.go:192-206: the loop of `ScalarMult`; `none` while `seenFirstTrue` is false. -/
def multLoop (c : KCurve) (B : Int × Int × Int) : List Bool → Option (Int × Int × Int) → Option (Int × Int × Int)
  | [], s => s
  | b :: bs, s =>
    let s := s.map (doubleJ c)
    multLoop c B bs (if b then match s with
      | none => some B
      | some p => some (addJ c B p)
    else s)

/-- elliptic/bitcurves/params.go:178-213 (`ScalarMult`); `none` is `nil, nil`. -/
def scalarMult (c : KCurve) (Bx By : Int) (k : Bytes) : Res (Option (Int × Int)) :=
  match multLoop c (Bx, By, 1) (bits k) none with
  | none => .ok none
  | some p => do
    let a ← affine c p
    .ok (some a)

/-- elliptic/bitcurves/params.go:217-219 (`ScalarBaseMult`). -/
def scalarBaseMult (c : KCurve) (k : Bytes) : Res (Option (Int × Int)) := scalarMult c c.Gx c.Gy k

/-- elliptic/bitcurves/params.go:221 (`mask`). -/
def mask : List Byte := [0xff, 0x1, 0x3, 0x7, 0xf, 0x1f, 0x3f, 0x7f]

/-- The size of the field in bytes, elliptic/bitcurves/params.go:227, 250, 267. -/
def byteLen (c : KCurve) : Nat := (c.bitSize + 7) / 8

/-- elliptic/bitcurves/params.go:235-240: the candidate made of the random bytes. -/
def candidate (c : KCurve) (r : Bytes) : Bytes :=
  let r := r.set 0 (r.getD 0 0 &&& mask.getD (c.bitSize % 8) 0)
  r.set 1 (r.getD 1 0 ^^^ 0x42)

/-- elliptic/bitcurves/params.go:230-242: the loop of `GenerateKey`, at most `fuel` rounds. -/
def genLoop (c : KCurve) : Nat → Bytes → Res (Bytes × Int × Int)
  | 0, _ => .err
  | fuel + 1, rand =>
    if rand.length < byteLen c then .err else
    let priv := candidate c (rand.take (byteLen c))
    match scalarBaseMult c priv with
    | .ok (some (x, y)) => .ok (priv, x, y)
    | .ok none => genLoop c fuel (rand.drop (byteLen c))
    | .err => .err
    | .panic => .panic
    | .hang => .hang

/-- elliptic/bitcurves/params.go:226-244 (`GenerateKey`); every round takes at least one byte. -/
def generateKey (c : KCurve) (rand : Bytes) : Res (Bytes × Int × Int) := genLoop c (rand.length + 1) rand

/-- `copy(ret[i:], src)`. -/
def copyAt (ret : Bytes) (i : Nat) (src : Bytes) : Bytes := ret.take i ++ copyInto (ret.drop i) src

/-- elliptic/bitcurves/params.go:248-260 (`Marshal`), for coordinates that are not negative; a slice expression with a negative start panics. -/
def marshal (c : KCurve) (x y : Nat) : Res Bytes :=
  let n := byteLen c
  let ret : Bytes := 4 :: List.replicate (2 * n) 0
  let xb := natBytes x
  let yb := natBytes y
  if 1 + n < xb.length then .panic else
  let ret := copyAt ret (1 + n - xb.length) xb
  if 1 + 2 * n < yb.length then .panic else
  .ok (copyAt ret (1 + 2 * n - yb.length) yb)

/-- elliptic/bitcurves/params.go:264-276 (`Unmarshal`); `none` is `nil, nil`. -/
def unmarshal (c : KCurve) (data : Bytes) : Option (Nat × Nat) :=
  if data.length ≠ 1 + 2 * byteLen c then none else
  if data.getD 0 0 ≠ 4 then none else
  some (setBytes ((data.drop 1).take (byteLen c)), setBytes (data.drop (1 + byteLen c)))

/-- elliptic/bitcurves/bitcurve_curves.go:27-36. -/
def secp160k1 : KCurve where
  P := 0xFFFFFFFFFFFFFFFFFFFFFFFFFFFFFFFEFFFFAC73
  N := 0x0100000000000000000001B8FA16DFAB9ACA16B6B3
  B := 7
  Gx := 0x3B4C382CE37AA192A4019E763036F4F5DD4D7EBB
  Gy := 0x938CF935318FDCED6BC28286531733C3F03C4FEE
  bitSize := 160

/-- elliptic/bitcurves/bitcurve_curves.go:38-47. -/
def secp192k1 : KCurve where
  P := 0xFFFFFFFFFFFFFFFFFFFFFFFFFFFFFFFFFFFFFFFEFFFFEE37
  N := 0xFFFFFFFFFFFFFFFFFFFFFFFE26F2FC170F69466A74DEFD8D
  B := 3
  Gx := 0xDB4FF10EC057E9AE26B07D0280B7F4341DA5D1B1EAE06C7D
  Gy := 0x9B2F2F6D9C5628A7844163D015BE86344082AA88D95E2F9D
  bitSize := 192

/-- elliptic/bitcurves/bitcurve_curves.go:49-58. -/
def secp224k1 : KCurve where
  P := 0xFFFFFFFFFFFFFFFFFFFFFFFFFFFFFFFFFFFFFFFFFFFFFFFEFFFFE56D
  N := 0x010000000000000000000000000001DCE8D2EC6184CAF0A971769FB1F7
  B := 5
  Gx := 0xA1455B334DF099DF30FC28A169A467E9E47075A90F7E650EB6B7A45C
  Gy := 0x7E089FED7FBA344282CAFBD6F7E319F7C0B0BD59E2CA4BDB556D61A5
  bitSize := 224

/-- elliptic/bitcurves/bitcurve_curves.go:60-69. -/
def secp256k1 : KCurve where
  P := 0xFFFFFFFFFFFFFFFFFFFFFFFFFFFFFFFFFFFFFFFFFFFFFFFFFFFFFFFEFFFFFC2F
  N := 0xFFFFFFFFFFFFFFFFFFFFFFFFFFFFFFFEBAAEDCE6AF48A03BBFD25E8CD0364141
  B := 7
  Gx := 0x79BE667EF9DCBBAC55A06295CE870B07029BFCDB2DCE28D959F2815B16F81798
  Gy := 0x483ADA7726A3C4655DA4FBFC0E1108A8FD17B448A68554199C47D08FFB10D4B8
  bitSize := 256

end Verif.Ell.Bit
