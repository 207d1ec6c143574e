import Verif.Pub.Big
/-
GOST R 34.10 over short Weierstrass curves: pubkey/gost/curve.go, gost.go, marshal.go, vko.go, edwards.go.

A `*big.Int` is an `Int`; the functions that change their arguments return the new values (the arguments are copies at
every call, except in `Exp`, where the pair doubled is also the second operand and is only read before it is written).
`Mod` is Euclidean.  A private key is its number `D`; a public key is the pair of its coordinates.  Both are used with one
curve only: `Curve.Equal` is not modelled.  ASN.1 forms of signatures and keys (encoding/asn1, pkcs8.go) are not modelled.
-/
namespace Verif.Pub.Gost
open Verif.Cipher Verif.Kdf

/-- pubkey/gost/curve.go:17-43 (`Curve`); the name is left out, and the Edwards coefficients are arguments of
the functions that use them. -/
structure GCurve where
  P : Nat
  Q : Nat
  A : Int
  B : Int
  X : Int
  Y : Int
  Co : Nat
  deriving DecidableEq

/-- `z.ModInverse(g, n)` (math/big, not part of /repo): the inverse in `[0, n)`; without one, `z` keeps its value. -/
def modInverse (z g : Int) (n : Nat) : Int :=
  match modInv (g % n).toNat n with
  | some v => v
  | none => z

/-- pubkey/gost/curve.go:124-128 (`pos`). -/
def pos (c : GCurve) (v : Int) : Int := if v < 0 then v + c.P else v

/-- pubkey/gost/curve.go:91-97 (`PointSize`). -/
def pointSize (c : GCurve) : Nat := if bitLen c.P > 256 then 64 else 32

/-- pubkey/gost/curve.go:100-112 (`polynomial`). -/
def polynomial (c : GCurve) (x : Int) : Int :=
  let x2 := x * x
  let x2 := x2 + c.A
  let x2 := x2 * x
  let x2 := x2 + c.B
  pos c (x2 % c.P)

/-- pubkey/gost/curve.go:115-122 (`IsOnCurve`). -/
def isOnCurve (c : GCurve) (x y : Int) : Bool := polynomial c x == y * y % c.P

/-- pubkey/gost/curve.go:131-152: the slope `t` of `add`. -/
def slopeOf (c : GCurve) (p1x p1y p2x p2y : Int) : Int :=
  if p1x = p2x ∧ p1y = p2y then
    let t := p1x * p1x
    let t := t * 3
    let t := t + c.A
    let tx := 2 * p1y
    let tx := modInverse tx tx c.P
    t * tx % c.P
  else
    let tx := pos c ((p2x - p1x) % c.P)
    let ty := pos c ((p2y - p1y) % c.P)
    let t := modInverse 0 tx c.P
    t * ty % c.P

/-- pubkey/gost/curve.go:130-167 (`add`). -/
def add (c : GCurve) (p1x p1y p2x p2y : Int) : Int × Int :=
  let t := slopeOf c p1x p1y p2x p2y
  let tx := t * t
  let tx := tx - p1x
  let tx := tx - p2x
  let tx := pos c (tx % c.P)
  let ty := p1x - tx
  let ty := ty * t
  let ty := ty - p1y
  let ty := pos c (ty % c.P)
  (tx, ty)

/-- pubkey/gost/curve.go:251-261 (`panicIfNotOnCurve`): whether it panics. -/
def offCurve (c : GCurve) (x y : Int) : Bool := !(x == 0 && y == 0) && !isOnCurve c x y

/-- pubkey/gost/curve.go:169-179 (`Add`). -/
def Add (c : GCurve) (x1 y1 x2 y2 : Int) : Res (Int × Int) :=
  if offCurve c x1 y1 then .panic else
  if offCurve c x2 y2 then .panic else
  .ok (add c x1 y1 x2 y2)

/-- pubkey/gost/curve.go:181-188 (`Double`). -/
def Double (c : GCurve) (x1 y1 : Int) : Res (Int × Int) :=
  if offCurve c x1 y1 then .panic else Add c x1 y1 x1 y1

/-- pubkey/gost/curve.go:223-230: the loop of `Exp`. -/
def expLoop (c : GCurve) : Nat → Nat → Int × Int → Int × Int → Int × Int
  | 0, _, t, _ => t
  | fuel + 1, dg, t, s =>
    if dg = 0 then t else
    let t := if dg % 2 = 1 then add c t.1 t.2 s.1 s.2 else t
    expLoop c fuel (dg / 2) t (add c s.1 s.2 s.1 s.2)

/-- pubkey/gost/curve.go:212-233 (`Exp`) for a degree that is not negative.  The loop halves `dg`, so it runs at most
`dg` times. -/
def exp (c : GCurve) (degree : Nat) (xS yS : Int) : Res (Int × Int) :=
  if degree = 0 then .err else
  let dg := degree - 1
  .ok (expLoop c dg dg (xS, yS) (xS, yS))

/-- pubkey/gost/curve.go:190-206 (`ScalarMult`), the key as the number `k` whose `Bytes()` the callers pass. -/
def scalarMult (c : GCurve) (x1 y1 : Int) (k : Nat) : Res (Int × Int) :=
  if offCurve c x1 y1 then .panic else
  let k := setBytes (natBytes k)
  if k = 0 then .panic else
  let k := k % c.Q
  match exp c k x1 y1 with
  | .err => .panic
  | r => r

/-- pubkey/gost/curve.go:208-210 (`ScalarBaseMult`). -/
def scalarBaseMult (c : GCurve) (k : Nat) : Res (Int × Int) := scalarMult c c.X c.Y k

/-- pubkey/gost/marshal.go:8-19 (`Marshal`).  `FillBytes` writes the absolute value. -/
def marshal (c : GCurve) (x y : Int) : Res Bytes :=
  if offCurve c x y then .panic else do
  let n := pointSize c
  let a ← fillBytes n y.natAbs
  let b ← fillBytes n x.natAbs
  .ok (a ++ b).reverse

/-- pubkey/gost/marshal.go:24-45 (`Unmarshal`); `none` is `nil, nil`. -/
def unmarshal (c : GCurve) (data : Bytes) : Option (Int × Int) :=
  let n := pointSize c
  if data.length ≠ 2 * n then none else
  let data := data.reverse
  let y := setBytes (data.take n)
  let x := setBytes (data.drop n)
  if x ≥ c.P ∨ y ≥ c.P then none else
  if !isOnCurve c x y then none else
  some (x, y)

/-- pubkey/gost/gost.go:76-79 (`PrivateKey`), without the curve. -/
structure GKey where
  d : Nat
  X : Int
  Y : Int
  deriving DecidableEq

/-- pubkey/gost/gost.go:135-147 (`newPrivateKey`). -/
def newPriv (c : GCurve) (raw : Bytes) : Res GKey :=
  let k := setBytes raw
  if k = 0 then .err else do
  let (x, y) ← scalarBaseMult c k
  .ok ⟨k, x, y⟩

/-- pubkey/gost/gost.go:150-157 (`GenerateKey`). -/
def generateKey (c : GCurve) (rd : Bytes) : Res GKey :=
  if rd.length < pointSize c then .err else newPriv c (rd.take (pointSize c))

/-- pubkey/gost/gost.go:160-162 (`NewPrivateKey`). -/
def newPrivateKey (c : GCurve) (raw : Bytes) : Res GKey := newPriv c raw.reverse

/-- pubkey/gost/gost.go:165-170 (`PrivateKeyTo`). -/
def privateKeyTo (c : GCurve) (k : GKey) : Res Bytes := do
  let b ← fillBytes (pointSize c) k.d
  .ok b.reverse

/-- pubkey/gost/gost.go:235-242 and 291-298: the number of the digest. -/
def digestInt (c : GCurve) (digest : Bytes) : Nat :=
  let e := setBytes digest.reverse % c.Q
  if e = 0 then 1 else e

/-- pubkey/gost/gost.go:253-279: the loop of `SignToRS`. -/
def signLoop (c : GCurve) (d e : Nat) : Nat → Bytes → Res (Nat × Nat)
  | 0, _ => .hang
  | fuel + 1, rd =>
    if rd.length < pointSize c then .err else
    let k := setBytes (rd.take (pointSize c)) % c.Q
    let rd := rd.drop (pointSize c)
    if k = 0 then signLoop c d e fuel rd else
    match scalarBaseMult c k with
    | .ok (x, _) =>
      let r := (x % c.Q).toNat
      if r = 0 then signLoop c d e fuel rd else
      let s := (d * r + k * e) % c.Q
      if s = 0 then signLoop c d e fuel rd else
      .ok (r, s)
    | .err => .err
    | .panic => .panic
    | .hang => .hang

/-- pubkey/gost/gost.go:234-280 (`SignToRS`). -/
def signToRS (c : GCurve) (rd : Bytes) (priv : GKey) (digest : Bytes) : Res (Nat × Nat) :=
  signLoop c priv.d (digestInt c digest) (rd.length + 1) rd

/-- pubkey/gost/gost.go:315-337: the x-coordinate `lm` that `VerifyWithRS` computes from the two points. -/
def lmOf (c : GCurve) (p1x p1y q1x q1y : Int) : Int :=
  let lm := q1x - p1x
  let lm := if lm < 0 then lm + c.P else lm
  let lm := modInverse lm lm c.P
  let z1 := q1y - p1y
  let lm := lm * z1 % c.P
  let lm := lm * lm % c.P
  let lm := lm - p1x
  let lm := lm - q1x
  let lm := lm % c.P
  let lm := if lm < 0 then lm + c.P else lm
  lm % c.Q

/-- pubkey/gost/gost.go:283-339 (`VerifyWithRS`). -/
def verifyWithRS (c : GCurve) (X Y : Int) (digest : Bytes) (r s : Int) : Res Bool :=
  if r ≤ 0 ∨ r ≥ c.Q ∨ s ≤ 0 ∨ s ≥ c.Q then .ok false else
  let e := digestInt c digest
  let v := modInverse 0 e c.Q
  let z1 := s * v % c.Q
  let z2 := r * v % c.Q
  let z2 := c.Q - z2
  do
  let p1 ← scalarBaseMult c z1.natAbs
  let q1 ← scalarMult c X Y z2.natAbs
  .ok (lmOf c p1.1 p1.2 q1.1 q1.2 == r)

/-- pubkey/gost/gost.go:101-115 (`Sign`). -/
def sign (c : GCurve) (rd : Bytes) (priv : GKey) (digest : Bytes) : Res Bytes := do
  let rs ← signToRS c rd priv digest
  let a ← fillBytes (pointSize c) rs.2
  let b ← fillBytes (pointSize c) rs.1
  .ok (a ++ b)

/-- pubkey/gost/gost.go:42-57 (`Verify`). -/
def verify (c : GCurve) (X Y : Int) (digest sig : Bytes) : Res Bool :=
  let n := pointSize c
  if sig.length ≠ 2 * n then .err else
  verifyWithRS c X Y digest (setBytes (sig.drop n)) (setBytes (sig.take n))

/-- pubkey/gost/vko.go:15-22 (`NewUKM`). -/
def newUKM (raw : Bytes) : Nat := setBytes raw.reverse

/-- pubkey/gost/vko.go:30-37: the point of `KEK`. -/
def kekPoint (c : GCurve) (d : Nat) (X Y : Int) (ukm : Nat) : Res (Int × Int) := do
  let key ← scalarMult c X Y d
  let u := ukm * c.Co
  if u ≠ 1 then scalarMult c key.1 key.2 u else .ok key

/-- pubkey/gost/vko.go:24-41 (`KEK`). -/
def kek (c : GCurve) (d : Nat) (X Y : Int) (ukm : Nat) : Res Bytes := do
  let key ← kekPoint c d X Y ukm
  marshal c key.1 key.2

/-- pubkey/gost/vko.go:57-145 (`KEK2001`, `KEK2012256`, `KEK2012512`): the hash of `KEK`.  `KEK2001` is for curves with
32-byte coordinates only. -/
def kekHash (c : GCurve) (h : Bytes → Bytes) (is2001 : Bool) (d : Nat) (X Y : Int) (ukm : Nat) : Res Bytes :=
  if is2001 ∧ pointSize c ≠ 32 then .err else do
  let key ← kek c d X Y ukm
  .ok (h key)

/-- pubkey/gost/edwards.go:11-35 (`EdwardsST`), for the coefficients `e`, `d`; the cache is left out. -/
def edwardsST (c : GCurve) (e d : Int) : Int × Int :=
  let s := pos c (e - d)
  let t := modInverse 4 4 c.P
  let s := s * t % c.P
  let t' := e + d
  let t := modInverse 6 6 c.P
  (s, t' * t % c.P)

/-- pubkey/gost/edwards.go:38-61 (`XY2UV`). -/
def xy2uv (c : GCurve) (e d x y : Int) : Int × Int :=
  let (edS, edT) := edwardsST c e d
  let t := pos c (x - edT)
  let u := modInverse 0 y c.P
  let u := u * t % c.P
  let v := pos c (t - edS)
  let t := t + edS
  let t := modInverse t t c.P
  (u, v * t % c.P)

/-- pubkey/gost/edwards.go:64-89 (`UV2XY`). -/
def uv2xy (c : GCurve) (e d u v : Int) : Int × Int :=
  let (edS, edT) := edwardsST c e d
  let tx := (1 + v) * edS % c.P
  let ty := pos c (1 - v)
  let x := modInverse 0 ty c.P
  let x := (x * tx + edT) % c.P
  let y := u * ty
  let y := modInverse y y c.P
  (x, y * tx % c.P)

end Verif.Pub.Gost
