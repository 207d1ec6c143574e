import Verif.Pub.Big
/-
ElGamal encryption and signatures, pubkey/elgamal/elgamal.go, and the variant pubkey/egdsa/egdsa.go.

Simplifications.  `*big.Int` values that the code keeps nonnegative are natural numbers; the integers a caller passes (`r`,
`s`, `c1`, `c2`) are integers.  The random source is the list of bytes it delivers before it fails.  The ASN.1 forms (which
call encoding/asn1) and `Equal` are not modelled.  The prime search of `GeneratePQZp` (`rand.Prime`, `ProbablyPrime`: Go's
library) is not modelled, its search for the generator is.
-/
namespace Verif.Pub.ElGamal
open Verif.Cipher Verif.Kdf

/-- `crypto/rand.Int` (not part of /repo): the loop. -/
def randLoop (max bits : Nat) : Nat → Bytes → Res (Nat × Bytes)
  | 0, _ => .hang
  | fuel + 1, rd =>
    let k := (bits + 7) / 8
    if rd.length < k then .err else
    let n := setBytes (rd.take k) % 2 ^ bits
    if n < max then .ok (n, rd.drop k) else randLoop max bits fuel (rd.drop k)

/-- `crypto/rand.Int` (not part of /repo): a number below `max` from the bytes `rd`, and the bytes left. -/
def randInt (max : Int) (rd : Bytes) : Res (Nat × Bytes) :=
  if max ≤ 0 then .panic else
  let m := max.toNat
  let bits := bitLen (m - 1)
  if bits = 0 then .ok (0, rd) else randLoop m bits (rd.length + 1) rd

/-- `new(big.Int).Exp(a, e, n)` for an integer `a` and an exponent that is not negative (math/big, not part of /repo). -/
def expI (a : Int) (e n : Nat) : Nat := (a ^ e % n).toNat

/-- pubkey/elgamal/elgamal.go:31-33 (`PublicKey`), pubkey/egdsa/egdsa.go:21-23. -/
structure EPub where
  P : Nat
  G : Nat
  Y : Nat
  deriving DecidableEq

/-- pubkey/elgamal/elgamal.go:60-64 (`PrivateKey`), pubkey/egdsa/egdsa.go:45-49. -/
structure EKey extends EPub where
  X : Nat
  deriving DecidableEq

/-- pubkey/elgamal/elgamal.go:543-550: one byte of `nonZeroRandomBytes`. -/
def nonZero : Byte → Bytes → Res (Byte × Bytes)
  | b, [] => if b ≠ 0 then .ok (b, []) else .err
  | b, b' :: rd => if b ≠ 0 then .ok (b, b' :: rd) else nonZero b' rd

/-- pubkey/elgamal/elgamal.go:543-550: the loop over the bytes. -/
def nonZeroAll : Bytes → Bytes → Res (Bytes × Bytes)
  | [], rd => .ok ([], rd)
  | b :: bs, rd => do
    let (b, rd) ← nonZero b rd
    let (bs, rd) ← nonZeroAll bs rd
    .ok (b :: bs, rd)

/-- pubkey/elgamal/elgamal.go:537-553 (`nonZeroRandomBytes`). -/
def nonZeroRandomBytes (n : Nat) (rd : Bytes) : Res (Bytes × Bytes) :=
  if rd.length < n then .err else nonZeroAll (rd.take n) (rd.drop n)

/-- pubkey/elgamal/elgamal.go:171-185 (`EncryptLegacy`). -/
def encryptLegacy (rd : Bytes) (pub : EPub) (msg : Bytes) : Res (Nat × Nat) := do
  let m := setBytes msg
  let (k, _) ← randInt pub.P rd
  let c1 := expMod pub.G k pub.P
  let s := expMod pub.Y k pub.P
  .ok (c1, s * m % pub.P)

/-- pubkey/elgamal/elgamal.go:124-143 (`Encrypt`). -/
def encrypt (rd : Bytes) (pub : EPub) (msg : Bytes) : Res (Nat × Nat) :=
  let pLen := byteLen pub.P
  if (msg.length : Int) > (pLen : Int) - 11 then .err else do
  let (ps, rd) ← nonZeroRandomBytes (pLen - 1 - msg.length - 1 - 1) rd
  encryptLegacy rd pub (2 :: ps ++ 0 :: msg)

/-- pubkey/elgamal/elgamal.go:188-199 (`DecryptLegacy`). -/
def decryptLegacy (priv : EKey) (c1 c2 : Int) : Res Bytes :=
  match modInv (expI c1 priv.X priv.P) priv.P with
  | none => .err
  | some s => .ok (natBytes (s * c2 % priv.P).toNat)

/-- pubkey/elgamal/elgamal.go:155-162: the loop: `lookingForIndex` and `index` after it, `i` being the index of the first
of the bytes given. -/
def scan : Bytes → Nat → Bool → Nat → Bool × Nat
  | [], _, looking, index => (looking, index)
  | b :: bs, i, looking, index =>
    let equals0 := b == 0
    let index := if looking && equals0 then i else index
    let looking := if equals0 then false else looking
    scan bs (i + 1) looking index

/-- pubkey/elgamal/elgamal.go:146-168 (`Decrypt`).  `em[0]` panics on an empty slice. -/
def decrypt (priv : EKey) (c1 c2 : Int) : Res Bytes := do
  let em ← decryptLegacy priv c1 c2
  match em with
  | [] => .panic
  | b :: bs =>
    let (looking, index) := scan bs 1 true 0
    if b ≠ 2 ∨ looking ∨ index < 9 then .err else .ok (em.drop (index + 1))

/-- pubkey/elgamal/elgamal.go:231-245 (`EncryptBytes`).  The length in bytes is the number of bits of `P`. -/
def encryptBytes (rd : Bytes) (pub : EPub) (msg : Bytes) : Res Bytes := do
  let (c1, c2) ← encrypt rd pub msg
  let n := bitLen pub.P
  let a ← fillBytes n c1
  let b ← fillBytes n c2
  .ok (a ++ b)

/-- pubkey/elgamal/elgamal.go:248-262 (`DecryptBytes`). -/
def decryptBytes (priv : EKey) (data : Bytes) : Res Bytes :=
  let n := bitLen priv.P
  if data.length ≠ 2 * n then .err else
  let c1 := setBytes (data.take n)
  let c2 := setBytes (data.drop n)
  if c1 ≥ priv.P ∨ c2 ≥ priv.P then .err else
  decrypt priv c1 c2

/-- pubkey/elgamal/elgamal.go:267-297 (`HomomorphicEncTwo`). -/
def homTwo (pub : EPub) (c1 c2 d1 d2 : Bytes) : Res (Nat × Nat) :=
  let c1 := setBytes c1
  let c2 := setBytes c2
  if c1 > pub.P ∧ c2 > pub.P then .err else
  let d1 := setBytes d1
  let d2 := setBytes d2
  if d1 > pub.P ∧ d2 > pub.P then .err else
  .ok (c1 * d1 % pub.P, c2 * d2 % pub.P)

/-- pubkey/elgamal/elgamal.go:307-332: the loop of `HommorphicEncMultiple`. -/
def homLoop (pub : EPub) : List (Bytes × Bytes) → Nat × Nat → Res (Nat × Nat)
  | [], acc => .ok acc
  | (b1, b2) :: rest, (C1, C2) =>
    let c1 := setBytes b1
    let c2 := setBytes b2
    if c1 > pub.P ∧ c2 > pub.P then .err else
    homLoop pub rest (C1 * c1 % pub.P, C2 * c2 % pub.P)

/-- pubkey/elgamal/elgamal.go:301-335 (`HommorphicEncMultiple`). -/
def homMultiple (pub : EPub) (cs : List (Bytes × Bytes)) : Res (Nat × Nat) := homLoop pub cs (1, 1)

/-- pubkey/elgamal/elgamal.go:346-360: the loop of `Sign` that chooses `k`. -/
def signK (P : Nat) : Nat → Bytes → Res Nat
  | 0, _ => .hang
  | fuel + 1, rd =>
    match randInt ((P : Int) - 2) rd with
    | .ok (k, rd) =>
      if k = 1 then signK P fuel rd else
      if Nat.gcd k (P - 1) = 1 then .ok k else signK P fuel rd
    | .err => .err
    | .panic => .panic
    | .hang => .hang

/-- pubkey/elgamal/elgamal.go:338-385 (`Sign`). -/
def sign (rd : Bytes) (priv : EKey) (hash : Bytes) : Res (Nat × Nat) := do
  let k ← signK priv.P (rd.length + 1) rd
  let m := setBytes hash
  let r := expMod priv.G k priv.P
  let xr := r * priv.X % (priv.P - 1)
  let hmxr : Int := m - xr
  match modInv k (priv.P - 1) with
  | none => .panic
  | some k => .ok (r, (hmxr * k % ((priv.P - 1 : Nat) : Int)).toNat)

/-- pubkey/elgamal/elgamal.go:388-426 (`Verify`), with the number `m` of the hash.  Every `false` comes with an error. -/
def verifyM (pub : EPub) (m : Nat) (r s : Int) : Res Bool :=
  if r < 0 then .err else
  if r > pub.P then .err else
  if s < 0 then .err else
  if s > (pub.P : Int) - 1 then .err else
  let ghashm := expMod pub.G m pub.P
  let yr := expMod pub.Y r.toNat pub.P * expMod r.toNat s.toNat pub.P % pub.P
  if ghashm = yr then .ok true else .err

/-- pubkey/elgamal/elgamal.go:388-426 (`Verify`). -/
def verify (pub : EPub) (hash : Bytes) (r s : Int) : Res Bool := verifyM pub (setBytes hash) r s

/-- pubkey/elgamal/elgamal.go:462-476 (`SignBytes`).  The length in bytes is the number of bits of `P`. -/
def signBytes (rd : Bytes) (priv : EKey) (hash : Bytes) : Res Bytes := do
  let (r, s) ← sign rd priv hash
  let n := bitLen priv.P
  let a ← fillBytes n r
  let b ← fillBytes n s
  .ok (a ++ b)

/-- pubkey/elgamal/elgamal.go:480-490 (`VerifyBytes`). -/
def verifyBytes (pub : EPub) (hash sig : Bytes) : Res Bool :=
  let n := bitLen pub.P
  if sig.length ≠ 2 * n then .err else
  verify pub hash (setBytes (sig.take n)) (setBytes (sig.drop n))

/-- pubkey/elgamal/elgamal.go:508-523: the search for the generator in `GeneratePQZp` (pubkey/egdsa/egdsa.go:238-253, the
same). -/
def genG (p q : Nat) : Nat → Bytes → Res (Nat × Bytes)
  | 0, _ => .hang
  | fuel + 1, rd =>
    match randInt p rd with
    | .ok (g, rd) =>
      if expMod g 2 p = 1 then genG p q fuel rd else
      if expMod g q p = 1 then .ok (g, rd) else genG p q fuel rd
    | .err => .err
    | .panic => .panic
    | .hang => .hang

/-- pubkey/elgamal/elgamal.go:98-121 (`GenerateKey`) once the primes are chosen: `x` is the number that `math/rand` gives.
pubkey/egdsa/egdsa.go:75-97 is the same. -/
def genKey (p q x : Nat) (rd : Bytes) : Res EKey := do
  let (g, _) ← genG p q (rd.length + 1) rd
  .ok { P := p, G := g, Y := expMod g x p, X := x }

/-! ### pubkey/egdsa -/

/-- pubkey/egdsa/egdsa.go:138-151: the loop of `Sign` that chooses `k`, which may be −1. -/
def egK (P : Nat) : Nat → Bytes → Res Int
  | 0, _ => .hang
  | fuel + 1, rd =>
    match randInt P rd with
    | .ok (k, rd) =>
      let k : Int := k - 3 + 2
      if Int.gcd k ((P : Int) - 1) = 1 then .ok k else egK P fuel rd
    | .err => .err
    | .panic => .panic
    | .hang => .hang

/-- pubkey/egdsa/egdsa.go:154-156 and 203-205: the number of the hash; division by zero panics. -/
def egM (P : Nat) (hash : Bytes) : Res Nat :=
  let d : Int := P - 3
  if d = 0 then .panic else .ok (setBytes hash % d.natAbs + 2)

/-- `Exp(G, k, P)` for a `k` that may be negative: then the power of the inverse.  (Without an inverse Go returns nil, and
the next use panics.) -/
def expZ (G : Nat) (k : Int) (P : Nat) : Res Nat :=
  if 0 ≤ k then .ok (expMod G k.toNat P) else
  match modInv G P with
  | none => .panic
  | some v => .ok (expMod v (-k).toNat P)

/-- pubkey/egdsa/egdsa.go:131-183 (`Sign`). -/
def egSign (rd : Bytes) (priv : EKey) (hash : Bytes) : Res (Nat × Nat) := do
  let k ← egK priv.P (rd.length + 1) rd
  let m ← egM priv.P hash
  let r ← expZ priv.G k priv.P
  let p1 : Int := (priv.P : Int) - 1
  let xr : Int := r * priv.X - priv.P * p1
  let hmxr := (m - xr) % p1
  match modInv (k % p1).toNat (priv.P - 1) with
  | none => .panic
  | some k => .ok (r, (hmxr * k % p1).toNat)

/-- pubkey/egdsa/egdsa.go:186-225 (`Verify`); the tests and the equation are those of pubkey/elgamal. -/
def egVerify (pub : EPub) (hash : Bytes) (r s : Int) : Res Bool :=
  if r < 0 then .err else
  if r > pub.P then .err else
  if s < 0 then .err else
  if s > (pub.P : Int) - 1 then .err else do
  let m ← egM pub.P hash
  verifyM pub m r s

end Verif.Pub.ElGamal
