import Verif.Pub.Big
/-
The Rabin cryptosystem: pubkey/rabin/rabin.go, utils.go.

Simplifications.  `*big.Int` values that the code keeps nonnegative are natural numbers.  The random source is the list of bytes
it delivers before it fails.  SHA-256 is a parameter: any function to 32 bytes.  The ASN.1 form of the private key and `Equal`
are not modelled.  An `int` holds every 32-bit length (Go on a 64-bit machine).
-/
namespace Verif.Pub.Rabin
open Verif.Cipher Verif.Kdf

/-- pubkey/rabin/utils.go:164-174: the loop, with the number of binary digits of `b` left. -/
def smLoop (a b c : Nat) : Nat → Nat → Nat
  | 0, r => r
  | i + 1, r =>
    let r := r * r % c
    smLoop a b c i (if b.testBit i then r * a % c else r)

/-- pubkey/rabin/utils.go:154-177 (`squareAndMultiple`).  Zero is written with one digit.  `Mod` panics on zero. -/
def squareAndMultiple (a b c : Nat) : Res Nat :=
  if c = 0 then .panic else
  .ok (smLoop (a % c) b c (bitLen b - 1) (a % c))

/-- pubkey/rabin/utils.go:109-116: the loop, with the number of binary digits of `e` left. -/
def swLoop (a e : Nat) : Nat → Nat → Nat
  | 0, v => v
  | i + 1, v => swLoop a e i (if e.testBit i then v * v * a else v * v)

/-- pubkey/rabin/utils.go:99-119 (`squareAndMultiplyWithoutMod`). -/
def swm (a e : Nat) : Nat := if e = 1 then a else swLoop a e (bitLen e - 1) 1

/-- pubkey/rabin/utils.go:138-149: the loop with the rounds left. -/
def mrLoop (n : Nat) : Nat → Nat → Bool
  | 0, _ => false
  | i + 1, x =>
    let x := x * x % n
    if x = 1 then false else
    if x = n - 1 then true else mrLoop n i x

/-- pubkey/rabin/utils.go:121-152 (`millerRabinPrimalityTest`), for `r ≥ 1`. -/
def millerRabin (n d r : Nat) : Res Bool := do
  let x ← squareAndMultiple 1000000000001 d n
  if x = 1 ∨ x = n - 1 then .ok true else .ok (mrLoop n (r - 1) x)

/-- pubkey/rabin/utils.go:66-80: the loop; the value of `r` after it. -/
def divLoop (v : Nat) : Nat → Nat → Nat → Res Nat
  | 0, _, _ => .hang
  | fuel + 1, r, e => if v % e = 0 then divLoop v fuel (r + 1) (swm 2 (r + 1)) else .ok r

/-- pubkey/rabin/utils.go:89-94: the tests, all with the same base. -/
def mrRounds (n d r : Nat) : Nat → Res Bool
  | 0 => .ok true
  | i + 1 => do
    if !(← millerRabin n d r) then .ok false else mrRounds n d r i

/-- pubkey/rabin/utils.go:54-97 (`isaPrimeNumber`).  The loop gets `n + 10` steps: see `C110_isPrime_one_violated` for the number
for which it never ends. -/
def isPrime (n acc : Nat) : Res Bool :=
  if n % 2 = 0 then .ok false else do
  let v := n - 1
  let r ← divLoop v (n + 10) 2 2
  let r := r - 1
  let e := swm 2 r
  let d := v / e
  mrRounds n d r acc

/-- pubkey/rabin/utils.go:28-52 (`getprimeNumber`, `generateNumber`): a number and the bytes left.  Zero when the source fails,
which is not prime, so that the loop goes on for ever. -/
def getPrime (len : Nat) : Nat → Bytes → Res (Nat × Bytes)
  | 0, _ => .hang
  | fuel + 1, rd => do
    let n := if rd.length < len then 0 else setBytes (rd.take len)
    if ← isPrime n 5 then .ok (n, rd.drop len) else getPrime len fuel (rd.drop len)

/-- pubkey/rabin/utils.go:12-26 (`generateRabinPrimeNumber`). -/
def rabinPrime (len : Nat) : Nat → Bytes → Res (Nat × Bytes)
  | 0, _ => .hang
  | fuel + 1, rd => do
    let (p, rd) ← getPrime len (rd.length + 1) rd
    if p % 4 = 3 then .ok (p, rd) else rabinPrime len fuel rd

/-- pubkey/rabin/rabin.go:59-62: a private key. -/
structure RKey where
  N : Nat
  P : Nat
  Q : Nat
  deriving DecidableEq, Repr

/-- pubkey/rabin/rabin.go:134-146 (`GenerateKeyWithBitLength`); the length is one of bytes. -/
def genKey (len : Nat) (rd : Bytes) : Res RKey := do
  let (p, rd) ← rabinPrime len (rd.length + 1) rd
  let (q, _) ← rabinPrime len (rd.length + 1) rd
  .ok { N := p * q, P := p, Q := q }

/-- pubkey/rabin/rabin.go:41-57 (`PublicKey.Encrypt`). -/
def encrypt (H : HashFn) (N : Nat) (plaintext : Bytes) : Res Bytes := do
  let p := setBytes plaintext
  let c ← squareAndMultiple p 2 N
  .ok (hx 4 (plaintext.length % 2 ^ 32) ++ natBytes c ++ H.f plaintext)

/-- pubkey/rabin/utils.go:206-220: the loop; `a`, `x2` and `y2` after it. -/
def eeaLoop : Nat → Nat → Nat → Int → Int → Int → Int → Res (Nat × Int × Int)
  | 0, _, _, _, _, _, _ => .hang
  | fuel + 1, a, b, x2, x1, y2, y1 =>
    if b > 0 then
      let q := a / b
      let r := a - q * b
      eeaLoop fuel b r x1 (x2 - q * x1) y1 (y2 - q * y1)
    else .ok (a, x2, y2)

/-- pubkey/rabin/utils.go:179-229 (`extendedEuclideanAlgorithm`). -/
def eea (a b : Nat) : Res (Nat × Int × Int) := if b = 0 then .ok (a, 1, 0) else eeaLoop (b + 1) a b 1 0 0 1

/-- pubkey/rabin/utils.go:231-239 (`getSquareRoot`). -/
def squareRoot (C val : Nat) : Res Nat := squareAndMultiple C ((val + 1) / 4) val

/-- pubkey/rabin/utils.go:274-288, 298-312: a number from its residue. -/
def norm (v : Int) (N : Nat) : Int := if v < 0 then v + (v.natAbs / N + 1) * N else v % N

/-- pubkey/rabin/utils.go:241-318 (`decrypt`), `N > 0`. -/
def roots (p q C N : Nat) : Res (List Int) := do
  let mp ← squareRoot C p
  let mq ← squareRoot C q
  let (_, yp, yq) ← eea p q
  let a := yp * p * mq
  let b := q * mp * yq
  let r := norm (a + b) N
  let s := norm (a - b) N
  .ok [r, N - r, s, N - s]

/-- pubkey/rabin/utils.go:320-333 (`hashEqual`). -/
def hashEqual (H : HashFn) (p : Int) (h : Bytes) (length : Nat) : Option Bytes :=
  if bitLen p.natAbs > length * 8 then none else
  let data := hx length p.natAbs
  if H.f data = h then some data else none

/-- pubkey/rabin/rabin.go:84-116 (`Decrypt`), keys with `N > 0`. -/
def decrypt (H : HashFn) (priv : RKey) (ciphertext : Bytes) : Res Bytes :=
  if ciphertext.length ≤ 36 then .err else do
  let length := setBytes (ciphertext.take 4)
  let h := ciphertext.drop (ciphertext.length - 32)
  let ct := (ciphertext.take (ciphertext.length - 32)).drop 4
  let c := setBytes ct
  let ms ← roots priv.P priv.Q c priv.N
  match ms.findSome? (fun m => hashEqual H m h length) with
  | some b => .ok b
  | none => .err

end Verif.Pub.Rabin
