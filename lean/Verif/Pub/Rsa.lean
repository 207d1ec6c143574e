import Verif.Pub.Big
/-
Model of pubkey/rsa/encryption.go and pubkey/rsa/lower_safe.go. crypto/rsa is not part of /repo: its EncryptPKCS1v15 and DecryptPKCS1v15 are parameters.
-/
namespace Verif.Pub.Rsa
open Verif.Cipher Verif.Kdf

/-- rsa.PublicKey. -/
structure PubKey where
  N : Nat
  E : Nat
/-- rsa.CRTValue. -/
structure Crt where
  exp : Nat
  coeff : Nat
  r : Nat
/-- rsa.PrecomputedValues. -/
structure Pre where
  dp : Nat
  dq : Nat
  qinv : Nat
  crt : List Crt
/-- rsa.PrivateKey. -/
structure PrivKey where
  pub : PubKey
  D : Nat
  primes : List Nat
  pre : Option Pre

/-- `modInverse` (pubkey/rsa/encryption.go:309-321). `x` is the coefficient of Bezout's identity that `GCD` sets; the proofs use only `a x + n y = g`. -/
def modInverse (a n : Nat) : Option Int :=
  if Nat.gcd a n ≠ 1 then none else
    let x := Nat.gcdA a n
    some (if x < 1 then x + n else x)

/-- The loop that looks for a blinding factor (pubkey/rsa/encryption.go:212-226); `rs` are the numbers that rand.Int gives. -/
def blind (N : Nat) : List Nat → Res (Nat × Int)
  | [] => .hang
  | r :: rs =>
    let r := if r = 0 then 1 else r
    match modInverse r N with
    | some ir => .ok (r, ir)
    | none => blind N rs

/-- The loop over CRTValues (pubkey/rsa/encryption.go:248-259); `Primes[2+i]` panics when there are too few primes. `Mod` is Euclidean, so that the test for a negative number
never succeeds; it is kept. -/
def crtLoop (c : Nat) : List Crt → List Nat → Int → Res Int
  | [], _, m => .ok m
  | _ :: _, [], _ => .panic
  | v :: vs, p :: ps, m =>
    let m2 : Int := expMod c v.exp p
    let m2 := (m2 - m) * v.coeff % (p : Int)
    let m2 := if m2 < 0 then m2 + p else m2
    crtLoop c vs ps (m + m2 * v.r)

/-- The exponentiation (pubkey/rsa/encryption.go:233-260). -/
def power (k : PrivKey) (c : Nat) : Res Int :=
  match k.pre with
  | none => .ok (expMod c k.D k.pub.N)
  | some v =>
    match k.primes with
    | p :: q :: ps =>
      let m : Int := expMod c v.dp p
      let m2 : Int := expMod c v.dq q
      let m := m - m2
      let m := if m < 0 then m + p else m
      let m := m * v.qinv % (p : Int)
      crtLoop c v.crt ps (m * q + m2)
    | _ => .panic

/-- `decrypt` (pubkey/rsa/encryption.go:204-267) with a random source. -/
def decrypt (rs : List Nat) (k : PrivKey) (c : Nat) : Res Int :=
  if c > k.pub.N then .err
  else (blind k.pub.N rs).bind fun b =>
    (power k (c * expMod b.1 k.pub.E k.pub.N % k.pub.N)).bind fun m => .ok (m * b.2 % (k.pub.N : Int))

/-- `leftPad` (pubkey/rsa/encryption.go:297-306). -/
def leftPad (input : Bytes) (size : Nat) : Bytes :=
  let n := if input.length > size then size else input.length
  List.replicate (size - n) 0 ++ input.take n

/-- `copyWithLeftPad(dest, src)` with `len(dest) = k` (pubkey/rsa/encryption.go:270-276). -/
def copyPad (k : Nat) (src : Bytes) : Res Bytes := if k < src.length then .panic else .ok (List.replicate (k - src.length) 0 ++ src)

/-- The block of `priKeyEncrypt` (pubkey/rsa/encryption.go:177-182) of `k ≥ len(hashed) + 11` bytes. -/
def block (k : Nat) (h : Bytes) : Bytes := 0 :: 1 :: (List.replicate (k - h.length - 3) 0xff ++ 0 :: h)

/-- `priKeyEncrypt` (pubkey/rsa/encryption.go:171-190). -/
def priKeyEncrypt (rs : List Nat) (k : PrivKey) (h : Bytes) : Res Bytes :=
  let l := byteLen k.pub.N
  if l < h.length + 11 then .err
  else (decrypt rs k (setBytes (block l h))).bind fun c => copyPad l (natBytes c.toNat)

/-- The position of the first zero (pubkey/rsa/encryption.go:158-163), or the length. -/
def firstZero : Bytes → Nat
  | [] => 0
  | b :: t => if b = 0 then 0 else firstZero t + 1

/-- `pubKeyDecrypt` (pubkey/rsa/encryption.go:140-168). `d[i:]` panics when `i` is the length and one more, `d[1]` when there is only one byte. -/
def pubKeyDecrypt (pub : PubKey) (data : Bytes) : Res Bytes :=
  let k := byteLen pub.N
  if k ≠ data.length then .err
  else if setBytes data > pub.N then .err
  else
    let d := leftPad (natBytes (expMod (setBytes data) pub.E pub.N)) k
    match d with
    | d0 :: d1 :: t =>
      if d0 ≠ 0 then .err
      else if d1 ≠ 0 ∧ d1 ≠ 1 then .err
      else
        let i := 2 + firstZero t + 1
        if i = d.length then .ok []
        else if d.length < i then .panic else .ok (d.drop i)
    | [d0] => if d0 ≠ 0 then .err else .panic
    | [] => .panic

/-- `pubKeyIO`, `priKeyIO` (pubkey/rsa/encryption.go:66-137): the parts of `k` bytes one after the other; `f i` is the operation at part `i`. A bytes.Reader fills the buffer
while there are bytes; with an empty buffer it delivers nothing, for ever. -/
def io (f : Nat → Bytes → Res Bytes) (k : Nat) : Nat → Nat → Bytes → Res Bytes
  | 0, _, _ => .hang
  | fuel + 1, i, inp =>
    if inp = [] then .ok []
    else (f i (inp.take k)).bind fun b => (io f k fuel (i + 1) (inp.drop k)).bind fun r => .ok (b ++ r)

/-- The common body of `PublicKeyBytes` and `PrivateKeyBytes` (pubkey/rsa/encryption.go:21-63) for parts of at most `k` bytes: `make([]byte, k)` panics for `k < 0`;
bytes.NewBuffer(iv) is a buffer that holds the `k` zero bytes of `iv` already. -/
def bytesFn (f : Nat → Bytes → Res Bytes) (k : Int) (inp : Bytes) : Res Bytes :=
  if (inp.length : Int) ≤ k then f 0 inp
  else if k < 0 then .panic
  else (io f k.toNat (inp.length + 1) 0 inp).bind fun r => .ok (List.replicate k.toNat 0 ++ r)

/-- `PublicKeyBytes` (pubkey/rsa/encryption.go:21-41); `std` is rsa.EncryptPKCS1v15, call by call. -/
def publicKeyBytes (std : Nat → Bytes → Res Bytes) (pub : PubKey) (inp : Bytes) (enc : Bool) : Res Bytes :=
  let k : Int := byteLen pub.N
  if enc then bytesFn std (k - 11) inp else bytesFn (fun _ => pubKeyDecrypt pub) k inp
/-- `PrivateKeyBytes` (pubkey/rsa/encryption.go:44-63); `std` is rsa.DecryptPKCS1v15. -/
def privateKeyBytes (std : Nat → Bytes → Res Bytes) (rs : Nat → List Nat) (k : PrivKey) (inp : Bytes) (enc : Bool) : Res Bytes :=
  let l : Int := byteLen k.pub.N
  if enc then bytesFn (fun i => priKeyEncrypt (rs i) k) (l - 11) inp else bytesFn std l inp

/-- `LowerSafeEncrypt` (pubkey/rsa/lower_safe.go:10-20). -/
def lowerSafeEncrypt (pub : PubKey) (msg : Bytes) : Bytes := natBytes (expMod (setBytes msg) pub.E pub.N)
/-- `LowerSafeDecrypt` (pubkey/rsa/lower_safe.go:23-31). -/
def lowerSafeDecrypt (k : PrivKey) (msg : Bytes) : Bytes := natBytes (expMod (setBytes msg) k.D k.pub.N)

end Verif.Pub.Rsa
