import Verif.Pub.Big
/-
Two signature schemes over the multiplicative group modulo a prime: SDSA (pubkey/sdsa/sdsa.go) and KCDSA
(pubkey/kcdsa/kcdsa.go, utils.go, ppgf.go).

Simplifications.  `*big.Int` values that the code keeps nonnegative are natural numbers; the integers a caller passes to
`Verify` are integers.  Keys have nonnegative components.  The random source is the list of bytes it delivers before it fails.
The prime searches (`ProbablyPrime`: Go's library), the ASN.1 forms and `Equal` are not modelled.
-/
namespace Verif.Pub.Kcdsa
open Verif.Cipher Verif.Kdf

/-- pubkey/sdsa/sdsa.go:36-79, pubkey/kcdsa/kcdsa.go:73-117: the parameters and the public key. -/
structure DPub where
  P : Nat
  Q : Nat
  G : Nat
  Y : Nat
  deriving DecidableEq, Repr

/-- The private key. -/
structure DKey extends DPub where
  X : Nat
  deriving DecidableEq, Repr

/-! ### SDSA -/

/-- pubkey/sdsa/sdsa.go:224-239, 323-338: the loop that draws a number in `[1, Q)` from `n` bytes; the number and the bytes left.  It
does not end when `n = 0`. -/
def drawLoop (n Q : Nat) : Nat → Bytes → Res (Nat × Bytes)
  | 0, _ => .hang
  | fuel + 1, rd =>
    if rd.length < n then .err else
    let x := setBytes (rd.take n)
    if x ≠ 0 ∧ x < Q then .ok (x, rd.drop n) else drawLoop n Q fuel (rd.drop n)

/-- pubkey/sdsa/sdsa.go:217-243 (`GenerateKey`) for parameters that are set; `Q.BitLen()/8` bytes. -/
def sdGenKey (P Q G : Nat) (rd : Bytes) : Res DKey := do
  let (x, _) ← drawLoop (bitLen Q / 8) Q (rd.length + 1) rd
  .ok { P, Q, G, Y := expMod G x P, X := x }

/-- pubkey/sdsa/sdsa.go:354-381: the loop, with the attempts left and the bytes already in the hash object, which is not reset
between the attempts; `k` is the same in all of them. -/
def sdLoop (priv : DKey) (H : HashFn) (k : Nat) (data : Bytes) : Nat → Bytes → Res (Nat × Nat)
  | 0, _ => .err
  | attempts + 1, written => do
    let pi := expMod priv.G k priv.P
    let piBuf ← fillBytes (byteLen priv.P) pi
    let written := written ++ piBuf ++ data
    let r := setBytes (H.f written)
    let rr := r % priv.Q
    if rr = 0 then sdLoop priv H k data attempts written else
    let s := (priv.X * rr % priv.Q + k) % priv.Q
    if s ≠ 0 then .ok (r, s) else sdLoop priv H k data attempts written

/-- pubkey/sdsa/sdsa.go:342-390 (`SignUsingK`). -/
def sdSignK (k : Nat) (priv : DKey) (H : HashFn) (data : Bytes) : Res (Nat × Nat) :=
  if priv.Q = 0 ∨ priv.P = 0 ∨ priv.G = 0 ∨ priv.X = 0 then .err else sdLoop priv H k data 10 []

/-- pubkey/sdsa/sdsa.go:315-340 (`Sign`). -/
def sdSign (rd : Bytes) (priv : DKey) (H : HashFn) (data : Bytes) : Res (Nat × Nat) :=
  let n := bitLen priv.Q
  if n % 8 ≠ 0 then .err else do
  let (k, _) ← drawLoop (n / 8) priv.Q (rd.length + 1) rd
  sdSignK k priv H data

/-- pubkey/sdsa/sdsa.go:392-431 (`Verify`). -/
def sdVerify (pub : DPub) (H : HashFn) (data : Bytes) (r s : Int) : Res Bool :=
  if pub.P = 0 then .ok false else
  if r < 1 then .ok false else
  if s < 1 ∨ s ≥ pub.Q then .ok false else do
  let r := r.toNat
  let s := s.toNat
  let rr := pub.Q - r % pub.Q
  let u := expMod pub.Y rr pub.P
  let pi := expMod pub.G s pub.P * u % pub.P
  let piBuf ← fillBytes (byteLen pub.P) pi
  let hashed := H.f (piBuf ++ data)
  let rPrime ← fillBytes H.size r
  .ok (rPrime == hashed)

/-- pubkey/sdsa/sdsa.go:278-296 (`SignBytes`). -/
def sdSignBytes (rd : Bytes) (priv : DKey) (H : HashFn) (data : Bytes) : Res Bytes := do
  let (r, s) ← sdSign rd priv H data
  let a ← fillBytes H.size r
  let b ← fillBytes (byteLen priv.Q) s
  .ok (a ++ b)

/-- pubkey/sdsa/sdsa.go:298-313 (`VerifyBytes`). -/
def sdVerifyBytes (pub : DPub) (H : HashFn) (data sig : Bytes) : Res Bool :=
  if sig.length ≠ H.size + byteLen pub.Q then .ok false else
  sdVerify pub H data (setBytes (sig.take H.size)) (setBytes (sig.drop H.size))

/-! ### KCDSA -/

/-- `b[0] &= (1 << n) - 1`; panics on an empty slice. -/
def maskFirst (b : Bytes) (n : Nat) : Bytes :=
  match b with
  | [] => []
  | x :: xs => (x &&& BitVec.ofNat 8 (2 ^ n - 1)) :: xs

/-- pubkey/kcdsa/utils.go:353-366 (`RightMost`), for slices that are not empty. -/
def rightMost (b : Bytes) (bits : Nat) : Bytes :=
  let bytes := (bits + 7) / 8
  let b := if b.length ≥ bytes then b.drop (b.length - bytes) else b
  let remain := bits % 8
  if remain > 0 then maskFirst b remain else b

/-- pubkey/kcdsa/utils.go:324-340 (`ReadBits`): the bytes and those left. -/
def readBits (rd : Bytes) (bits : Nat) : Res (Bytes × Bytes) :=
  let n := (bits + 7) / 8
  if rd.length < n then .err else
  let dst := rd.take n
  .ok (if bits % 8 ≠ 0 then maskFirst dst (bits % 8) else dst, rd.drop n)

/-- pubkey/kcdsa/utils.go:448-451 (`FermatInverse`), `P ≥ 2`. -/
def kcInverse (k P : Nat) : Nat := expMod k (P - 2) P

/-- pubkey/kcdsa/utils.go:296-303 (`GenerateY`). -/
def kcY (P Q G X : Nat) : Nat := expMod G (kcInverse X Q) P

/-- pubkey/kcdsa/kcdsa.go:225-250 (`GenerateKey`) for parameters that are set. -/
def kcGenKey (P Q G : Nat) (rd : Bytes) : Res DKey := do
  let (x, _) ← drawLoop (byteLen Q) Q (rd.length + 1) rd
  .ok { P, Q, G, Y := kcY P Q G x, X := x }

/-- pubkey/kcdsa/kcdsa.go:493-500, 544-549: the bytes of the public key that are hashed with the message. -/
def kcZ (Y l : Nat) : Res Bytes := do
  let z ← fillBytes (max (byteLen Y) l) Y
  .ok (rightMost z (l * 8))

/-- pubkey/kcdsa/kcdsa.go:465-516 (`sign`), `none` for a failed attempt.  The buffer for `Z` is that for `W`, with as many
bytes as `P`: a longer `Z` panics. -/
def kcAttempt (priv : DKey) (H : HashFn) (k : Nat) (data : Bytes) : Res (Option (Nat × Nat)) := do
  let B := bitLen priv.Q
  let l := H.block
  let W ← fillBytes (byteLen priv.P) (expMod priv.G k priv.P)
  let R := setBytes (rightMost (H.f W) B)
  if max (byteLen priv.Y) l > byteLen priv.P then .panic else do
  let Z ← kcZ priv.Y l
  let h := setBytes (rightMost (H.f (Z ++ data)) B)
  let E := (R ^^^ h) % priv.Q
  let K := (((k : Int) - E) % priv.Q).toNat
  let S := priv.X * K % priv.Q
  .ok (if R ≠ 0 ∧ S ≠ 0 then some (R, S) else none)

/-- pubkey/kcdsa/kcdsa.go:303-314: the loop that draws `K`. -/
def kcDraw (Q : Nat) : Nat → Bytes → Res (Nat × Bytes)
  | 0, _ => .hang
  | fuel + 1, rd =>
    match readBits rd (bitLen Q) with
    | .ok (buf, rd) =>
      let k := setBytes buf + 1
      if k < Q then .ok (k, rd) else kcDraw Q fuel rd
    | .err => .err
    | .panic => .panic
    | .hang => .hang

/-- pubkey/kcdsa/kcdsa.go:300-328: the attempts. -/
def kcLoop (priv : DKey) (H : HashFn) (data : Bytes) : Nat → Bytes → Res (Nat × Nat)
  | 0, _ => .err
  | attempts + 1, rd => do
    let (k, rd) ← kcDraw priv.Q (rd.length + 1) rd
    match ← kcAttempt priv H k data with
    | some x => .ok x
    | none => kcLoop priv H data attempts rd

/-- pubkey/kcdsa/kcdsa.go:286-337 (`Sign`). -/
def kcSign (rd : Bytes) (priv : DKey) (H : HashFn) (data : Bytes) : Res (Nat × Nat) :=
  if priv.Q = 0 ∨ priv.P = 0 ∨ priv.G = 0 ∨ priv.X = 0 ∨ bitLen priv.Q % 8 ≠ 0 then .err else kcLoop priv H data 10 rd

/-- pubkey/kcdsa/kcdsa.go:339-352, 518-576 (`Verify`, `verify`). -/
def kcVerify (pub : DPub) (H : HashFn) (data : Bytes) (r s : Int) : Res Bool :=
  if pub.P = 0 then .ok false else
  if r < 1 then .ok false else
  if s < 1 ∨ s ≥ pub.Q then .ok false else do
  let R := r.toNat
  let S := s.toNat
  let B := bitLen pub.Q
  let Z ← kcZ pub.Y H.block
  let h := setBytes (rightMost (H.f (Z ++ data)) B)
  let E := (R ^^^ h) % pub.Q
  let W := expMod pub.Y S pub.P * expMod pub.G E pub.P % pub.P
  let W ← fillBytes (byteLen pub.P) W
  let r := setBytes (rightMost (H.f W) B)
  .ok (R == r)

/-- pubkey/kcdsa/kcdsa.go:354-379 (`SignBytes`). -/
def kcSignBytes (rd : Bytes) (priv : DKey) (H : HashFn) (data : Bytes) : Res Bytes := do
  let (r, s) ← kcSign rd priv H data
  let rlen := min H.size (byteLen priv.Q)
  let a ← fillBytes rlen r
  let b ← fillBytes (byteLen priv.Q) s
  .ok (a ++ b)

/-- pubkey/kcdsa/kcdsa.go:381-403 (`VerifyBytes`). -/
def kcVerifyBytes (pub : DPub) (H : HashFn) (data sig : Bytes) : Res Bool :=
  let rlen := min H.size (byteLen pub.Q)
  if sig.length ≠ rlen + byteLen pub.Q then .ok false else
  kcVerify pub H data (setBytes (sig.take rlen)) (setBytes (sig.drop rlen))

/-- pubkey/kcdsa/ppgf.go:36-63: the loop.  `i` bytes at the front of the output are still to be made; `tail` are the ones made. -/
def ppgfLoop (H : HashFn) (src : Bytes) : Nat → Nat → Byte → Bytes → Bytes
  | 0, _, _, tail => tail
  | fuel + 1, i, ctr, tail =>
    let h := H.f (src ++ [ctr])
    if i ≥ H.size then
      let i := i - H.size
      if i = 0 then h ++ tail else ppgfLoop H src fuel i (ctr + 1) (h ++ tail)
    else h.drop (h.length - i) ++ tail

/-- pubkey/kcdsa/ppgf.go:29-66 (`Generate`); `src` are the sources one after the other. -/
def ppgf (H : HashFn) (nBits : Nat) (src : Bytes) : Bytes :=
  let i := (nBits + 7) / 8
  rightMost (ppgfLoop H src (i + 1) i 0 []) nBits

/-- pubkey/kcdsa/utils.go:277-289: the loop that adds `xkey` to `xseed`, over the reversed bytes: the least significant first. -/
def addLoop : Bytes → Bytes → Nat → Bytes
  | [], _, _ => []
  | a :: as, bs, carry =>
    let sum := a.toNat + carry + match bs with | [] => 0 | b :: _ => b.toNat
    BitVec.ofNat 8 sum :: addLoop as bs.tail (sum >>> 8)

/-- pubkey/kcdsa/utils.go:271-294 (`GenerateX`). -/
def kcX (Q : Nat) (upri xkey : Bytes) (H : HashFn) (B : Nat) : Nat :=
  let xseed := ppgf H B upri
  let xval := (addLoop xseed.reverse xkey.reverse 0).reverse
  let xval := rightMost xval B
  setBytes (ppgf H B xval) % Q

end Verif.Pub.Kcdsa
