import Verif.Pub.Ec
/-
BIP-340 Schnorr signatures: pubkey/bip0340/bip0340.go, utils.go, batch.go.  Simplifications as for EC-GDSA
(`Verif/Pub/EcGdsa.lean`).

The hash object is always reset by `bip0340Hash`, so the bytes written to it are those shown.
-/
namespace Verif.Pub.Bip340
open Verif.Cipher Verif.Kdf

/-- pubkey/bip0340/bip0340.go:17: "BIP0340/aux". -/
def tagAux : Bytes := [0x42, 0x49, 0x50, 0x30, 0x33, 0x34, 0x30, 0x2f, 0x61, 0x75, 0x78]
/-- pubkey/bip0340/bip0340.go:18: "BIP0340/nonce". -/
def tagNonce : Bytes := [0x42, 0x49, 0x50, 0x30, 0x33, 0x34, 0x30, 0x2f, 0x6e, 0x6f, 0x6e, 0x63, 0x65]
/-- pubkey/bip0340/bip0340.go:19: "BIP0340/challenge". -/
def tagChallenge : Bytes := [0x42, 0x49, 0x50, 0x30, 0x33, 0x34, 0x30, 0x2f, 0x63, 0x68, 0x61, 0x6c, 0x6c, 0x65, 0x6e, 0x67, 0x65]

/-- pubkey/bip0340/utils.go:59-69 (`bip0340Hash`): the bytes in the hash object afterwards. -/
def bipHash (H : HashFn) (tag m : Bytes) : Bytes :=
  let hash := H.f tag
  hash ++ hash ++ m

/-- pubkey/bip0340/utils.go:48-57 (`bigintIsodd`). -/
def isOdd (a : Nat) : Bool := a % 2 != 0

/-- pubkey/bip0340/utils.go:74-84 (`bip0340SetScalar`). -/
def setScalar (scalar q py : Nat) : Nat := if isOdd py then negMod scalar q else scalar

/-- pubkey/bip0340/bip0340.go:328-340: two buffers xored over the shorter length, in the longer one. -/
def mask (sig buff : Bytes) : Bytes :=
  if sig.length > buff.length then xorb (sig.take buff.length) buff ++ sig.drop buff.length
  else xorb (buff.take sig.length) sig ++ buff.drop sig.length

/-- pubkey/bip0340/bip0340.go:289-387 (`SignUsingKToRS`); `none` is `ErrInvalidK`. -/
def signUsingK (c : Curve) (k : Nat) (priv : EcKey c) (H : HashFn) (msg : Bytes) : Res (Option (Nat × Nat)) :=
  if !c.onCurve priv.Q then .err else
  let qlen := c.plen
  let plen := byteLen c.P
  let P := c.baseMult priv.d
  if priv.d = 0 ∨ priv.d ≥ c.N then .err else do
  let d := setScalar priv.d c.N (c.y P)
  let sig ← fillBytes qlen k
  let buff := H.f (bipHash H tagAux sig)
  let sig ← fillBytes qlen d
  let t := mask sig buff
  let px ← fillBytes plen (c.x P)
  let k := setBytes (H.f (bipHash H tagNonce t ++ px ++ msg)) % c.N
  if k = 0 then .ok none else do
  let R := c.baseMult k
  let k := setScalar k c.N (c.y R)
  let rx ← fillBytes plen (c.x R)
  let e := setBytes (H.f (bipHash H tagChallenge rx ++ px ++ msg)) % c.N
  let e := e * d % c.N
  let e := (k + e) % c.N
  .ok (some (c.x R, e))

/-- pubkey/bip0340/bip0340.go:266-286 (`SignToRS`).  `rand.Int(random, 256^qlen)` (crypto/rand, not part of /repo) reads
`qlen` bytes and returns them as a number. -/
def signLoop (c : Curve) (priv : EcKey c) (H : HashFn) (msg : Bytes) : Nat → Bytes → Res (Nat × Nat)
  | 0, _ => .hang
  | fuel + 1, rd =>
    if rd.length < c.plen then .err else
    match signUsingK c (setBytes (rd.take c.plen)) priv H msg with
    | .ok none => signLoop c priv H msg fuel (rd.drop c.plen)
    | .ok (some x) => .ok x
    | .err => .err
    | .panic => .panic
    | .hang => .hang

/-- pubkey/bip0340/bip0340.go:266-286 (`SignToRS`) with the bytes the random source will deliver. -/
def signToRS (c : Curve) (rd : Bytes) (priv : EcKey c) (H : HashFn) (msg : Bytes) : Res (Nat × Nat) :=
  signLoop c priv H msg (rd.length + 1) rd

/-- pubkey/bip0340/bip0340.go:392-457 (`VerifyWithRS`).  The point `(X, −Y mod p)` that is multiplied when `Y` is odd is
the opposite of the public key. -/
def verifyWithRS (c : Curve) (Q : c.α) (H : HashFn) (msg : Bytes) (r s : Int) : Res Bool :=
  if !c.onCurve Q then .ok false else
  if r ≤ 0 ∨ s ≤ 0 then .ok false else
  let r := r.toNat
  let s := s.toNat
  let plen := byteLen c.P
  if s ≥ c.N then .ok false else do
  let sig ← fillBytes plen r
  let px ← fillBytes plen (c.x Q)
  let e := setBytes (H.f (bipHash H tagChallenge sig ++ px ++ msg)) % c.N
  let e := negMod e c.N
  let Q' := if isOdd (c.y Q) then -Q else Q
  let W := c.mult Q' e + c.baseMult s
  if c.x W = 0 ∨ c.y W = 0 then .ok false else
  if isOdd (c.y W) then .ok false else
  .ok (r == c.x W)

/-- pubkey/bip0340/bip0340.go:222-240 (`SignBytes`). -/
def signBytes (c : Curve) (rd : Bytes) (priv : EcKey c) (H : HashFn) (msg : Bytes) : Res Bytes := do
  let (r, s) ← signToRS c rd priv H msg
  let a ← fillBytes (byteLen c.P) r
  let b ← fillBytes c.plen s
  .ok (a ++ b)

/-- pubkey/bip0340/bip0340.go:243-258 (`VerifyBytes`). -/
def verifyBytes (c : Curve) (Q : c.α) (H : HashFn) (msg sig : Bytes) : Res Bool :=
  if sig.length ≠ byteLen c.P + c.plen then .ok false else
  verifyWithRS c Q H msg (setBytes (sig.take (byteLen c.P))) (setBytes (sig.drop (byteLen c.P)))

/-- pubkey/bip0340/batch.go:20-24: the loop, over lists of which the last two may be longer. -/
def batchLoop (c : Curve) (H : HashFn) : List c.α → List Bytes → List Bytes → Res Bool
  | [], _, _ => .ok true
  | Q :: Qs, m :: ms, sig :: sigs => do
    if !(← verifyBytes c Q H m sig) then .ok false else batchLoop c H Qs ms sigs
  | _ :: _, _, _ => .panic

/-- pubkey/bip0340/batch.go:6-28 (`BatchVerify`), for keys of one curve.  `pub[0]` panics on an empty list of keys. -/
def batchVerify (c : Curve) (H : HashFn) (pub : List c.α) (m sig : List Bytes) : Res Bool :=
  if m.length = 0 ∨ m.length < pub.length ∨ sig.length < pub.length then .ok false else
  match pub with
  | [] => .panic
  | _ => batchLoop c H pub m sig

end Verif.Pub.Bip340
