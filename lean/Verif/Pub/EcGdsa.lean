import Verif.Pub.Ec
/-
EC-GDSA: pubkey/ecgdsa/ecgdsa.go.

Simplifications: the `nil` tests of the arguments are left out (arguments are present); `hashFunc()` is a hash function
as in `Verif.Kdf.HashFn`; the ASN.1 forms `Sign`/`Verify` wrap `SignToRS`/`VerifyWithRS` by the DER coding of
golang.org/x/crypto/cryptobyte, which is not part of /repo: a DER signature stands for the pair of integers it encodes.
-/
namespace Verif.Pub.EcGdsa
open Verif.Cipher Verif.Kdf

/-- pubkey/ecgdsa/ecgdsa.go:73-77 (`PrivateKey`, with the point of its embedded `PublicKey`). -/
abbrev Key (c : Curve) := EcKey c

/-- pubkey/ecgdsa/ecgdsa.go:106-120 (`GenerateKey`). -/
def generateKey (c : Curve) (rd : Bytes) : Res (Key c) :=
  match randFieldElement c.N rd with
  | .ok (d, _) => .ok ⟨d, c.baseMult (fermatInverse d c.N)⟩
  | .err => .err
  | .panic => .panic
  | .hang => .hang

/-- pubkey/ecgdsa/ecgdsa.go:123-141 (`NewPrivateKey`). -/
def newPrivateKey (c : Curve) (k : Bytes) : Res (Key c) :=
  let d := setBytes k
  if c.N - 1 ≤ d then .err else .ok ⟨d, c.baseMult (fermatInverse d c.N)⟩

/-- pubkey/ecgdsa/ecgdsa.go:145-148 (`PrivateKeyTo`). -/
def privateKeyTo {c : Curve} (key : Key c) : Res Bytes := fillBytes (byteLen c.N) key.d

/-- pubkey/ecgdsa/ecgdsa.go:275-296, 357-379: the digest, its excess low bytes dropped, reduced modulo `n`. -/
def hashInt (H : HashFn) (n : Nat) (msg : Bytes) : Nat :=
  let w := byteLen n
  let rshift := if H.size > w then (H.size - w) * 8 else 0
  let e := setBytes (H.f msg)
  (if rshift > 0 then e >>> rshift else e) % n

/-- pubkey/ecgdsa/ecgdsa.go:298-330: from the label `Retry`, with `e` the negated digest. -/
def signLoop (c : Curve) (d e : Nat) : Nat → Bytes → Res (Nat × Nat)
  | 0, _ => .hang
  | fuel + 1, rd =>
    match randFieldElement c.N rd with
    | .err => .err
    | .panic => .panic
    | .hang => .hang
    | .ok (k, rd) =>
      let r := c.x (c.baseMult k) % c.N
      if r = 0 then signLoop c d e fuel rd else
      let kr := k * r % c.N
      let s := (kr + e) % c.N
      let s := d * s % c.N
      if s = 0 then signLoop c d e fuel rd else .ok (r, s)

/-- pubkey/ecgdsa/ecgdsa.go:268-333 (`SignToRS`). -/
def signToRS (c : Curve) (rd : Bytes) (priv : Key c) (H : HashFn) (msg : Bytes) : Res (Nat × Nat) :=
  if !c.onCurve priv.Q then .err else
  signLoop c priv.d (negMod (hashInt H c.N msg) c.N) (rd.length + 1) rd

/-- pubkey/ecgdsa/ecgdsa.go:349-404 (`VerifyWithRS`).  `ModInverse` returns `nil` when `r` is a multiple of `n`, and
`Mul` on it dereferences `nil`. -/
def verifyWithRS (c : Curve) (Q : c.α) (H : HashFn) (msg : Bytes) (r s : Int) : Res Bool :=
  if !c.onCurve Q then .ok false else
  if r ≤ 0 ∨ s ≤ 0 then .ok false else
  let r := r.toNat
  let s := s.toNat
  let e := hashInt H c.N msg
  match modInv r c.N with
  | none => .panic
  | some rinv =>
    let u := rinv * e % c.N
    let v := rinv * s % c.N
    let W := c.mult Q v + c.baseMult u
    .ok (r == c.x W % c.N)

/-- pubkey/ecgdsa/ecgdsa.go:223-237 (`SignBytes`). -/
def signBytes (c : Curve) (rd : Bytes) (priv : Key c) (H : HashFn) (msg : Bytes) : Res Bytes := do
  let (r, s) ← signToRS c rd priv H msg
  let a ← fillBytes c.plen r
  let b ← fillBytes c.plen s
  .ok (a ++ b)

/-- pubkey/ecgdsa/ecgdsa.go:240-251 (`VerifyBytes`). -/
def verifyBytes (c : Curve) (Q : c.α) (H : HashFn) (msg sig : Bytes) : Res Bool :=
  if sig.length ≠ 2 * c.plen then .ok false else
  verifyWithRS c Q H msg (setBytes (sig.take c.plen)) (setBytes (sig.drop c.plen))

end Verif.Pub.EcGdsa
