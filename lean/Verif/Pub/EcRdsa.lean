import Verif.Pub.Ec
/-
EC-RDSA: pubkey/ecrdsa/ecrdsa.go.  Simplifications as for EC-GDSA (`Verif/Pub/EcGdsa.lean`).  The hash object is created
once and is not reset: the message is written to it again on every attempt after the first one (`hb` below).
-/
namespace Verif.Pub.EcRdsa
open Verif.Cipher Verif.Kdf

/-- pubkey/ecrdsa/ecrdsa.go:303-316, 373-388: the digest as a number modulo `n`, with 1 for 0; `iso` is the argument
`useISO14888_3`. -/
def hashInt (iso : Bool) (H : HashFn) (n : Nat) (hb : Bytes) : Nat :=
  let eBuf := H.f hb
  let eBuf := if iso then eBuf.reverse else eBuf
  let e := setBytes eBuf % n
  if e = 0 then 1 else e

/-- pubkey/ecrdsa/ecrdsa.go:284-332 (from the label `Retry`). -/
def signLoop (c : Curve) (iso : Bool) (d : Nat) (H : HashFn) (msg : Bytes) : Nat → Bytes → Bytes → Res (Nat × Nat)
  | 0, _, _ => .hang
  | fuel + 1, hb, rd =>
    match randFieldElement c.N rd with
    | .err => .err
    | .panic => .panic
    | .hang => .hang
    | .ok (k, rd) =>
      let r := c.x (c.baseMult k) % c.N
      if r = 0 then signLoop c iso d H msg fuel hb rd else
      let hb := hb ++ msg
      let e := hashInt iso H c.N hb
      let rx := r * d % c.N
      let ke := k * e % c.N
      let s := (rx + ke) % c.N
      if s = 0 then signLoop c iso d H msg fuel hb rd else .ok (r, s)

/-- pubkey/ecrdsa/ecrdsa.go:271-333 (`SignToRS`). -/
def signToRS (c : Curve) (iso : Bool) (rd : Bytes) (priv : EcKey c) (H : HashFn) (msg : Bytes) : Res (Nat × Nat) :=
  if !c.onCurve priv.Q then .err else signLoop c iso priv.d H msg (rd.length + 1) [] rd

/-- pubkey/ecrdsa/ecrdsa.go:351-417 (`VerifyWithRS`). -/
def verifyWithRS (c : Curve) (iso : Bool) (Q : c.α) (H : HashFn) (msg : Bytes) (r s : Int) : Res Bool :=
  if !c.onCurve Q then .ok false else
  if r ≤ 0 ∨ s ≤ 0 then .ok false else
  let r := r.toNat
  let s := s.toNat
  if r ≥ c.N ∨ s ≥ c.N then .ok false else
  match modInv (hashInt iso H c.N msg) c.N with
  | none => .panic
  | some e =>
    let u := e * s % c.N
    let v := e * r % c.N
    let v := negMod v c.N
    let W := c.mult Q v + c.baseMult u
    .ok (r == c.x W % c.N)

/-- pubkey/ecrdsa/ecrdsa.go:224-238 (`SignBytes`). -/
def signBytes (c : Curve) (iso : Bool) (rd : Bytes) (priv : EcKey c) (H : HashFn) (msg : Bytes) : Res Bytes := do
  let (r, s) ← signToRS c iso rd priv H msg
  let a ← fillBytes c.plen r
  let b ← fillBytes c.plen s
  .ok (a ++ b)

/-- pubkey/ecrdsa/ecrdsa.go:241-252 (`VerifyBytes`). -/
def verifyBytes (c : Curve) (iso : Bool) (Q : c.α) (H : HashFn) (msg sig : Bytes) : Res Bool :=
  if sig.length ≠ 2 * c.plen then .ok false else
  verifyWithRS c iso Q H msg (setBytes (sig.take c.plen)) (setBytes (sig.drop c.plen))

end Verif.Pub.EcRdsa
