import Verif.Pub.Ec
/-
EC-SDSA, EC-OSDSA and EC-FSDSA: pubkey/ecsdsa/ecsdsa.go, pubkey/ecosdsa/ecosdsa.go, pubkey/ecfsdsa/ecfsdsa.go.
Simplifications as for EC-GDSA (`Verif/Pub/EcGdsa.lean`).

The hash object is created once, before the label `Retry`, and is not reset by the code: the bytes written to it are
carried from one attempt to the next (`hb` below).
-/
namespace Verif.Pub.EcSchnorr
open Verif.Cipher Verif.Kdf

/-- `(p.BitLen() + 7) / 8`. -/
def plenP (c : Curve) : Nat := byteLen c.P

/-- pubkey/ecsdsa/ecsdsa.go:334-335, 437-438: the bytes of the y-coordinate (nothing in EC-OSDSA). -/
def wyBytes (c : Curve) (opt : Bool) (W : c.α) : Res Bytes := if opt then .ok [] else fillBytes (plenP c) (c.y W)

/-- pubkey/ecsdsa/ecsdsa.go:314-365 (from the label `Retry`), and with `opt` pubkey/ecosdsa/ecosdsa.go:317-364, which
leaves the y-coordinate out of the hash. -/
def signLoop (c : Curve) (opt : Bool) (d : Nat) (H : HashFn) (msg : Bytes) : Nat → Bytes → Bytes → Res (Nat × Nat)
  | 0, _, _ => .hang
  | fuel + 1, hb, rd =>
    match randFieldElement c.N rd with
    | .err => .err
    | .panic => .panic
    | .hang => .hang
    | .ok (k, rd) => do
      let W := c.baseMult k
      let Wx ← fillBytes (plenP c) (c.x W)
      let Wy ← wyBytes c opt W
      let hb := hb ++ Wx ++ Wy ++ msg
      let r := setBytes (H.f hb)
      let e := r % c.N
      if e = 0 then signLoop c opt d H msg fuel hb rd else
      let ex := e * d % c.N
      let s := (k + ex) % c.N
      if s = 0 then signLoop c opt d H msg fuel hb rd else .ok (r, s)

/-- pubkey/ecsdsa/ecsdsa.go:298-366, pubkey/ecosdsa/ecosdsa.go:301-365 (`SignToRS`). -/
def signToRS (c : Curve) (opt : Bool) (rd : Bytes) (priv : EcKey c) (H : HashFn) (msg : Bytes) : Res (Nat × Nat) :=
  if !c.onCurve priv.Q then .err else signLoop c opt priv.d H msg (rd.length + 1) [] rd

/-- pubkey/ecsdsa/ecsdsa.go:380-449, pubkey/ecosdsa/ecosdsa.go:379-444 (`VerifyWithRS`).  `r.FillBytes` panics when `r`
is longer than a digest. -/
def verifyWithRS (c : Curve) (opt : Bool) (Q : c.α) (H : HashFn) (msg : Bytes) (r s : Int) : Res Bool :=
  if !c.onCurve Q then .ok false else
  if r ≤ 0 ∨ s ≤ 0 then .ok false else
  let r := r.toNat
  let s := s.toNat
  if s ≥ c.N then .ok false else
  let rmodq := r % c.N
  let e := negMod rmodq c.N
  if e = 0 then .ok false else do
  let W := c.mult Q e + c.baseMult s
  let Wx ← fillBytes (plenP c) (c.x W)
  let Wy ← wyBytes c opt W
  let rPrime := H.f (Wx ++ Wy ++ msg)
  let rBytes ← fillBytes H.size r
  .ok (rBytes == rPrime)

/-- pubkey/ecsdsa/ecsdsa.go:216-235, pubkey/ecosdsa/ecosdsa.go:219-238 (`SignBytes`). -/
def signBytes (c : Curve) (opt : Bool) (rd : Bytes) (priv : EcKey c) (H : HashFn) (msg : Bytes) : Res Bytes := do
  let (r, s) ← signToRS c opt rd priv H msg
  let a ← fillBytes H.size r
  let b ← fillBytes c.plen s
  .ok (a ++ b)

/-- pubkey/ecsdsa/ecsdsa.go:238-254, pubkey/ecosdsa/ecosdsa.go:241-257 (`VerifyBytes`). -/
def verifyBytes (c : Curve) (opt : Bool) (Q : c.α) (H : HashFn) (msg sig : Bytes) : Res Bool :=
  if sig.length ≠ H.size + c.plen then .ok false else
  verifyWithRS c opt Q H msg (setBytes (sig.take H.size)) (setBytes (sig.drop H.size))

/-- pubkey/ecfsdsa/ecfsdsa.go:297-340: EC-FSDSA, from the label `Retry`. -/
def fsignLoop (c : Curve) (d : Nat) (H : HashFn) (msg : Bytes) : Nat → Bytes → Bytes → Res (Nat × Nat)
  | 0, _, _ => .hang
  | fuel + 1, hb, rd =>
    match randFieldElement c.N rd with
    | .err => .err
    | .panic => .panic
    | .hang => .hang
    | .ok (k, rd) => do
      let W := c.baseMult k
      let a ← fillBytes (plenP c) (c.x W)
      let b ← fillBytes (plenP c) (c.y W)
      let rBytes := a ++ b
      if rBytes.all (· == 0) then fsignLoop c d H msg fuel hb rd else
      let r := setBytes rBytes
      let hb := hb ++ rBytes ++ msg
      let e := setBytes (H.f hb) % c.N
      let ex := e * d % c.N
      let s := (k + ex) % c.N
      if s = 0 then fsignLoop c d H msg fuel hb rd else .ok (r, s)

/-- pubkey/ecfsdsa/ecfsdsa.go:281-341 (`SignToRS`). -/
def fsignToRS (c : Curve) (rd : Bytes) (priv : EcKey c) (H : HashFn) (msg : Bytes) : Res (Nat × Nat) :=
  if !c.onCurve priv.Q then .err else fsignLoop c priv.d H msg (rd.length + 1) [] rd

/-- pubkey/ecfsdsa/ecfsdsa.go:355-421 (`VerifyWithRS`).  `r.FillBytes` panics when `r` is longer than two coordinates. -/
def fverifyWithRS (c : Curve) (Q : c.α) (H : HashFn) (msg : Bytes) (r s : Int) : Res Bool :=
  if !c.onCurve Q then .ok false else
  if r ≤ 0 ∨ s ≤ 0 then .ok false else
  let r := r.toNat
  let s := s.toNat
  if s ≥ c.N then .ok false else do
  let rBytes ← fillBytes (2 * plenP c) r
  let rx := setBytes (rBytes.take (plenP c))
  let ry := setBytes (rBytes.drop (plenP c))
  if !c.isOn rx ry then .ok false else
  let e := setBytes (H.f (rBytes ++ msg)) % c.N
  let e := negMod e c.N
  let W := c.mult Q e + c.baseMult s
  let a ← fillBytes (plenP c) (c.x W)
  let b ← fillBytes (plenP c) (c.y W)
  .ok (rBytes == a ++ b)

/-- pubkey/ecfsdsa/ecfsdsa.go:221-239 (`SignBytes`). -/
def fsignBytes (c : Curve) (rd : Bytes) (priv : EcKey c) (H : HashFn) (msg : Bytes) : Res Bytes := do
  let (r, s) ← fsignToRS c rd priv H msg
  let a ← fillBytes (2 * plenP c) r
  let b ← fillBytes c.plen s
  .ok (a ++ b)

/-- pubkey/ecfsdsa/ecfsdsa.go:242-257 (`VerifyBytes`). -/
def fverifyBytes (c : Curve) (Q : c.α) (H : HashFn) (msg sig : Bytes) : Res Bool :=
  if sig.length ≠ 2 * plenP c + c.plen then .ok false else
  fverifyWithRS c Q H msg (setBytes (sig.take (2 * plenP c))) (setBytes (sig.drop (2 * plenP c)))

end Verif.Pub.EcSchnorr
