import Verif.Pub.EcGdsa
/-
EC-KCDSA: pubkey/eckcdsa/eckcdsa.go.  Simplifications as for EC-GDSA (`Verif/Pub/EcGdsa.lean`).  `GenerateKey`,
`NewPrivateKey` and `PrivateKeyTo` (108-150) are, word for word, those of pubkey/ecgdsa and are represented by them.
-/
namespace Verif.Pub.EcKcdsa
open Verif.Cipher Verif.Kdf

/-- pubkey/eckcdsa/eckcdsa.go:480-489 (`padLeft`). -/
def padLeft (arr : Bytes) (l : Nat) : Bytes :=
  if arr.length ≥ l then arr.take l else List.replicate (l - arr.length) 0#8 ++ arr

/-- pubkey/eckcdsa/eckcdsa.go:491-500 (`padRight`). -/
def padRight (arr : Bytes) (l : Nat) : Bytes :=
  if arr.length ≥ l then arr.take l else copyInto (List.replicate l 0#8) arr

/-- pubkey/eckcdsa/eckcdsa.go:318-322, 329-336, 345-354, 446-455, 469-475: a digest as a number, modulo `256^w` when the
hash is longer than the order. -/
def reduce (H : HashFn) (n : Nat) (m : Bytes) : Nat :=
  let w := byteLen n
  let v := setBytes (H.f m)
  if H.size > w then v % 256 ^ w else v

/-- pubkey/eckcdsa/eckcdsa.go:338-343, 439-444: `cQ`. -/
def cQ (c : Curve) (H : HashFn) (Q : c.α) : Bytes :=
  padRight (padLeft (natBytes (c.x Q)) c.plen ++ padLeft (natBytes (c.y Q)) c.plen) H.block

/-- pubkey/eckcdsa/eckcdsa.go:297-372 (`SignUsingK`).  `none` is `ErrInvalidK`. -/
def signUsingK (c : Curve) (k : Nat) (priv : EcKey c) (H : HashFn) (msg : Bytes) : Res (Option (Nat × Nat)) :=
  if !c.onCurve priv.Q then .err else
  let x1Bytes := padLeft (natBytes (c.x (c.baseMult k))) c.plen
  let r := reduce H c.N x1Bytes
  let v := reduce H c.N (cQ c H priv.Q ++ msg)
  let e := (r ^^^ v) % c.N
  let t := ((k : Int) - e) % c.N
  let t := (priv.d : Int) * t % c.N
  if t ≤ 0 then .ok none else .ok (some (r, t.toNat))

/-- pubkey/eckcdsa/eckcdsa.go:278-294 (`SignToRS`). -/
def signLoop (c : Curve) (priv : EcKey c) (H : HashFn) (msg : Bytes) : Nat → Bytes → Res (Nat × Nat)
  | 0, _ => .hang
  | fuel + 1, rd =>
    match randFieldElement c.N rd with
    | .err => .err
    | .panic => .panic
    | .hang => .hang
    | .ok (k, rd) =>
      match signUsingK c k priv H msg with
      | .ok none => signLoop c priv H msg fuel rd
      | .ok (some x) => .ok x
      | .err => .err
      | .panic => .panic
      | .hang => .hang

/-- pubkey/eckcdsa/eckcdsa.go:278-294 (`SignToRS`) with the bytes the random source will deliver. -/
def signToRS (c : Curve) (rd : Bytes) (priv : EcKey c) (H : HashFn) (msg : Bytes) : Res (Nat × Nat) :=
  signLoop c priv H msg (rd.length + 1) rd

/-- pubkey/eckcdsa/eckcdsa.go:395-478 (`VerifyWithRS`). -/
def verifyWithRS (c : Curve) (Q : c.α) (H : HashFn) (msg : Bytes) (r s : Int) : Bool :=
  if !c.onCurve Q then false else
  if r ≤ 0 ∨ s ≤ 0 then false else
  let r := r.toNat
  let t := s.toNat
  let w := byteLen c.N
  if H.size > w ∧ byteLen r > w then false else
  if ¬ H.size > w ∧ byteLen r > H.size then false else
  if t ≥ c.N then false else
  let v := reduce H c.N (cQ c H Q ++ msg)
  let e := (r ^^^ v) % c.N
  let W := c.mult Q t + c.baseMult e
  let r2 := reduce H c.N (padLeft (natBytes (c.x W)) c.plen)
  r == r2

/-- pubkey/eckcdsa/eckcdsa.go:540-542 (`sigRLen`). -/
def sigRLen (H : HashFn) (c : Curve) : Nat := min H.size c.plen

/-- pubkey/eckcdsa/eckcdsa.go:225-241 (`SignBytes`). -/
def signBytes (c : Curve) (rd : Bytes) (priv : EcKey c) (H : HashFn) (msg : Bytes) : Res Bytes := do
  let (r, s) ← signToRS c rd priv H msg
  let a ← fillBytes (sigRLen H c) r
  let b ← fillBytes c.plen s
  .ok (a ++ b)

/-- pubkey/eckcdsa/eckcdsa.go:244-257 (`VerifyBytes`). -/
def verifyBytes (c : Curve) (Q : c.α) (H : HashFn) (msg sig : Bytes) : Bool :=
  if sig.length ≠ sigRLen H c + c.plen then false else
  verifyWithRS c Q H msg (setBytes (sig.take (sigRLen H c))) (setBytes (sig.drop (sigRLen H c)))

end Verif.Pub.EcKcdsa
