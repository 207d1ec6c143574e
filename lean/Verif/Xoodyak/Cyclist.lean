import Verif.Xoodyak.Xoodoo
/-!
# The Cyclist object

Model of /repo/cipher/xoodoo/xoodyak/xoodyak.go.  The sizes handed to `Up` and `Down` by the functions below are at most 44,
so that their own size panics (lines 222-224, 240-242) do not occur.
-/
namespace Verif.Xoodyak
open Verif

/-- `Xoodyak`, xoodyak.go:70-76: `keyed` is `Mode == Keyed`, `isUp` is `Phase == Up`. -/
structure Xk where
  st : St
  keyed : Bool
  isUp : Bool
  absorbSize : Nat
  squeezeSize : Nat

/-- `fill` of `Down`, xoodyak.go:225-232; `len(Xi) ≤ 46`. -/
def fill (keyed : Bool) (X : Bytes) (cd : Byte) : Bytes :=
  X ++ 1 :: (List.replicate (46 - X.length) 0 ++ [if keyed then cd else cd &&& 1])

/-- `Down`, xoodyak.go:221-235. -/
def down (x : Xk) (X : Bytes) (cd : Byte) : Xk := { x with st := xorState x.st (fill x.keyed X cd), isUp := false }

/-- `Up`, xoodyak.go:239-253.  It leaves `Phase` as it is. -/
def up (x : Xk) (cu : Byte) (n : Nat) : Xk × Bytes :=
  let s := if x.keyed then xorLast x.st cu else x.st
  let s := perm s
  ({ x with st := s }, if n = 0 then [] else (ser s).take n)

/-- `AbsorbBlock`, xoodyak.go:144-149. -/
def absorbBlock (x : Xk) (X : Bytes) (cd : Byte) : Xk :=
  let x := if x.isUp then x else (up x 0 0).1
  down x X cd

/-- The loop of `AbsorbAny`, xoodyak.go:158-172; the fuel `len(x) + 1` is never used up, as `r` is not 0. -/
def absorbLoop : Nat → Xk → Bytes → Nat → Byte → Xk
  | 0, x, _, _, _ => x
  | k + 1, x, X, r, cd =>
    let x := if x.isUp then x else (up x 0 0).1
    let n := if X.length < r then X.length else r
    let x := down x (X.take n) cd
    if X.length - n = 0 then x else absorbLoop k x (X.drop n) r 0

/-- `AbsorbAny`, xoodyak.go:153-174. -/
def absorbAny (x : Xk) (X : Bytes) (r : Nat) (cd : Byte) : Xk := absorbLoop (X.length + 1) x X r cd

/-- The loop of `SqueezeAny`, xoodyak.go:207-214; the fuel is `YLen`. -/
def squeezeLoop : Nat → Xk → Nat → Nat → Xk × Bytes
  | 0, x, _, _ => (x, [])
  | k + 1, x, rem, sl =>
    if rem = 0 then (x, [])
    else
      let x := down x [] 0
      let sl := if rem < sl then rem else sl
      let u := up x 0 sl
      let r := squeezeLoop k u.1 (rem - sl) sl
      (r.1, u.2 ++ r.2)

/-- `SqueezeAny`, xoodyak.go:199-217. -/
def squeezeAny (x : Xk) (n : Nat) (cu : Byte) : Xk × Bytes :=
  let sl := if n < x.squeezeSize then n else x.squeezeSize
  let u := up x cu sl
  let r := squeezeLoop n u.1 (n - sl) sl
  (r.1, u.2 ++ r.2)

/-- `AbsorbKey`, xoodyak.go:178-195; what it does to memory behind the key is `keyEffect` of Aead.lean. -/
def absorbKey (x : Xk) (key id counter : Bytes) : Res Xk :=
  if key.length + id.length ≥ 44 then .panic
  else
    let x := { x with keyed := true, absorbSize := 44, squeezeSize := 24 }
    if key.length > 0 then
      let x := absorbAny x (key ++ id ++ [BitVec.ofNat 8 id.length]) x.absorbSize 2
      .ok (if counter.length > 0 then absorbAny x counter 1 0 else x)
    else .ok x

/-- `Instantiate`, xoodyak.go:82-93. -/
def instantiate (key id counter : Bytes) : Res Xk :=
  let x : Xk := ⟨st0, false, true, 16, 16⟩
  if key.length ≠ 0 then absorbKey x key id counter else .ok x

/-- `Absorb`, xoodyak.go:96-98. -/
def absorb (x : Xk) (X : Bytes) : Xk := absorbAny x X x.absorbSize 3

/-- `CryptBlock`, xoodyak.go:288-300, for blocks of at most 24 bytes. -/
def cryptBlock (x : Xk) (m : Bytes) (cu : Byte) (dec : Bool) : Xk × Bytes :=
  let x := (up x cu 0).1
  let o := xorb (ser x.st) m
  (down x (if dec then o else m) 0, o)

/-- The loop of `Crypt`, xoodyak.go:264-282; its body is that of `CryptBlock`. -/
def cryptLoop : Nat → Xk → Bytes → Byte → Bool → Xk × Bytes
  | 0, x, _, _, _ => (x, [])
  | k + 1, x, m, cu, dec =>
    let n := if m.length < 24 then m.length else 24
    let b := cryptBlock x (m.take n) cu dec
    if m.length - n = 0 then b
    else
      let r := cryptLoop k b.1 (m.drop n) 0 dec
      (r.1, b.2 ++ r.2)

/-- `Crypt`, xoodyak.go:258-284. -/
def crypt (x : Xk) (m : Bytes) (dec : Bool) : Xk × Bytes := cryptLoop (m.length + 1) x m 0x80 dec

/-- `Encrypt`, `Decrypt`, xoodyak.go:102-116. -/
def encrypt (x : Xk) (m : Bytes) : Res (Xk × Bytes) := if x.keyed then .ok (crypt x m false) else .panic
def decrypt (x : Xk) (m : Bytes) : Res (Xk × Bytes) := if x.keyed then .ok (crypt x m true) else .panic

/-- `Squeeze`, `SqueezeKey`, xoodyak.go:120-130. -/
def squeeze (x : Xk) (n : Nat) : Xk × Bytes := squeezeAny x n 0x40
def squeezeKey (x : Xk) (n : Nat) : Res (Xk × Bytes) := if x.keyed then .ok (squeezeAny x n 0x20) else .panic

/-- `Ratchet`, xoodyak.go:134-140. -/
def ratchet (x : Xk) : Res Xk :=
  if x.keyed then
    let r := squeezeAny x 16 0x10
    .ok (absorbAny r.1 r.2 r.1.absorbSize 0)
  else .panic

/-- `cryptoHash`, `HashXoodyakLen`, hash.go:11-26; `HashXoodyak` is `n = 32`. -/
def hashLen (m : Bytes) (n : Nat) : Res Bytes :=
  (instantiate [] [] []).bind fun x => .ok (squeeze (absorb x m) n).2

/-- `MACXoodyak`, mac.go:21-25. -/
def mac (key m : Bytes) (n : Nat) : Res Bytes :=
  (instantiate key [] []).bind fun x => .ok (squeeze (absorb x m) n).2

/-- `CryptoEncryptAEAD`, aead.go:33-48, on bytes. -/
def encAead (m key id ad : Bytes) : Res (Bytes × Bytes) :=
  if key.length ≠ 16 then .err else if id.length ≠ 16 then .err
  else
    (instantiate key id []).bind fun x =>
    (encrypt (absorb x ad) m).bind fun r =>
    .ok (r.2, (squeeze r.1 16).2)

/-- `CryptoDecryptAEAD`, aead.go:56-77, on bytes: `none` is `valid = false`. -/
def decAead (c key id ad tag : Bytes) : Res (Option Bytes) :=
  if key.length ≠ 16 then .err else if id.length ≠ 16 then .err
  else
    (instantiate key id []).bind fun x =>
    (decrypt (absorb x ad) c).bind fun r =>
    .ok (if (squeeze r.1 16).2 = tag then some r.2 else none)

end Verif.Xoodyak
