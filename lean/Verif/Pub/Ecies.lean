import Verif.Pub.Dh
/-
ECIES: pubkey/ecies/ecies.go.

Simplifications.  A point is an element of a group with coordinates (`Verif/Pub/Ec.lean`, `Verif/Pub/Dh.lean`); `elliptic.GenerateKey`,
`Marshal`, `Unmarshal`, HMAC and CTR are those of Go's standard library, written here from their documentation.  The ephemeral
private key is an argument of `encrypt` (a number in `[1, N)`), and so is the initialisation vector that is read after it.  Keys have
their parameters set.  The slice `k[:kdLen]` of the key derivation panics when fewer bytes were made: the capacity of the slice is taken to
be its length, as it is for hashes of 32, 48 and 64 bytes.
-/
namespace Verif.Pub.Ecies
open Verif.Cipher Verif.Kdf Verif.Pub.Dh

/-- pubkey/ecies/ecies.go:35-40: the hash, the cipher for a key, `BlockSize`, `KeyLen`. -/
structure Params where
  H : HashFn
  cipher : Bytes → Option (Bytes → Bytes)
  bs : Nat
  keyLen : Nat

/-- pubkey/ecies/ecies.go:176-207 (`MaxSharedKeyLength`, `GenerateShared`), keys of one curve: the shared secret from the product of the point and the number. -/
def shared (c : PtCurve) (d : Nat) (Q : c.α) (skLen macLen : Nat) : Res Bytes :=
  if skLen + macLen > c.plen then .err else
  let xBytes := natBytes (c.x (c.mult Q d))
  let n := skLen + macLen
  if xBytes.length > n then .ok (xBytes.drop (xBytes.length - n)) else .ok (List.replicate (n - xBytes.length) 0#8 ++ xBytes)

/-- pubkey/ecies/ecies.go:389-402 (`incCounter`), the counter as a number. -/
def incCounter (ctr : BitVec 32) : BitVec 32 := ctr + 1

/-- pubkey/ecies/ecies.go:415-425: the loop. -/
def kdfLoop (H : HashFn) (z s1 : Bytes) : Nat → BitVec 32 → Bytes → Bytes
  | 0, _, k => k
  | n + 1, ctr, k => kdfLoop H z s1 n (incCounter ctr) (k ++ H.f (hx 4 ctr.toNat ++ z ++ s1))

/-- pubkey/ecies/ecies.go:405-429 (`concatKDF`). -/
def concatKDF (H : HashFn) (z s1 : Bytes) (kdLen : Nat) : Res Bytes :=
  let reps := (kdLen + 7) * 8 / (H.block * 8)
  if reps > 2 ^ 32 - 1 then .err else
  let k := kdfLoop H z s1 (reps + 1) 1 []
  if k.length < kdLen then .panic else .ok (k.take kdLen)

/-- pubkey/ecies/ecies.go:433-439 (`messageTag`). -/
def messageTag (H : HashFn) (km msg shared : Bytes) : Bytes := hmac H km (msg ++ shared)

/-- The key stream of CTR mode of Go's standard library: the encryptions of the counter, which is a big-endian number. -/
def ctrStream (e : Bytes → Bytes) (bs : Nat) (iv : Nat) : Nat → Bytes
  | 0 => []
  | n + 1 => e (hx bs (iv % 256 ^ bs)) ++ ctrStream e bs (iv + 1) n

/-- `cipher.NewCTR(c, iv).XORKeyStream(dst, src)`. -/
def ctr (e : Bytes → Bytes) (bs : Nat) (iv src : Bytes) : Bytes := xorb src (ctrStream e bs (setBytes iv) src.length)

/-- pubkey/ecies/ecies.go:442-469 (`generateIV`, `symEncrypt`); `iv` are the bytes read. -/
def symEncrypt (p : Params) (iv key m : Bytes) : Res Bytes :=
  match p.cipher key with
  | none => .err
  | some e => .ok (iv ++ ctr e p.bs iv m)

/-- pubkey/ecies/ecies.go:473-485 (`symDecrypt`).  `ct[:BlockSize]` is inside the capacity (the tag follows); `make` panics on a negative
length. -/
def symDecrypt (p : Params) (key ct : Bytes) : Res Bytes :=
  match p.cipher key with
  | none => .err
  | some e => if ct.length < p.bs then .panic else .ok (ctr e p.bs (ct.take p.bs) (ct.drop p.bs))

/-- pubkey/ecies/ecies.go:307-373 (`Encrypt`); `none` is the nil ciphertext returned without an error. -/
def encrypt (c : PtCurve) (p : Params) (r : Nat) (iv : Bytes) (Q : c.α) (m s1 s2 : Bytes) : Res (Option Bytes) := do
  let z ← shared c r Q p.keyLen p.keyLen
  let K ← concatKDF p.H z s1 (p.keyLen + p.keyLen)
  let Ke := K.take p.keyLen
  let Km := p.H.f (K.drop p.keyLen)
  let em ← symEncrypt p iv Ke m
  if em.length ≤ p.bs then .ok none else
  let d := messageTag p.H Km em s2
  let Rb := marshal c (c.baseMult r)
  .ok (some (Rb ++ em ++ d))

/-- `elliptic.Unmarshal`: the point of an encoding. -/
def point (c : PtCurve) (data : Bytes) : Option c.α :=
  match unmarshal c data with
  | none => none
  | some (x, y) => if x < c.P ∧ y < c.P then c.pt x y else none

/-- pubkey/ecies/ecies.go:210-300 (`Decrypt`). -/
def decrypt (C : PtCurve) (p : Params) (d : Nat) (c s1 s2 : Bytes) : Res Bytes :=
  match c with
  | [] => .err
  | c0 :: _ =>
    let hLen := p.H.size
    if c0 ≠ 2 ∧ c0 ≠ 3 ∧ c0 ≠ 4 then .err else
    let rLen := 1 + 2 * C.plen
    if c.length < rLen + hLen + 1 then .err else
    let mEnd := c.length - hLen
    match point C (c.take rLen) with
    | none => .err
    | some R => do
      let z ← shared C d R p.keyLen p.keyLen
      let K ← concatKDF p.H z s1 (p.keyLen + p.keyLen)
      let Ke := K.take p.keyLen
      let Km := p.H.f (K.drop p.keyLen)
      let em := (c.take mEnd).drop rLen
      let tag := messageTag p.H Km em s2
      if c.drop mEnd ≠ tag then .err else
      symDecrypt p Ke em

end Verif.Pub.Ecies
