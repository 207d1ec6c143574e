import Verif.Pub.Ec
/-
Model of pubkey/bign/bign.go and pubkey/bign/utils.go: the signatures of STB 34.101.45 (bign).  `belt.New()` and
`belt.BeltEncrypt` are parameters: a hash function `B` of 32 bytes and a block function `E key block` (both are modelled in
Verif/Hash/Belt*.lean; the theorems hold for any such functions).  `l` is the number of octets the standard calls `l/8`.
-/
namespace Verif.Pub.Bign
open Verif.Cipher Verif.Kdf

/-- `l := qlen / 2` with `qlen := (BitSize + 7) / 8`: pubkey/bign/bign.go:255-256, 310-314, 433-437. -/
def ell (c : Curve) : Nat := c.plen / 2

/-- The two-byte number `uint16(adata[i]) << 8 | uint16(adata[i+1])`: pubkey/bign/utils.go:50-51, 67-68. -/
def u16 (adata : Bytes) (i : Nat) : BitVec 16 :=
  (adata.getD i 0#8).setWidth 16 <<< 8 ||| (adata.getD (i + 1) 0#8).setWidth 16

/-- The slice expression `a[lo:hi]` (the capacity taken to be the length). -/
def slice (a : Bytes) (lo hi : Nat) : Res Bytes :=
  if lo ≤ hi ∧ hi ≤ a.length then .ok ((a.take hi).drop lo) else .panic

/-- The length test both readers of `adata` share; all arithmetic is on `uint16`: pubkey/bign/utils.go:44-55, 61-72. -/
def badAdata (adata : Bytes) : Bool :=
  adata.length < 4 ||
    (u16 adata 0 + u16 adata 2 < u16 adata 2 || BitVec.ofNat 16 adata.length - 4#16 < u16 adata 0 + u16 adata 2)

/-- `GetOidFromAdata`: pubkey/bign/utils.go:43-58. -/
def getOid (adata : Bytes) : Res Bytes :=
  if badAdata adata then .err else slice adata 4 (4#16 + u16 adata 0).toNat

/-- `GetTFromAdata`: pubkey/bign/utils.go:60-75. -/
def getT (adata : Bytes) : Res Bytes :=
  if badAdata adata then .err
  else slice adata (4#16 + u16 adata 0).toNat (4#16 + u16 adata 0 + u16 adata 2).toNat

/-- `MakeAdata`: pubkey/bign/utils.go:77-103 (`byte(n >> 8), byte(n & 0xff)` keeps the lower sixteen bits of a length). -/
def makeAdata (oid t : Bytes) : Bytes := hx 2 oid.length ++ hx 2 t.length ++ oid ++ t

/-- The loop of `crypto/rand.Int(random, N)`, called at pubkey/bign/bign.go:335 (standard library: read
`⌈bitlen(N−1)/8⌉` bytes, clear the surplus bits of the first, repeat until the number is below `N`).  The reader is the
list of bytes it will deliver, then an error. -/
def randInt (N : Nat) : Nat → Bytes → Res Nat
  | 0, _ => .hang
  | fuel + 1, rd =>
    let w := byteLen (N - 1)
    if rd.length < w then .err
    else
      let k := setBytes (rd.take w) % 2 ^ bitLen (N - 1)
      if k < N then .ok k else randInt N fuel (rd.drop w)

/-- `FE2OS_W`: the coordinates, each in `plen` bytes in reverse order: pubkey/bign/bign.go:360-365, 489-494. -/
def wBytes (c : Curve) (W : c.α) : Res Bytes := do
  let x ← fillBytes (byteLen c.P) (c.x W)
  let y ← fillBytes (byteLen c.P) (c.y W)
  .ok (x.reverse ++ y.reverse)

/-- Step 4 of signing and step 6 of verification, the `l` bytes `<BELT-HASH(OID ‖ <W>2l ‖ H)>l`; with a hash of fewer than
`l` bytes only that many bytes are taken and the rest is zero: pubkey/bign/bign.go:351-376, 478-505. -/
def tag (c : Curve) (B : HashFn) (hsize : Nat) (adata h : Bytes) (W : c.α) : Res Bytes := do
  let oid ← getOid adata
  let w ← wBytes c W
  let w2 ← slice w 0 (2 * ell c)
  let hb ← slice (B.f (oid ++ w2 ++ h)) 0 (min (ell c) hsize)
  .ok (hb ++ List.replicate (ell c - hb.length) 0#8)

/-- The exclusive or of the blocks `r_1 … r_{n-1}`: pubkey/bign/utils.go:170-175. -/
def xorBlocks (r : Bytes) : Nat → Bytes
  | 0 => List.replicate 16 0#8
  | j + 1 => xorb (xorBlocks r j) ((r.drop (16 * j)).take 16)

/-- One turn of the loop on the buffer `r`: pubkey/bign/utils.go:167-196 (`E` is `belt.BeltEncrypt` under `theta`). -/
def nonceStep (E : Bytes → Bytes) (n i : Nat) (r : Bytes) : Bytes :=
  let s := xorBlocks r (n - 1)
  let r1 := (r.drop 16).take ((n - 2) * 16) ++ r.drop ((n - 2) * 16)
  let iBlock := (hx 4 i).reverse ++ List.replicate 12 0#8
  let blk := xorb (E s) (xorb ((r1.drop ((n - 1) * 16)).take 16) iBlock)
  r1.take ((n - 2) * 16) ++ blk ++ s ++ r1.drop (n * 16)

/-- The candidate read from the buffer: pubkey/bign/utils.go:198-218. -/
def nonceOf (qBitLen n : Nat) (r : Bytes) : Nat :=
  let qlen := (qBitLen + 7) / 8
  if qlen < n * 16 then
    let b := r.take qlen
    let b := if qBitLen % 8 ≠ 0 then
      b.take (qlen - 1) ++ (b.drop (qlen - 1)).map (· &&& BitVec.ofNat 8 (2 ^ (qBitLen % 8) - 1)) else b
    setBytes b.reverse
  else setBytes (r.take (n * 16)).reverse

/-- The loop of `determiniticNonce`: pubkey/bign/utils.go:166-230.  `fuel` is larger than the number of turns the `uint32`
counter allows. -/
def nonceLoop (E : Bytes → Bytes) (q qBitLen n : Nat) : Nat → Nat → Bytes → Res Nat
  | 0, _, _ => .hang
  | fuel + 1, i, r =>
    let r := nonceStep E n i r
    let k := nonceOf qBitLen n r
    if 2 * n ≤ i ∧ k < q ∧ k ≠ 0 then .ok k
    else if 2 ^ 32 - 1 ≤ i + 1 then .err
    else nonceLoop E q qBitLen n fuel (i + 1) r

/-- `determiniticNonce`: pubkey/bign/utils.go:107-233.  (The test `n * 16 > 0xffff` cannot succeed when the 96-byte buffer
holds `n` blocks; a buffer too short for them is indexed out of range.) -/
def detNonce (c : Curve) (B : HashFn) (E : Bytes → Bytes → Bytes) (d : Nat) (adata h : Bytes) : Res Nat := do
  let oid ← getOid adata
  let t ← getT adata
  let fd ← fillBytes c.plen d
  let theta := B.f (oid ++ fd.reverse.take (2 * ell c) ++ t)
  let n := if h.length / 16 ≤ 1 then 2 else h.length / 16
  if 96 < 16 * n then .panic
  else nonceLoop (E theta) c.N c.bitSize n (2 ^ 32) 1 (h.take 96 ++ List.replicate (96 - h.length) 0#8)

/-- The nonce: from the reader if there is one, else deterministic: pubkey/bign/bign.go:331-345. -/
def nonce (c : Curve) (B : HashFn) (E : Bytes → Bytes → Bytes) (random : Option Bytes) (d : Nat) (adata h : Bytes) : Res Nat :=
  match random with
  | some rd => randInt c.N (rd.length + 1) rd
  | none => detNonce c B E d adata h

/-- `SignToRS`: pubkey/bign/bign.go:291-405. -/
def signToRS (c : Curve) (B : HashFn) (E : Bytes → Bytes → Bytes) (random : Option Bytes) (key : EcKey c) (H : HashFn)
    (msg adata : Bytes) : Res (Nat × Nat) :=
  if !c.onCurve key.Q then .err
  else if c.N ≤ key.d then .err
  else if adata.length = 0 then .err
  else do
    let h := H.f msg
    let k ← nonce c B E random key.d adata h
    let sig ← tag c B H.size adata h (c.baseMult k)
    let r := setBytes sig
    let hn := setBytes h.reverse % c.N
    let s0 := setBytes sig.reverse % c.N
    let s0 := (s0 + 1 <<< (8 * ell c) % c.N) % c.N
    let s1 := s0 * key.d % c.N
    let s1 := (((k : Int) - s1) % c.N).toNat
    let s1 := (((s1 : Int) - hn) % c.N).toNat
    let sb ← fillBytes c.plen s1
    .ok (r, setBytes sb.reverse)

/-- `VerifyWithRS`: pubkey/bign/bign.go:411-514 (`FillBytes` writes the absolute value). -/
def verifyWithRS (c : Curve) (B : HashFn) (Q : c.α) (H : HashFn) (msg adata : Bytes) (r s : Int) : Res Bool :=
  if !c.onCurve Q then .ok false
  else if s ≤ 0 then .ok false
  else do
    let rb ← fillBytes (ell c) r.natAbs
    let s0 := setBytes rb.reverse
    let sb ← fillBytes c.plen s.natAbs
    let s1 := setBytes sb.reverse
    if c.N ≤ s1 then .ok false
    else
      let h := H.f msg
      let hn := (setBytes h.reverse % c.N + s1) % c.N
      let tmp := (1 <<< (8 * ell c) % c.N + s0) % c.N
      let W := c.mult Q tmp + c.baseMult hn
      match tag c B H.size adata h W with
      | .err => .ok false
      | .panic => .panic
      | .hang => .hang
      | .ok t => do
        let rBytes ← fillBytes (min (ell c) H.size) r.natAbs
        .ok (t == rBytes ++ List.replicate (ell c - rBytes.length) 0#8)

/-- `SignBytes`: pubkey/bign/bign.go:246-270. -/
def signBytes (c : Curve) (B : HashFn) (E : Bytes → Bytes → Bytes) (random : Option Bytes) (key : EcKey c) (H : HashFn)
    (msg adata : Bytes) : Res Bytes := do
  let (r, s) ← signToRS c B E random key H msg adata
  let rb ← fillBytes (min (ell c) H.size) r
  let sb ← fillBytes c.plen s
  .ok (rb ++ List.replicate (ell c - rb.length) 0#8 ++ sb)

/-- `VerifyBytes`: pubkey/bign/bign.go:273-286. -/
def verifyBytes (c : Curve) (B : HashFn) (Q : c.α) (H : HashFn) (msg adata sig : Bytes) : Res Bool :=
  if sig.length ≠ ell c + c.plen then .ok false
  else verifyWithRS c B Q H msg adata (setBytes (sig.take (ell c))) (setBytes (sig.drop (ell c)))

end Verif.Pub.Bign
