import Verif.Asn1.Der
import Verif.Pub.Dh
import Verif.Kdf.Misc
/-
SM2: gm/sm2/sm2.go, marshal.go, utils.go, keyexchange.go, key_exchange.go, and the coordinate interface of gm/sm2/sm2curve/sm2curve.go.

Simplifications.  The curve is an additive group with coordinates (`Verif.Pub.Dh.PtCurve`) and the coefficient `B`; `Verif/Sm2/Curve.lean`
has the arithmetic of points.  Coordinates and private numbers of keys are not negative.  A random source is the list of bytes it
delivers before it fails.  A hash is a function with a fixed output size; writing pieces to it hashes their concatenation.  Pointers
are never nil; `opts` is a `SignerOpts` or `EncrypterOpts` value.  `asn1.Marshal` and `asn1.Unmarshal` are those of
`Verif/Asn1/Der.lean`.
-/
namespace Verif.Sm2
open Verif.Cipher Verif.Kdf Verif.Pub Verif.Pub.Dh Verif.Asn1

/-- gm/sm2/sm2curve/p256.go:13-29: the parameters; `B` is used for the identity hash only. -/
structure C extends PtCurve where
  B : Nat
  P_ge : 3 ≤ P

/-- gm/sm2/sm2.go:156-160. -/
structure Pub where
  X : Nat
  Y : Nat
  deriving DecidableEq

/-- gm/sm2/sm2.go:309-313. -/
structure Priv where
  pub : Pub
  D : Nat
  deriving DecidableEq

variable (c : C)

/-- gm/sm2/sm2curve/sm2curve.go:27-50 (`pointFromAffine`) with the panic of its callers (sm2curve.go:66-75, 106-110): `(0, 0)` is the neutral
element, a pair that is not a point of the curve is refused. -/
def point (X Y : Nat) : Res c.α :=
  if X = 0 ∧ Y = 0 then .ok 0 else
  match c.pt X Y with
  | none => .panic
  | some a => .ok a

/-- gm/sm2/sm2curve/sm2curve.go:18-25 (`IsOnCurve`). -/
def isOnCurve (X Y : Nat) : Bool := if X = 0 ∧ Y = 0 then false else (c.pt X Y).isSome

/-- The coordinates of a point as a public key. -/
def pubOf (a : c.α) : Pub := ⟨c.x a, c.y a⟩

/-- gm/sm2/utils.go:17-24 (`bigIntToBytes`): `FillBytes` panics when the number does not fit. -/
def toBytes (v : Nat) : Res Bytes := fillBytes c.plen v

/-- gm/sm2/sm2.go:977-999 (`randFieldElement`): the number and what is left of the random source. -/
def rnd (rd : Bytes) : Res (Nat × Bytes) :=
  let n := c.bitSize / 8 + 8
  if rd.length < n then .err else .ok (setBytes (rd.take n) % (c.N - 1) + 1, rd.drop n)

/-- gm/sm2/sm2.go:448-462 (`GenerateKey`). -/
def genKey (rd : Bytes) : Res Priv :=
  match rnd c rd with
  | .ok (k, _) => .ok ⟨pubOf c (c.baseMult k), k⟩
  | .err => .err
  | .panic => .panic
  | .hang => .hang

/-- gm/sm2/sm2.go:466-482 (`NewPrivateKey`). -/
def newPriv (d : Bytes) : Res Priv :=
  let k := setBytes d
  if k ≥ c.N - 1 then .err else .ok ⟨pubOf c (setBytes d • c.G), k⟩

/-- gm/sm2/sm2.go:486-489 (`PrivateKeyTo`). -/
def privTo (key : Priv) : Res Bytes := fillBytes (byteLen c.N) key.D

/-- gm/sm2/sm2.go:493-508 (`NewPublicKey`) with gm/sm2/sm2curve/sm2curve.go:155-174 (`Unmarshal`) and the uncompressed case of `SetBytes`. -/
def newPub (data : Bytes) : Res Pub :=
  if data.head? ≠ some 4#8 then .err else
  if data.length ≠ 1 + 2 * c.plen then .err else
  let x := setBytes ((data.drop 1).take c.plen)
  let y := setBytes (data.drop (1 + c.plen))
  match c.pt x y with
  | none => .err
  | some _ => .ok ⟨x, y⟩

/-- gm/sm2/sm2.go:512-514 (`PublicKeyTo`) with gm/sm2/sm2curve/marshal.go:9-21 (`Marshal`). -/
def pubTo (key : Pub) : Res Bytes :=
  if ¬(key.X = 0 ∧ key.Y = 0) ∧ isOnCurve c key.X key.Y = false then .panic else do
  let x ← toBytes c key.X
  let y ← toBytes c key.Y
  .ok (4#8 :: (x ++ y))

/-! ### Identities and signatures -/

/-- gm/sm2/sm2.go:40-43. -/
def defaultUID : Bytes := [0x31, 0x32, 0x33, 0x34, 0x35, 0x36, 0x37, 0x38, 0x31, 0x32, 0x33, 0x34, 0x35, 0x36, 0x37, 0x38]

/-- gm/sm2/sm2.go:947-975 (`calculateZA`). -/
def calculateZA (H : HashFn) (pub : Pub) (uid : Bytes) : Res Bytes :=
  if uid.length ≥ 8192 then .err else
  let entla : BitVec 16 := BitVec.ofNat 16 (8 * uid.length)
  do
    let x ← toBytes c pub.X
    let y ← toBytes c pub.Y
    .ok (H.f ([(entla >>> 8).setWidth 8] ++ [entla.setWidth 8] ++ uid ++ natBytes (c.P - 3) ++ natBytes c.B ++ natBytes (c.x c.G) ++ natBytes (c.y c.G) ++ x ++ y))

/-- gm/sm2/sm2.go:919-934 (`calculateHash`). -/
def calculateHash (H : HashFn) (pub : Pub) (msg uid : Bytes) : Res Bytes := do
  let za ← calculateZA c H pub (if uid.length = 0 then defaultUID else uid)
  .ok (H.f (za ++ msg))

/-- gm/sm2/sm2.go:844-877 (`signUsingK`); `none` for `errInvalidK`.  Multiplying by a nil `*big.Int` panics.  `N.Sign() == 0` does not occur. -/
def signUsingK (k : Nat) (priv : Priv) (hash : Bytes) : Res (Option (Nat × Nat)) :=
  let e := setBytes hash
  let r := (c.x (c.baseMult k) + e) % c.N
  if r ≠ 0 ∧ r + k = c.N then .ok none else
  let rD : Int := priv.D * r
  let s : Int := k - rD
  match modInv (priv.D + 1) c.N with
  | none => .panic
  | some d1Inv =>
    let s := (s * d1Inv) % c.N
    if s = 0 then .ok none else .ok (some (r, s.toNat))

/-- gm/sm2/sm2.go:819-841 (`sign`): the loop. -/
def signLoop (priv : Priv) (hash : Bytes) : Nat → Bytes → Res (Nat × Nat)
  | 0, _ => .hang
  | fuel + 1, rd =>
    match rnd c rd with
    | .err => .err
    | .panic => .panic
    | .hang => .hang
    | .ok (k, rd') =>
      match signUsingK c k priv hash with
      | .ok none => signLoop priv hash fuel rd'
      | .ok (some rs) => .ok rs
      | .err => .err
      | .panic => .panic
      | .hang => .hang

/-- gm/sm2/sm2.go:819-841 (`sign`). -/
def sign (rd : Bytes) (priv : Priv) (hash : Bytes) : Res (Nat × Nat) := signLoop c priv hash (rd.length + 1) rd

/-- gm/sm2/sm2.go:880-912 (`verify`): whether there is no error. -/
def verify (pub : Pub) (hash : Bytes) (r s : Int) : Res Bool :=
  if r ≤ 0 ∨ s ≤ 0 then .ok false else
  if r ≥ c.N ∨ s ≥ c.N then .ok false else
  let t := (r + s) % c.N
  if t = 0 then .ok false else
  let p1 := c.baseMult s.toNat
  match point c pub.X pub.Y with
  | .ok q =>
    let p2 := c.mult q t.toNat
    let x := (c.x (p1 + p2) + setBytes hash) % c.N
    .ok (decide ((x : Int) = r))
  | .err => .err
  | .panic => .panic
  | .hang => .hang

/-- gm/sm2/sm2.go:61-68, 106-139: the encodings (1: ASN.1, 2: bytes; anything else is the default). -/
structure SignOpts where
  uid : Option Bytes
  enc : Nat
  H : HashFn

/-- gm/sm2/sm2.go:116-122 (`GetUid`). -/
def SignOpts.getUid (o : SignOpts) : Bytes := o.uid.getD defaultUID
/-- gm/sm2/sm2.go:132-139 (`GetEncoding`). -/
def SignOpts.getEnc (o : SignOpts) : Nat := if o.enc = 1 ∨ o.enc = 2 then o.enc else 1

/-- gm/sm2/marshal.go:11-20 (`MarshalSignatureBytes`). -/
def sigBytes (r s : Nat) : Res Bytes := do
  let x ← toBytes c r
  let y ← toBytes c s
  .ok (x ++ y)

/-- gm/sm2/marshal.go:22-33 (`UnmarshalSignatureBytes`). -/
def unsigBytes (b : Bytes) : Option (Int × Int) :=
  if b.length ≠ 2 * c.plen then none else some ((setBytes (b.take c.plen) : Nat), (setBytes (b.drop c.plen) : Nat))

/-- gm/sm2/marshal.go:40-42 (`MarshalSignatureASN1`). -/
def sigASN1 (r s : Nat) : Bytes := encSeq (encInt r ++ encInt s)

/-- gm/sm2/marshal.go:44-53 (`UnmarshalSignatureASN1`): what follows the sequence, and what follows the two numbers in it, is ignored. -/
def unsigASN1 (b : Bytes) : Option (Int × Int) :=
  match element 0x30#8 b with
  | none => none
  | some (body, _) =>
    match intField body with
    | none => none
    | some (r, b1) =>
      match intField b1 with
      | none => none
      | some (s, _) => some (r, s)

/-- gm/sm2/sm2.go:332-354, 749-761 (`Sign`, `SignToRS`). -/
def Sign (rd : Bytes) (priv : Priv) (msg : Bytes) (o : SignOpts) : Res Bytes := do
  let h ← calculateHash c o.H priv.pub msg o.getUid
  let rs ← sign c rd priv h
  if o.getEnc = 1 then .ok (sigASN1 rs.1 rs.2) else sigBytes c rs.1 rs.2

/-- gm/sm2/sm2.go:357-379, 764-776 (`SignUsingK`, `SignUsingKToRS`). -/
def SignUsingK (k : Nat) (priv : Priv) (msg : Bytes) (o : SignOpts) : Res Bytes := do
  let h ← calculateHash c o.H priv.pub msg o.getUid
  let rs ← signUsingK c k priv h
  match rs with
  | none => .err
  | some rs => if o.getEnc = 1 then .ok (sigASN1 rs.1 rs.2) else sigBytes c rs.1 rs.2

/-- gm/sm2/sm2.go:182-203, 779-796 (`Verify`, `VerifyWithRS`). -/
def Verify (pub : Pub) (msg sig : Bytes) (o : SignOpts) : Res Bool :=
  match (if o.getEnc = 1 then unsigASN1 sig else unsigBytes c sig) with
  | none => .ok false
  | some (r, s) =>
    match calculateHash c o.H pub msg o.getUid with
    | .ok h => verify c pub h r s
    | .err => .ok false
    | .panic => .panic
    | .hang => .hang

/-! ### Encryption -/

/-- gm/sm2/sm2.go:575-580 (`encryptedData`). -/
structure Enc where
  x : Bytes
  y : Bytes
  hash : Bytes
  ct : Bytes
  deriving DecidableEq

/-- tool/alias/alias.go:44-51 (`ConstantTimeAllZero`). -/
def allZero (b : Bytes) : Bool := b.foldl (· ||| ·) 0#8 == 0#8

/-- gm/sm2/sm2.go:607-643 (`encryptUsingK`); `none` for `errInvalidK`. -/
def encryptUsingK (H : HashFn) (k : Nat) (pub : Pub) (data : Bytes) : Res (Option Enc) := do
  let p1 := c.baseMult k
  let q ← point c pub.X pub.Y
  let p2 := c.mult q k
  let x1 ← toBytes c (c.x p1)
  let y1 ← toBytes c (c.y p1)
  let x2 ← toBytes c (c.x p2)
  let y2 ← toBytes c (c.y p2)
  let hashed := H.f (x2 ++ data ++ y2)
  let ct ← SmKdf.key H (x2 ++ y2) data.length
  if allZero ct then .ok none else .ok (some ⟨x1, y1, hashed, xorb ct data⟩)

/-- gm/sm2/sm2.go:582-605 (`encrypt`): the loop, with the number of attempts that failed. -/
def encLoop (H : HashFn) (pub : Pub) (data : Bytes) : Nat → Nat → Bytes → Res Enc
  | 0, _, _ => .hang
  | fuel + 1, retry, rd =>
    match rnd c rd with
    | .err => .err
    | .panic => .panic
    | .hang => .hang
    | .ok (k, rd') =>
      match encryptUsingK c H k pub data with
      | .ok none => if retry + 1 > 100 then .err else encLoop H pub data fuel (retry + 1) rd'
      | .ok (some e) => .ok e
      | .err => .err
      | .panic => .panic
      | .hang => .hang

/-- gm/sm2/sm2.go:582-605 (`encrypt`). -/
def encrypt (H : HashFn) (rd : Bytes) (pub : Pub) (data : Bytes) : Res Enc := encLoop c H pub data 102 0 rd

/-- gm/sm2/sm2.go:645-680 (`decrypt`). -/
def decrypt (H : HashFn) (priv : Priv) (e : Enc) : Res Bytes := do
  let q ← point c (setBytes e.x) (setBytes e.y)
  let p2 := c.mult q priv.D
  let x2 ← toBytes c (c.x p2)
  let y2 ← toBytes c (c.y p2)
  let k ← SmKdf.key H (x2 ++ y2) e.ct.length
  if allZero k then .err else
  let m := xorb k e.ct
  if H.f (x2 ++ m ++ y2) ≠ e.hash then .err else .ok m

/-- gm/sm2/sm2.go:52-102: the options (mode 1: C1C3C2, 2: C1C2C3; encoding 1: ASN.1, 2: bytes; anything else is the default). -/
structure EncOpts where
  mode : Nat
  enc : Nat
  H : HashFn

/-- gm/sm2/sm2.go:78-85 (`GetMode`): whether it is C1C2C3. -/
def EncOpts.old (o : EncOpts) : Bool := (if o.mode = 1 ∨ o.mode = 2 then o.mode else 1) == 2
/-- gm/sm2/sm2.go:95-102 (`GetEncoding`). -/
def EncOpts.getEnc (o : EncOpts) : Nat := if o.enc = 1 ∨ o.enc = 2 then o.enc else 2

/-- gm/sm2/marshal.go:56-79 (`marshalCipherBytes`). -/
def cipherBytes (e : Enc) (old : Bool) : Bytes :=
  if old then [4#8] ++ e.x ++ e.y ++ e.ct ++ e.hash else [4#8] ++ e.x ++ e.y ++ e.hash ++ e.ct

/-- gm/sm2/marshal.go:81-122 (`unmarshalCipherBytes`): the length test does not count the first byte; the slices panic when the data are one byte
short. -/
def uncipherBytes (data : Bytes) (old : Bool) (hashSize : Nat) : Res Enc :=
  match data with
  | [] => .panic
  | typ :: rest =>
    if typ ≠ 4#8 then .err else
    if data.length < 2 * c.plen + hashSize then .err else
    if rest.length < 2 * c.plen + hashSize then .panic else
    let c1 := rest.take (2 * c.plen)
    if old then
      let c2 := (rest.take (rest.length - hashSize)).drop (2 * c.plen)
      let c3 := rest.drop (rest.length - hashSize)
      .ok ⟨c1.take c.plen, c1.drop c.plen, c3, c2⟩
    else
      let c3 := (rest.take (2 * c.plen + hashSize)).drop (2 * c.plen)
      let c2 := rest.drop (2 * c.plen + hashSize)
      .ok ⟨c1.take c.plen, c1.drop c.plen, c3, c2⟩

/-- gm/sm2/marshal.go:125-131, 151-158, 189-196 (`marshalCipherASN1`, `marshalCipherASN1New`, `marshalCipherASN1Old`). -/
def cipherASN1 (e : Enc) (old : Bool) : Bytes :=
  if old then encSeq (encInt (setBytes e.x) ++ encInt (setBytes e.y) ++ encOct e.ct ++ encOct e.hash)
  else encSeq (encInt (setBytes e.x) ++ encInt (setBytes e.y) ++ encOct e.hash ++ encOct e.ct)

/-- `asn1.Unmarshal` into a struct of two numbers and two byte strings. -/
def fields4 (b : Bytes) : Option (Int × Int × Bytes × Bytes) :=
  match element 0x30#8 b with
  | none => none
  | some (body, _) =>
    match intField body with
    | none => none
    | some (x, b1) =>
      match intField b1 with
      | none => none
      | some (y, b2) =>
        match octField b2 with
        | none => none
        | some (u, b3) =>
          match octField b3 with
          | none => none
          | some (v, _) => some (x, y, u, v)

/-- gm/sm2/marshal.go:133-139, 161-177, 199-215 (`unmarshalCipherASN1`, `…New`, `…Old`): `FillBytes` writes the absolute value of a number. -/
def uncipherASN1 (data : Bytes) (old : Bool) : Res Enc :=
  match fields4 data with
  | none => .err
  | some (x, y, u, v) => do
    let xb ← toBytes c x.natAbs
    let yb ← toBytes c y.natAbs
    if old then .ok ⟨xb, yb, v, u⟩ else .ok ⟨xb, yb, u, v⟩

/-- What `Encrypt` and `EncryptUsingK` do with the encrypted data: gm/sm2/sm2.go:228-239, 254-265. -/
def encode (o : EncOpts) (e : Enc) : Bytes := if o.getEnc = 1 then cipherASN1 e o.old else cipherBytes e o.old

/-- gm/sm2/sm2.go:217-240 (`Encrypt`). -/
def Encrypt (rd : Bytes) (pub : Pub) (data : Bytes) (o : EncOpts) : Res Bytes := do
  let e ← encrypt c o.H rd pub data
  .ok (encode o e)

/-- gm/sm2/sm2.go:243-266 (`EncryptUsingK`). -/
def EncryptUsingK (k : Nat) (pub : Pub) (data : Bytes) (o : EncOpts) : Res Bytes := do
  let e ← encryptUsingK c o.H k pub data
  match e with
  | none => .err
  | some e => .ok (encode o e)

/-- What `Decrypt` does first: gm/sm2/sm2.go:410-425. -/
def decode (o : EncOpts) (data : Bytes) : Res Enc := if o.getEnc = 1 then uncipherASN1 c data o.old else uncipherBytes c data o.old o.H.size

/-- gm/sm2/sm2.go:404-428 (`Decrypt`); `DecryptASN1` (sm2.go:431-444) is the case of encoding 1. -/
def Decrypt (priv : Priv) (data : Bytes) (o : EncOpts) : Res Bytes := do
  let e ← decode c o data
  decrypt c o.H priv e

/-! ### Key exchange with a state: gm/sm2/keyexchange.go -/

/-- gm/sm2/keyexchange.go:16-29 (`KeyExchange`); `w` stands for `w2 = 2^w` and `w2Minus1`.  The hash is SM3. -/
structure Ke where
  gen : Bool
  keyLen : Int
  priv : Priv
  z : Bytes
  peerPub : Option Pub
  peerZ : Bytes
  r : Nat
  secret : Pub
  peerSecret : Pub
  v : Pub

/-- gm/sm2/keyexchange.go:39-41. -/
def w (c : C) : Nat := (bitLen c.N + 1) / 2 - 1

/-- gm/sm2/keyexchange.go:32-68, 97-123 (`NewKeyExchange`, `SetPeerParameters`), both keys on the curve. -/
def newKe (H : HashFn) (priv : Priv) (peerPub : Option Pub) (uid peerUID : Bytes) (keyLen : Int) (gen : Bool) : Res Ke := do
  let z ← calculateZA c H priv.pub (if uid.length = 0 then defaultUID else uid)
  match peerPub with
  | none => .ok ⟨gen, keyLen, priv, z, none, [], 0, ⟨0, 0⟩, ⟨0, 0⟩, ⟨0, 0⟩⟩
  | some p => do
    let pz ← calculateZA c H p (if peerUID.length = 0 then defaultUID else peerUID)
    .ok ⟨gen, keyLen, priv, z, some p, pz, 0, ⟨0, 0⟩, ⟨0, 0⟩, ⟨0, 0⟩⟩

/-- gm/sm2/keyexchange.go:83-86 (`init`): the state, and the ephemeral key that `Init` returns. -/
def keInit (ke : Ke) (r : Nat) : Ke × Pub :=
  let s := pubOf c (c.baseMult r)
  ({ ke with secret := s, r := r }, s)

/-- gm/sm2/keyexchange.go:173-177 (`avf`). -/
def avf (x : Nat) : Nat := 2 ^ w c + ((2 ^ w c - 1) &&& x)

/-- gm/sm2/keyexchange.go:180-198 (`mqv`). -/
def mqv (ke : Ke) (peerPub : Pub) : Res Ke := do
  let t := (avf c ke.secret.X * ke.r + ke.priv.D) % c.N
  let x1 := avf c ke.peerSecret.X
  let ps ← point c ke.peerSecret.X ke.peerSecret.Y
  let pp ← point c peerPub.X peerPub.Y
  let q := pp + c.mult ps x1
  .ok { ke with v := pubOf c (c.mult q t) }

/-- gm/sm2/keyexchange.go:125-153 (`sign`). -/
def keSign (H : HashFn) (ke : Ke) (resp : Bool) (pre : Byte) : Res Bytes := do
  let vx ← toBytes c ke.v.X
  let vy ← toBytes c ke.v.Y
  let px ← toBytes c ke.peerSecret.X
  let py ← toBytes c ke.peerSecret.Y
  let sx ← toBytes c ke.secret.X
  let sy ← toBytes c ke.secret.Y
  let buffer := H.f (if resp then vx ++ ke.peerZ ++ ke.z ++ px ++ py ++ sx ++ sy else vx ++ ke.z ++ ke.peerZ ++ sx ++ sy ++ px ++ py)
  .ok (H.f ([pre] ++ vy ++ buffer))

/-- gm/sm2/keyexchange.go:155-170 (`generateSharedKey`). -/
def keKey (H : HashFn) (ke : Ke) (resp : Bool) : Res Bytes := do
  let vx ← toBytes c ke.v.X
  let vy ← toBytes c ke.v.Y
  SmKdf.key H (vx ++ vy ++ (if resp then ke.peerZ ++ ke.z else ke.z ++ ke.peerZ)) ke.keyLen

/-- gm/sm2/keyexchange.go:214-237 (`respond`): the state, the ephemeral key and the signature (nil without `genSignature`). -/
def keRespond (H : HashFn) (ke : Ke) (rA : Pub) (r : Nat) : Res (Ke × Pub × Option Bytes) :=
  match ke.peerPub with
  | none => .err
  | some pp =>
    if isOnCurve c rA.X rA.Y = false then .err else do
    let ke1 ← mqv c { ke with peerSecret := rA, secret := pubOf c (c.baseMult r), r := r } pp
    if ke1.v.X = 0 ∧ ke1.v.Y = 0 then .err else
    if ke1.gen = false then .ok (ke1, ke1.secret, none) else do
    let s ← keSign c H ke1 true 0x02#8
    .ok (ke1, ke1.secret, some s)

/-- gm/sm2/keyexchange.go:245-277 (`ConfirmResponder`): the key and the signature.  `[]` is an absent signature. -/
def keConfirmResponder (H : HashFn) (ke : Ke) (rB : Pub) (sB : Bytes) : Res (Bytes × Option Bytes) :=
  match ke.peerPub with
  | none => .err
  | some pp =>
    if isOnCurve c rB.X rB.Y = false then .err else do
    let ke1 ← mqv c { ke with peerSecret := rB } pp
    if ke1.v.X = 0 ∧ ke1.v.Y = 0 then .err else do
    let s1 ← keSign c H ke1 false 0x02#8
    if 0 < sB.length ∧ s1 ≠ sB then .err else do
    let key ← keKey c H ke1 false
    if ke1.gen = false then .ok (key, none) else do
    let s ← keSign c H ke1 false 0x03#8
    .ok (key, some s)

/-- gm/sm2/keyexchange.go:280-289 (`ConfirmInitiator`): `none` is a nil signature. -/
def keConfirmInitiator (H : HashFn) (ke : Ke) (s1 : Option Bytes) : Res Bytes :=
  match s1 with
  | none => keKey c H ke true
  | some s => do
    let b ← keSign c H ke true 0x03#8
    if b ≠ s then .err else keKey c H ke true

/-! ### Key exchange in one call: gm/sm2/key_exchange.go -/

/-- gm/sm2/key_exchange.go:105-123 (`keXHat`): the bytes of the number, those before the last 16 set to zero, the top bit of the sixteenth from the end
cleared, plus `2^127`. -/
def xHat (x : Nat) : Nat :=
  let buf := natBytes x
  let buf := List.replicate (buf.length - 16) 0#8 ++ buf.drop (buf.length - 16)
  let buf := if buf.length ≥ 16 then buf.modify (buf.length - 16) (· &&& 0x7f#8) else buf
  setBytes buf + 2 ^ 127

/-- gm/sm2/key_exchange.go:32-101 (`keyExchange`).  The error for an infinite `V` is overwritten by the next assignment; the first error of
`CalculateZA` is returned, the second is not looked at before the key is derived (and then overwritten by nil). -/
def keyExchange (H : HashFn) (klen : Int) (ida idb : Bytes) (pri : Priv) (pub : Pub) (rpri : Priv) (rpub : Pub) (isA : Bool) : Res (Bytes × Bytes × Bytes) :=
  let x2hat := xHat rpri.pub.X
  let tb := (pri.D + x2hat * rpri.D) % c.N
  if isOnCurve c rpub.X rpub.Y = false then .err else
  let x1hat := xHat rpub.X
  do
    let rp ← point c rpub.X rpub.Y
    let pp ← point c pub.X pub.Y
    let v := c.mult (pp + c.mult rp x1hat) tb
    let za ← calculateZA c H (if isA then pri.pub else pub) ida
    let zb := match calculateZA c H (if isA then pub else pri.pub) idb with
      | .ok z => .ok z
      | .err => .ok []
      | e => e
    let zb ← zb
    let vx := natBytes (c.x v)
    let vy := natBytes (c.y v)
    let k ← SmKdf.key H (vx ++ vy ++ za ++ zb) klen
    if allZero k then .err else
    let a := natBytes rpub.X ++ natBytes rpub.Y
    let b := natBytes rpri.pub.X ++ natBytes rpri.pub.Y
    let hash := H.f (vx ++ za ++ zb ++ (if isA then a ++ b else b ++ a))
    .ok (k, H.f ([0x02#8] ++ vy ++ hash), H.f ([0x03#8] ++ vy ++ hash))

end Verif.Sm2
