import Verif.Fernet.Base64
import Verif.Facade.Lemmas
import Verif.Pub.Big
/-
Model of /repo/fernet/fernet.go, key.go and utils.go.  AES is an arbitrary family of 16-byte block ciphers and SHA-256 an
arbitrary hash with 32-byte output; `crypto/cipher`'s CBC, `crypto/hmac`, `crypto/subtle` and `time` are taken to do what
they are documented to do.  `decrypt` works in place, so the decoded token is part of its result.
-/
namespace Verif.Fernet
open Verif.Mode Verif.Facade Verif.Padding Verif.Kdf Verif.Pub Verif.Cipher

/-- The primitives. -/
structure Prim where
  aes : Bytes → BlockCipher
  aes_bs : ∀ k, (aes k).bs = 16
  sha : HashFn
  sha_size : sha.size = 32

/-- key.go:18-20 `Key`: the 32 bytes of `Value`. -/
abbrev Key := { v : Bytes // v.length = 32 }

/-- key.go:33-35 `signBytes`: `Value[:16]`. -/
def Key.sign (k : Key) : Bytes := k.1.take 16

/-- key.go:29-31 `cryptBytes`: `Value[16:]`. -/
def Key.crypt (k : Key) : Bytes := k.1.drop 16

/-! ### time -/

/-- Conversion of an integer to `int64`. -/
def wrap64 (x : Int) : Int := (x + 2 ^ 63) % 2 ^ 64 - 2 ^ 63

/-- A `time.Time`: seconds since January 1, year 1 (an `int64`) and nanoseconds. -/
structure Time where
  sec : Int
  nsec : Int
  deriving DecidableEq

/-- `unixToInternal` of package time: seconds from year 1 to 1970. -/
def unixToInternal : Int := 62135596800

/-- `time.Unix(s, 0)`. -/
def Time.unixT (s : Int) : Time := ⟨wrap64 (s + unixToInternal), 0⟩

/-- `t.Unix()`. -/
def Time.unix (t : Time) : Int := wrap64 (t.sec - unixToInternal)

/-- `t.After(u)`. -/
def Time.after (t u : Time) : Bool := decide (t.sec > u.sec ∨ (t.sec = u.sec ∧ t.nsec > u.nsec))

/-- `addSec` of package time: saturating. -/
def addSec (s d : Int) : Int :=
  let sum := wrap64 (s + d)
  if (decide (sum > s)) = decide (d > 0) then sum
  else if d > 0 then 2 ^ 63 - 1 else -(2 ^ 63 - 1)

/-- `t.Add(d)`, `d` in nanoseconds. -/
def Time.add (t : Time) (d : Int) : Time :=
  let dsec := d.tdiv 1000000000
  let nsec := t.nsec + d.tmod 1000000000
  if nsec ≥ 1000000000 then ⟨addSec t.sec (dsec + 1), nsec - 1000000000⟩
  else if nsec < 0 then ⟨addSec t.sec (dsec - 1), nsec + 1000000000⟩
  else ⟨addSec t.sec dsec, nsec⟩

/-! ### encryption -/

/-- fernet.go:14: `version`. -/
def version : Byte := 0x80#8

/-- fernet.go:20: `maxClockSkew = 60 * time.Second`. -/
def maxClockSkew : Int := 60 * 1000000000

/-- utils.go:48-51 `encodedLen`, with fernet.go:18 `overhead = 1 + 8 + 16 + 32`. -/
def encodedLen (n : Nat) : Nat := n / 16 * 16 + 16 + (1 + 8 + 16 + 32)

/-- utils.go:38-44 `hmacHash`. -/
def hmacHash (P : Prim) (p k : Bytes) : Bytes := Kdf.hmac P.sha k p

/-- fernet.go:75-91 `encrypt` on the buffer `tok`; the `putu64` and slice bounds checks are explicit. `uint64(ts.Unix())`
is the value modulo 2^64.  `iv` is the 16 bytes made at fernet.go:30-33. -/
def encryptM (P : Prim) (tok msg iv : Bytes) (ts : Time) (k : Key) : Res (Bytes × Nat) :=
  if tok.length < 25 then .panic
  else
    let tok := version :: tok.drop 1
    let tok := tok.take 1 ++ hx 8 (ts.unix % 2 ^ 64).toNat ++ tok.drop 9
    let tok := tok.take 9 ++ copyInto (tok.drop 9) iv
    let pad := pkcs7Pad msg 16
    let p := copyInto (tok.drop 25) pad
    let n := pad.length
    if p.length < n then .panic
    else
      let p := (blkRun 16 (cbcEncF (P.aes k.crypt)) iv (p.take n)).1 ++ p.drop n
      let tok := tok.take 25 ++ p
      let hashed := hmacHash P (tok.take (25 + n)) k.sign
      let tok := tok.take (25 + n) ++ copyInto (tok.drop (25 + n)) hashed
      .ok (tok, 25 + n + 32)

/-- fernet.go:30-42 `EncryptWithTime`, with the random `iv` as an argument. -/
def encryptWithTime (P : Prim) (msg : Bytes) (k : Key) (encryptAt : Time) (iv : Bytes) : Res Bytes := do
  let b := List.replicate (encodedLen msg.length) 0#8
  let r ← encryptM P b msg iv encryptAt k
  if r.2 > r.1.length then .panic else .ok (b64enc true (r.1.take r.2))

/-! ### decryption -/

/-- fernet.go:100: `ts := time.Unix(int64(getu64(tok[1:])), 0)`. -/
def tokTime (tok : Bytes) : Time := Time.unixT (wrap64 (setBytes ((tok.drop 1).take 8)))

/-- fernet.go:101: the time check, `true` when the token is refused. -/
def timeBad (ttl : Int) (now ts : Time) : Bool :=
  decide (ttl > 0) && (now.after (ts.add ttl) || ts.after (now.add maxClockSkew))

/-- utils.go:29-36 `unpad`: `nil` for an error. -/
def unpad (p : Bytes) : Res (Option Bytes) :=
  match pkcs7Unpad p with
  | .ok m => .ok (some m)
  | .err => .ok none
  | .panic => .panic
  | .hang => .hang

/-- fernet.go:94-135 `decrypt(nil, tok, …)`: the message (`none` for `nil`) and the contents of `tok` afterwards. -/
def decryptM (P : Prim) (tok : Bytes) (ttl : Int) (now : Time) (k : Key) : Res (Option Bytes × Bytes) :=
  if tok.length < 9 ∨ tok.head? ≠ some version then .ok (none, tok)
  else if timeBad ttl now (tokTime tok) then .ok (none, tok)
  else if tok.length ≤ 32 then .ok (none, tok)
  else
    let n := tok.length - 32
    let hashed := hmacHash P (tok.take n) k.sign
    if tok.drop n ≠ hashed then .ok (none, tok)
    else if n < 25 then .panic
    else
      let pay := (tok.take n).drop 25
      if pay.length % 16 ≠ 0 then .ok (none, tok)
      else
        let iv := (tok.drop 9).take 16
        let pay := (blkRun 16 (cbcDecF (P.aes k.crypt)) iv pay).1
        let tok := tok.take 25 ++ pay ++ tok.drop n
        do
          let m ← unpad pay
          .ok (m, tok)

/-- fernet.go:57-63: the loop over the keys, all on the same buffer. -/
def tryKeys (P : Prim) (tok : Bytes) (ttl : Int) (now : Time) : List Key → Res (Option Bytes)
  | [] => .ok none
  | k :: ks =>
    match decryptM P tok ttl now k with
    | .ok (some m, _) => .ok (some m)
    | .ok (none, tok') => tryKeys P tok' ttl now ks
    | .err => .err
    | .panic => .panic
    | .hang => .hang

/-- fernet.go:54-66 `DecryptWithTime`: the error of `Decode` is ignored. -/
def decryptWithTime (P : Prim) (tok : Bytes) (ttl : Int) (k : List Key) (now : Time) : Res (Option Bytes) :=
  tryKeys P (b64dec true tok).1 ttl now k

/-! ### keys -/

/-- key.go:22-31 `NewKey`. -/
def newKey (k : Bytes) : Option Key := if h : k.length = 32 then some ⟨k, h⟩ else none

/-- key.go:52-54 `Encode`. -/
def Key.encode (k : Key) : Bytes := b64enc true k.1

/-- key.go:66-98 `DecodeKey`, `none` for an error. -/
def decodeKey (s : Bytes) : Option Key :=
  if s = [] then none
  else
    let b :=
      if s.length = 64 then hexDec s
      else if (b64dec false s).2 = false then some (b64dec false s).1
      else if (b64dec true s).2 = false then some (b64dec true s).1
      else none
    match b with
    | none => none
    | some b => newKey b

end Verif.Fernet
