import Verif.Mode.Cipher
import Verif.Padding.Spec
import Verif.Pub.Big
/-
What a fernet token is (github.com/fernet/spec), independently of the code.
-/
namespace Verif.Fernet.Spec
open Verif.Kdf Verif.Pub Verif.Cipher

/-- Cipher block chaining on a list of blocks. -/
def cbcEnc (c : BlockCipher) : Bytes → List Bytes → List Bytes
  | _, [] => []
  | v, b :: bs => c.E (xorb b v) :: cbcEnc c (c.E (xorb b v)) bs

def cbcDec (c : BlockCipher) : Bytes → List Bytes → List Bytes
  | _, [] => []
  | v, b :: bs => xorb (c.D b) v :: cbcDec c b bs

/-- The authenticated part of a token: version, big-endian timestamp, initialisation vector, ciphertext. -/
def body (secs : Nat) (iv ct : Bytes) : Bytes := [0x80#8] ++ hx 8 secs ++ iv ++ ct

/-- The binary token: the body and its HMAC under the signing half of the key. -/
def token (sha : HashFn) (signKey : Bytes) (secs : Nat) (iv ct : Bytes) : Bytes :=
  body secs iv ct ++ hmac sha signKey (body secs iv ct)

/-- A 64-bit pattern read as a signed number. -/
def signed64 (u : Nat) : Int := if u < 2 ^ 63 then (u : Int) else (u : Int) - 2 ^ 64

/-- Clock times are exact numbers of nanoseconds; a token stamped `s` seconds is within its time to live and not from the
future by more than a minute. -/
def InWindow (ttl now s : Int) : Prop := now ≤ s * 10 ^ 9 + ttl ∧ s * 10 ^ 9 ≤ now + 60 * 10 ^ 9

/-- `b` is a token of message `m` under the key `signKey ++ cryptKey`, good at `now`, except for the padding (see
`Padded`). -/
structure Valid (sha : HashFn) (aes : Bytes → BlockCipher) (signKey cryptKey : Bytes) (ttl now : Int) (b m : Bytes) : Prop where
  ex : ∃ (secs : Nat) (iv : Bytes) (blocks : List Bytes), secs < 2 ^ 64 ∧ iv.length = 16 ∧
    (∀ x ∈ blocks, x.length = 16) ∧ b = token sha signKey secs iv blocks.flatten ∧
    (ttl ≤ 0 ∨ InWindow ttl now (signed64 secs)) ∧
    (Padding.Spec.PKCS7 m (cbcDec (aes cryptKey) iv blocks).flatten ∨
      Padding.Spec.TrailingZero m (cbcDec (aes cryptKey) iv blocks).flatten)

end Verif.Fernet.Spec
