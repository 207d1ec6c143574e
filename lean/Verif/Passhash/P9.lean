import Verif.Kdf.Pbkdf2
import Verif.Kdf.Kb
import Verif.Fernet.Base64
/-
Model of /repo/passhash/passhash9 and of the keyed functions of /repo/kdf/pbkdf2/prf.go.

The hash functions and CMAC over Blowfish are parameters (`Algs`): any functions with fixed output sizes.  Strings are their
bytes.  The random source is the list of bytes it will deliver.
-/
namespace Verif.Passhash
open Verif.Cipher Verif.Kdf Verif.Fernet

structure Algs where
  sha1 : HashFn
  sha256 : HashFn
  sha384 : HashFn
  sha512 : HashFn
  /-- CMAC over Blowfish, as a function of key and message -/
  blowfishCmac : Prf

/-- a keyed function and the keys with which making one does not panic -/
structure KeyedPrf where
  prf : Prf
  okKey : Bytes → Bool

/-- passhash9.go:113-145 with prf.go:25-27 (HMAC takes every key) and prf.go:39-51 (an error from the cipher, here Blowfish's
"invalid key size" for keys that are not of 1 to 56 bytes, is a panic) -/
def GetPbkdfPRF (A : Algs) (algId : Int) : Option KeyedPrf :=
  if algId = 0 then some ⟨A.sha1.hmac, fun _ => true⟩
  else if algId = 1 then some ⟨A.sha256.hmac, fun _ => true⟩
  else if algId = 2 then some ⟨A.blowfishCmac, fun k => 1 ≤ k.length && k.length ≤ 56⟩
  else if algId = 3 then some ⟨A.sha384.hmac, fun _ => true⟩
  else if algId = 4 then some ⟨A.sha512.hmac, fun _ => true⟩
  else none

/-- passhash9.go:147-153 -/
def IsAlgSupported (A : Algs) (algId : Int) : Bool := (GetPbkdfPRF A algId).isSome

/-- pbkdf2.go:5-47 with the keyed function made at its start -/
def pbkdf2Key (P : KeyedPrf) (password salt : Bytes) (iter keyLen : Int) : Res Bytes :=
  if P.okKey password then Pbkdf2.key P.prf password salt iter keyLen else .panic

/-- `"$9$"`, passhash9.go:19 -/
def MAGIC_PREFIX : Bytes := [0x24#8, 0x39#8, 0x24#8]

/-- passhash9.go:28-70; `workFactor` is a `uint16` -/
def GenerateHash (A : Algs) (rand pass : Bytes) (workFactor : BitVec 16) (algId : Int) : Res Bytes :=
  if ¬(workFactor.toNat > 0 ∧ workFactor.toNat < 512) then .panic
  else match GetPbkdfPRF A algId with
    | none => .panic
    | some prf =>
      if rand.length < 12 then .panic
      else
        let salt := rand.take 12
        let iterations : Int := 10000 * workFactor.toNat
        let blob := [BitVec.ofInt 8 algId] ++ hx 2 workFactor.toNat ++ salt
        (pbkdf2Key prf pass salt iterations 24).bind fun deriveKey =>
          .ok (MAGIC_PREFIX ++ b64enc false (blob ++ deriveKey))

/-- passhash9.go:72-117 -/
def CompareHash (A : Algs) (pass hash : Bytes) : Res Bool :=
  if hash.length ≠ 3 + (39 * 8) / 6 then .ok false
  else if ¬ MAGIC_PREFIX <+: hash then .ok false
  else
    let bin := (b64dec false (hash.drop 3)).1
    if bin.length ≠ 39 then .ok false
    else
      let algId : Int := (bin.getD 0 0).toNat
      let workFactor := Kb.beN ((bin.drop 1).take 2)
      if workFactor = 0 then .ok false
      else if workFactor > 512 then .panic
      else match GetPbkdfPRF A algId with
        | none => .ok false
        | some prf =>
          let salt := (bin.drop 3).take 12
          (pbkdf2Key prf pass salt (10000 * (workFactor : Int)) 24).bind fun cmp => .ok (decide (cmp = bin.drop 15))

end Verif.Passhash
