import Verif.Pkcs.Pbes2
/-
Model of /repo/pkcs8/pkcs8.go and /repo/pkcs8/pbes2/helper.go: the choice between PBES1 and PBES2, and options from names.
-/
namespace Verif.Pkcs.Pbes2
open Verif.Asn1 Verif.Kdf

/-- /repo/pkcs/pbes2/helper.go:4-120 (`cipherMap`, `GetCipherFromName`): an unknown name gives AES256CBC. -/
def cipherFromName (n : String) : Option Cph :=
  match (table ++ variants).find? (·.name == n) with
  | some c => some c
  | none => (table ++ variants).find? (·.name == "AES256CBC")

/-- helper.go:4-25 (`hashMap`, `GetHashFromName`): an unknown name gives SHA-1. -/
def hashNames : List String := ["MD5", "SHA1", "SHA224", "SHA256", "SHA384", "SHA512", "SHA512_224", "SHA512_256", "SM3", "GOST34112012256", "GOST34112012512"]
def hashFromName (n : String) : Nat := if n ∈ hashNames then hashNames.idxOf n + 1 else 2

/-- pkcs8.go:28-31, helper.go:39-42 and 69-72. -/
def defKdf : KdfOpts := .pbkdf2 false 16 10000 0

/-- helper.go:28-94 (`MakeOpts`) for a cipher name and a hash name. -/
def makeOpts (cipher : String) (hash : Option String) : Option Cph × KdfOpts :=
  (cipherFromName cipher, match hash with | none => defKdf | some h => .pbkdf2 false 16 10000 (hashFromName h))

/-- What `EncryptPEMBlock` of pkcs8 accepts as options: a cipher of PBES1 or of PBES2, `Opts` with such a cipher or with a nil cipher, or anything else. -/
inductive PemOpts where
  | c1 (c : Pbes1.Cph)
  | c2 (c : Cph)
  | opts1 (c : Pbes1.Cph) (kdf : Option KdfOpts)
  | opts2 (c : Cph) (kdf : Option KdfOpts)
  | optsNil (kdf : Option KdfOpts)
  | other

/-- `GetCipher` for the text of an identifier (/repo/pkcs/pbes2/cipher.go:69-104): no parameters are looked at. -/
def known2 (oid : List Nat) : Bool := table.any (·.oid == oid)

/-- /repo/pkcs8/pkcs8.go:212-240 (`EncryptPEMBlock`).  A PBES2 cipher that is not registered would go to PBES1, and a PBES1 cipher that is not registered would go to PBES2: both cannot happen with the
library's ciphers and are left out (`hang`). -/
def encryptPEM (E1 : Pbes1.Env) (E2 : Env) (rand type data pw : Bytes) : PemOpts → Res Pem1.Block
  | .c1 c => if known2 c.oid then .hang else Pbes1.encryptPkcs8 E1 true rand type data pw (some c)
  | .c2 c => if known2 c.oid then encryptPkcs8 E2 rand type data pw (some c) (some defKdf) else .hang
  | .opts1 c _ => if (Pbes1.getCipher c.oid).isSome then Pbes1.encryptPkcs8 E1 true rand type data pw (some c) else .hang
  | .opts2 c kdf => if (Pbes1.getCipher c.oid).isSome then .hang else encryptPkcs8 E2 rand type data pw (some c) kdf
  | .optsNil _ => .panic
  | .other => .err

/-- pkcs8.go:243-268 (`DecryptPEMBlock`). -/
def decryptPEM (E1 : Pbes1.Env) (E2 : Env) (b : Pem1.Block) (pw : Bytes) : Res Bytes :=
  if Pem1.header b (str "Proc-Type") = some (str "4,ENCRYPTED") then Pem1.decryptBlock E1.C E1.md5 b pw
  else if b.type = str "ENCRYPTED PRIVATE KEY" then
    match decryptPkcs8 E2 b.bytes pw with
    | .err => Pbes1.decryptPkcs8 E1 true b.bytes pw
    | r => r
  else .err

end Verif.Pkcs.Pbes2
