import Verif.Pkcs.Pem1
import Verif.Pkcs.Der
import Verif.Pkcs.Bmp
import Verif.Kdf.P12
/-
Model of /repo/pkcs/pbes1 (password based encryption of PKCS #5 version 1 and PKCS #12) and of /repo/pkcs8/pbes1 (private keys encrypted with it).

MD2, MD5 and SHA-1 are any hash functions with digests of 16, 16 and 20 bytes, RC4 any family of key streams.  The tables are those `init` builds; `AddCipher` extends them at
run time.  The methods `With…` make a copy of a cipher with one field changed.
-/
namespace Verif.Pkcs
open Verif.Asn1 Verif.Kdf Verif.Mode

namespace Pbes1

structure Env where
  C : Ciphers
  md2 : HashFn
  md5 : HashFn
  sha1 : HashFn
  md2_size : md2.size = 16
  md5_size : md5.size = 16
  sha1_size : sha1.size = 20
  rc4 : Bytes → Nat → Byte

inductive Hn where
  | md2 | md5 | sha1
  deriving DecidableEq

def Env.hash (E : Env) : Hn → HashFn
  | .md2 => E.md2
  | .md5 => E.md5
  | .sha1 => E.sha1

inductive Kd where
  | pkcs12 | pbkdf1
  deriving DecidableEq

/-- The fields of `CipherBlockCBC` (cipher_blockcbc.go:18-39) and of `CipherRC4` (cipher_rc4.go:18-37, here `alg = none`). -/
structure Cph where
  oid : List Nat
  alg : Option Alg
  hash : Hn
  kdf : Kd
  saltSize : Nat
  keySize : Nat
  blockSize : Nat
  iter : Nat
  bmp : Bool
  deriving DecidableEq

/-- cipher_setting.go:52-221 and 223-271. -/
def table : List Cph :=
  [⟨[1, 2, 840, 113549, 1, 12, 1, 3], some .des3, .sha1, .pkcs12, 8, 24, 8, 2048, true⟩,
   ⟨[1, 2, 840, 113549, 1, 12, 1, 4], some .des2, .sha1, .pkcs12, 8, 16, 8, 2048, true⟩,
   ⟨[1, 2, 840, 113549, 1, 12, 1, 5], some .rc2, .sha1, .pkcs12, 20, 16, 8, 2048, true⟩,
   ⟨[1, 2, 840, 113549, 1, 12, 1, 6], some .rc2, .sha1, .pkcs12, 20, 5, 8, 2048, true⟩,
   ⟨[1, 2, 840, 113549, 1, 12, 1, 1], none, .sha1, .pkcs12, 20, 16, 16, 2048, true⟩,
   ⟨[1, 2, 840, 113549, 1, 12, 1, 2], none, .sha1, .pkcs12, 20, 5, 5, 2048, true⟩,
   ⟨[1, 2, 840, 113533, 7, 66, 12], some .cast5, .md5, .pkcs12, 8, 16, 8, 2048, true⟩,
   ⟨[1, 2, 840, 113549, 1, 12, 21], some .twofish, .sha1, .pkcs12, 16, 32, 16, 2048, true⟩,
   ⟨[1, 2, 840, 113549, 1, 5, 1], some .des, .md2, .pbkdf1, 8, 8, 8, 2048, false⟩,
   ⟨[1, 2, 840, 113549, 1, 5, 4], some .rc2, .md2, .pbkdf1, 20, 8, 8, 2048, false⟩,
   ⟨[1, 2, 840, 113549, 1, 5, 3], some .des, .md5, .pbkdf1, 8, 8, 8, 2048, false⟩,
   ⟨[1, 2, 840, 113549, 1, 5, 6], some .rc2, .md5, .pbkdf1, 20, 8, 8, 2048, false⟩,
   ⟨[1, 2, 840, 113549, 1, 5, 10], some .des, .sha1, .pbkdf1, 8, 8, 8, 2048, false⟩,
   ⟨[1, 2, 840, 113549, 1, 5, 11], some .rc2, .sha1, .pbkdf1, 20, 8, 8, 2048, false⟩]

/-- cipher.go:73-90 (`GetCipher`); the map is keyed by the dotted form of the identifier, which determines it. -/
def getCipher (oid : List Nat) : Option Cph := table.find? fun c => c.oid == oid

/-- cipher_derived_key.go:21-23: `n` more rounds. -/
def rehash (H : HashFn) : Nat → Bytes → Bytes
  | 0, k => k
  | n + 1, k => rehash H n (H.f k)

/-- cipher_derived_key.go:10-26 (`DerivedKeyPkcs12`, `DerivedKeyPbkdf1`).  Slicing beyond the digest panics. -/
def derive (E : Env) (c : Cph) (password salt : Bytes) (iter : Int) : Res (Bytes × Bytes) :=
  match c.kdf with
  | .pkcs12 =>
    (P12.key (E.hash c.hash) 20 64 salt password iter 1 c.keySize).bind fun key =>
      (P12.key (E.hash c.hash) 20 64 salt password iter 2 c.blockSize).bind fun iv => .ok (key, iv)
  | .pbkdf1 =>
    let k := rehash (E.hash c.hash) (iter - 1).toNat ((E.hash c.hash).f (password ++ salt))
    if k.length < c.keySize + c.blockSize then .panic else .ok (k.take c.keySize, (k.drop c.keySize).take c.blockSize)

def rc4Xor (E : Env) (key x : Bytes) : Bytes := xorb x ((List.range x.length).map (E.rc4 key))

/-- cipher_blockcbc.go:62-94 and cipher_rc4.go:60-88 (`Encrypt`): ciphertext and parameters.  `rc4.NewCipher` takes keys of 1 to 256 bytes. -/
def encrypt (E : Env) (c : Cph) (rand password plaintext : Bytes) : Res (Bytes × Bytes) :=
  (readFull c.saltSize rand).bind fun r =>
    (derive E c password r.1 c.iter).bind fun ki =>
      let params := encSeq (encOct r.1 ++ encInt c.iter)
      match c.alg with
      | none => if ki.1.length < 1 ∨ 256 < ki.1.length then .err else .ok (rc4Xor E ki.1 plaintext, params)
      | some a =>
        (E.C.new a ki.1).bind fun b =>
          if ki.2.length ≠ b.bs then .panic
          else if (Md.pad .cbc c.blockSize plaintext).length % b.bs ≠ 0 then .panic
          else .ok (Md.enc .cbc b ki.2 (Md.pad .cbc c.blockSize plaintext), params)

/-- The parameters: a salt and a count; what follows them in the SEQUENCE, and what follows the SEQUENCE, is ignored. -/
def parseParams (params : Bytes) : Option (Bytes × Int) :=
  match element 0x30#8 params with
  | none => none
  | some (pc, _) =>
    match octField pc with
    | none => none
    | some (salt, r) =>
      match int64Field r with
      | none => none
      | some (iter, _) => some (salt, iter)

/-- cipher_blockcbc.go:97-134 and cipher_rc4.go:91-109 (`Decrypt`). -/
def decrypt (E : Env) (c : Cph) (password params ciphertext : Bytes) : Res Bytes :=
  match parseParams params with
  | none => .err
  | some (salt, iter) =>
    (derive E c password salt iter).bind fun ki =>
      match c.alg with
      | none => if ki.1.length < 1 ∨ 256 < ki.1.length then .err else .ok (rc4Xor E ki.1 ciphertext)
      | some a =>
        (E.C.new a ki.1).bind fun b =>
          if ciphertext.length % b.bs ≠ 0 then .err
          else if ki.2.length ≠ b.bs then .panic
          else Md.openCt .cbc b ki.2 ciphertext

/-! ### /repo/pkcs8/pbes1/pkcs8.go -/

/-- pkcs8.go:34-40 and 83-89; `fmt` is false in the functions `…Privatekey`, which take the password as it is. -/
def formatPw (fmt : Bool) (c : Cph) (password : Bytes) : Res Bytes := if fmt && c.bmp then bmpZ password else .ok password

/-- pkcs8.go:23-69 (`EncryptPKCS8PrivateKey`), 102-140 (`EncryptPKCS8Privatekey`); `none` is the nil cipher. -/
def encryptPkcs8 (E : Env) (fmt : Bool) (rand type data password : Bytes) (cipher : Option Cph) : Res Pem1.Block :=
  match cipher with
  | none => .err
  | some c =>
    (formatPw fmt c password).bind fun pw =>
      (encrypt E c rand pw data).bind fun r => .ok ⟨type, [], encSeq (encSeq (encOID c.oid ++ r.2) ++ encOct r.1)⟩

/-- `asn1.Unmarshal` into `encryptedPrivateKeyInfo` (pkcs8.go:17-20, 73-76): identifier, raw parameters (empty when there are none), data.  What follows the fields is ignored. -/
def parsePki (data : Bytes) : Option (List Nat × Bytes × Bytes) :=
  match element 0x30#8 data with
  | none => none
  | some (c, _) =>
    match element 0x30#8 c with
    | none => none
    | some (alg, r) =>
      match oidField alg with
      | none => none
      | some (oid, pr) =>
        match (if pr.isEmpty then some [] else (rawField pr).map (·.1)) with
        | none => none
        | some params =>
          match octField r with
          | none => none
          | some (enc, _) => some (oid, params, enc)

/-- pkcs8.go:72-99 (`DecryptPKCS8PrivateKey`), 143-162 (`DecryptPKCS8Privatekey`), 178-189. -/
def decryptPkcs8 (E : Env) (fmt : Bool) (data password : Bytes) : Res Bytes :=
  match parsePki data with
  | none => .err
  | some (oid, params, enc) =>
    match getCipher oid with
    | none => .err
    | some c => (formatPw fmt c password).bind fun pw => decrypt E c pw params enc

/-- pkcs8.go:165-176 (`DecryptPEMBlock`). -/
def decryptPEMBlock (E : Env) (b : Pem1.Block) (password : Bytes) : Res Bytes :=
  if Pem1.header b (str "Proc-Type") = some (str "4,ENCRYPTED") then Pem1.decryptBlock E.C E.md5 b password
  else if b.type = str "ENCRYPTED PRIVATE KEY" then decryptPkcs8 E true b.bytes password
  else .err

end Pbes1
end Verif.Pkcs
