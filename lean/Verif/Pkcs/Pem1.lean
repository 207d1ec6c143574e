import Verif.Pkcs.Modes
import Verif.Kdf.Loop
import Verif.Fernet.Base64
/-
Model of /repo/pkcs1: PEM blocks encrypted with a password (RFC 1423, OpenSSL "traditional" private keys).

A header map is a list of name/value pairs, a string is its bytes.  `encoding/hex` is modelled as in Fernet/Base64.lean.  `AddCipher` extends
the table at run time; the model has the table that `init` builds.  The random source is the list of bytes it still delivers.
-/
namespace Verif.Pkcs
open Verif.Kdf

/-- The bytes of an ASCII string. -/
def str (s : String) : Bytes := s.toList.map fun ch => BitVec.ofNat 8 ch.toNat

namespace Pem1

/-- The fields of `CipherCBC`, `CipherCFB`, `CipherOFB`, `CipherCTR` (cipher_cbc.go:10-23 and the same in the other three); the type is `md`. -/
structure Cph where
  name : Bytes
  md : Md
  alg : Alg
  saltSize : Nat
  keySize : Nat
  blockSize : Nat
  deriving DecidableEq

/-- One column of cipher_setting.go: the same seven ciphers in each mode, with the mode at the end of the name. -/
def column (md : Md) (suffix : String) : List Cph :=
  [⟨str ("DES" ++ suffix), md, .des, 8, 8, 8⟩, ⟨str ("DES-EDE3" ++ suffix), md, .des3, 8, 24, 8⟩,
   ⟨str ("AES-128" ++ suffix), md, .aes, 8, 16, 16⟩, ⟨str ("AES-192" ++ suffix), md, .aes, 8, 24, 16⟩, ⟨str ("AES-256" ++ suffix), md, .aes, 8, 32, 16⟩,
   ⟨str ("SM4" ++ suffix), md, .sm4, 8, 16, 16⟩, ⟨str ("GRASSHOPPER" ++ suffix), md, .kuznyechik, 8, 32, 16⟩]

/-- cipher_setting.go:11-379: the variables, and the entries `init` makes, each under its own name. -/
def table : List Cph := column .cbc "-CBC" ++ column .cfb "-CFB" ++ column .ofb "-OFB" ++ column .ctr "-CTR"

/-- cipher.go:34-43 (`GetCipher`) and pkcs1.go:102-109 (`cipherByName`). -/
def getCipher (name : Bytes) : Option Cph := table.find? fun c => c.name == name

/-- The keys of the map in helper.go:4-36, in the order of `table`, to which it refers. -/
def shortNames : List String :=
  ["CBC", "CFB", "OFB", "CTR"].flatMap fun m => ["DES", "DESEDE3", "AES128", "AES192", "AES256", "SM4", "Grasshopper"].map fun a => a ++ m

/-- helper.go:39-45 (`GetPEMCipher`); `none` is nil. -/
def getPEMCipher (name : Bytes) : Option Cph := ((shortNames.map str).zip table).findSome? fun p => if p.1 = name then some p.2 else none

/-- cipher.go:48-63 (`DeriveKey`).  `keySize + 1` steps are more than the loop takes. -/
def deriveKey (md5 : HashFn) (password salt : Bytes) (keySize : Nat) : Res Bytes :=
  genLoop (fun digest => let d := md5.f (digest ++ password ++ salt); (d, d)) keySize (keySize + 1) [] (List.replicate keySize 0#8) 0

/-- cipher_cbc.go:36-67, cipher_cfb.go:36-56, cipher_ofb.go:36-56, cipher_ctr.go:36-56 (`Encrypt`): the ciphertext, the IV and the rest of the random bytes.
`cipher.NewCBCEncrypter` and its siblings panic when the IV is not one block. -/
def encrypt (P : Ciphers) (md5 : HashFn) (c : Cph) (rand password plaintext : Bytes) : Res (Bytes × Bytes × Bytes) :=
  (readFull c.blockSize rand).bind fun r =>
    if r.1.length < c.saltSize then .panic
    else (deriveKey md5 password (r.1.take c.saltSize) c.keySize).bind fun key =>
      (P.new c.alg key).bind fun b =>
        if r.1.length ≠ b.bs then .panic
        else .ok (c.md.enc b r.1 (c.md.pad b.bs plaintext), r.1, r.2)

/-- cipher_cbc.go:70-107, cipher_cfb.go:59-79, cipher_ofb.go:59-79, cipher_ctr.go:59-79 (`Decrypt`). -/
def decrypt (P : Ciphers) (md5 : HashFn) (c : Cph) (password iv ciphertext : Bytes) : Res Bytes :=
  if iv.length < c.saltSize then .err
  else (deriveKey md5 password (iv.take c.saltSize) c.keySize).bind fun key =>
    (P.new c.alg key).bind fun b =>
      if c.md.padded ∧ ciphertext.length % b.bs ≠ 0 then .err
      else if iv.length ≠ b.bs then .panic
      else c.md.openCt b iv ciphertext

/-- `pem.Block`. -/
structure Block where
  type : Bytes
  headers : List (Bytes × Bytes)
  bytes : Bytes

/-- Reading a map. -/
def header (b : Block) (name : Bytes) : Option Bytes := (b.headers.find? fun p => p.1 == name).map (·.2)

/-- pkcs1.go:21-24 (`IsEncryptedPEMBlock`). -/
def isEncrypted (b : Block) : Bool := (header b (str "DEK-Info")).isSome

/-- `strings.Cut(s, ",")`. -/
def cut (s : Bytes) : Option (Bytes × Bytes) :=
  match s with
  | [] => none
  | x :: r => if x = 44#8 then some ([], r) else (cut r).map fun p => (x :: p.1, p.2)

/-- `hex.EncodeToString`. -/
def hexDigit (n : Nat) : Byte := BitVec.ofNat 8 (if n < 10 then 48 + n else 87 + n)
def hexEnc (b : Bytes) : Bytes := b.flatMap fun x => [hexDigit (x.toNat / 16), hexDigit (x.toNat % 16)]

/-- pkcs1.go:41-72 (`DecryptPEMBlock`). -/
def decryptBlock (P : Ciphers) (md5 : HashFn) (b : Block) (password : Bytes) : Res Bytes :=
  match header b (str "DEK-Info") with
  | none => .err
  | some dek =>
    match cut dek with
    | none => .err
    | some (mode, hexIV) =>
      match getCipher mode with
      | none => .err
      | some c =>
        match Fernet.hexDec hexIV with
        | none => .err
        | some iv => if iv.length ≠ c.blockSize then .err else decrypt P md5 c password iv b.bytes

/-- pkcs1.go:81-100 (`EncryptPEMBlock`); `none` is the nil cipher. -/
def encryptBlock (P : Ciphers) (md5 : HashFn) (rand blockType data password : Bytes) (cipher : Option Cph) : Res Block :=
  match cipher with
  | none => .err
  | some c =>
    (encrypt P md5 c rand password data).bind fun r =>
      .ok ⟨blockType, [(str "Proc-Type", str "4,ENCRYPTED"), (str "DEK-Info", c.name ++ str "," ++ hexEnc r.2.1)], r.1⟩

end Pem1
end Verif.Pkcs
