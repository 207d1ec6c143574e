import Verif.Jks.Codec
import Verif.Kdf.Common
/-
Model of /repo/jceks/jks.go, jks_encode.go, jks_decode.go, jks_encryptkey.go and jks_utils.go.

SHA-1 is any hash function with 20-byte values.  `encoding/asn1` is represented by what the code uses of it: the DER wrapping of the
protected key in an `EncryptedPrivateKeyInfo` and its inverse (`Asn1`).  Go maps are functions from names to optional values.
`crypto/rand` does not fail.  The variants that take `crypto.PrivateKey` and `*x509.Certificate` only convert to and from bytes
(`MarshalPKCS8PrivateKey`, `cert.Raw`) and are not modelled.
-/
namespace Verif.Jks
open Verif.Cipher Verif.Pub Verif.Kdf

/-- What is used of `encoding/asn1`: `EncryptedPrivateKeyInfo(oidKeyProtector, data)` and `DecryptedPrivateKeyInfo`
(jks_utils.go:43-68), which undoes it. -/
structure Asn1 where
  wrap : Bytes → Bytes
  unwrap : Bytes → Option Bytes
  unwrap_wrap : ∀ d, unwrap (wrap d) = some d

/-- SHA-1. -/
structure Sha1 where
  h : HashFn
  size : h.size = 20

/-- jks_utils.go:23-36 `charsToBytes` (the shift of a byte by 8 is zero). -/
def charsToBytes : Bytes → Bytes
  | [] => []
  | b :: p => (b >>> 8) :: b :: charsToBytes p

/-- "Mighty Aphrodite" (jks_utils.go:19). -/
def aphrodite : Bytes := [0x4d#8, 0x69#8, 0x67#8, 0x68#8, 0x74#8, 0x79#8, 0x20#8, 0x41#8, 0x70#8, 0x68#8, 0x72#8, 0x6f#8, 0x64#8, 0x69#8, 0x74#8, 0x65#8]

/-- `certType` (consts.go:8): "X.509". -/
def certType : Bytes := [0x58#8, 0x2e#8, 0x35#8, 0x30#8, 0x39#8]

/-! ### Key protection -/

/-- The loop of jks_encryptkey.go:25-38 and 67-80: `src` is what is left of the key or of the encrypted key. `keystream` has 20 bytes. -/
def keyLoop (S : Sha1) (passwd : Bytes) (keystream : Bytes) (src : Bytes) : Bytes :=
  if h : src.length = 0 then []
  else
    let ks := (S.h.f (passwd ++ keystream)).take keystream.length
    xorb ks src ++ keyLoop S passwd ks (src.drop (max 1 ks.length))
termination_by src.length
decreasing_by simp only [List.length_drop]; omega

/-- jks_encryptkey.go:10-47 `jksDecryptKey`: slices of a value shorter than 40 bytes panic. -/
def decryptKey (S : Sha1) (A : Asn1) (encryptedPKI passwd : Bytes) : Res Bytes :=
  match A.unwrap encryptedPKI with
  | none => .err
  | some encr =>
    if encr.length < 40 then .panic
    else
      let pw := charsToBytes passwd
      let check := encr.drop (encr.length - 20)
      let key := keyLoop S pw (encr.take 20) ((encr.drop 20).take (encr.length - 40))
      if check = S.h.f (pw ++ key) then .ok key else .err

/-- jks_encryptkey.go:50-85 `jksEncryptKey`; `rnd` are the 20 bytes of `genRandom(20)`. -/
def encryptKey (S : Sha1) (A : Asn1) (rnd key passwd : Bytes) : Bytes :=
  let pw := charsToBytes passwd
  A.wrap (rnd ++ keyLoop S pw rnd key ++ S.h.f (pw ++ key))

/-! ### The store -/

/-- jks.go:15-30 `JKS`. -/
structure Store where
  aliases : List Bytes
  trustedCerts : Bytes → Option Bytes
  privateKeys : Bytes → Option Bytes
  certChains : Bytes → Option (List Bytes)
  dates : Bytes → Option Int

/-- Assignment to a map. -/
def set {α : Type} (m : Bytes → Option α) (k : Bytes) (v : α) : Bytes → Option α := fun a => if a = k then some v else m a

/-- jks.go:33-41 `NewJKS`. -/
def newJKS : Store := ⟨[], fun _ => none, fun _ => none, fun _ => none, fun _ => none⟩

/-- The end of the Add functions (jks_encode.go:54-57, 93-96, 123-126). -/
def touch (s : Store) (al : Bytes) (now : Int) : Store :=
  if al ∈ s.aliases then s else { s with dates := set s.dates al now, aliases := s.aliases ++ [al] }

/-- jks_encode.go:72-99 `AddEncodedPrivateKeyBytes`. -/
def addEncoded (s : Store) (al encodedKey : Bytes) (chain : List Bytes) (now : Int) : Res Store :=
  if (s.trustedCerts al).isSome then .err
  else .ok (touch { s with privateKeys := set s.privateKeys al encodedKey, certChains := set s.certChains al chain } al now)

/-- jks_encode.go:32-60 `AddPrivateKeyBytes`. -/
def addPrivateKey (S : Sha1) (A : Asn1) (s : Store) (al key password : Bytes) (chain : List Bytes) (rnd : Bytes) (now : Int) : Res Store :=
  if (s.trustedCerts al).isSome then .err
  else .ok (touch { s with privateKeys := set s.privateKeys al (encryptKey S A rnd key password), certChains := set s.certChains al chain } al now)

/-- jks_encode.go:109-129 `AddTrustedCertBytes`. -/
def addCert (s : Store) (al cert : Bytes) (now : Int) : Res Store :=
  if (s.privateKeys al).isSome then .err
  else if cert.length = 0 then .err
  else .ok (touch { s with trustedCerts := set s.trustedCerts al cert } al now)

/-- The certificates of a chain (jks_encode.go:204-214). -/
def writeChain (chain : List Bytes) : Bytes := (chain.map fun c => writeUTF certType ++ writeBytes c).flatten

/-- One turn of the loop jks_encode.go:151-218. A missing map entry is the zero value; `getD 0` of a date stands for it too, it does not occur
for names in `aliases`. -/
def writeEntry (s : Store) (al : Bytes) : Bytes :=
  if (s.trustedCerts al).isSome then
    wrNat 4 2 ++ writeUTF al ++ writeDate ((s.dates al).getD 0) ++ writeUTF certType ++ writeBytes ((s.trustedCerts al).getD [])
  else
    wrNat 4 1 ++ writeUTF al ++ writeDate ((s.dates al).getD 0) ++ writeBytes ((s.privateKeys al).getD []) ++
      wrNat 4 ((s.certChains al).getD []).length ++ writeChain ((s.certChains al).getD [])

/-- jks_utils.go:10-21 `getJksPreKeyedHash`, applied to what is written to it. -/
def keyedHash (S : Sha1) (password data : Bytes) : Bytes := S.h.f (charsToBytes password ++ aphrodite ++ data)

/-- jks_encode.go:131-235 `Marshal`. -/
def marshal (S : Sha1) (s : Store) (password : Bytes) : Bytes :=
  let body := wrNat 4 0xFEEDFEED ++ wrNat 4 2 ++ wrNat 4 s.aliases.length ++ (s.aliases.map (writeEntry s)).flatten
  body ++ keyedHash S password body

/-- The chain loop jks_decode.go:39-55, `n` certificates. -/
def readChain : Nat → Rd (List Bytes)
  | 0 => .ret []
  | n + 1 => readUTF.bind fun t => if t ≠ certType then .fail else readBytes.bind fun c => (readChain n).bind fun l => .ret (c :: l)

/-- jks_decode.go:14-59 `parsePrivateKey`. -/
def parsePrivateKey (s : Store) : Rd Store :=
  readUTF.bind fun al => readDate.bind fun d => readBytes.bind fun k => readInt32.bind fun n =>
    (readChain (signed32 n).toNat).bind fun chain =>
      .ret { s with aliases := s.aliases ++ [al], dates := set s.dates al d, privateKeys := set s.privateKeys al k, certChains := set s.certChains al chain }

/-- jks_decode.go:61-90 `parseTrustedCert`. -/
def parseTrustedCert (s : Store) : Rd Store :=
  readUTF.bind fun al => readDate.bind fun d => readUTF.bind fun t => if t ≠ certType then .fail else readBytes.bind fun c =>
    .ret { s with aliases := s.aliases ++ [al], dates := set s.dates al d, trustedCerts := set s.trustedCerts al c }

/-- The loop jks_decode.go:118-141, `n` entries. -/
def parseEntries : Nat → Store → Rd Store
  | 0, s => .ret s
  | n + 1, s => readInt32.bind fun tag =>
      (if tag = 1 then parsePrivateKey s else if tag = 2 then parseTrustedCert s else .fail).bind fun s' => parseEntries n s'

/-- The reading part of jks_decode.go:93-141. -/
def parseBody (s : Store) : Rd Store :=
  (rdNat 4).bind fun magic => if magic ≠ 0xFEEDFEED then .fail else (rdNat 4).bind fun version => if version ≠ 2 then .fail else
    readInt32.bind fun count => parseEntries (signed32 count).toNat s

/-- jks_decode.go:93-155 `Parse`: the tee reader has hashed what was consumed. -/
def parse (S : Sha1) (s : Store) (data password : Bytes) : Res Store :=
  (parseBody s data).bind fun p =>
    (rdFull 20 p.2).bind fun q =>
      if keyedHash S password (data.take (data.length - p.2.length)) = q.1 then .ok p.1 else .err

/-- jks.go:44-60 `LoadJksFromReader`, `LoadJksFromBytes`. -/
def load (S : Sha1) (data password : Bytes) : Res Store := parse S newJKS data password

/-! ### Getters (jks_decode.go:178-260) -/

/-- A map lookup with the error "no data". -/
def look {α : Type} (m : Option α) : Res α := match m with | some v => .ok v | none => .err

/-- jks_decode.go:179-191 `GetPrivateKeyBytes`. -/
def getPrivateKey (S : Sha1) (A : Asn1) (s : Store) (al password : Bytes) : Res Bytes :=
  (look (s.privateKeys al)).bind fun e => decryptKey S A e password

/-- jks_decode.go:194-201 `GetEncodedKey`. -/
def getEncodedKey (s : Store) (al : Bytes) : Res Bytes := look (s.privateKeys al)

/-- jks_decode.go:226-233 `GetCertChainBytes`. -/
def getCertChain (s : Store) (al : Bytes) : Res (List Bytes) := look (s.certChains al)

/-- jks_decode.go:251-258 `GetCertBytes`. -/
def getCert (s : Store) (al : Bytes) : Res Bytes := look (s.trustedCerts al)

/-- jks_decode.go:261-268 `GetCreateDate`. -/
def getCreateDate (s : Store) (al : Bytes) : Res Int := look (s.dates al)

/-- jks_decode.go:271-278 `ListPrivateKeys`: the names listed, in any order. -/
def listPrivateKeys (s : Store) (al : Bytes) : Prop := (s.privateKeys al).isSome

/-- jks_decode.go:281-289 `ListCerts`. -/
def listCerts (s : Store) (al : Bytes) : Prop := (s.trustedCerts al).isSome

end Verif.Jks
