import Verif.Jks.JksLemmas
import Verif.Facade.Lemmas
import Verif.Padding.Props
/-
Model of /repo/jceks/jceks.go, jceks_entry.go, jceks_encode.go, jceks_decode.go, jceks_utils.go, cipher_blockcbc.go (for the two ciphers of
cipher_setting.go that are registered) and derivedKey of cipher_key.go.

MD5 and SHA-1 are any hash functions of at most 32 bytes, triple DES any family of block ciphers with 8-byte blocks.  `encoding/asn1` is
represented by the DER encoding of the encrypted data with algorithm and parameters and its inverse (`Asn1P`).  A Go map is a function; the
order in which `range` visits it is an argument of `marshal`.  `crypto/rand` does not fail.  The variants with `crypto.PrivateKey` and `*x509.Certificate`
only convert to and from bytes and are not modelled.
-/
namespace Verif.Jks
open Verif.Cipher Verif.Pub Verif.Kdf Verif.Mode Verif.Facade Verif.Padding

/-- The parts of a `CipherBlockCBC` (cipher_setting.go:23-42). -/
structure Pbe where
  h : HashFn
  h_size : h.size ≤ 32
  bc : Bytes → BlockCipher
  bs : ∀ k, (bc k).bs = 8

/-- The two registered ciphers by OID (cipher_setting.go:64-71): `true` is PBEWithMD5And3DES, the default. -/
abbrev Pbes := Bool → Pbe

/-- `encryptedDataInfo` with its algorithm and `pbeParam` (jceks_utils.go:95-98, cipher_blockcbc.go:12-15): `dec` gives the cipher (none: an OID that is not registered), salt
and iteration count (none: not such parameters), and the data. -/
structure Asn1P where
  enc : Bool → Bytes → Int → Bytes → Bytes
  dec : Bytes → Option (Option Bool × Option (Bytes × Int) × Bytes)
  dec_enc : ∀ o salt iter d, dec (enc o salt iter d) = some (some o, some (salt, iter), d)

/-! ### Encryption with a password -/

/-- cipher_key.go:13-21 `formatPassword`. -/
def formatPassword (password : Bytes) : Bytes := password.map (· &&& 0x7f#8)

/-- cipher_key.go:23-36 `formatSalt`: when the halves are equal the first one is reversed. -/
def formatSalt (salt : Bytes) : Option Bytes :=
  if salt.length ≠ 8 then none
  else if salt.take 4 = salt.drop 4 then some ((salt.take 4).reverse ++ salt.drop 4) else some salt

/-- The loop cipher_key.go:63-68: `n` turns. -/
def hashTimes (H : HashFn) (pw : Bytes) : Nat → Bytes → Bytes
  | 0, b => b
  | n + 1, b => hashTimes H pw n (H.f (b ++ pw))

/-- cipher_key.go:41-77 `derivedKey` with keyLen = 24 and ivLen = 8. -/
def derivedKey (H : HashFn) (password salt : Bytes) (iter : Int) : Option (Bytes × Bytes) :=
  match formatSalt salt with
  | none => none
  | some s =>
    let pw := formatPassword password
    let a := hashTimes H pw iter.toNat (s.take 4)
    let b := hashTimes H pw iter.toNat (s.drop 4)
    let d := Kdf.copyAt (Kdf.copyAt (List.replicate 32 0#8) 0 a) b.length b
    some (d.take 24, d.drop 24)

/-- cipher_blockcbc.go:82-113 `encrypt` (2048 iterations), with `Encrypt` and `EncodeData` (jceks_utils.go:101-127). -/
def encodeData (P : Pbes) (A : Asn1P) (o : Bool) (salt password data : Bytes) : Res Bytes :=
  match derivedKey (P o).h password salt 2048 with
  | none => .err
  | some (key, iv) => .ok (A.enc o salt 2048 (blkRun 8 (cbcEncF ((P o).bc key)) iv (pkcs7Pad data 8)).1)

/-- cipher_blockcbc.go:115-146 `decrypt`. -/
def decryptPbe (P : Pbe) (password salt : Bytes) (iter : Int) (ct : Bytes) : Res Bytes :=
  match derivedKey P.h password salt iter with
  | none => .err
  | some (key, iv) =>
    if ct.length = 0 ∨ ct.length % 8 ≠ 0 then .err
    else pkcs7Unpad (blkRun 8 (cbcDecF (P.bc key)) iv ct).1

/-- jceks_utils.go:130-148 `DecodeData`. -/
def decodeData (P : Pbes) (A : Asn1P) (e password : Bytes) : Res Bytes :=
  match A.dec e with
  | none => .err
  | some (none, _, _) => .err
  | some (some _, none, _) => .err
  | some (some o, some (salt, iter), ct) => decryptPbe (P o) password salt iter ct

/-! ### The store -/

/-- jceks_entry.go:8-12, 36-39, 47-50: the entries. -/
inductive Ent where
  | key (date : Int) (encodedKey : Bytes) (certs : List Bytes)
  | cert (date : Int) (cert : Bytes)
  | secret (date : Int) (encodedKey : Bytes)

/-- A value of the map: the struct itself (stored by the Add functions) or a pointer to it (stored by Parse). -/
inductive Val where
  | val (e : Ent)
  | ptr (e : Ent)

/-- jceks.go:14-17 `JCEKS`. -/
abbrev JStore := Bytes → Option Val

/-- jceks.go:20-24. -/
def newJCEKS : JStore := fun _ => none

/-- jceks_encode.go:35-56 `AddPrivateKeyBytes`. -/
def jAddKey (P : Pbes) (A : Asn1P) (s : JStore) (al key password : Bytes) (certs : List Bytes) (o : Bool) (salt : Bytes) (now : Int) : Res JStore :=
  (encodeData P A o salt password key).bind fun e => .ok (set s al (.val (.key now e certs)))

/-- jceks_encode.go:67-78 `AddTrustedCertBytes`. -/
def jAddCert (s : JStore) (al cert : Bytes) (now : Int) : Res JStore := .ok (set s al (.val (.cert now cert)))

/-- jceks_encode.go:81-100 `AddSecretKey`. -/
def jAddSecret (P : Pbes) (A : Asn1P) (s : JStore) (al key password : Bytes) (o : Bool) (salt : Bytes) (now : Int) : Res JStore :=
  (encodeData P A o salt password key).bind fun e => .ok (set s al (.val (.secret now e)))

/-- One turn of the loop jceks_encode.go:215-224: what is written, and the new value of `err` (`some true`: an error, `none`: not assigned).
`marshalPrivateKey` (102-147) returns an error before writing when there is no certificate. -/
def jWrite : Bytes × Val → Bytes × Option Bool
  | (al, .val (.key d k certs)) =>
    if certs.length = 0 then ([], some true)
    else (wrNat 4 1 ++ writeUTF al ++ writeDate d ++ writeBytes k ++ wrNat 4 certs.length ++ writeChain certs, some false)
  | (al, .val (.cert d c)) => (wrNat 4 2 ++ writeUTF al ++ writeDate d ++ writeUTF certType ++ writeBytes c, some false)
  | (al, .val (.secret d k)) => (wrNat 4 3 ++ writeUTF al ++ writeDate d ++ writeBytes k, some false)
  | (_, .ptr _) => ([], none)

/-- The loop jceks_encode.go:215-224. -/
def jWriteAll : List (Bytes × Val) → Bytes → Bool → Bytes × Bool
  | [], buf, err => (buf, err)
  | x :: l, buf, err => jWriteAll l (buf ++ (jWrite x).1) ((jWrite x).2.getD err)

/-- jceks_utils.go:15-29 `getPreKeyedHash`, applied to what is written to it. -/
def preKeyedHash (S : Sha1) (password data : Bytes) : Bytes := S.h.f ((password.map fun b => [0#8, b]).flatten ++ aphrodite ++ data)

/-- jceks_encode.go:199-249 `Marshal`; `order` lists the entries of the map in the order `range` visits them. -/
def jMarshal (S : Sha1) (order : List (Bytes × Val)) (password : Bytes) : Res Bytes :=
  let head := wrNat 4 0xcececece ++ wrNat 4 2 ++ wrNat 4 order.length
  let r := jWriteAll order head false
  if r.2 then .err
  else if password = [] then .ok r.1
  else .ok (r.1 ++ preKeyedHash S password r.1)

/-- jceks_decode.go:15-60 `parsePrivateKey`. -/
def jParseKey (s : JStore) : Rd JStore :=
  readUTF.bind fun al => readDate.bind fun d => readBytes.bind fun k => readInt32.bind fun n =>
    (readChain (signed32 n).toNat).bind fun certs => .ret (set s al (.ptr (.key d k certs)))

/-- jceks_decode.go:62-92 `parseTrustedCert`. -/
def jParseCert (s : JStore) : Rd JStore :=
  readUTF.bind fun al => readDate.bind fun d => readUTF.bind fun t => if t ≠ certType then .fail else readBytes.bind fun c =>
    .ret (set s al (.ptr (.cert d c)))

/-- jceks_decode.go:94-114 `parseSecretKey`. -/
def jParseSecret (s : JStore) : Rd JStore :=
  readUTF.bind fun al => readDate.bind fun d => readBytes.bind fun k => .ret (set s al (.ptr (.secret d k)))

/-- The loop jceks_decode.go:139-169. -/
def jParseEntries : Nat → JStore → Rd JStore
  | 0, s => .ret s
  | n + 1, s => readInt32.bind fun tag =>
      (if tag = 1 then jParseKey s else if tag = 2 then jParseCert s else if tag = 3 then jParseSecret s else .fail).bind fun s' => jParseEntries n s'

/-- The reading part of jceks_decode.go:117-169 with `parseHeader` (jceks_utils.go:31-47). -/
def jParseBody (s : JStore) : Rd JStore :=
  (rdNat 4).bind fun magic => if ¬(magic = 0xcececece ∨ magic = 0xFEEDFEED) then .fail else (rdNat 4).bind fun version => if ¬version = 2 then .fail else
    readInt32.bind fun count => jParseEntries (signed32 count).toNat s

/-- jceks_decode.go:117-186 `Parse`. -/
def jParse (S : Sha1) (s : JStore) (data password : Bytes) : Res JStore :=
  (jParseBody s data).bind fun p =>
    if password = [] then .ok p.1
    else (rdFull 20 p.2).bind fun q =>
      if preKeyedHash S password (data.take (data.length - p.2.length)) = q.1 then .ok p.1 else .err

/-- jceks.go:27-47 `LoadJceksFromReader`, `LoadJceksFromBytes`. -/
def jLoad (S : Sha1) (data password : Bytes) : Res JStore := jParse S newJCEKS data password

/-! ### Getters; a nil result without an error is `ok none` -/

/-- jceks_decode.go:232-259 `GetPrivateKeyAndCertsBytes`. -/
def jGetKey (P : Pbes) (A : Asn1P) (s : JStore) (al password : Bytes) : Res (Option (Bytes × List Bytes)) :=
  match s al with
  | none => .err
  | some (.ptr (.key _ e certs)) => if certs.length < 1 then .err else (decodeData P A e password).bind fun k => .ok (some (k, certs))
  | some _ => .ok none

/-- jceks_decode.go:282-294 `GetCertBytes`. -/
def jGetCert (s : JStore) (al : Bytes) : Res (Option Bytes) :=
  match s al with
  | none => .err
  | some (.ptr (.cert _ c)) => .ok (some c)
  | some _ => .ok none

/-- jceks_decode.go:297-311 `GetSecretKey`. -/
def jGetSecret (P : Pbes) (A : Asn1P) (s : JStore) (al password : Bytes) : Res (Option Bytes) :=
  match s al with
  | none => .err
  | some (.ptr (.secret _ e)) => (decodeData P A e password).bind fun k => .ok (some k)
  | some _ => .ok none

/-- jceks_decode.go:314-346: the names listed by `ListPrivateKeys`, `ListCerts`, `ListSecretKeys`. -/
def jListKeys (s : JStore) (al : Bytes) : Prop := ∃ d e c, s al = some (.ptr (.key d e c))
def jListCerts (s : JStore) (al : Bytes) : Prop := ∃ d c, s al = some (.ptr (.cert d c))
def jListSecrets (s : JStore) (al : Bytes) : Prop := ∃ d e, s al = some (.ptr (.secret d e))

end Verif.Jks
