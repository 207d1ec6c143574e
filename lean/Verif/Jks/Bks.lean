import Verif.Jks.JceksProps
import Verif.Kdf.P12Props
/-
Model of /repo/jceks/bks.go, bks_entry.go, bks_encode.go, bks_decode.go, uber.go, uber_encode.go, uber_decode.go and of the ciphers for BKS and UBER
(cipher_setting.go:45-62, cipher_blockcbc.go, cipher_key.go:79-120).

SHA-1 is any hash function of 20 bytes, triple DES and Twofish any families of block ciphers with 8-byte and 16-byte blocks.  The UTF-16 encoder of
golang.org/x/text is any function `U`.  A Go map is a function; the order in which `range` visits it, and the random salt drawn for each entry then,
are arguments.  `crypto/rand` does not fail.  Parsing of the recovered key bytes as PKCS#8 and of certificates is not modelled, nor are the variants of the
Add functions that take `*x509.Certificate` and `crypto.PrivateKey`, which convert to bytes and call those modelled here.  Entries are pointers in the code; no two
names share one, so that an update through the pointer is an update of the map.
-/
namespace Verif.Jks
open Verif.Cipher Verif.Pub Verif.Kdf Verif.Mode Verif.Facade Verif.Padding

/-- Block ciphers with `n`-byte blocks, by key. -/
structure Bc (n : Nat) where
  bc : Bytes → BlockCipher
  bs : ∀ k, (bc k).bs = n

/-! ### Keys and encryption -/

/-- cipher_key.go:79-88 `bksFormatPassword`. -/
def bksFormatPassword (U : Bytes → Bytes) (password : Bytes) : Bytes := if password.length = 0 then password else U password ++ [0#8, 0#8]

/-- cipher_key.go:91-106 `derivedKeyWithPbkdf`. -/
def derivedKeyWithPbkdf (S : Sha1) (U : Bytes → Bytes) (password salt : Bytes) (iter : Int) (keyLen ivLen : Nat) : Res (Bytes × Bytes) :=
  (P12.key S.h 20 64 salt (bksFormatPassword U password) iter 1 keyLen).bind fun key =>
    (P12.key S.h 20 64 salt (bksFormatPassword U password) iter 2 ivLen).bind fun iv => .ok (key, iv)

/-- cipher_key.go:109-120 `derivedHmacKey`. -/
def derivedHmacKey (S : Sha1) (U : Bytes → Bytes) (password salt : Bytes) (iter : Int) (keyLen : Nat) : Res Bytes :=
  P12.key S.h 20 64 salt (bksFormatPassword U password) iter 3 keyLen

/-- cipher_blockcbc.go:82-113 `encrypt` with this key derivation; the salt is the random one. The keys have the size the cipher wants. -/
def p12Encrypt (S : Sha1) (U : Bytes → Bytes) (n : Nat) (C : Bc n) (keyLen : Nat) (password salt : Bytes) (iter : Int) (data : Bytes) : Res Bytes :=
  (derivedKeyWithPbkdf S U password salt iter keyLen n).bind fun ki => .ok (blkRun n (cbcEncF (C.bc ki.1)) ki.2 (pkcs7Pad data n)).1

/-- cipher_blockcbc.go:115-146 `decrypt`. -/
def p12Decrypt (S : Sha1) (U : Bytes → Bytes) (n : Nat) (C : Bc n) (keyLen : Nat) (password salt : Bytes) (iter : Int) (ct : Bytes) : Res Bytes :=
  (derivedKeyWithPbkdf S U password salt iter keyLen n).bind fun ki =>
    if ct.length = 0 ∨ ct.length % n ≠ 0 then .err else pkcs7Unpad (blkRun n (cbcDecF (C.bc ki.1)) ki.2 ct).1

/-! ### Entries -/

/-- bks_entry.go:53-60 `bksKeyEntry` without the common part. -/
structure BKey where
  keyType : Nat
  format : Bytes
  algorithm : Bytes
  encoded : Bytes

/-- The four kinds of entries (bks_entry.go:53-60, 131-136, 153-157, 174-180). -/
inductive BEnt where
  | cert (certType cert : Bytes)
  | key (k : BKey)
  | secret (secret : Bytes)
  | sealedKey (encrypted : Bytes) (nested : Option BKey) (password : Bytes)

/-- An entry with the common part (bks_entry.go:26-30). -/
structure BItem where
  al : Bytes
  date : Int
  chain : List Bytes
  ent : BEnt

/-- bks.go:28-37: the map `entries`. -/
abbrev BStore := Bytes → Option BItem

/-- bks.go:40-44. -/
def newBKS : BStore := fun _ => none

/-- bks_decode.go:34-62 `readKey`. -/
def readKey : Rd BKey :=
  (rdNat 1).bind fun t => readUTF.bind fun f => readUTF.bind fun a => readBytes.bind fun e => .ret ⟨t, f, a, e⟩

/-- bks_encode.go:352-376 `marshalKey`. -/
def marshalKey (k : BKey) : Bytes := wrNat 1 k.keyType ++ writeUTF k.format ++ writeUTF k.algorithm ++ writeBytes k.encoded

/-- Strings of the code: "X509", "PKCS8", "PKCS#8", "X.509", "RAW". -/
def sX509 : Bytes := [0x58#8, 0x35#8, 0x30#8, 0x39#8]
def sPKCS8 : Bytes := [0x50#8, 0x4b#8, 0x43#8, 0x53#8, 0x38#8]
def sPKCSn8 : Bytes := [0x50#8, 0x4b#8, 0x43#8, 0x53#8, 0x23#8, 0x38#8]
def sRAW : Bytes := [0x52#8, 0x41#8, 0x57#8]

/-- bks_entry.go:88-127 `Recover`: which of the three results is set, and the bytes it is parsed from. -/
def recover (k : BKey) : Res (Nat × Bytes) :=
  if k.keyType = 0 then if k.format ≠ sPKCS8 ∧ k.format ≠ sPKCSn8 then .err else .ok (0, k.encoded)
  else if k.keyType = 1 then if k.format ≠ certType ∧ k.format ≠ sX509 then .err else .ok (1, k.encoded)
  else if k.keyType = 2 then if k.format ≠ sRAW then .err else .ok (2, k.encoded)
  else .err

/-- bks_entry.go:195-239 `Decrypt`: the result and the entry afterwards. -/
def decryptSealed (S : Sha1) (U : Bytes → Bytes) (C : Bc 8) (password : Bytes) (enc : Bytes) (nested : Option BKey) (pw : Bytes) : Res Unit × BEnt :=
  if enc.length = 0 then (.ok (), .sealedKey enc nested pw)
  else
    match (readBytes.bind fun salt => readInt32.bind fun iter => (rdFull (enc.length - (salt.length + 8))).bind fun blob => Rd.ret (salt, iter, blob)) enc with
    | .ok ((salt, iter, blob), _) =>
      match p12Decrypt S U 8 C 24 password salt (signed32 iter) blob with
      | .ok dec =>
        match readKey dec with
        | .ok (k, _) => (.ok (), .sealedKey [] (some k) pw)
        | .err => (.err, .sealedKey enc (some ⟨0, [], [], []⟩) pw)
        | .panic => (.panic, .sealedKey enc nested pw)
        | .hang => (.hang, .sealedKey enc nested pw)
      | .err => (.err, .sealedKey enc nested pw)
      | .panic => (.panic, .sealedKey enc nested pw)
      | .hang => (.hang, .sealedKey enc nested pw)
    | .err => (.err, .sealedKey enc nested pw)
    | .panic => (.panic, .sealedKey enc nested pw)
    | .hang => (.hang, .sealedKey enc nested pw)

/-- bks_entry.go:242-281 `Encrypt`; a nil `nested` is dereferenced by `marshalKey`. -/
def encryptSealed (S : Sha1) (U : Bytes → Bytes) (C : Bc 8) (salt : Bytes) (nested : Option BKey) (pw : Bytes) : Res Bytes :=
  match nested with
  | none => .panic
  | some k => (p12Encrypt S U 8 C 24 pw salt 2048 (marshalKey k)).bind fun ct => .ok (writeBytes salt ++ wrNat 4 2048 ++ ct)

/-! ### Add functions -/

/-- bks_encode.go:26-36 `AddCertBytes`. -/
def bAddCert (s : BStore) (al cert : Bytes) (chain : List Bytes) (now : Int) : BStore := set s al ⟨al, now, chain, .cert sX509 cert⟩

/-- The type and format of keys: bks_encode.go:69-73 (private), 163-167 (public), 250-254 (secret). -/
def kindKey (kind : Fin 3) (algorithm encoded : Bytes) : BKey :=
  match kind with
  | 0 => ⟨0, sPKCS8, algorithm, encoded⟩
  | 1 => ⟨1, sX509, algorithm, encoded⟩
  | 2 => ⟨2, sRAW, algorithm, encoded⟩

/-- bks_encode.go:63-80 `AddKeyPrivateBytes`, 157-174 `AddKeyPublicBytes`, 244-261 `AddKeySecretBytes`. -/
def bAddKey (s : BStore) (kind : Fin 3) (al key algorithm : Bytes) (chain : List Bytes) (now : Int) : BStore :=
  set s al ⟨al, now, chain, .key (kindKey kind algorithm key)⟩

/-- bks_encode.go:108-130 `AddKeyPrivateWithPasswordBytes`, 202-224 `AddKeyPublicWithPasswordBytes`, 282-304 `AddKeySecretWithPasswordBytes`. -/
def bAddSealed (s : BStore) (kind : Fin 3) (al key algorithm password : Bytes) (chain : List Bytes) (now : Int) : BStore :=
  set s al ⟨al, now, chain, .sealedKey [] (some (kindKey kind algorithm key)) password⟩

/-- bks_encode.go:321-334 `AddSecretBytes`. -/
def bAddSecret (s : BStore) (al secret : Bytes) (chain : List Bytes) (now : Int) : BStore := set s al ⟨al, now, chain, .secret secret⟩

/-! ### Saving -/

/-- bks_encode.go:406-448 `marshalEntryData`. -/
def marshalEntryData (tag : Nat) (x : BItem) : Bytes :=
  wrNat 1 tag ++ writeUTF x.al ++ writeDate x.date ++ wrNat 4 x.chain.length ++ (x.chain.map fun c => writeUTF sX509 ++ writeBytes c).flatten

/-- One turn of the loop bks_encode.go:454-485. -/
def bWrite (S : Sha1) (U : Bytes → Bytes) (C : Bc 8) (x : BItem) (salt : Bytes) : Res Bytes :=
  match x.ent with
  | .cert t c => .ok (marshalEntryData 1 x ++ (writeUTF t ++ writeBytes c))
  | .key k => .ok (marshalEntryData 2 x ++ marshalKey k)
  | .secret s => .ok (marshalEntryData 3 x ++ writeBytes s)
  | .sealedKey _ nested pw => (encryptSealed S U C salt nested pw).bind fun e => .ok (marshalEntryData 4 x ++ writeBytes e)

/-- bks_encode.go:451-495 `marshalEntries`: no call in it returns an error. -/
def bWriteAll (S : Sha1) (U : Bytes → Bytes) (C : Bc 8) : List (BItem × Bytes) → Res Bytes
  | [] => .ok (wrNat 1 0)
  | (x, salt) :: l => (bWrite S U C x salt).bind fun b => (bWriteAll S U C l).bind fun r => .ok (b ++ r)

/-- bks_encode.go:555-560: the size of the key of the MAC in bytes, `hmacKeySize/8`. -/
def hmacKeyLen (version : Nat) : Nat := (if version = 1 then 20 else 20 * 8) / 8

/-- bks_encode.go:511-583 `Marshal` with the options version and iteration count and the random salt. -/
def bMarshal (S : Sha1) (U : Bytes → Bytes) (C : Bc 8) (order : List (BItem × Bytes)) (password : Bytes) (version : Nat) (salt : Bytes) (iter : Int) : Res Bytes :=
  if ¬(version = 1 ∨ version = 2) then .err
  else (bWriteAll S U C order).bind fun entries =>
    (derivedHmacKey S U password salt iter (hmacKeyLen version)).bind fun key =>
      .ok (wrNat 4 version ++ writeBytes salt ++ wrNat 4 (iter % 2 ^ 32).toNat ++ entries ++ hmac S.h key entries)

/-! ### Loading -/

/-- The chain loop bks_decode.go:117-125. -/
def bReadChain : Nat → Rd (List Bytes)
  | 0 => .ret []
  | n + 1 => readUTF.bind fun _ => readBytes.bind fun c => (bReadChain n).bind fun l => .ret (c :: l)

/-- The switch bks_decode.go:127-139 with `readCert`, `readKey`, `readSecret`, `readSealed` (16-87). -/
def bReadEnt (tag : Nat) : Rd BEnt :=
  if tag = 1 then readUTF.bind fun t => readBytes.bind fun c => .ret (.cert t c)
  else if tag = 2 then readKey.bind fun k => .ret (.key k)
  else if tag = 3 then readBytes.bind fun s => .ret (.secret s)
  else if tag = 4 then readBytes.bind fun e => .ret (.sealedKey e none [])
  else .fail

/-- bks_decode.go:90-154 `loadEntries`; every turn reads at least a byte, `fuel` bounds the turns. -/
def bLoadEntries : Nat → BStore → Rd BStore
  | 0, _ => fun _ => .hang
  | fuel + 1, s => (rdNat 1).bind fun tag => if tag = 0 then .ret s else
      readUTF.bind fun al => readDate.bind fun d => readInt32.bind fun n => (bReadChain (signed32 n).toNat).bind fun chain =>
        (bReadEnt tag).bind fun e => if ¬s al = none then .fail else bLoadEntries fuel (set s al ⟨al, d, chain, e⟩)

/-- bks_decode.go:157-210 `Parse` on a new store, as called by bks.go:47-64. -/
def bLoad (S : Sha1) (U : Bytes → Bytes) (data password : Bytes) : Res BStore :=
  ((rdNat 4).bind fun version => if ¬(version = 1 ∨ version = 2) then .fail else readBytes.bind fun salt => readInt32.bind fun iter => fun r =>
    (derivedHmacKey S U password salt (signed32 iter) (hmacKeyLen version)).bind fun key =>
      (bLoadEntries (r.length + 1) newBKS r).bind fun p =>
        (rdFull 20 p.2).bind fun q => if hmac S.h key (r.take (r.length - p.2.length)) = q.1 then .ok (p.1, q.2) else .err) data |>.bind fun p => .ok p.1

/-! ### Getters; a nil result without an error is `ok none` -/

/-- bks_decode.go:271-292 `GetKey` and the functions calling it. -/
def bGetKey (s : BStore) (al : Bytes) : Res (Option (Nat × Bytes)) :=
  match s al with
  | none => .err
  | some ⟨_, _, _, .key k⟩ => (recover k).bind fun r => .ok (some r)
  | some _ => .ok none

/-- bks_decode.go:330-346 `GetCertBytes`. -/
def bGetCert (s : BStore) (al : Bytes) : Res (Option Bytes) :=
  match s al with
  | none => .err
  | some ⟨_, _, _, .cert _ c⟩ => .ok (some c)
  | some _ => .ok none

/-- bks_decode.go:349-365 `GetSecret`. -/
def bGetSecret (s : BStore) (al : Bytes) : Res (Option Bytes) :=
  match s al with
  | none => .err
  | some ⟨_, _, _, .secret x⟩ => .ok (some x)
  | some _ => .ok none

/-- bks_decode.go:389-412 `GetSealedKey`: the result and the store afterwards. After `Decrypt` has returned nil for an entry whose `nested` is nil (nothing was encrypted),
`Recover` dereferences nil. -/
def bGetSealed (S : Sha1) (U : Bytes → Bytes) (C : Bc 8) (s : BStore) (al password : Bytes) : Res (Option (Nat × Bytes)) × BStore :=
  match s al with
  | none => (.err, s)
  | some ⟨a, d, c, .sealedKey enc nested pw⟩ =>
    let r := decryptSealed S U C password enc nested pw
    (r.1.bind fun _ =>
      match r.2 with
      | .sealedKey _ (some k) _ => (recover k).bind fun x => .ok (some x)
      | _ => .panic, set s al ⟨a, d, c, r.2⟩)
  | some _ => (.ok none, s)

/-- bks_decode.go:431-444 `GetCertChainBytes`, 447-460 `GetCreateDate`. -/
def bGetChain (s : BStore) (al : Bytes) : Res (List Bytes) := match s al with | none => .err | some x => .ok x.chain
def bGetDate (s : BStore) (al : Bytes) : Res Int := match s al with | none => .err | some x => .ok x.date

/-! ### UBER -/

/-- uber_encode.go:20-94 `Marshal`; the error of `marshalEntries` is not looked at, there is none. -/
def uMarshal (S : Sha1) (U : Bytes → Bytes) (C : Bc 8) (T : Bc 16) (order : List (BItem × Bytes)) (password salt : Bytes) (iter : Int) : Res Bytes :=
  (bWriteAll S U C order).bind fun entries =>
    (p12Encrypt S U 16 T 32 password salt iter (entries ++ S.h.f entries)).bind fun ct =>
      .ok (wrNat 4 1 ++ writeBytes salt ++ wrNat 4 (iter % 2 ^ 32).toNat ++ ct)

/-- uber_decode.go:11-78 `Parse` on a new store (uber.go:43-59). The test `len(data) < len(salt)+12` cannot fail after the reads. -/
def uLoad (S : Sha1) (U : Bytes → Bytes) (T : Bc 16) (data password : Bytes) : Res BStore :=
  ((rdNat 4).bind fun version => if ¬version = 1 then .fail else readBytes.bind fun salt => readInt32.bind fun iter => fun r =>
    if data.length < salt.length + 12 then .err
    else (p12Decrypt S U 16 T 32 password salt (signed32 iter) (data.drop (salt.length + 12))).bind fun dec =>
      if dec.length < 20 then .panic
      else
        let store := dec.take (dec.length - 20)
        if S.h.f store ≠ dec.drop (dec.length - 20) then .err
        else (bLoadEntries (store.length + 1) newBKS store).bind fun p => .ok (p.1, r)) data |>.bind fun p => .ok p.1

end Verif.Jks
