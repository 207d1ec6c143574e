import Verif.Pkcs.Pbes1
import Verif.Kdf.Pbkdf2
/-
/repo/pkcs/pbes2 (the ciphers of PBES2), /repo/pkcs8/pbes2 (PBES2 private keys) and /repo/pkcs8/pkcs8.go (the choice between PBES1 and PBES2).

Byte strings stand for slices: no function here keeps or changes an argument, except that `append` in the padding may write behind the plaintext (C03).  The block ciphers, the
AEAD modes, the pseudorandom functions and scrypt are parameters, with the laws that their own properties (C54, C63, C20, C70 ...) or the Go library give them.  Sizes and counts in
options are natural numbers; a negative salt size would panic in `make`, and a negative count would act as one.
-/
namespace Verif.Pkcs
namespace Pbes2
open Verif.Asn1 Verif.Kdf

inductive AeadKind where
  | gcm | ccm
  deriving DecidableEq

/-- `cipher.AEAD` for one nonce size, with a tag of 16 bytes and no additional data.  `Seal` panics beyond `limit` bytes; `Open` gives back exactly what was sealed. -/
structure AeadFn where
  sealF : Bytes → Bytes → Res Bytes
  openF : Bytes → Bytes → Res Bytes
  limit : Nat
  sealF_ok : ∀ n p, p.length ≤ limit → ∃ c, sealF n p = .ok c ∧ c.length = p.length + 16
  sealF_big : ∀ n p, limit < p.length → sealF n p = .panic
  openF_iff : ∀ n c p, openF n c = .ok p ↔ p.length ≤ limit ∧ sealF n p = .ok c
  openF_total : ∀ n c, openF n c = .err ∨ ∃ p, openF n c = .ok p

/-- The nonce sizes that `cipher.NewGCMWithNonceSize` and `ccm.NewCCMWithNonceSize` take. -/
def nonceOk : AeadKind → Nat → Bool
  | .gcm, n => 1 ≤ n
  | .ccm, n => 7 ≤ n && n ≤ 13

/-- cipher/rc5/rc5.go:25-47: the keys, word sizes and rounds that RC5 takes. -/
def rc5Ok (k w r : Nat) : Bool := (k == 8 || k == 16 || k == 24 || k == 32) && (8 ≤ r && r ≤ 127) && (w == 16 || w == 32 || w == 64)

structure Env where
  C : Ciphers
  rc5 : Bytes → Nat → Nat → Res BlockCipher
  rc5_ok : ∀ k w r, rc5Ok k.length w r = true → ∃ b, rc5 k w r = .ok b ∧ b.bs = w / 4
  rc5_bad : ∀ k w r, rc5Ok k.length w r = false → rc5 k w r = .err
  gost : Bytes → Res BlockCipher
  gost_ok : ∀ k, k.length = 32 → ∃ b, gost k = .ok b ∧ b.bs = 8
  gost_bad : ∀ k, k.length ≠ 32 → gost k = .err
  aead : AeadKind → BlockCipher → Nat → Res AeadFn
  aead_ok : ∀ g b n, b.bs = 16 → nonceOk g n = true → ∃ A, aead g b n = .ok A ∧ (n = 12 → 2 ^ 24 - 1 ≤ A.limit) ∧ (g = .ccm → A.limit = 2 ^ (8 * (15 - n)) - 1)
  aead_bad : ∀ g b n, b.bs = 16 → nonceOk g n = false → aead g b n = .err
  prf : Nat → Prf
  scrypt : Bytes → Bytes → Int → Int → Int → Nat → Res Bytes
  scrypt_len : ∀ p s N r q n k, scrypt p s N r q n = .ok k → k.length = n

/-- The kinds of ciphers (cipher_ecb.go, cipher_cbc.go, ...): the unauthenticated modes; the AEAD modes, with parameters as a SEQUENCE (`true`) or a bare nonce (`…Iv`) and their nonce size;
RC2 with its version number; RC5 with word size and rounds; GOST 28147 in CFB mode with the S-box tc26-Z. -/
inductive Kind where
  | mode (m : Md) (a : Alg)
  | aead (g : AeadKind) (seq : Bool) (a : Alg) (nonceSize : Nat)
  | rc2 (version : Nat)
  | rc5 (w r : Nat)
  | gost
  deriving DecidableEq

/-- A cipher of the package: name (helper.go), identifier, kind, key size, and whether the key length is written. -/
structure Cph where
  name : String
  oid : List Nat
  kind : Kind
  keySize : Nat
  keyLen : Bool
  deriving DecidableEq

/-- cipher_setting.go:735-1042: the registered ciphers. -/
def table : List Cph :=
  [⟨"DESCBC", [1, 3, 14, 3, 2, 7], .mode .cbc .des, 8, false⟩,
   ⟨"DESEDE3CBC", [1, 2, 840, 113549, 3, 7], .mode .cbc .des3, 24, false⟩,
   ⟨"RC2CBC", [1, 2, 840, 113549, 3, 2], .rc2 58, 16, true⟩,
   ⟨"RC5CBC", [1, 2, 840, 113549, 3, 9], .rc5 32 16, 16, true⟩,
   ⟨"AES128ECB", [2, 16, 840, 1, 101, 3, 4, 1, 1], .mode .ecb .aes, 16, false⟩,
   ⟨"AES128CBC", [2, 16, 840, 1, 101, 3, 4, 1, 2], .mode .cbc .aes, 16, false⟩,
   ⟨"AES128OFB", [2, 16, 840, 1, 101, 3, 4, 1, 3], .mode .ofb .aes, 16, false⟩,
   ⟨"AES128CFB", [2, 16, 840, 1, 101, 3, 4, 1, 4], .mode .cfb .aes, 16, false⟩,
   ⟨"AES128GCM", [2, 16, 840, 1, 101, 3, 4, 1, 6], .aead .gcm true .aes 12, 16, false⟩,
   ⟨"AES128CCM", [2, 16, 840, 1, 101, 3, 4, 1, 7], .aead .ccm true .aes 12, 16, false⟩,
   ⟨"AES192ECB", [2, 16, 840, 1, 101, 3, 4, 1, 21], .mode .ecb .aes, 24, false⟩,
   ⟨"AES192CBC", [2, 16, 840, 1, 101, 3, 4, 1, 22], .mode .cbc .aes, 24, false⟩,
   ⟨"AES192OFB", [2, 16, 840, 1, 101, 3, 4, 1, 23], .mode .ofb .aes, 24, false⟩,
   ⟨"AES192CFB", [2, 16, 840, 1, 101, 3, 4, 1, 24], .mode .cfb .aes, 24, false⟩,
   ⟨"AES192GCM", [2, 16, 840, 1, 101, 3, 4, 1, 26], .aead .gcm true .aes 12, 24, false⟩,
   ⟨"AES192CCM", [2, 16, 840, 1, 101, 3, 4, 1, 27], .aead .ccm true .aes 12, 24, false⟩,
   ⟨"AES256ECB", [2, 16, 840, 1, 101, 3, 4, 1, 41], .mode .ecb .aes, 32, false⟩,
   ⟨"AES256CBC", [2, 16, 840, 1, 101, 3, 4, 1, 42], .mode .cbc .aes, 32, false⟩,
   ⟨"AES256OFB", [2, 16, 840, 1, 101, 3, 4, 1, 43], .mode .ofb .aes, 32, false⟩,
   ⟨"AES256CFB", [2, 16, 840, 1, 101, 3, 4, 1, 44], .mode .cfb .aes, 32, false⟩,
   ⟨"AES256GCM", [2, 16, 840, 1, 101, 3, 4, 1, 46], .aead .gcm true .aes 12, 32, false⟩,
   ⟨"AES256CCM", [2, 16, 840, 1, 101, 3, 4, 1, 47], .aead .ccm true .aes 12, 32, false⟩,
   ⟨"SM4Cipher", [1, 2, 156, 10197, 1, 104], .mode .cbc .sm4, 16, false⟩,
   ⟨"SM4ECB", [1, 2, 156, 10197, 1, 104, 1], .mode .ecb .sm4, 16, false⟩,
   ⟨"SM4CBC", [1, 2, 156, 10197, 1, 104, 2], .mode .cbc .sm4, 16, false⟩,
   ⟨"SM4OFB", [1, 2, 156, 10197, 1, 104, 3], .mode .ofb .sm4, 16, false⟩,
   ⟨"SM4CFB", [1, 2, 156, 10197, 1, 104, 4], .mode .cfb .sm4, 16, false⟩,
   ⟨"SM4CFB1", [1, 2, 156, 10197, 1, 104, 5], .mode .cfb1 .sm4, 16, false⟩,
   ⟨"SM4CFB8", [1, 2, 156, 10197, 1, 104, 6], .mode .cfb8 .sm4, 16, false⟩,
   ⟨"SM4GCM", [1, 2, 156, 10197, 1, 104, 8], .aead .gcm true .sm4 12, 16, false⟩,
   ⟨"SM4CCM", [1, 2, 156, 10197, 1, 104, 9], .aead .ccm true .sm4 12, 16, false⟩,
   ⟨"GostCipher", [1, 2, 643, 2, 2, 21], .gost, 32, false⟩,
   ⟨"ARIA128ECB", [1, 2, 410, 200046, 1, 1, 1], .mode .ecb .aria, 16, false⟩,
   ⟨"ARIA128CBC", [1, 2, 410, 200046, 1, 1, 2], .mode .cbc .aria, 16, false⟩,
   ⟨"ARIA128CFB", [1, 2, 410, 200046, 1, 1, 3], .mode .cfb .aria, 16, false⟩,
   ⟨"ARIA128OFB", [1, 2, 410, 200046, 1, 1, 4], .mode .ofb .aria, 16, false⟩,
   ⟨"ARIA128CTR", [1, 2, 410, 200046, 1, 1, 5], .mode .ctr .aria, 16, false⟩,
   ⟨"ARIA128GCM", [1, 2, 410, 200046, 1, 1, 34], .aead .gcm true .aria 12, 16, false⟩,
   ⟨"ARIA128CCM", [1, 2, 410, 200046, 1, 1, 37], .aead .ccm true .aria 12, 16, false⟩,
   ⟨"ARIA192ECB", [1, 2, 410, 200046, 1, 1, 6], .mode .ecb .aria, 24, false⟩,
   ⟨"ARIA192CBC", [1, 2, 410, 200046, 1, 1, 7], .mode .cbc .aria, 24, false⟩,
   ⟨"ARIA192CFB", [1, 2, 410, 200046, 1, 1, 8], .mode .cfb .aria, 24, false⟩,
   ⟨"ARIA192OFB", [1, 2, 410, 200046, 1, 1, 9], .mode .ofb .aria, 24, false⟩,
   ⟨"ARIA192CTR", [1, 2, 410, 200046, 1, 1, 10], .mode .ctr .aria, 24, false⟩,
   ⟨"ARIA192GCM", [1, 2, 410, 200046, 1, 1, 35], .aead .gcm true .aria 12, 24, false⟩,
   ⟨"ARIA192CCM", [1, 2, 410, 200046, 1, 1, 38], .aead .ccm true .aria 12, 24, false⟩,
   ⟨"ARIA256ECB", [1, 2, 410, 200046, 1, 1, 11], .mode .ecb .aria, 32, false⟩,
   ⟨"ARIA256CBC", [1, 2, 410, 200046, 1, 1, 12], .mode .cbc .aria, 32, false⟩,
   ⟨"ARIA256CFB", [1, 2, 410, 200046, 1, 1, 13], .mode .cfb .aria, 32, false⟩,
   ⟨"ARIA256OFB", [1, 2, 410, 200046, 1, 1, 14], .mode .ofb .aria, 32, false⟩,
   ⟨"ARIA256CTR", [1, 2, 410, 200046, 1, 1, 15], .mode .ctr .aria, 32, false⟩,
   ⟨"ARIA256GCM", [1, 2, 410, 200046, 1, 1, 36], .aead .gcm true .aria 12, 32, false⟩,
   ⟨"ARIA256CCM", [1, 2, 410, 200046, 1, 1, 39], .aead .ccm true .aria 12, 32, false⟩,
   ⟨"Misty1CBC", [1, 2, 392, 200011, 61, 1, 1, 1, 1], .mode .cbc .misty1, 16, false⟩,
   ⟨"Serpent128ECB", [1, 3, 6, 1, 4, 1, 11591, 13, 2, 1], .mode .ecb .serpent, 16, false⟩,
   ⟨"Serpent128CBC", [1, 3, 6, 1, 4, 1, 11591, 13, 2, 2], .mode .cbc .serpent, 16, false⟩,
   ⟨"Serpent128OFB", [1, 3, 6, 1, 4, 1, 11591, 13, 2, 3], .mode .ofb .serpent, 16, false⟩,
   ⟨"Serpent128CFB", [1, 3, 6, 1, 4, 1, 11591, 13, 2, 4], .mode .cfb .serpent, 16, false⟩,
   ⟨"Serpent192ECB", [1, 3, 6, 1, 4, 1, 11591, 13, 2, 21], .mode .ecb .serpent, 24, false⟩,
   ⟨"Serpent192CBC", [1, 3, 6, 1, 4, 1, 11591, 13, 2, 22], .mode .cbc .serpent, 24, false⟩,
   ⟨"Serpent192OFB", [1, 3, 6, 1, 4, 1, 11591, 13, 2, 23], .mode .ofb .serpent, 24, false⟩,
   ⟨"Serpent192CFB", [1, 3, 6, 1, 4, 1, 11591, 13, 2, 24], .mode .cfb .serpent, 24, false⟩,
   ⟨"Serpent256ECB", [1, 3, 6, 1, 4, 1, 11591, 13, 2, 41], .mode .ecb .serpent, 32, false⟩,
   ⟨"Serpent256CBC", [1, 3, 6, 1, 4, 1, 11591, 13, 2, 42], .mode .cbc .serpent, 32, false⟩,
   ⟨"Serpent256OFB", [1, 3, 6, 1, 4, 1, 11591, 13, 2, 43], .mode .ofb .serpent, 32, false⟩,
   ⟨"Serpent256CFB", [1, 3, 6, 1, 4, 1, 11591, 13, 2, 44], .mode .cfb .serpent, 32, false⟩,
   ⟨"SeedECB", [1, 2, 410, 200004, 1, 3], .mode .ecb .seed, 16, true⟩,
   ⟨"SeedCBC", [1, 2, 410, 200004, 1, 4], .mode .cbc .seed, 16, true⟩,
   ⟨"SeedOFB", [1, 2, 410, 200004, 1, 5], .mode .ofb .seed, 16, true⟩,
   ⟨"SeedCFB", [1, 2, 410, 200004, 1, 6], .mode .cfb .seed, 16, true⟩]

/-- The other 18 ciphers of the package: they share the identifier of a registered one. -/
def variants : List Cph :=
  [⟨"RC2_40CBC", [1, 2, 840, 113549, 3, 2], .rc2 160, 5, true⟩,
   ⟨"RC2_64CBC", [1, 2, 840, 113549, 3, 2], .rc2 120, 8, true⟩,
   ⟨"RC2_128CBC", [1, 2, 840, 113549, 3, 2], .rc2 58, 16, true⟩,
   ⟨"RC5_128CBC", [1, 2, 840, 113549, 3, 9], .rc5 32 16, 16, true⟩,
   ⟨"RC5_192CBC", [1, 2, 840, 113549, 3, 9], .rc5 32 16, 24, true⟩,
   ⟨"RC5_256CBC", [1, 2, 840, 113549, 3, 9], .rc5 32 16, 32, true⟩,
   ⟨"AES128GCMIv", [2, 16, 840, 1, 101, 3, 4, 1, 6], .aead .gcm false .aes 12, 16, false⟩,
   ⟨"AES128CCMIv", [2, 16, 840, 1, 101, 3, 4, 1, 7], .aead .ccm false .aes 12, 16, false⟩,
   ⟨"AES192GCMIv", [2, 16, 840, 1, 101, 3, 4, 1, 26], .aead .gcm false .aes 12, 24, false⟩,
   ⟨"AES192CCMIv", [2, 16, 840, 1, 101, 3, 4, 1, 27], .aead .ccm false .aes 12, 24, false⟩,
   ⟨"AES256GCMIv", [2, 16, 840, 1, 101, 3, 4, 1, 46], .aead .gcm false .aes 12, 32, false⟩,
   ⟨"AES256CCMIv", [2, 16, 840, 1, 101, 3, 4, 1, 47], .aead .ccm false .aes 12, 32, false⟩,
   ⟨"SM4GCMIv", [1, 2, 156, 10197, 1, 104, 8], .aead .gcm false .sm4 12, 16, false⟩,
   ⟨"SM4CCMIv", [1, 2, 156, 10197, 1, 104, 9], .aead .ccm false .sm4 12, 16, false⟩,
   ⟨"Seed256ECB", [1, 2, 410, 200004, 1, 3], .mode .ecb .seed, 32, true⟩,
   ⟨"Seed256CBC", [1, 2, 410, 200004, 1, 4], .mode .cbc .seed, 32, true⟩,
   ⟨"Seed256OFB", [1, 2, 410, 200004, 1, 5], .mode .ofb .seed, 32, true⟩,
   ⟨"Seed256CFB", [1, 2, 410, 200004, 1, 6], .mode .cfb .seed, 32, true⟩]

/-- cipher.go:69-94 (`GetCipher`) for an algorithm identifier; `params` are the raw parameters. -/
def getCipher (oid : List Nat) (params : Bytes) : Option Cph :=
  let o := if oid = [1, 2, 156, 10197, 1, 104] then (if params.length ≠ 0 then [1, 2, 156, 10197, 1, 104, 2] else [1, 2, 156, 10197, 1, 104, 1]) else oid
  table.find? fun c => c.oid == o

/-- cipher_setting.go: the S-box identifier id-tc26-gost-28147-param-Z. -/
def sboxZ : List Nat := [1, 2, 643, 7, 1, 2, 5, 1, 1]

def null : Bytes := [0x05#8, 0x00#8]

/-- `Encrypt` with a padded or stream mode and a new IV (cipher_cbc.go:47-76 and the like). -/
def encIv (m : Md) (b : BlockCipher) (bs : Nat) (rand pt : Bytes) : Res (Bytes × Bytes) :=
  (readFull bs rand).bind fun r =>
    if r.1.length ≠ b.bs then .panic
    else if m.padded = true ∧ (m.pad bs pt).length % b.bs ≠ 0 then .panic
    else .ok (m.enc b r.1 (m.pad bs pt), r.1)

/-- `Encrypt` of every kind of cipher: ciphertext and encoded parameters. -/
def encrypt (E : Env) (c : Cph) (rand key pt : Bytes) : Res (Bytes × Bytes) :=
  match c.kind with
  | .mode .ecb a => (E.C.new a key).bind fun b =>
      if (Md.pad .ecb a.bs pt).length % b.bs ≠ 0 then .panic else .ok (Md.enc .ecb b [] (Md.pad .ecb a.bs pt), null)
  | .mode m a => (E.C.new a key).bind fun b => (encIv m b a.bs rand pt).bind fun r => .ok (r.1, encOct r.2)
  | .rc2 v => (E.C.new .rc2 key).bind fun b => (encIv .cbc b 8 rand pt).bind fun r => .ok (r.1, encSeq (encInt v ++ encOct r.2))
  | .rc5 w n => (E.rc5 key w n).bind fun b => (encIv .cbc b b.bs rand pt).bind fun r => .ok (r.1, encSeq (encInt w ++ encInt n ++ encOct r.2))
  | .gost => (E.gost key).bind fun b => (encIv .cfb b 8 rand pt).bind fun r => .ok (r.1, encSeq (encOct r.2 ++ encOID sboxZ))
  | .aead g seq a n => (E.C.new a key).bind fun b =>
      (readFull n rand).bind fun r => (E.aead g b n).bind fun A => (A.sealF r.1 pt).bind fun ct =>
        .ok (ct, if seq then encSeq (encOct r.1 ++ encInt 16) else encOct r.1)

/-! ### Optional fields -/

/-- `parseTagAndLength` succeeds. -/
def header (b : Bytes) : Bool :=
  match b with
  | [] => false
  | t :: r =>
    match (if t &&& 0x1f#8 = 0x1f#8 then (match parse128 r with | none => none | some (n, r') => if n < 31 then none else some r') else some r) with
    | none => false
    | some r' => (parseLen r').isSome

/-- An optional field of type `int`: when there is no element, or one with another tag, the default. -/
def optInt (d : Int) (b : Bytes) : Option (Int × Bytes) :=
  match b with
  | [] => some (d, [])
  | t :: _ => if t = 0x02#8 then int64Field b else if header b then some (d, b) else none

/-- A field of type `pkix.AlgorithmIdentifier`: identifier, raw parameters (empty when there are none), the rest. -/
def algField (b : Bytes) : Option (List Nat × Bytes × Bytes) :=
  match element 0x30#8 b with
  | none => none
  | some (c, r) =>
    match oidField c with
    | none => none
    | some (oid, pr) => (if pr.isEmpty then some [] else (rawField pr).map (·.1)).map fun p => (oid, p, r)

/-- The same, optional. -/
def optAlg (b : Bytes) : Option (Option (List Nat)) :=
  match b with
  | [] => some none
  | t :: _ => if t = 0x30#8 then (algField b).map fun x => some x.1 else if header b then some none else none

/-! ### Decryption -/

/-- `asn1.Unmarshal` of SEQUENCE { OCTET STRING, INTEGER DEFAULT 12 }. -/
def gcmParams (p : Bytes) : Option (Bytes × Int) :=
  match element 0x30#8 p with
  | none => none
  | some (c, _) =>
    match octField c with
    | none => none
    | some (n, r) => (optInt 12 r).map fun x => (n, x.1)

/-- `Decrypt` of every kind of cipher. -/
def decrypt (E : Env) (c : Cph) (key params ct : Bytes) : Res Bytes :=
  match c.kind with
  | .mode .ecb a => (E.C.new a key).bind fun b => Md.openCt .ecb b [] ct
  | .mode m a =>
    match octField params with
    | none => .err
    | some (iv, _) => (E.C.new a key).bind fun b => if iv.length ≠ b.bs then .err else m.openCt b iv ct
  | .rc2 _ =>
    match element 0x30#8 params with
    | none => .err
    | some (s, _) =>
      match int64Field s with
      | none => .err
      | some (v, s') =>
        match octField s' with
        | none => .err
        | some (iv, _) =>
          if 1024 < v ∨ v < 1 then .err
          else (E.C.new .rc2 key).bind fun b => if iv.length ≠ b.bs then .err else Md.openCt .cbc b iv ct
  | .rc5 _ _ =>
    match element 0x30#8 params with
    | none => .err
    | some (s, _) =>
      match int64Field s with
      | none => .err
      | some (w, s1) =>
        match int64Field s1 with
        | none => .err
        | some (n, s2) =>
          match octField s2 with
          | none => .err
          | some (iv, _) =>
            -- the conversion to uint: negative numbers become larger than any valid one
            (E.rc5 key (w % 2 ^ 64).toNat (n % 2 ^ 64).toNat).bind fun b => if iv.length ≠ b.bs then .err else Md.openCt .cbc b iv ct
  | .gost =>
    match element 0x30#8 params with
    | none => .err
    | some (s, _) =>
      match octField s with
      | none => .err
      | some (iv, s1) =>
        match oidField s1 with
        | none => .err
        | some (o, _) =>
          if o ≠ sboxZ then .err
          else (E.gost key).bind fun b => if iv.length ≠ b.bs then .err else Md.openCt .cfb b iv ct
  | .aead g seq a _ => (E.C.new a key).bind fun b =>
      match (if seq then gcmParams params else none) with
      | some (nonce, icv) => (E.aead g b nonce.length).bind fun A => if icv ≠ 16 then .err else A.openF nonce ct
      | none =>
        match octField params with
        | none => .err
        | some (nonce, _) => (E.aead g b nonce.length).bind fun A => A.openF nonce ct

/-! ### Key derivation (/repo/pkcs8/pbes2/kdf*.go) -/

/-- kdf_pbkdf2.go:47-61: the identifiers of the hash functions 1 (MD5) to 11 (GOST R 34.11-2012-512). -/
def hashOids : List (List Nat) :=
  [[1, 2, 840, 113549, 2, 6], [1, 2, 840, 113549, 2, 7], [1, 2, 840, 113549, 2, 8], [1, 2, 840, 113549, 2, 9], [1, 2, 840, 113549, 2, 10], [1, 2, 840, 113549, 2, 11],
   [1, 2, 840, 113549, 2, 12], [1, 2, 840, 113549, 2, 13], [1, 2, 156, 10197, 1, 401, 2], [1, 2, 643, 7, 1, 1, 4, 1], [1, 2, 643, 7, 1, 1, 4, 2]]

/-- kdf_pbkdf2.go:94-121 (`oidByHash`), kdf_smpbkdf2.go:35-42 (`oidSMByHash`). -/
def oidByHash (sm : Bool) (h : Nat) : Option (List Nat) :=
  if sm then (if h = 9 then some [1, 2, 156, 10197, 1, 401, 2] else none)
  else match h with
    | 0 => none
    | n + 1 => hashOids[n]?

/-- kdf_pbkdf2.go:64-91 (`prfByOID`), kdf_smpbkdf2.go:25-32: the number of the hash function. -/
def prfByOID (sm : Bool) (o : List Nat) : Option Nat :=
  if sm then (if o = [1, 2, 156, 10197, 1, 401, 2] then some 9 else none)
  else if o ∈ hashOids then some (hashOids.idxOf o + 1) else none

/-- `PBKDF2Opts`, `SMPBKDF2Opts` (`sm`) and `ScryptOpts`. -/
inductive KdfOpts where
  | pbkdf2 (sm : Bool) (saltSize iter hash : Nat)
  | scrypt (saltSize n r p : Nat)

def KdfOpts.saltSize : KdfOpts → Nat
  | .pbkdf2 _ s _ _ => s
  | .scrypt s _ _ _ => s

def oidPbkdf2 (sm : Bool) : List Nat := if sm then [1, 2, 156, 10197, 6, 4, 1, 5, 1] else [1, 2, 840, 113549, 1, 5, 12]
def oidScrypt : List Nat := [1, 3, 6, 1, 4, 1, 11591, 4, 11]

def KdfOpts.oid : KdfOpts → List Nat
  | .pbkdf2 sm _ _ _ => oidPbkdf2 sm
  | .scrypt _ _ _ _ => oidScrypt

def oidPbes2 (sm : Bool) : List Nat := if sm then [1, 2, 156, 10197, 6, 4, 1, 5, 2] else [1, 2, 840, 113549, 1, 5, 13]

def KdfOpts.pbesOid : KdfOpts → List Nat
  | .pbkdf2 sm _ _ _ => oidPbes2 sm
  | .scrypt _ _ _ _ => oidPbes2 false

/-- The default hash functions: SHA-1, and SM3 for `SMPBKDF2`. -/
def defHash (sm : Bool) : Nat := if sm then 9 else 2

/-- kdf_pbkdf2.go:186-236, kdf_smpbkdf2.go:108-157, kdf_scrypt.go:64-88 (`DeriveKey` of the options): key and encoded parameters. -/
def KdfOpts.derive (E : Env) (o : KdfOpts) (hasKeyLen : Bool) (pw salt : Bytes) (size : Nat) : Res (Bytes × Bytes) :=
  let kl := if hasKeyLen ∧ size ≠ 0 then encInt size else []
  match o with
  | .pbkdf2 sm _ iter h =>
    match oidByHash sm (if h = 0 then defHash sm else h) with
    | none => .err
    | some alg =>
      match prfByOID sm alg with
      | none => .err
      | some i => (Pbkdf2.key (E.prf i) pw salt iter size).bind fun k =>
          .ok (k, encSeq (encOct salt ++ encInt iter ++ kl ++ if h = 0 then [] else encSeq (encOID alg ++ null)))
  | .scrypt _ n r p => (E.scrypt pw salt n r p size).bind fun k => .ok (k, encSeq (encOct salt ++ encInt n ++ encInt r ++ encInt p ++ kl))

/-- kdf_pbkdf2.go:133-162, kdf_smpbkdf2.go:55-86 (`DeriveKey` of the parameters). -/
def derivePbkdf2 (E : Env) (sm : Bool) (params pw : Bytes) (size : Nat) : Res Bytes :=
  match element 0x30#8 params with
  | none => .err
  | some (s, _) =>
    match octField s with
    | none => .err
    | some (salt, s1) =>
      match int64Field s1 with
      | none => .err
      | some (iter, s2) =>
        match optInt 0 s2 with
        | none => .err
        | some (kl, s3) =>
          match optAlg s3 with
          | none => .err
          | some prf =>
            match (match prf with | none => some (defHash sm) | some o => prfByOID sm o) with
            | none => .err
            | some i => Pbkdf2.key (E.prf i) pw salt iter (if 0 < kl then kl else size)

/-- kdf_scrypt.go:26-37. -/
def deriveScrypt (E : Env) (params pw : Bytes) (size : Nat) : Res Bytes :=
  match element 0x30#8 params with
  | none => .err
  | some (s, _) =>
    match octField s with
    | none => .err
    | some (salt, s1) =>
      match int64Field s1 with
      | none => .err
      | some (n, s2) =>
        match int64Field s2 with
        | none => .err
        | some (r, s3) =>
          match int64Field s3 with
          | none => .err
          | some (p, s4) =>
            match optInt 0 s4 with
            | none => .err
            | some (kl, _) => E.scrypt pw salt n r p (if 0 < kl then kl.toNat else size)

/-! ### /repo/pkcs8/pbes2/pkcs8.go -/

/-- pkcs8.go:138-214 (`PBES2Encrypt`) and 74-103 (`EncryptPKCS8PrivateKey`); `none` is a nil cipher or nil options. -/
def encryptPkcs8 (E : Env) (rand type data pw : Bytes) (cipher : Option Cph) (kdf : Option KdfOpts) : Res Pem1.Block :=
  match cipher, kdf with
  | some c, some o =>
    (readFull o.saltSize rand).bind fun s =>
      (o.derive E c.keyLen pw s.1 c.keySize).bind fun kp =>
        (encrypt E c s.2 kp.1 data).bind fun r =>
          .ok ⟨type, [], encSeq (encSeq (encOID o.pbesOid ++ encSeq (encSeq (encOID o.oid ++ kp.2) ++ encSeq (encOID c.oid ++ r.2))) ++ encOct r.1)⟩
  | _, _ => .err

/-- pkcs8.go:277-295 (`parseKeyDerivationFunc`) and `DeriveKey`. -/
def deriveKey (E : Env) (oid : List Nat) (params pw : Bytes) (size : Nat) : Res Bytes :=
  if oid = oidPbkdf2 false then derivePbkdf2 E false params pw size
  else if oid = oidPbkdf2 true then derivePbkdf2 E true params pw size
  else if oid = oidScrypt then deriveScrypt E params pw size
  else .err

/-- pkcs8.go:106-122 (`DecryptPKCS8PrivateKey`), 217-247 (`PBES2Decrypt`), 250-258 (`CheckPBES2`). -/
def decryptPkcs8 (E : Env) (data pw : Bytes) : Res Bytes :=
  match Pbes1.parsePki data with
  | none => .err
  | some (oid, params, ct) =>
    if oid ≠ oidPbes2 false ∧ oid ≠ oidPbes2 true then .err
    else
      match element 0x30#8 params with
      | none => .err
      | some (s, _) =>
        match algField s with
        | none => .err
        | some (kdfOid, kdfParams, s1) =>
          match algField s1 with
          | none => .err
          | some (encOid, encParams, _) =>
            match getCipher encOid encParams with
            | none => .err
            | some c => (deriveKey E kdfOid kdfParams pw c.keySize).bind fun key => decrypt E c key encParams ct

end Pbes2
end Verif.Pkcs
