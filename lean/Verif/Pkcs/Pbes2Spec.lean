import Verif.Pkcs.Pbes2
import Verif.Pkcs.Pem1Spec
import Verif.Kdf.Pbkdf2Spec
/-
PBES2 of RFC 8018 (with scrypt of RFC 7914, RFC 5084, GM/T 0091): the parts of a file and the relation between key, plaintext and body, stated without the parsing and building code.
-/
namespace Verif.Pkcs.Spec
open Verif.Asn1 Verif.Pkcs.Pbes2

/-- How many random bytes a cipher takes for IV or nonce. -/
def ivSize2 (c : Cph) : Nat :=
  match c.kind with
  | .mode .ecb _ => 0
  | .mode _ a => a.bs
  | .rc2 _ => 8
  | .rc5 w _ => w / 4
  | .gost => 8
  | .aead _ _ _ n => n

/-- The parameters of the encryption scheme: NULL for ECB (library's choice); the IV (RFC 8018, B.2); version and IV for RC2 (B.2.3), word size (where RFC 8018 has a version, 16), rounds, IV for
RC5; IV and S-box for GOST (RFC 4357); nonce and tag length (RFC 5084), or the bare nonce. -/
def params2 (c : Cph) (iv : Bytes) : Bytes :=
  match c.kind with
  | .mode .ecb _ => [0x05#8, 0x00#8]
  | .mode _ _ => tlv 0x04#8 iv
  | .rc2 v => tlv 0x30#8 (encInt v ++ tlv 0x04#8 iv)
  | .rc5 w r => tlv 0x30#8 (encInt w ++ encInt r ++ tlv 0x04#8 iv)
  | .gost => tlv 0x30#8 (tlv 0x04#8 iv ++ tlv 0x06#8 (oidBytes [1, 2, 643, 7, 1, 2, 5, 1, 1]))
  | .aead _ true _ _ => tlv 0x30#8 (tlv 0x04#8 iv ++ encInt 16)
  | .aead _ false _ _ => tlv 0x04#8 iv

/-- `ct` is the body for `data` under key and IV. -/
def Sealed2 (E : Env) (c : Cph) (key iv data ct : Bytes) : Prop :=
  match c.kind with
  | .mode m a => ∃ b, E.C.new a key = .ok b ∧ ct = body m b iv data
  | .rc2 _ => ∃ b, E.C.new .rc2 key = .ok b ∧ ct = body .cbc b iv data
  | .rc5 w r => ∃ b, E.rc5 key w r = .ok b ∧ ct = body .cbc b iv data
  | .gost => ∃ b, E.gost key = .ok b ∧ ct = body .cfb b iv data
  | .aead g _ a n => ∃ b A, E.C.new a key = .ok b ∧ E.aead g b n = .ok A ∧ A.sealF iv data = .ok ct

/-- The library's reading of a body in an unauthenticated mode. -/
def OpenedMd (m : Md) (b : BlockCipher) (iv ct out : Bytes) : Prop :=
  if m.padded then ct ≠ [] ∧ b.bs ∣ ct.length ∧ Strip (plain m b iv ct) out else out = plain m b iv ct

/-- What `params` and `ct` stand for under `key`, for a registered cipher; `x…` are bytes that the library ignores.  An AEAD body must be what sealing `out` gives. -/
def Opened2 (E : Env) (c : Cph) (key params ct out : Bytes) : Prop :=
  match c.kind with
  | .mode .ecb a => ∃ b, E.C.new a key = .ok b ∧ OpenedMd .ecb b [] ct out
  | .mode m a => ∃ b iv x, E.C.new a key = .ok b ∧ params = tlv 0x04#8 iv ++ x ∧ iv.length = b.bs ∧ OpenedMd m b iv ct out
  | .rc2 _ => ∃ b iv ci v x1 x2, E.C.new .rc2 key = .ok b ∧ params = tlv 0x30#8 (tlv 0x02#8 ci ++ tlv 0x04#8 iv ++ x1) ++ x2 ∧ parseInt ci = some v ∧ 1 ≤ v ∧ v ≤ 1024 ∧
      iv.length = b.bs ∧ OpenedMd .cbc b iv ct out
  | .rc5 _ _ => ∃ b iv ci cj w r x1 x2, E.rc5 key w r = .ok b ∧ params = tlv 0x30#8 (tlv 0x02#8 ci ++ tlv 0x02#8 cj ++ tlv 0x04#8 iv ++ x1) ++ x2 ∧ parseInt ci = some (w : Int) ∧
      parseInt cj = some (r : Int) ∧ iv.length = b.bs ∧ OpenedMd .cbc b iv ct out
  | .gost => ∃ b iv x1 x2, E.gost key = .ok b ∧ params = tlv 0x30#8 (tlv 0x04#8 iv ++ tlv 0x06#8 (oidBytes [1, 2, 643, 7, 1, 2, 5, 1, 1]) ++ x1) ++ x2 ∧ iv.length = b.bs ∧ OpenedMd .cfb b iv ct out
  | .aead g _ a _ => ∃ b A iv, E.C.new a key = .ok b ∧ E.aead g b iv.length = .ok A ∧ A.sealF iv out = .ok ct ∧
      ((∃ x, params = tlv 0x04#8 iv ++ x) ∨ ∃ ci x1 x2, params = tlv 0x30#8 (tlv 0x04#8 iv ++ tlv 0x02#8 ci ++ x1) ++ x2 ∧ parseInt ci = some 16)

/-- The hash function of the options: SHA-1, or SM3 in the GM/T variant, unless another one is set. -/
def kdfHash (sm : Bool) (h : Nat) : Nat := if h = 0 then (if sm then 9 else 2) else h

/-- The options name a hash function that the library has. -/
def kdfValid : KdfOpts → Prop
  | .pbkdf2 sm _ _ h => h = 0 ∨ if sm then h = 9 else h ≤ 11
  | .scrypt _ _ _ _ => True

/-- The derived key. -/
def KdfKey (E : Env) (o : KdfOpts) (pw salt : Bytes) (size : Nat) (key : Bytes) : Prop :=
  match o with
  | .pbkdf2 sm _ iter h => key = Kdf.Spec.pbkdf2 ((E.prf (kdfHash sm h)).f pw) (E.prf (kdfHash sm h)).size salt (max 1 iter) size
  | .scrypt _ n r p => E.scrypt pw salt n r p size = .ok key

/-- The parameters of the key derivation function (RFC 8018, A.2; RFC 7914, section 7): the key length where the cipher asks for it, and the hash function when one was set. -/
def kdfParams (o : KdfOpts) (keyLen : Option Nat) (salt : Bytes) : Bytes :=
  let kl := match keyLen with | none => [] | some n => encInt n
  match o with
  | .pbkdf2 _ _ iter h => tlv 0x30#8 (tlv 0x04#8 salt ++ encInt iter ++ kl ++
      if h = 0 then [] else tlv 0x30#8 (tlv 0x06#8 (oidBytes (hashOids.getD (h - 1) [])) ++ [0x05#8, 0x00#8]))
  | .scrypt _ n r p => tlv 0x30#8 (tlv 0x04#8 salt ++ encInt n ++ encInt r ++ encInt p ++ kl)

/-- EncryptedPrivateKeyInfo with PBES2; `x1` to `x6` are bytes behind the known fields. -/
def file2 (pbes kdf : List Nat) (kp : Bytes) (enc : List Nat) (ep x1 x2 x3 x4 ct x5 x6 : Bytes) : Bytes :=
  tlv 0x30#8 (tlv 0x30#8 (tlv 0x06#8 (oidBytes pbes) ++ tlv 0x30#8 (tlv 0x30#8 (tlv 0x06#8 (oidBytes kdf) ++ kp ++ x1) ++ tlv 0x30#8 (tlv 0x06#8 (oidBytes enc) ++ ep ++ x2) ++ x3) ++ x4) ++
    tlv 0x04#8 ct ++ x5) ++ x6

/-- The optional key length and hash function at the end of the parameters of PBKDF2: `kl` is 0 when there is none; other elements there are ignored. -/
def KdfTail (sm : Bool) (x : Bytes) (kl : Int) (hash : Nat) : Prop :=
  ∃ y, ((kl = 0 ∧ y = x ∧ x.head? ≠ some 0x02#8) ∨ ∃ ci, x = tlv 0x02#8 ci ++ y ∧ parseInt ci = some kl) ∧
    ((hash = kdfHash sm 0 ∧ y.head? ≠ some 0x30#8) ∨ ∃ o z1 z2, y = tlv 0x30#8 (tlv 0x06#8 (oidBytes o) ++ z1) ++ z2 ∧ 1 ≤ hash ∧ hashOids[hash - 1]? = some o ∧ (sm = true → hash = 9))

/-- The key that the parameters in a file stand for, when the cipher wants `size` bytes: a key length in the file has precedence. -/
def KdfFile (E : Env) (oid : List Nat) (params pw : Bytes) (size : Nat) (key : Bytes) : Prop :=
  (∃ sm salt ci iter x x' kl hash, oid = oidPbkdf2 sm ∧ params = tlv 0x30#8 (tlv 0x04#8 salt ++ tlv 0x02#8 ci ++ x) ++ x' ∧ parseInt ci = some iter ∧ KdfTail sm x kl hash ∧
    key = Kdf.Spec.pbkdf2 ((E.prf hash).f pw) (E.prf hash).size salt (max 1 iter.toNat) (if 0 < kl then kl.toNat else size)) ∨
  (∃ salt cn cr cp n r p x x' kl, oid = oidScrypt ∧ params = tlv 0x30#8 (tlv 0x04#8 salt ++ tlv 0x02#8 cn ++ tlv 0x02#8 cr ++ tlv 0x02#8 cp ++ x) ++ x' ∧ parseInt cn = some n ∧
    parseInt cr = some r ∧ parseInt cp = some p ∧ ((kl = 0 ∧ x.head? ≠ some 0x02#8) ∨ ∃ ck y, x = tlv 0x02#8 ck ++ y ∧ parseInt ck = some kl) ∧
    E.scrypt pw salt n r p (if 0 < kl then kl.toNat else size) = .ok key)

end Verif.Pkcs.Spec
