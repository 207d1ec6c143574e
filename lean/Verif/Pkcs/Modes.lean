import Verif.Facade.Lemmas
import Verif.Mode.OcfbLemmas
import Verif.Mode.CfbLemmas2
import Verif.Padding.Props
/-
The block ciphers, the modes of operation and the padding as /repo/pkcs1, /repo/pkcs/pbes1 and /repo/pkcs/pbes2 use them: one call on a freshly
allocated output buffer, so that byte strings suffice.

The block ciphers are any families that take the key sizes their constructors take.  The modes CBC, CFB, OFB and CTR are those of
Go's `crypto/cipher`, which is not part of /repo; they are stated from SP 800-38A.  ECB, CFB1 and CFB8 are those of /repo/mode, in the functional
form that C11 and C17 to C19 prove of the code.  `append` in the padding may write behind the plaintext in the caller's array (C03); this is not repeated here.
-/
namespace Verif.Pkcs
open Verif.Mode Verif.Facade Verif.Padding

/-- The block ciphers that the tables of pkcs1/cipher_setting.go, pkcs/pbes1/cipher_setting.go and pkcs/pbes2/cipher_setting.go name. -/
inductive Alg where
  | des | des2 | des3 | aes | sm4 | kuznyechik | rc2 | cast5 | twofish | aria | misty1 | seed | serpent
  deriving DecidableEq

/-- Block sizes. -/
def Alg.bs : Alg → Nat
  | .des | .des2 | .des3 | .rc2 | .cast5 | .misty1 => 8
  | .aes | .sm4 | .kuznyechik | .twofish | .aria | .seed | .serpent => 16

/-- The key sizes `NewCipher` takes (for RC2, called with `t1 = 8 * len(key)`: see C54). -/
def Alg.keyOk : Alg → Nat → Bool
  | .des, n => n == 8
  | .des2, n => n == 16
  | .des3, n => n == 24
  | .aes, n => n == 16 || n == 24 || n == 32
  | .sm4, n => n == 16
  | .kuznyechik, n => n == 32
  | .rc2, n => 1 ≤ n && n ≤ 128
  | .cast5, n => n == 16
  | .twofish, n => n == 16 || n == 24 || n == 32
  | .aria, n => n == 16 || n == 24 || n == 32
  | .misty1, n => n == 16
  | .seed, n => n == 16 || n == 32
  | .serpent, n => n == 16 || n == 24 || n == 32

/-- The constructors.  Every one but that of RC2 returns an error for a key of another size; `rc2.NewCipher` panics (C54). -/
structure Ciphers where
  new : Alg → Bytes → Res BlockCipher
  ok : ∀ a k, a.keyOk k.length = true → ∃ c, new a k = .ok c ∧ c.bs = a.bs
  bad : ∀ a k, a.keyOk k.length = false → new a k = if a = .rc2 then .panic else .err

/-- The modes without authentication. -/
inductive Md where
  | ecb | cbc | cfb | cfb1 | cfb8 | ofb | ctr
  deriving DecidableEq

/-- The modes that need whole blocks, and therefore padding. -/
def Md.padded : Md → Bool
  | .ecb | .cbc => true
  | _ => false

/-- Key stream of OFB and CTR. -/
def ofbStream (c : BlockCipher) (iv : Bytes) (n : Nat) : Bytes := Spec.keyBytes (Spec.streamOf c.bs (Spec.ofbBlock c.E iv)) 0 n
def ctrStream (c : BlockCipher) (iv : Bytes) (n : Nat) : Bytes :=
  Spec.keyBytes (Spec.streamOf c.bs fun j => c.E (Spec.natBe c.bs (Spec.beNat iv + j))) 0 n

/-- Encryption of a byte string; for the padded modes its length is a multiple of the block size. -/
def Md.enc (md : Md) (c : BlockCipher) (iv x : Bytes) : Bytes :=
  match md with
  | .ecb => (blkRun c.bs (ecbEncF c) () x).1
  | .cbc => (blkRun c.bs (cbcEncF c) iv x).1
  | .cfb => (Spec.cfb c.E iv (chunks c.bs x)).flatten
  | .cfb1 => (bRun (cfb1F c false) iv x).1
  | .cfb8 => (bRun (cfb8F c false) iv x).1
  | .ofb => xorb x (ofbStream c iv x.length)
  | .ctr => xorb x (ctrStream c iv x.length)

def Md.dec (md : Md) (c : BlockCipher) (iv x : Bytes) : Bytes :=
  match md with
  | .ecb => (blkRun c.bs (ecbDecF c) () x).1
  | .cbc => (blkRun c.bs (cbcDecF c) iv x).1
  | .cfb => (Spec.cfbDec c.E iv (chunks c.bs x)).flatten
  | .cfb1 => (bRun (cfb1F c true) iv x).1
  | .cfb8 => (bRun (cfb8F c true) iv x).1
  | .ofb => xorb x (ofbStream c iv x.length)
  | .ctr => xorb x (ctrStream c iv x.length)

/-- The padding step before encryption (e.g. pkcs/pbes2/cipher_cbc.go:61). -/
def Md.pad (md : Md) (bs : Nat) (x : Bytes) : Bytes := if md.padded then pkcs7Pad x bs else x

/-- The end of every `Decrypt` with padding (e.g. pkcs/pbes2/cipher_cbc.go:99-111): no plaintext at all is an error, and when the padding is wrong
the whole plaintext is returned, without an error. -/
def unpadOrAll (pt : Bytes) : Res Bytes :=
  if pt.length = 0 then .err
  else match pkcs7Unpad pt with
    | .ok p => .ok p
    | _ => .ok pt

/-- `Decrypt` from the length check on (e.g. pkcs/pbes2/cipher_cbc.go:86-111); the modes without padding have neither the check nor the padding. -/
def Md.openCt (md : Md) (c : BlockCipher) (iv ct : Bytes) : Res Bytes :=
  if md.padded then
    if ct.length % c.bs ≠ 0 then .err else unpadOrAll (md.dec c iv ct)
  else .ok (md.dec c iv ct)

/-- `io.ReadFull(rand, buf)` for a buffer of `n` bytes, from a reader that has the bytes `r` left: the bytes and what is left, or an error. -/
def readFull (n : Nat) (r : Bytes) : Res (Bytes × Bytes) := if r.length < n then .err else .ok (r.take n, r.drop n)

/-! ### Lemmas -/

theorem keyBytes_len (ks : Nat → Byte) (p n : Nat) : (Spec.keyBytes ks p n).length = n := by simp [Spec.keyBytes]

theorem cfb_len (c : BlockCipher) (iv x : Bytes) (hiv : iv.length = c.bs) : (Spec.cfb c.E iv (chunks c.bs x)).flatten.length = x.length := by
  rw [← cfbF_spec c iv hiv x, bRun_length]

theorem cfbDec_len (c : BlockCipher) (iv x : Bytes) (hiv : iv.length = c.bs) : (Spec.cfbDec c.E iv (chunks c.bs x)).flatten.length = x.length := by
  rw [← cfbF_dec_spec c iv hiv x, bRun_length]

theorem Md.enc_length (md : Md) (c : BlockCipher) (iv x : Bytes) (hiv : iv.length = c.bs) (hx : md.padded = true → c.bs ∣ x.length) :
    (md.enc c iv x).length = x.length := by
  cases md with
  | ecb => exact blkRun_length c.bs c.bs_pos _ (fun _ => True) (ecbEnc_ok c).len x (hx rfl) () trivial
  | cbc => exact blkRun_length c.bs c.bs_pos _ (fun v => v.length = c.bs) (cbcEncF_len c) x (hx rfl) iv hiv
  | cfb => exact cfb_len c iv x hiv
  | cfb1 => simp [Md.enc]
  | cfb8 => simp [Md.enc]
  | ofb => simp [Md.enc, ofbStream, keyBytes_len]
  | ctr => simp [Md.enc, ctrStream, keyBytes_len]

theorem Md.dec_length (md : Md) (c : BlockCipher) (iv x : Bytes) (hiv : iv.length = c.bs) (hx : md.padded = true → c.bs ∣ x.length) :
    (md.dec c iv x).length = x.length := by
  cases md with
  | ecb => exact blkRun_length c.bs c.bs_pos _ (fun _ => True) (ecbDec_ok c).len x (hx rfl) () trivial
  | cbc => exact blkRun_length c.bs c.bs_pos _ (fun v => v.length = c.bs) (cbcDecF_len c) x (hx rfl) iv hiv
  | cfb => exact cfbDec_len c iv x hiv
  | cfb1 => simp [Md.dec]
  | cfb8 => simp [Md.dec]
  | ofb => simp [Md.dec, ofbStream, keyBytes_len]
  | ctr => simp [Md.dec, ctrStream, keyBytes_len]

theorem Md.dec_enc (md : Md) (c : BlockCipher) (iv x : Bytes) (hiv : iv.length = c.bs) (hx : md.padded = true → c.bs ∣ x.length) :
    md.dec c iv (md.enc c iv x) = x := by
  cases md with
  | ecb => exact ecb_roundtrip c x (hx rfl)
  | cbc => exact cbc_roundtrip c x iv (hx rfl) hiv
  | cfb =>
    show (Spec.cfbDec c.E iv (chunks c.bs (Spec.cfb c.E iv (chunks c.bs x)).flatten)).flatten = x
    rw [← cfbF_dec_spec c iv hiv, ← cfbF_spec c iv hiv x]
    exact (cfb_byte_roundtrip c x (iv, [])).1
  | cfb1 => exact (cfb1_roundtrip c x iv).1
  | cfb8 => exact (cfb8_roundtrip c x iv).1
  | ofb =>
    show xorb (xorb x (ofbStream c iv x.length)) (ofbStream c iv (xorb x (ofbStream c iv x.length)).length) = x
    have h : (ofbStream c iv x.length).length = x.length := keyBytes_len _ _ _
    rw [xorb_length, h, Nat.min_self, xorb_xorb_cancel_right _ _ (by omega)]
  | ctr =>
    show xorb (xorb x (ctrStream c iv x.length)) (ctrStream c iv (xorb x (ctrStream c iv x.length)).length) = x
    have h : (ctrStream c iv x.length).length = x.length := keyBytes_len _ _ _
    rw [xorb_length, h, Nat.min_self, xorb_xorb_cancel_right _ _ (by omega)]

theorem pad_len (x : Bytes) (bs : Nat) (h : 1 ≤ bs) : (pkcs7Pad x bs).length = (x.length / bs + 1) * bs := by
  have hm := Nat.div_add_mod x.length bs
  have hl := Nat.mod_lt x.length (show 0 < bs by omega)
  have e : (x.length / bs + 1) * bs = bs * (x.length / bs) + bs := by rw [Nat.succ_mul, Nat.mul_comm]
  simp only [pkcs7Pad, show ¬ (bs : Int) < 1 by omega, if_false, List.length_append, List.length_replicate, padSize, Int.toNat_natCast]
  rw [e]; omega

theorem unpadOrAll_pad (x : Bytes) (bs : Nat) (h1 : 1 ≤ bs) (h2 : bs ≤ 255) : unpadOrAll (pkcs7Pad x bs) = .ok x := by
  have hl : (pkcs7Pad x bs).length ≠ 0 := by
    rw [pad_len x bs h1, Nat.succ_mul]; omega
  rw [unpadOrAll, if_neg hl, (C01_pkcs7_roundtrip x bs h1 h2).1]

/-- What `Encrypt` makes, `Decrypt` opens. -/
theorem Md.openCt_enc (md : Md) (c : BlockCipher) (iv x : Bytes) (hiv : iv.length = c.bs) (h2 : c.bs ≤ 255) :
    md.openCt c iv (md.enc c iv (md.pad c.bs x)) = .ok x := by
  have hp := c.bs_pos
  have hx : md.padded = true → c.bs ∣ (md.pad c.bs x).length := by
    intro h
    rw [Md.pad, if_pos h, pad_len x c.bs hp]
    exact Nat.dvd_mul_left _ _
  rw [Md.openCt, md.enc_length c iv _ hiv hx, md.dec_enc c iv _ hiv hx]
  by_cases h : md.padded = true
  · rw [if_pos h, if_neg (by simpa using Nat.mod_eq_zero_of_dvd (hx h)), Md.pad, if_pos h, unpadOrAll_pad x c.bs hp h2]
  · rw [if_neg h, Md.pad, if_neg h]

theorem Alg.bs_pos (a : Alg) : 1 ≤ a.bs ∧ a.bs ≤ 16 ∧ 8 ≤ a.bs := by cases a <;> simp [Alg.bs]

/-! ### A concrete family, to show that the hypotheses can be met -/

def shiftCipher (bs : Nat) (h : 0 < bs) (k : Byte) : BlockCipher where
  bs := bs
  E b := b.reverse.map (· + k)
  D b := (b.map (· - k)).reverse
  bs_pos := h
  lenE := by intro b hb; simp [hb]
  lenD := by intro b hb; simp [hb]
  DE := by
    intro b _
    have : ((fun x : Byte => x - k) ∘ fun x : Byte => x + k) = id := by funext x; exact BitVec.add_sub_cancel x k
    simp only [List.map_map, this, List.map_id, List.reverse_reverse]

def toyCiphers : Ciphers where
  new a k := if a.keyOk k.length = true then .ok (shiftCipher a.bs (by have := a.bs_pos; omega) (k.foldl (· + ·) 1)) else if a = .rc2 then .panic else .err
  ok a k h := ⟨_, by rw [if_pos h], rfl⟩
  bad a k h := by rw [if_neg (by simp [h])]

end Verif.Pkcs
