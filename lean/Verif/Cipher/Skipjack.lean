import Verif.Cipher.Common2
/-
Model of cipher/skipjack.
-/
namespace Verif.Cipher.Skipjack

/-- `ftable` (cipher/skipjack/skipjack.go:150-167). -/
def ftable : List Byte := [
  0xa3, 0xd7, 0x09, 0x83, 0xf8, 0x48, 0xf6, 0xf4, 0xb3, 0x21, 0x15, 0x78, 0x99, 0xb1, 0xaf, 0xf9,
  0xe7, 0x2d, 0x4d, 0x8a, 0xce, 0x4c, 0xca, 0x2e, 0x52, 0x95, 0xd9, 0x1e, 0x4e, 0x38, 0x44, 0x28,
  0x0a, 0xdf, 0x02, 0xa0, 0x17, 0xf1, 0x60, 0x68, 0x12, 0xb7, 0x7a, 0xc3, 0xe9, 0xfa, 0x3d, 0x53,
  0x96, 0x84, 0x6b, 0xba, 0xf2, 0x63, 0x9a, 0x19, 0x7c, 0xae, 0xe5, 0xf5, 0xf7, 0x16, 0x6a, 0xa2,
  0x39, 0xb6, 0x7b, 0x0f, 0xc1, 0x93, 0x81, 0x1b, 0xee, 0xb4, 0x1a, 0xea, 0xd0, 0x91, 0x2f, 0xb8,
  0x55, 0xb9, 0xda, 0x85, 0x3f, 0x41, 0xbf, 0xe0, 0x5a, 0x58, 0x80, 0x5f, 0x66, 0x0b, 0xd8, 0x90,
  0x35, 0xd5, 0xc0, 0xa7, 0x33, 0x06, 0x65, 0x69, 0x45, 0x00, 0x94, 0x56, 0x6d, 0x98, 0x9b, 0x76,
  0x97, 0xfc, 0xb2, 0xc2, 0xb0, 0xfe, 0xdb, 0x20, 0xe1, 0xeb, 0xd6, 0xe4, 0xdd, 0x47, 0x4a, 0x1d,
  0x42, 0xed, 0x9e, 0x6e, 0x49, 0x3c, 0xcd, 0x43, 0x27, 0xd2, 0x07, 0xd4, 0xde, 0xc7, 0x67, 0x18,
  0x89, 0xcb, 0x30, 0x1f, 0x8d, 0xc6, 0x8f, 0xaa, 0xc8, 0x74, 0xdc, 0xc9, 0x5d, 0x5c, 0x31, 0xa4,
  0x70, 0x88, 0x61, 0x2c, 0x9f, 0x0d, 0x2b, 0x87, 0x50, 0x82, 0x54, 0x64, 0x26, 0x7d, 0x03, 0x40,
  0x34, 0x4b, 0x1c, 0x73, 0xd1, 0xc4, 0xfd, 0x3b, 0xcc, 0xfb, 0x7f, 0xab, 0xe6, 0x3e, 0x5b, 0xa5,
  0xad, 0x04, 0x23, 0x9c, 0x14, 0x51, 0x22, 0xf0, 0x29, 0x79, 0x71, 0x7e, 0xff, 0x8c, 0x0e, 0xe2,
  0x0c, 0xef, 0xbc, 0x72, 0x75, 0x6f, 0x37, 0xa1, 0xec, 0xd3, 0x8e, 0x62, 0x8b, 0x86, 0x10, 0xe8,
  0x08, 0x77, 0x11, 0xbe, 0x92, 0x4f, 0x24, 0xc5, 0x32, 0x36, 0x9d, 0xcf, 0xf3, 0xa6, 0xbb, 0xac,
  0x5e, 0x6c, 0xa9, 0x13, 0x57, 0x25, 0xb5, 0xe3, 0xbd, 0xa8, 0x3a, 0x01, 0x05, 0x59, 0x2a, 0x46]

/-- `byte((w >> 8) & 0xff)` (cipher/skipjack/skipjack.go:170). -/
def hi (w : BitVec 16) : Byte := (w >>> 8).setWidth 8
/-- `byte(w & 0xff)` (cipher/skipjack/skipjack.go:171). -/
def lo (w : BitVec 16) : Byte := w.setWidth 8
/-- `(uint16(a) << 8) + uint16(b)` (cipher/skipjack/skipjack.go:178). -/
def join (a b : Byte) : BitVec 16 := (a.setWidth 16 <<< 8) + b.setWidth 16

/-- `ftable[x ^ key[(4*k+j)%10]]` (cipher/skipjack/skipjack.go:173-176). The index is a byte and the table has 256 entries. -/
def f (key : Bytes) (k j : Nat) (x : Byte) : Byte := ftable.getD (x ^^^ key.getD ((4 * k + j) % 10) 0).toNat 0

/-- `g` (cipher/skipjack/skipjack.go:169-179). -/
def g (key : Bytes) (k : Nat) (w : BitVec 16) : BitVec 16 :=
  let g1 := hi w
  let g2 := lo w
  let g3 := f key k 0 g2 ^^^ g1
  let g4 := f key k 1 g3 ^^^ g2
  let g5 := f key k 2 g4 ^^^ g3
  let g6 := f key k 3 g5 ^^^ g4
  join g5 g6

/-- `ginv` (cipher/skipjack/skipjack.go:181-191). -/
def ginv (key : Bytes) (k : Nat) (w : BitVec 16) : BitVec 16 :=
  let g5 := hi w
  let g6 := lo w
  let g4 := f key k 3 g5 ^^^ g6
  let g3 := f key k 2 g4 ^^^ g5
  let g2 := f key k 1 g3 ^^^ g4
  let g1 := f key k 0 g2 ^^^ g3
  join g1 g2

abbrev W := BitVec 16 × BitVec 16 × BitVec 16 × BitVec 16

/-- Rule A with counter `k` (cipher/skipjack/skipjack.go:91-95). -/
def ruleA (key : Bytes) (w : W) (k : Nat) : W :=
  let gw1 := g key k w.1
  (gw1 ^^^ w.2.2.2 ^^^ (BitVec.ofNat 16 k + 1), gw1, w.2.1, w.2.2.1)
/-- Rule B with counter `k` (cipher/skipjack/skipjack.go:98-102). -/
def ruleB (key : Bytes) (w : W) (k : Nat) : W :=
  let gw1 := g key k w.1
  (w.2.2.2, gw1, w.1 ^^^ w.2.1 ^^^ BitVec.ofNat 16 (k + 1), w.2.2.1)
/-- The inverse of rule B with counter `k` (cipher/skipjack/skipjack.go:126-130). -/
def ruleBinv (key : Bytes) (w : W) (k : Nat) : W :=
  let gw2 := ginv key (k - 1) w.2.1
  (gw2, gw2 ^^^ w.2.2.1 ^^^ BitVec.ofNat 16 k, w.2.2.2, w.1)
/-- The inverse of rule A with counter `k` (cipher/skipjack/skipjack.go:133-136). -/
def ruleAinv (key : Bytes) (w : W) (k : Nat) : W :=
  (ginv key (k - 1) w.2.1, w.2.2.1, w.2.2.2, w.1 ^^^ w.2.1 ^^^ BitVec.ofNat 16 k)

/-- The loops of `encrypt` (cipher/skipjack/skipjack.go:87-103): rules and counters in the order of their use. -/
def encrypt (key : Bytes) (w : W) : W :=
  (List.range 2).foldl (fun w t =>
    let w := ((List.range 8).map (16 * t + ·)).foldl (ruleA key) w
    ((List.range 8).map (16 * t + 8 + ·)).foldl (ruleB key) w) w
/-- The loops of `decrypt` (cipher/skipjack/skipjack.go:122-138); the counter goes down from 32. -/
def decrypt (key : Bytes) (w : W) : W :=
  (List.range 2).foldl (fun w t =>
    let w := ((List.range 8).map (32 - 16 * t - ·)).foldl (ruleBinv key) w
    ((List.range 8).map (24 - 16 * t - ·)).foldl (ruleAinv key) w) w

/-- NewCipher, Encrypt and Decrypt (cipher/skipjack/skipjack.go:26-147). -/
def newCipher : Bytes → Res Obj := fun key =>
  if key.length = 10 then .ok ⟨8, guarded 8 (whole 8 (enc4BE 16 2 (encrypt key))), guarded 8 (whole 8 (enc4BE 16 2 (decrypt key)))⟩ else .err

/-! Proofs -/

theorem join_toNat (a b : Byte) : (join a b).toNat = a.toNat * 256 + b.toNat := by
  unfold join
  have ha := a.isLt
  have hb := b.isLt
  simp only [BitVec.toNat_add, BitVec.toNat_shiftLeft, BitVec.toNat_setWidth, Nat.shiftLeft_eq]
  omega
theorem hi_join (a b : Byte) : hi (join a b) = a := by
  apply BitVec.eq_of_toNat_eq
  have ha := a.isLt
  have hb := b.isLt
  unfold hi
  simp only [BitVec.toNat_setWidth, BitVec.toNat_ushiftRight, join_toNat, Nat.shiftRight_eq_div_pow]
  omega
theorem lo_join (a b : Byte) : lo (join a b) = b := by
  apply BitVec.eq_of_toNat_eq
  have ha := a.isLt
  have hb := b.isLt
  unfold lo
  simp only [BitVec.toNat_setWidth, join_toNat]
  omega
theorem join_hi_lo (w : BitVec 16) : join (hi w) (lo w) = w := by
  apply BitVec.eq_of_toNat_eq
  have ha := w.isLt
  rw [join_toNat]
  unfold hi lo
  simp only [BitVec.toNat_setWidth, BitVec.toNat_ushiftRight, Nat.shiftRight_eq_div_pow]
  omega

theorem ginv_g (key : Bytes) (k : Nat) (w : BitVec 16) : ginv key k (g key k w) = w := by
  unfold ginv g
  simp only [hi_join, lo_join, xor_cancel, join_hi_lo]

theorem ofNat_succ (k : Nat) : BitVec.ofNat 16 (k + 1) = BitVec.ofNat 16 k + 1 := by
  apply BitVec.eq_of_toNat_eq
  simp

theorem inv_A (key : Bytes) (w : W) (k : Nat) : ruleAinv key (ruleA key w k) (k + 1) = w := by
  obtain ⟨a, b, c, d⟩ := w
  unfold ruleAinv ruleA
  simp only [Nat.add_sub_cancel, ginv_g, ofNat_succ]
  congr 3
  generalize g key k a = x
  generalize BitVec.ofNat 16 k + 1 = y
  rw [BitVec.xor_comm x d, xor_undo2]
theorem inv_B (key : Bytes) (w : W) (k : Nat) : ruleBinv key (ruleB key w k) (k + 1) = w := by
  obtain ⟨a, b, c, d⟩ := w
  unfold ruleBinv ruleB
  simp only [Nat.add_sub_cancel, ginv_g]
  congr 2
  generalize BitVec.ofNat 16 (k + 1) = y
  rw [BitVec.xor_assoc a b y, xor_cancel, BitVec.xor_assoc, BitVec.xor_self, BitVec.xor_zero]

theorem undo8 {S : Type} (f g : S → Nat → S) (h : ∀ s k, g (f s k) (k + 1) = s) (n m : Nat) (hm : m = n + 8) (s : S) :
    ((List.range 8).map (m - ·)).foldl g (((List.range 8).map (n + ·)).foldl f s) = s := by
  subst hm
  simp only [show List.range 8 = [0, 1, 2, 3, 4, 5, 6, 7] from rfl, List.map_cons, List.map_nil, List.foldl_cons, List.foldl_nil]
  simp only [show n + 8 - 0 = n + 7 + 1 from rfl, show n + 8 - 1 = n + 6 + 1 from rfl, show n + 8 - 2 = n + 5 + 1 from rfl, show n + 8 - 3 = n + 4 + 1 from rfl,
    show n + 8 - 4 = n + 3 + 1 from rfl, show n + 8 - 5 = n + 2 + 1 from rfl, show n + 8 - 6 = n + 1 + 1 from rfl, show n + 8 - 7 = n + 0 + 1 from rfl, h]

theorem decrypt_encrypt (key : Bytes) (w : W) : decrypt key (encrypt key w) = w := by
  unfold decrypt encrypt
  simp only [show List.range 2 = [0, 1] from rfl, List.foldl_cons, List.foldl_nil]
  rw [undo8 _ _ (inv_B key) _ _ (by rfl), undo8 _ _ (inv_A key) _ _ (by rfl), undo8 _ _ (inv_B key) _ _ (by rfl), undo8 _ _ (inv_A key) _ _ (by rfl)]

theorem implements : Implements newCipher (fun n => n = 10) 8 :=
  implements_fn (ok := fun n => n = 10) (fun key _ => blockFn_4BE (w := 16) (sz := 2) 8 rfl rfl (decrypt_encrypt key))

end Verif.Cipher.Skipjack
