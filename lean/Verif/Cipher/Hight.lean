import Verif.Cipher.Common
/-
Model of cipher/hight (hight.go, sbox.go).
-/
namespace Verif.Cipher.Hight

/-- sbox.go `delta`, `f0`, `f1` -/
def delta : List Byte := [
  0x5a, 0x6d, 0x36, 0x1b, 0x0d, 0x06, 0x03, 0x41, 0x60, 0x30, 0x18, 0x4c, 0x66, 0x33, 0x59, 0x2c,
  0x56, 0x2b, 0x15, 0x4a, 0x65, 0x72, 0x39, 0x1c, 0x4e, 0x67, 0x73, 0x79, 0x3c, 0x5e, 0x6f, 0x37,
  0x5b, 0x2d, 0x16, 0x0b, 0x05, 0x42, 0x21, 0x50, 0x28, 0x54, 0x2a, 0x55, 0x6a, 0x75, 0x7a, 0x7d,
  0x3e, 0x5f, 0x2f, 0x17, 0x4b, 0x25, 0x52, 0x29, 0x14, 0x0a, 0x45, 0x62, 0x31, 0x58, 0x6c, 0x76,
  0x3b, 0x1d, 0x0e, 0x47, 0x63, 0x71, 0x78, 0x7c, 0x7e, 0x7f, 0x3f, 0x1f, 0x0f, 0x07, 0x43, 0x61,
  0x70, 0x38, 0x5c, 0x6e, 0x77, 0x7b, 0x3d, 0x1e, 0x4f, 0x27, 0x53, 0x69, 0x34, 0x1a, 0x4d, 0x26,
  0x13, 0x49, 0x24, 0x12, 0x09, 0x04, 0x02, 0x01, 0x40, 0x20, 0x10, 0x08, 0x44, 0x22, 0x11, 0x48,
  0x64, 0x32, 0x19, 0x0c, 0x46, 0x23, 0x51, 0x68, 0x74, 0x3a, 0x5d, 0x2e, 0x57, 0x6b, 0x35, 0x5a]
def f0 : List Byte := [
  0x00, 0x86, 0x0d, 0x8b, 0x1a, 0x9c, 0x17, 0x91, 0x34, 0xb2, 0x39, 0xbf, 0x2e, 0xa8, 0x23, 0xa5,
  0x68, 0xee, 0x65, 0xe3, 0x72, 0xf4, 0x7f, 0xf9, 0x5c, 0xda, 0x51, 0xd7, 0x46, 0xc0, 0x4b, 0xcd,
  0xd0, 0x56, 0xdd, 0x5b, 0xca, 0x4c, 0xc7, 0x41, 0xe4, 0x62, 0xe9, 0x6f, 0xfe, 0x78, 0xf3, 0x75,
  0xb8, 0x3e, 0xb5, 0x33, 0xa2, 0x24, 0xaf, 0x29, 0x8c, 0x0a, 0x81, 0x07, 0x96, 0x10, 0x9b, 0x1d,
  0xa1, 0x27, 0xac, 0x2a, 0xbb, 0x3d, 0xb6, 0x30, 0x95, 0x13, 0x98, 0x1e, 0x8f, 0x09, 0x82, 0x04,
  0xc9, 0x4f, 0xc4, 0x42, 0xd3, 0x55, 0xde, 0x58, 0xfd, 0x7b, 0xf0, 0x76, 0xe7, 0x61, 0xea, 0x6c,
  0x71, 0xf7, 0x7c, 0xfa, 0x6b, 0xed, 0x66, 0xe0, 0x45, 0xc3, 0x48, 0xce, 0x5f, 0xd9, 0x52, 0xd4,
  0x19, 0x9f, 0x14, 0x92, 0x03, 0x85, 0x0e, 0x88, 0x2d, 0xab, 0x20, 0xa6, 0x37, 0xb1, 0x3a, 0xbc,
  0x43, 0xc5, 0x4e, 0xc8, 0x59, 0xdf, 0x54, 0xd2, 0x77, 0xf1, 0x7a, 0xfc, 0x6d, 0xeb, 0x60, 0xe6,
  0x2b, 0xad, 0x26, 0xa0, 0x31, 0xb7, 0x3c, 0xba, 0x1f, 0x99, 0x12, 0x94, 0x05, 0x83, 0x08, 0x8e,
  0x93, 0x15, 0x9e, 0x18, 0x89, 0x0f, 0x84, 0x02, 0xa7, 0x21, 0xaa, 0x2c, 0xbd, 0x3b, 0xb0, 0x36,
  0xfb, 0x7d, 0xf6, 0x70, 0xe1, 0x67, 0xec, 0x6a, 0xcf, 0x49, 0xc2, 0x44, 0xd5, 0x53, 0xd8, 0x5e,
  0xe2, 0x64, 0xef, 0x69, 0xf8, 0x7e, 0xf5, 0x73, 0xd6, 0x50, 0xdb, 0x5d, 0xcc, 0x4a, 0xc1, 0x47,
  0x8a, 0x0c, 0x87, 0x01, 0x90, 0x16, 0x9d, 0x1b, 0xbe, 0x38, 0xb3, 0x35, 0xa4, 0x22, 0xa9, 0x2f,
  0x32, 0xb4, 0x3f, 0xb9, 0x28, 0xae, 0x25, 0xa3, 0x06, 0x80, 0x0b, 0x8d, 0x1c, 0x9a, 0x11, 0x97,
  0x5a, 0xdc, 0x57, 0xd1, 0x40, 0xc6, 0x4d, 0xcb, 0x6e, 0xe8, 0x63, 0xe5, 0x74, 0xf2, 0x79, 0xff]
def f1 : List Byte := [
  0x00, 0x58, 0xb0, 0xe8, 0x61, 0x39, 0xd1, 0x89, 0xc2, 0x9a, 0x72, 0x2a, 0xa3, 0xfb, 0x13, 0x4b,
  0x85, 0xdd, 0x35, 0x6d, 0xe4, 0xbc, 0x54, 0x0c, 0x47, 0x1f, 0xf7, 0xaf, 0x26, 0x7e, 0x96, 0xce,
  0x0b, 0x53, 0xbb, 0xe3, 0x6a, 0x32, 0xda, 0x82, 0xc9, 0x91, 0x79, 0x21, 0xa8, 0xf0, 0x18, 0x40,
  0x8e, 0xd6, 0x3e, 0x66, 0xef, 0xb7, 0x5f, 0x07, 0x4c, 0x14, 0xfc, 0xa4, 0x2d, 0x75, 0x9d, 0xc5,
  0x16, 0x4e, 0xa6, 0xfe, 0x77, 0x2f, 0xc7, 0x9f, 0xd4, 0x8c, 0x64, 0x3c, 0xb5, 0xed, 0x05, 0x5d,
  0x93, 0xcb, 0x23, 0x7b, 0xf2, 0xaa, 0x42, 0x1a, 0x51, 0x09, 0xe1, 0xb9, 0x30, 0x68, 0x80, 0xd8,
  0x1d, 0x45, 0xad, 0xf5, 0x7c, 0x24, 0xcc, 0x94, 0xdf, 0x87, 0x6f, 0x37, 0xbe, 0xe6, 0x0e, 0x56,
  0x98, 0xc0, 0x28, 0x70, 0xf9, 0xa1, 0x49, 0x11, 0x5a, 0x02, 0xea, 0xb2, 0x3b, 0x63, 0x8b, 0xd3,
  0x2c, 0x74, 0x9c, 0xc4, 0x4d, 0x15, 0xfd, 0xa5, 0xee, 0xb6, 0x5e, 0x06, 0x8f, 0xd7, 0x3f, 0x67,
  0xa9, 0xf1, 0x19, 0x41, 0xc8, 0x90, 0x78, 0x20, 0x6b, 0x33, 0xdb, 0x83, 0x0a, 0x52, 0xba, 0xe2,
  0x27, 0x7f, 0x97, 0xcf, 0x46, 0x1e, 0xf6, 0xae, 0xe5, 0xbd, 0x55, 0x0d, 0x84, 0xdc, 0x34, 0x6c,
  0xa2, 0xfa, 0x12, 0x4a, 0xc3, 0x9b, 0x73, 0x2b, 0x60, 0x38, 0xd0, 0x88, 0x01, 0x59, 0xb1, 0xe9,
  0x3a, 0x62, 0x8a, 0xd2, 0x5b, 0x03, 0xeb, 0xb3, 0xf8, 0xa0, 0x48, 0x10, 0x99, 0xc1, 0x29, 0x71,
  0xbf, 0xe7, 0x0f, 0x57, 0xde, 0x86, 0x6e, 0x36, 0x7d, 0x25, 0xcd, 0x95, 0x1c, 0x44, 0xac, 0xf4,
  0x31, 0x69, 0x81, 0xd9, 0x50, 0x08, 0xe0, 0xb8, 0xf3, 0xab, 0x43, 0x1b, 0x92, 0xca, 0x22, 0x7a,
  0xb4, 0xec, 0x04, 0x5c, 0xd5, 0x8d, 0x65, 0x3d, 0x76, 0x2e, 0xc6, 0x9e, 0x17, 0x4f, 0xa7, 0xff]

/-- f0[x], f1[x] -/
def F0 (x : Byte) : Byte := f0.getD x.toNat 0
def F1 (x : Byte) : Byte := f1.getD x.toNat 0

/-- hight.go:144-159 `expandKey`: round key `i` (0 to 135). `(k-i)&7` is `(k + 8 - i) % 8` for `i < 8`. -/
def roundKey (key : Bytes) (n : Nat) : Byte :=
  if n < 4 then key.getD (n + 12) 0
  else if n < 8 then key.getD (n - 4) 0
  else
    let i := (n - 8) / 16
    let k := (n - 8) % 16
    if k < 8 then key.getD ((k + 8 - i) % 8) 0 + delta.getD (16 * i + k) 0
    else key.getD ((k - 8 + 8 - i) % 8 + 8) 0 + delta.getD (16 * i + k) 0

/-- XX[a] = op (XX[a]) (g XX[b]) -/
def upd (XX : List Byte) (a b : Nat) (g : Byte → Byte → Byte) : List Byte := XX.set a (g (XX.getD a 0) (XX.getD b 0))

/-- hight.go:74-79 `encryptStep`, called with the indices of line 95: `i_n = 7 - (j+n)%8`. -/
def encStep (rk : Nat → Byte) (XX : List Byte) (k j : Nat) : List Byte :=
  let i := fun n => 7 - (j + n) % 8
  let XX := upd XX (i 0) (i 1) (fun a b => a ^^^ (F0 b + rk (4 * k + 3)))
  let XX := upd XX (i 2) (i 3) (fun a b => a + (F1 b ^^^ rk (4 * k + 2)))
  let XX := upd XX (i 4) (i 5) (fun a b => a ^^^ (F0 b + rk (4 * k + 1)))
  upd XX (i 6) (i 7) (fun a b => a + (F1 b ^^^ rk (4 * k + 0)))

/-- hight.go:109-114 `decryptStep`, called with the indices of line 130: `i_n = (7-n+j)%8`. -/
def decStep (rk : Nat → Byte) (XX : List Byte) (k j : Nat) : List Byte :=
  let i := fun n => (7 - n + j) % 8
  let XX := upd XX (i 1) (i 2) (fun a b => a - (F1 b ^^^ rk (4 * k + 2)))
  let XX := upd XX (i 3) (i 4) (fun a b => a ^^^ (F0 b + rk (4 * k + 1)))
  let XX := upd XX (i 5) (i 6) (fun a b => a - (F1 b ^^^ rk (4 * k + 0)))
  upd XX (i 7) (i 0) (fun a b => a ^^^ (F0 b + rk (4 * k + 3)))

/-- hight.go:82-91: initial transformation. -/
def initE (rk : Nat → Byte) (s : Bytes) : Bytes :=
  let s := fun i => s.getD i 0
  [s 0 + rk 0, s 1, s 2 ^^^ rk 1, s 3, s 4 + rk 2, s 5, s 6 ^^^ rk 3, s 7]
/-- hight.go:99-106: final transformation. -/
def finE (rk : Nat → Byte) (XX : Bytes) : Bytes :=
  let x := fun i => XX.getD i 0
  [x 1 + rk 4, x 2, x 3 ^^^ rk 5, x 4, x 5 + rk 6, x 6, x 7 ^^^ rk 7, x 0]
/-- hight.go:117-126 -/
def initD (rk : Nat → Byte) (s : Bytes) : Bytes :=
  let s := fun i => s.getD i 0
  [s 7, s 0 - rk 4, s 1, s 2 ^^^ rk 5, s 3, s 4 - rk 6, s 5, s 6 ^^^ rk 7]
/-- hight.go:134-141 -/
def finD (rk : Nat → Byte) (XX : Bytes) : Bytes :=
  let x := fun i => XX.getD i 0
  [x 0 - rk 0, x 1, x 2 ^^^ rk 1, x 3, x 4 - rk 2, x 5, x 6 ^^^ rk 3, x 7]

/-- hight.go:81-107 `encrypt`: `i` from 2 to 33, `j = i - 2`. -/
def encrypt (rk : Nat → Byte) (s : Bytes) : Bytes :=
  finE rk ((List.range 32).foldl (fun XX j => encStep rk XX (j + 2) j) (initE rk s))

/-- hight.go:116-142 `decrypt`: `i` from 33 down to 2, `j = 33 - i`. -/
def decrypt (rk : Nat → Byte) (s : Bytes) : Bytes :=
  finD rk ((List.range 32).foldl (fun XX j => decStep rk XX (33 - j) j) (initD rk s))

/-- hight.go:26-36, 42-72 -/
def newCipher (key : Bytes) : Res Obj :=
  if key.length = 16 then .ok ⟨8, guarded 8 (whole 8 (encrypt (roundKey key))), guarded 8 (whole 8 (decrypt (roundKey key)))⟩ else .err

/-! Proofs -/

theorem upd_length (X : Bytes) (a b : Nat) (g) : (upd X a b g).length = X.length := by simp [upd]
theorem encStep_length (rk : Nat → Byte) (X : Bytes) (k j : Nat) : (encStep rk X k j).length = X.length := by simp [encStep, upd_length]
theorem decStep_length (rk : Nat → Byte) (X : Bytes) (k j : Nat) : (decStep rk X k j).length = X.length := by simp [decStep, upd_length]

theorem list8 (X : Bytes) (h : X.length = 8) : ∃ a b c d e f g i, X = [a, b, c, d, e, f, g, i] := by
  match X, h with | [a, b, c, d, e, f, g, i], _ => exact ⟨a, b, c, d, e, f, g, i, rfl⟩

/-- The decryption step at `31 - j` undoes the encryption step at `j`, and the other way round. -/
theorem step_undo (rk : Nat → Byte) (X : Bytes) (k j : Nat) (hX : X.length = 8) (hj : j < 32) :
    decStep rk (encStep rk X k j) k (31 - j) = X ∧ encStep rk (decStep rk X k (31 - j)) k j = X := by
  obtain ⟨a, b, c, d, e, f, g, i, rfl⟩ := list8 X hX
  have h8 : j % 8 = 0 ∨ j % 8 = 1 ∨ j % 8 = 2 ∨ j % 8 = 3 ∨ j % 8 = 4 ∨ j % 8 = 5 ∨ j % 8 = 6 ∨ j % 8 = 7 := by omega
  have e1 : ∀ n, (j + n) % 8 = (j % 8 + n) % 8 := fun n => by omega
  have e2 : ∀ n, n ≤ 7 → (7 - n + (31 - j)) % 8 = (7 - n + 7 - j % 8) % 8 := fun n hn => by omega
  unfold decStep encStep
  simp only [e1, e2 0 (by omega), e2 1 (by omega), e2 2 (by omega), e2 3 (by omega), e2 4 (by omega), e2 5 (by omega), e2 6 (by omega), e2 7 (by omega)]
  rcases h8 with h | h | h | h | h | h | h | h <;> rw [h] <;> simp [upd, List.set]

theorem decrypt_eq (rk : Nat → Byte) (s : Bytes) :
    decrypt rk s = finD rk ((List.range 32).reverse.foldl (fun XX j => decStep rk XX (j + 2) (31 - j)) (initD rk s)) := by
  unfold decrypt
  rw [← range_rev, List.foldl_map]
  congr 1

theorem loop_undo (rk : Nat → Byte) : ∀ (l : List Nat) (X : Bytes), (∀ j ∈ l, j < 32) → X.length = 8 →
    l.reverse.foldl (fun XX j => decStep rk XX (j + 2) (31 - j)) (l.foldl (fun XX j => encStep rk XX (j + 2) j) X) = X := by
  intro l
  induction l with
  | nil => intros; rfl
  | cons a l ih =>
    intro X h hX
    simp only [List.reverse_cons, List.foldl_append, List.foldl_cons, List.foldl_nil]
    rw [ih _ (fun j hj => h j (by simp [hj])) (by rw [encStep_length, hX])]
    exact (step_undo rk X (a + 2) a hX (h a (by simp))).1

theorem foldDec_length (rk : Nat → Byte) (l : List Nat) (X : Bytes) : (l.foldl (fun XX j => decStep rk XX (j + 2) (31 - j)) X).length = X.length := by
  induction l generalizing X with
  | nil => rfl
  | cons a l ih => rw [List.foldl_cons, ih, decStep_length]

theorem foldEnc_length (rk : Nat → Byte) (l : List Nat) (X : Bytes) : (l.foldl (fun XX j => encStep rk XX (j + 2) j) X).length = X.length := by
  induction l generalizing X with
  | nil => rfl
  | cons a l ih => rw [List.foldl_cons, ih, encStep_length]

theorem loop_undo' (rk : Nat → Byte) : ∀ (l : List Nat) (X : Bytes), (∀ j ∈ l, j < 32) → X.length = 8 →
    l.foldl (fun XX j => encStep rk XX (j + 2) j) (l.reverse.foldl (fun XX j => decStep rk XX (j + 2) (31 - j)) X) = X := by
  intro l
  induction l with
  | nil => intros; rfl
  | cons a l ih =>
    intro X h hX
    simp only [List.reverse_cons, List.foldl_append, List.foldl_cons, List.foldl_nil]
    rw [(step_undo rk _ (a + 2) a (by rw [foldDec_length, hX]) (h a (by simp))).2, ih _ (fun j hj => h j (by simp [hj])) hX]

theorem initD_finE (rk : Nat → Byte) (X : Bytes) (h : X.length = 8) : initD rk (finE rk X) = X ∧ finE rk (initD rk X) = X ∧ finD rk (initE rk X) = X ∧ initE rk (finD rk X) = X := by
  obtain ⟨a, b, c, d, e, f, g, i, rfl⟩ := list8 X h
  simp [initD, finE, finD, initE]

theorem implements : Implements newCipher (fun n => n = 16) 8 := by
  refine implements_of (ok := fun n => n = 16) (f := fun key => encrypt (roundKey key)) (g := fun key => decrypt (roundKey key)) fun key _ => ?_
  have hr : ∀ j ∈ List.range 32, j < 32 := fun j hj => List.mem_range.1 hj
  refine isBlock_bytes 8 _ _ (fun b _ => by simp [encrypt, finE]) (fun b _ => by simp [decrypt, finD]) (fun b hb => ?_) (fun b hb => ?_)
  · rw [decrypt_eq]
    unfold encrypt
    rw [(initD_finE _ _ (by rw [foldEnc_length]; simp [initE])).1, loop_undo _ _ _ hr (by simp [initE]), (initD_finE _ b hb).2.2.1]
  · rw [decrypt_eq]
    unfold encrypt
    rw [(initD_finE _ _ (by rw [foldDec_length]; simp [initD])).2.2.2, loop_undo' _ _ _ hr (by simp [initD]), (initD_finE _ b hb).2.1]

end Verif.Cipher.Hight
