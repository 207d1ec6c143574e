import Verif.Cipher.Common
/-
Model of cipher/rc2 (rc2.go). `NewCipher` takes the key and the effective key length `t1`; it has no checks, so it panics where `expandKey` does.
-/
namespace Verif.Cipher.Rc2

abbrev W := BitVec 16
abbrev St := W × W × W × W

/-- rc2.go:247-264 -/
def piTable : List Byte := [
  0xd9, 0x78, 0xf9, 0xc4, 0x19, 0xdd, 0xb5, 0xed, 0x28, 0xe9, 0xfd, 0x79, 0x4a, 0xa0, 0xd8, 0x9d,
  0xc6, 0x7e, 0x37, 0x83, 0x2b, 0x76, 0x53, 0x8e, 0x62, 0x4c, 0x64, 0x88, 0x44, 0x8b, 0xfb, 0xa2,
  0x17, 0x9a, 0x59, 0xf5, 0x87, 0xb3, 0x4f, 0x13, 0x61, 0x45, 0x6d, 0x8d, 0x09, 0x81, 0x7d, 0x32,
  0xbd, 0x8f, 0x40, 0xeb, 0x86, 0xb7, 0x7b, 0x0b, 0xf0, 0x95, 0x21, 0x22, 0x5c, 0x6b, 0x4e, 0x82,
  0x54, 0xd6, 0x65, 0x93, 0xce, 0x60, 0xb2, 0x1c, 0x73, 0x56, 0xc0, 0x14, 0xa7, 0x8c, 0xf1, 0xdc,
  0x12, 0x75, 0xca, 0x1f, 0x3b, 0xbe, 0xe4, 0xd1, 0x42, 0x3d, 0xd4, 0x30, 0xa3, 0x3c, 0xb6, 0x26,
  0x6f, 0xbf, 0x0e, 0xda, 0x46, 0x69, 0x07, 0x57, 0x27, 0xf2, 0x1d, 0x9b, 0xbc, 0x94, 0x43, 0x03,
  0xf8, 0x11, 0xc7, 0xf6, 0x90, 0xef, 0x3e, 0xe7, 0x06, 0xc3, 0xd5, 0x2f, 0xc8, 0x66, 0x1e, 0xd7,
  0x08, 0xe8, 0xea, 0xde, 0x80, 0x52, 0xee, 0xf7, 0x84, 0xaa, 0x72, 0xac, 0x35, 0x4d, 0x6a, 0x2a,
  0x96, 0x1a, 0xd2, 0x71, 0x5a, 0x15, 0x49, 0x74, 0x4b, 0x9f, 0xd0, 0x5e, 0x04, 0x18, 0xa4, 0xec,
  0xc2, 0xe0, 0x41, 0x6e, 0x0f, 0x51, 0xcb, 0xcc, 0x24, 0x91, 0xaf, 0x50, 0xa1, 0xf4, 0x70, 0x39,
  0x99, 0x7c, 0x3a, 0x85, 0x23, 0xb8, 0xb4, 0x7a, 0xfc, 0x02, 0x36, 0x5b, 0x25, 0x55, 0x97, 0x31,
  0x2d, 0x5d, 0xfa, 0x98, 0xe3, 0x8a, 0x92, 0xae, 0x05, 0xdf, 0x29, 0x10, 0x67, 0x6c, 0xba, 0xc9,
  0xd3, 0x00, 0xe6, 0xcf, 0xe1, 0x9e, 0xa8, 0x2c, 0x63, 0x16, 0x01, 0x3f, 0x58, 0xe2, 0x89, 0xa9,
  0x0d, 0x38, 0x34, 0x1b, 0xab, 0x33, 0xff, 0xb0, 0xbb, 0x48, 0x0c, 0x5f, 0xb9, 0xb1, 0xcd, 0x2e,
  0xc5, 0xf3, 0xdb, 0x47, 0xe5, 0xa5, 0x9c, 0x77, 0x0a, 0xa6, 0x20, 0x68, 0xfe, 0x7f, 0xc1, 0xad]
def pi (x : Byte) : Byte := piTable.getD x.toNat 0

/-- `l[i]` -/
def at' (l : Bytes) (i : Int) : Res Byte := if 0 ≤ i ∧ i < l.length then .ok (l.getD i.toNat 0) else .panic
/-- `l[i] = x` -/
def put (l : Bytes) (i : Int) (x : Byte) : Res Bytes := if 0 ≤ i ∧ i < l.length then .ok (l.set i.toNat x) else .panic

/-- rc2.go:275-277: the loop from `i` with `n` steps left. -/
def fill (t : Nat) : Nat → Nat → Bytes → Res Bytes
  | 0, _, l => .ok l
  | n + 1, i, l => do
    let a ← at' l ((i : Int) - 1)
    let b ← at' l ((i - t) % 256 : Nat)
    let l ← put l i (pi (a + b))
    fill t n (i + 1) l

/-- rc2.go:281-283: the loop down from `i - 1`. -/
def back (t8 : Int) : Nat → Bytes → Res Bytes
  | 0, l => .ok l
  | i + 1, l => do
    let a ← at' l ((i : Int) + 1)
    let b ← at' l ((i : Int) + t8)
    let l ← put l i (pi (a ^^^ b))
    back t8 i l

/-- rc2.go:272: Go's division truncates towards zero. -/
def t8 (t1 : Int) : Int := (t1 + 7).tdiv 8
/-- rc2.go:273: for `t1 ≥ 1` the exponent `8 + t1 - 8*t8` is between 1 and 8. (For the other `t1` the exponent is modulo 2^64 and a zero modulus panics;
line 279 panics for them in any case.) -/
def tm (t1 : Int) : Byte := BitVec.ofNat 8 (255 % 2 ^ (8 + t1 - 8 * t8 t1).toNat)

/-- rc2.go:266-292 `expandKey`. `t1` is the mathematical integer: overflow of `t1 + 7` (for `t1 > 2^63 - 8`) makes `t8` negative instead of large, and both panic at line 279. -/
def expandKey (key : Bytes) (t1 : Int) : Res (List W) := do
  let l := copyInto (List.replicate 128 0) key
  let l ← fill key.length (128 - key.length) key.length l
  let x ← at' l (128 - t8 t1)
  let l ← put l (128 - t8 t1) (pi (x &&& tm t1))
  let l ← back (t8 t1) (128 - t8 t1).toNat l
  .ok ((List.range 64).map (fun i => (l.getD (2 * i) 0).setWidth 16 + (l.getD (2 * i + 1) 0).setWidth 16 * 256))

/-- rc2.go:70-87 (and 99-116, 128-145): one mixing round; `j = 4 i`. -/
def mix (k : List W) (s : St) (i : Nat) : St :=
  let (r0, r1, r2, r3) := s
  let r0 := rotl (r0 + k.getD (4 * i) 0 + (r3 &&& r2) + (~~~r3 &&& r1)) 1
  let r1 := rotl (r1 + k.getD (4 * i + 1) 0 + (r0 &&& r3) + (~~~r0 &&& r2)) 2
  let r2 := rotl (r2 + k.getD (4 * i + 2) 0 + (r1 &&& r0) + (~~~r1 &&& r3)) 3
  let r3 := rotl (r3 + k.getD (4 * i + 3) 0 + (r2 &&& r1) + (~~~r2 &&& r0)) 5
  (r0, r1, r2, r3)
/-- rc2.go:91-94, 120-123 -/
def mash (k : List W) (s : St) : St :=
  let (r0, r1, r2, r3) := s
  let r0 := r0 + k.getD (r3 &&& 63).toNat 0
  let r1 := r1 + k.getD (r0 &&& 63).toNat 0
  let r2 := r2 + k.getD (r1 &&& 63).toNat 0
  let r3 := r3 + k.getD (r2 &&& 63).toNat 0
  (r0, r1, r2, r3)
/-- rc2.go:163-181 (and 190-208, 219-237) -/
def unmix (k : List W) (s : St) (i : Nat) : St :=
  let (r0, r1, r2, r3) := s
  let r3 := rotl r3 11 - k.getD (4 * i + 3) 0 - (r2 &&& r1) - (~~~r2 &&& r0)
  let r2 := rotl r2 13 - k.getD (4 * i + 2) 0 - (r1 &&& r0) - (~~~r1 &&& r3)
  let r1 := rotl r1 14 - k.getD (4 * i + 1) 0 - (r0 &&& r3) - (~~~r0 &&& r2)
  let r0 := rotl r0 15 - k.getD (4 * i) 0 - (r3 &&& r2) - (~~~r3 &&& r1)
  (r0, r1, r2, r3)
/-- rc2.go:184-187, 212-215 -/
def unmash (k : List W) (s : St) : St :=
  let (r0, r1, r2, r3) := s
  let r3 := r3 - k.getD (r2 &&& 63).toNat 0
  let r2 := r2 - k.getD (r1 &&& 63).toNat 0
  let r1 := r1 - k.getD (r0 &&& 63).toNat 0
  let r0 := r0 - k.getD (r3 &&& 63).toNat 0
  (r0, r1, r2, r3)

/-- rc2.go:60-152 `encrypt`: `j <= 16` is 5 rounds, `j <= 40` the next 6, `j <= 60` the last 5. -/
def enc (k : List W) (s : St) : St :=
  let s := [0, 1, 2, 3, 4].foldl (mix k) s
  let s := mash k s
  let s := [5, 6, 7, 8, 9, 10].foldl (mix k) s
  let s := mash k s
  [11, 12, 13, 14, 15].foldl (mix k) s
/-- rc2.go:154-245 `decrypt`: `j` from 63 down to 44, 20 and 0. -/
def dec (k : List W) (s : St) : St :=
  let s := [11, 12, 13, 14, 15].reverse.foldl (unmix k) s
  let s := unmash k s
  let s := [5, 6, 7, 8, 9, 10].reverse.foldl (unmix k) s
  let s := unmash k s
  [0, 1, 2, 3, 4].reverse.foldl (unmix k) s

/-- rc2.go:18-58 -/
def newCipher (key : Bytes) (t1 : Int) : Res Obj := do
  let k ← expandKey key t1
  .ok ⟨8, guarded 8 (whole 8 (enc4LE 16 2 (enc k))), guarded 8 (whole 8 (enc4LE 16 2 (dec k)))⟩

theorem sub4 (x a b c : W) : x + a + b + c - a - b - c = x := by
  rw [BitVec.add_assoc, BitVec.add_assoc, BitVec.sub_sub, BitVec.sub_sub]
  exact BitVec.add_sub_cancel _ _
theorem add4 (x a b c : W) : x - a - b - c + a + b + c = x := by
  rw [BitVec.add_assoc, BitVec.add_assoc, BitVec.sub_sub, BitVec.sub_sub, ← BitVec.add_assoc a b c]
  exact BitVec.sub_add_cancel _ _

theorem unmix_mix (k : List W) (s : St) (i : Nat) : unmix k (mix k s i) i = s := by
  obtain ⟨r0, r1, r2, r3⟩ := s
  simp only [mix, unmix, rotl_rotl (w := 16) _ 5 11 (by decide), rotl_rotl (w := 16) _ 3 13 (by decide), rotl_rotl (w := 16) _ 2 14 (by decide), rotl_rotl (w := 16) _ 1 15 (by decide), sub4]
theorem mix_unmix (k : List W) (s : St) (i : Nat) : mix k (unmix k s i) i = s := by
  obtain ⟨r0, r1, r2, r3⟩ := s
  simp only [mix, unmix, add4, rotl_rotl (w := 16) _ 11 5 (by decide), rotl_rotl (w := 16) _ 13 3 (by decide), rotl_rotl (w := 16) _ 14 2 (by decide), rotl_rotl (w := 16) _ 15 1 (by decide)]
theorem unmash_mash (k : List W) (s : St) : unmash k (mash k s) = s := by
  obtain ⟨r0, r1, r2, r3⟩ := s
  simp only [mash, unmash, add_sub_right]
theorem mash_unmash (k : List W) (s : St) : mash k (unmash k s) = s := by
  obtain ⟨r0, r1, r2, r3⟩ := s
  simp only [mash, unmash, sub_add_self]

theorem dec_enc (k : List W) (s : St) : dec k (enc k s) = s := by
  simp only [dec, enc, foldl_undo (mix k) (unmix k) (unmix_mix k), unmash_mash]
theorem enc_dec (k : List W) (s : St) : enc k (dec k s) = s := by
  simp only [dec, enc, foldl_undo' (mix k) (unmix k) (mix_unmix k), mash_unmash]

/-! When `expandKey` panics -/

theorem at_ok {l : Bytes} {i : Int} (h : 0 ≤ i ∧ i < l.length) : at' l i = .ok (l.getD i.toNat 0) := if_pos h
theorem put_ok {l : Bytes} {i : Int} {x : Byte} (h : 0 ≤ i ∧ i < l.length) : put l i x = .ok (l.set i.toNat x) := if_pos h

theorem fill_ok (t : Nat) (ht : 0 < t) : ∀ n i (l : Bytes), l.length = 128 → t ≤ i → i + n = 128 → ∃ l', fill t n i l = .ok l' ∧ l'.length = 128 := by
  intro n
  induction n with
  | zero => intro i l hl _ _; exact ⟨l, rfl, hl⟩
  | succ n ih =>
    intro i l hl hi hn
    simp only [fill]
    rw [at_ok (by omega), at_ok (by omega)]
    simp only [bind, Res.bind]
    rw [put_ok (by omega)]
    exact ih (i + 1) _ (by simpa using hl) (by omega) (by omega)

theorem back_ok (t8 : Int) : ∀ (i : Nat) (l : Bytes), l.length = 128 → 0 < t8 → (i : Int) + t8 ≤ 128 → ∃ l', back t8 i l = .ok l' ∧ l'.length = 128 := by
  intro i
  induction i with
  | zero => intro l hl _ _; exact ⟨l, rfl, hl⟩
  | succ i ih =>
    intro l hl ht hi
    simp only [back]
    rw [at_ok (by omega), at_ok (by omega)]
    simp only [bind, Res.bind]
    rw [put_ok (by omega)]
    exact ih _ (by simpa using hl) ht (by omega)

theorem copyInto_len (key : Bytes) : (copyInto (List.replicate 128 0) key).length = 128 := by simp

/-- What `NewCipher` takes without panic. -/
def Accepts (n : Nat) (t1 : Int) : Prop := 0 < n ∧ 1 ≤ t1 ∧ t1 ≤ 1024

theorem t8_range (t1 : Int) (h : 1 ≤ t1 ∧ t1 ≤ 1024) : 1 ≤ t8 t1 ∧ t8 t1 ≤ 128 := by
  unfold t8
  rw [Int.tdiv_eq_ediv_of_nonneg (by omega)]
  omega
theorem t8_out (t1 : Int) (h : ¬ (1 ≤ t1 ∧ t1 ≤ 1024)) : t8 t1 ≤ 0 ∨ 129 ≤ t8 t1 := by
  unfold t8
  by_cases h0 : t1 + 7 < 0
  · left
    have h2 : (t1 + 7).tdiv 8 = - ((-(t1 + 7)).tdiv 8) := by rw [Int.neg_tdiv, Int.neg_neg]
    rw [h2, Int.tdiv_eq_ediv_of_nonneg (by omega)]
    omega
  · rw [Int.tdiv_eq_ediv_of_nonneg (by omega)]
    omega

theorem expandKey_ok (key : Bytes) (t1 : Int) (h : Accepts key.length t1) : ∃ k, expandKey key t1 = .ok k := by
  obtain ⟨hk, h1⟩ := h
  have h8 := t8_range t1 h1
  unfold expandKey
  have hfill : ∃ l', fill key.length (128 - key.length) key.length (copyInto (List.replicate 128 0) key) = .ok l' ∧ l'.length = 128 := by
    by_cases hc : key.length ≤ 128
    · exact fill_ok _ hk _ _ _ (copyInto_len key) (Nat.le_refl _) (by omega)
    · rw [show 128 - key.length = 0 from by omega]
      exact ⟨_, rfl, copyInto_len key⟩
  obtain ⟨l', h2, h3⟩ := hfill
  simp only [h2, bind, Res.bind]
  rw [at_ok (by omega)]
  simp only []
  rw [put_ok (by omega)]
  simp only []
  obtain ⟨l'', h4, _⟩ := back_ok (t8 t1) (128 - t8 t1).toNat (l'.set (128 - t8 t1).toNat (pi (l'.getD (128 - t8 t1).toNat 0 &&& tm t1))) (by simpa using h3) (by omega) (by omega)
  rw [h4]
  exact ⟨_, rfl⟩

theorem expandKey_panic (key : Bytes) (t1 : Int) (h : ¬ Accepts key.length t1) : expandKey key t1 = .panic := by
  unfold expandKey
  by_cases hk : key.length = 0
  · have : fill key.length (128 - key.length) key.length (copyInto (List.replicate 128 0) key) = .panic := by
      rw [hk]
      show fill 0 (127 + 1) 0 _ = _
      rw [fill]
      have : at' (copyInto (List.replicate 128 0) key) (((0 : Nat) : Int) - 1) = .panic := if_neg (by omega)
      rw [this]
      rfl
    simp only [this, bind, Res.bind]
  · have hfill : ∃ l', fill key.length (128 - key.length) key.length (copyInto (List.replicate 128 0) key) = .ok l' ∧ l'.length = 128 := by
      by_cases hc : key.length ≤ 128
      · exact fill_ok _ (by omega) _ _ _ (copyInto_len key) (Nat.le_refl _) (by omega)
      · rw [show 128 - key.length = 0 from by omega]
        exact ⟨_, rfl, copyInto_len key⟩
    obtain ⟨l', h2, h3⟩ := hfill
    have h8 := t8_out t1 (fun hc => h ⟨by omega, hc⟩)
    simp only [h2, bind, Res.bind]
    have : at' l' (128 - t8 t1) = .panic := if_neg (by omega)
    rw [this]

theorem newCipher_ok (key : Bytes) (t1 : Int) (h : Accepts key.length t1) :
    ∃ c, newCipher key t1 = .ok c ∧ c.bs = 8 ∧ ∃ E D, IsBlock 8 c.enc c.dec E D := by
  obtain ⟨k, hk⟩ := expandKey_ok key t1 h
  unfold newCipher
  rw [hk]
  exact ⟨_, rfl, rfl, _, _, isBlock_4LE (w := 16) (sz := 2) 8 rfl rfl (f := enc k) (g := dec k) (dec_enc k) (enc_dec k)⟩

theorem newCipher_panic (key : Bytes) (t1 : Int) (h : ¬ Accepts key.length t1) : newCipher key t1 = .panic := by
  unfold newCipher
  rw [expandKey_panic key t1 h]
  rfl

end Verif.Cipher.Rc2
