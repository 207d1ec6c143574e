import Verif.Cipher.Common
/-
Model of cipher/rc6 (rc6.go): RC6-32/20/16.
-/
namespace Verif.Cipher.Rc6

abbrev W := BitVec 32
abbrev St := W × W × W × W

/-- rc6.go:23-30 -/
def skeytable : List W := [
  0xb7e15163, 0x5618cb1c, 0xf45044d5, 0x9287be8e, 0x30bf3847, 0xcef6b200, 0x6d2e2bb9, 0x0b65a572,
  0xa99d1f2b, 0x47d498e4, 0xe60c129d, 0x84438c56, 0x227b060f, 0xc0b27fc8, 0x5ee9f981, 0xfd21733a,
  0x9b58ecf3, 0x399066ac, 0xd7c7e065, 0x75ff5a1e, 0x1436d3d7, 0xb26e4d90, 0x50a5c749, 0xeedd4102,
  0x8d14babb, 0x2b4c3474, 0xc983ae2d, 0x67bb27e6, 0x05f2a19f, 0xa42a1b58, 0x42619511, 0xe0990eca,
  0x7ed08883, 0x1d08023c, 0xbb3f7bf5, 0x5976f5ae, 0xf7ae6f67, 0x95e5e920, 0x341d62d9, 0xd254dc92,
  0x708c564b, 0x0ec3d004, 0xacfb49bd, 0x4b32c376]

structure Mix where
  rk : List W
  L : List W
  A : W
  B : W
  i : Nat
  j : Nat

/-- rc6.go:105-114: one step of the mixing loop. -/
def mixStep (x : Mix) : Mix :=
  let A := rotl (x.rk.getD x.i 0 + (x.A + x.B)) 3
  let B := rotl (x.L.getD x.j 0 + (A + x.B)) (A + x.B).toNat
  ⟨x.rk.set x.i A, x.L.set x.j B, A, B, (x.i + 1) % 44, (x.j + 1) % 4⟩

/-- rc6.go:92-115 `expandKey` -/
def expandKey (key : Bytes) : List W :=
  ((List.range (3 * 44)).foldl (fun x _ => mixStep x) ⟨skeytable, ldLE 32 4 4 key, 0, 0, 0, 0⟩).rk

/-- rc6.go:126-130 -/
def encRound (rk : List W) (s : St) (i : Nat) : St :=
  let (A, B, C, D) := s
  let t := rotl (B * (2 * B + 1)) 5
  let u := rotl (D * (2 * D + 1)) 5
  let A := rotl (A ^^^ t) u.toNat + rk.getD (2 * i) 0
  let C := rotl (C ^^^ u) t.toNat + rk.getD (2 * i + 1) 0
  (B, C, D, A)

/-- rc6.go:152-156 -/
def decRound (rk : List W) (s : St) (i : Nat) : St :=
  let (A, B, C, D) := s
  let (A, B, C, D) := (D, A, B, C)
  let u := rotl (D * (2 * D + 1)) 5
  let t := rotl (B * (2 * B + 1)) 5
  let C := rotl (C - rk.getD (2 * i + 1) 0) (negRot 32 t.toNat) ^^^ u
  let A := rotl (A - rk.getD (2 * i) 0) (negRot 32 u.toNat) ^^^ t
  (A, B, C, D)

/-- rc6.go:117-140 `encrypt`; `rounds = 20`. -/
def enc (rk : List W) (s : St) : St :=
  let (A, B, C, D) := s
  let (A, B, C, D) := ((List.range 20).map (· + 1)).foldl (encRound rk) (A, B + rk.getD 0 0, C, D + rk.getD 1 0)
  (A + rk.getD 42 0, B, C + rk.getD 43 0, D)

/-- rc6.go:142-166 `decrypt` -/
def dec (rk : List W) (s : St) : St :=
  let (A, B, C, D) := s
  let (A, B, C, D) := ((List.range 20).map (· + 1)).reverse.foldl (decRound rk) (A - rk.getD 42 0, B, C - rk.getD 43 0, D)
  (A, B - rk.getD 0 0, C, D - rk.getD 1 0)

def encrypt (key : Bytes) : Bytes → Bytes := enc4LE 32 4 (enc (expandKey key))
def decrypt (key : Bytes) : Bytes → Bytes := enc4LE 32 4 (dec (expandKey key))

/-- rc6.go:45-90 -/
def newCipher (key : Bytes) : Res Obj :=
  if key.length = 16 then .ok ⟨16, guarded 16 (whole 16 (encrypt key)), guarded 16 (whole 16 (decrypt key))⟩ else .err

theorem dec_enc_r (rk : List W) (s : St) (i : Nat) : decRound rk (encRound rk s i) i = s := by
  obtain ⟨A, B, C, D⟩ := s
  simp only [encRound, decRound, add_sub_right, rotl_neg _ _ (show 0 < 32 by decide), xor_self_right]

theorem enc_dec_r (rk : List W) (s : St) (i : Nat) : encRound rk (decRound rk s i) i = s := by
  obtain ⟨A, B, C, D⟩ := s
  simp only [encRound, decRound, xor_self_right, rotl_neg' _ _ (show 0 < 32 by decide), sub_add_self]

theorem dec_enc (rk : List W) (s : St) : dec rk (enc rk s) = s := by
  obtain ⟨A, B, C, D⟩ := s
  simp only [dec, enc, add_sub_right]
  rw [show ∀ x : St, (x.1, x.2.1, x.2.2.1, x.2.2.2) = x from fun _ => rfl, foldl_undo _ _ (dec_enc_r rk)]
  simp

theorem enc_dec (rk : List W) (s : St) : enc rk (dec rk s) = s := by
  obtain ⟨A, B, C, D⟩ := s
  simp only [dec, enc, sub_add_self]
  rw [show ∀ x : St, (x.1, x.2.1, x.2.2.1, x.2.2.2) = x from fun _ => rfl, foldl_undo' _ _ (enc_dec_r rk)]
  simp

theorem implements : Implements newCipher (fun n => n = 16) 16 :=
  implements_of (ok := fun n => n = 16) fun key _ => isBlock_4LE (w := 32) (sz := 4) 16 rfl rfl (dec_enc (expandKey key)) (enc_dec (expandKey key))

end Verif.Cipher.Rc6
