import Verif.Cipher.Common2
/-
Model of cipher/belt.
-/
namespace Verif.Cipher.Belt

abbrev W := BitVec 32
abbrev V := W × W × W × W

/-- cipher/belt/sboxs.go:3-20. -/
def S : List Byte := [
  0xb1, 0x94, 0xba, 0xc8, 0x0a, 0x08, 0xf5, 0x3b, 0x36, 0x6d, 0x00, 0x8e, 0x58, 0x4a, 0x5d, 0xe4,
  0x85, 0x04, 0xfa, 0x9d, 0x1b, 0xb6, 0xc7, 0xac, 0x25, 0x2e, 0x72, 0xc2, 0x02, 0xfd, 0xce, 0x0d,
  0x5b, 0xe3, 0xd6, 0x12, 0x17, 0xb9, 0x61, 0x81, 0xfe, 0x67, 0x86, 0xad, 0x71, 0x6b, 0x89, 0x0b,
  0x5c, 0xb0, 0xc0, 0xff, 0x33, 0xc3, 0x56, 0xb8, 0x35, 0xc4, 0x05, 0xae, 0xd8, 0xe0, 0x7f, 0x99,
  0xe1, 0x2b, 0xdc, 0x1a, 0xe2, 0x82, 0x57, 0xec, 0x70, 0x3f, 0xcc, 0xf0, 0x95, 0xee, 0x8d, 0xf1,
  0xc1, 0xab, 0x76, 0x38, 0x9f, 0xe6, 0x78, 0xca, 0xf7, 0xc6, 0xf8, 0x60, 0xd5, 0xbb, 0x9c, 0x4f,
  0xf3, 0x3c, 0x65, 0x7b, 0x63, 0x7c, 0x30, 0x6a, 0xdd, 0x4e, 0xa7, 0x79, 0x9e, 0xb2, 0x3d, 0x31,
  0x3e, 0x98, 0xb5, 0x6e, 0x27, 0xd3, 0xbc, 0xcf, 0x59, 0x1e, 0x18, 0x1f, 0x4c, 0x5a, 0xb7, 0x93,
  0xe9, 0xde, 0xe7, 0x2c, 0x8f, 0x0c, 0x0f, 0xa6, 0x2d, 0xdb, 0x49, 0xf4, 0x6f, 0x73, 0x96, 0x47,
  0x06, 0x07, 0x53, 0x16, 0xed, 0x24, 0x7a, 0x37, 0x39, 0xcb, 0xa3, 0x83, 0x03, 0xa9, 0x8b, 0xf6,
  0x92, 0xbd, 0x9b, 0x1c, 0xe5, 0xd1, 0x41, 0x01, 0x54, 0x45, 0xfb, 0xc9, 0x5e, 0x4d, 0x0e, 0xf2,
  0x68, 0x20, 0x80, 0xaa, 0x22, 0x7d, 0x64, 0x2f, 0x26, 0x87, 0xf9, 0x34, 0x90, 0x40, 0x55, 0x11,
  0xbe, 0x32, 0x97, 0x13, 0x43, 0xfc, 0x9a, 0x48, 0xa0, 0x2a, 0x88, 0x5f, 0x19, 0x4b, 0x09, 0xa1,
  0x7e, 0xcd, 0xa4, 0xd0, 0x15, 0x44, 0xaf, 0x8c, 0xa5, 0x84, 0x50, 0xbf, 0x66, 0xd2, 0xe8, 0x8a,
  0xa2, 0xd7, 0x46, 0x52, 0x42, 0xa8, 0xdf, 0xb3, 0x69, 0x74, 0xc5, 0x51, 0xeb, 0x23, 0x29, 0x21,
  0xd4, 0xef, 0xd9, 0xb4, 0x3a, 0x62, 0x28, 0x75, 0x91, 0x14, 0x10, 0xea, 0x77, 0x6c, 0xda, 0x1d]

/-- cipher/belt/sboxs.go:22-31. -/
def KIdx : List (List Nat) := [[0, 1, 2, 3, 4, 5, 6], [7, 0, 1, 2, 3, 4, 5], [6, 7, 0, 1, 2, 3, 4], [5, 6, 7, 0, 1, 2, 3],
  [4, 5, 6, 7, 0, 1, 2], [3, 4, 5, 6, 7, 0, 1], [2, 3, 4, 5, 6, 7, 0], [1, 2, 3, 4, 5, 6, 7]]

/-- `GET_BYTE`, `PUT_BYTE`, `SB`: cipher/belt/utils.go:28-38. -/
def SB (x : W) (a : Nat) : W := (S.getD ((x >>> a).setWidth 8 : Byte).toNat 0).setWidth 32 <<< a

/-- `ROTL_BELT`, which calls `rotater32`: `bits.RotateLeft32(x, 32 - n)`. cipher/belt/utils.go:16-26. -/
def rotlBelt (x : W) (n : Nat) : W := rotl x (32 - n)

/-- `G`: cipher/belt/utils.go:40-42. -/
def G (x : W) (r : Nat) : W := rotlBelt (SB x 24 ||| SB x 16 ||| SB x 8 ||| SB x 0) r

/-- `getu32(p[4*i:])`: cipher/belt/utils.go:8-10. -/
def u32 (p : Bytes) (i : Nat) : W := BitVec.ofNat 32 (leN ((p.drop (4 * i)).take 4))

/-- `getu32(ks[4*KIdx[i][j]:])`. -/
def key (ks : Bytes) (i j : Nat) : W := u32 ks ((KIdx.getD i []).getD j 0)

/-- The statements a turn of both loops consists of, with the seven round keys and the round number; the swaps at the end of the turn are in `turn` and
`dturn`. cipher/belt/belt.go:93-113, 146-165. -/
def core (k : Nat → W) (n : W) : V → V
  | (a, b, c, d) =>
    let b := b ^^^ G (a + k 0) 5
    let c := c ^^^ G (d + k 1) 21
    let a := a - G (b + k 2) 13
    let e := G (b + c + k 3) 21 ^^^ n
    let b := b + e
    let c := c - e
    let d := d + G (c + k 4) 13
    let b := b ^^^ G (a + k 5) 21
    let c := c ^^^ G (d + k 6) 5
    (a, b, c, d)

/-- One turn of the loop of `encrypt`: cipher/belt/belt.go:92-118. -/
def turn (ks : Bytes) (v : V) (i : Nat) : V :=
  match core (key ks i) (BitVec.ofNat 32 i + 1) v with
  | (a, b, c, d) =>
    let (a, b) := (b, a)
    let (c, d) := (d, c)
    let (b, c) := (c, b)
    (a, b, c, d)

/-- One turn of the loop of `decrypt`, `j = 7 - i`: cipher/belt/belt.go:138-170. -/
def dturn (ks : Bytes) (v : V) (i : Nat) : V :=
  let j := 7 - i
  match core (fun r => key ks j (6 - r)) (BitVec.ofNat 32 j + 1) v with
  | (a, b, c, d) =>
    let (a, b) := (b, a)
    let (c, d) := (d, c)
    let (a, d) := (d, a)
    (a, b, c, d)

/-- `encrypt` on words: cipher/belt/belt.go:78-125. -/
def encrypt (ks : Bytes) (v : V) : V :=
  match (List.range 8).foldl (turn ks) v with
  | (a, b, c, d) => (b, d, a, c)

/-- `decrypt` on words: cipher/belt/belt.go:127-176. -/
def decrypt (ks : Bytes) (v : V) : V :=
  match (List.range 8).foldl (dturn ks) v with
  | (a, b, c, d) => (c, a, d, b)

/-- `expandKey`: cipher/belt/belt.go:178-204. -/
def expandKey (k : Bytes) : Bytes :=
  if k.length = 16 then k ++ k
  else if k.length = 24 then k ++ (List.range 8).map fun i => k.getD i 0 ^^^ k.getD (i + 4) 0 ^^^ k.getD (i + 8) 0
  else k

/-- The block functions of the value for a key. -/
def encB (k : Bytes) : Bytes → Bytes := enc4LE 32 4 (encrypt (expandKey k))
def decB (k : Bytes) : Bytes → Bytes := enc4LE 32 4 (decrypt (expandKey k))

/-- `NewCipher`, `BlockSize`, `Encrypt`, `Decrypt`: cipher/belt/belt.go:26-76. -/
def newCipher (k : Bytes) : Res Obj :=
  if k.length = 16 ∨ k.length = 24 ∨ k.length = 32 then .ok ⟨16, guarded 16 (whole 16 (encB k)), guarded 16 (whole 16 (decB k))⟩ else .err

theorem core_core (k k' : Nat → W) (hk : ∀ r < 7, k' r = k (6 - r)) (n a b c d : W) :
    core k' n (match core k n (a, b, c, d) with | (a, b, c, d) => (d, c, b, a)) = (d, c, b, a) := by
  have h0 := hk 0 (by decide)
  have h1 := hk 1 (by decide)
  have h2 := hk 2 (by decide)
  have h3 := hk 3 (by decide)
  have h4 := hk 4 (by decide)
  have h5 := hk 5 (by decide)
  have h6 := hk 6 (by decide)
  simp only [core, h0, h1, h2, h3, h4, h5, h6, Nat.reduceSub, Nat.sub_zero, Nat.sub_self]
  generalize hb1 : b ^^^ G (a + k 0) 5 = b1
  generalize hc1 : c ^^^ G (d + k 1) 21 = c1
  generalize he : G (b1 + c1 + k 3) 21 ^^^ n = e
  generalize hA : a - G (b1 + k 2) 13 = a1
  generalize hD : d + G (c1 - e + k 4) 13 = d1
  have x2 (x y : W) : x ^^^ y ^^^ y = x := by rw [BitVec.xor_assoc, BitVec.xor_self, BitVec.xor_zero]
  have hd : d1 - G (c1 - e + k 4) 13 = d := by rw [← hD, BitVec.add_sub_cancel]
  have hs : c1 - e + (b1 + e) = b1 + c1 := by
    apply BitVec.eq_of_toNat_eq; simp only [BitVec.toNat_add, BitVec.toNat_sub]; omega
  have hc : c1 - e + e = c1 := BitVec.sub_add_cancel c1 e
  have ha : a1 + G (b1 + k 2) 13 = a := by rw [← hA]; exact BitVec.sub_add_cancel a _
  simp only [x2, hd, hs, he, hc, BitVec.add_sub_cancel, ha]
  rw [← hb1, ← hc1, x2, x2]

theorem dturn_turn (ks : Bytes) (i : Nat) (hi : i < 8) (v : V) :
    dturn ks (match turn ks v i with | (a, b, c, d) => (b, d, a, c)) (7 - i) = (match v with | (a, b, c, d) => (b, d, a, c)) := by
  obtain ⟨a, b, c, d⟩ := v
  have h := core_core (key ks i) (fun r => key ks i (6 - r)) (fun _ _ => rfl) (BitVec.ofNat 32 i + 1) a b c d
  simp only [turn, dturn, show 7 - (7 - i) = i by omega]
  rw [h]

theorem decrypt_encrypt (ks : Bytes) (v : V) : decrypt ks (encrypt ks v) = v := by
  unfold decrypt encrypt
  rw [show List.range 8 = [0, 1, 2, 3, 4, 5, 6, 7] from rfl]
  simp only [List.foldl_cons, List.foldl_nil]
  rw [dturn_turn ks 7 (by decide), dturn_turn ks 6 (by decide), dturn_turn ks 5 (by decide), dturn_turn ks 4 (by decide), dturn_turn ks 3 (by decide),
    dturn_turn ks 2 (by decide), dturn_turn ks 1 (by decide), dturn_turn ks 0 (by decide)]

theorem implements : Implements newCipher (fun n => n = 16 ∨ n = 24 ∨ n = 32) 16 :=
  implements_fn (ok := fun n => n = 16 ∨ n = 24 ∨ n = 32) (f := encB) (g := decB)
    (fun k _ => blockFn_4LE (w := 32) (sz := 4) 16 rfl rfl (decrypt_encrypt (expandKey k)))

end Verif.Cipher.Belt
