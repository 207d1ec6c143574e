import Verif.Cipher.Common2
/-
Model of cipher/present (present.go, utils.go, sbox.go).
-/
namespace Verif.Cipher.Present

abbrev W := BitVec 64

/-- sbox.go:4-7 -/
def sbox : List W := [
  0x0c, 0x05, 0x06, 0x0b, 0x09, 0x00, 0x0a, 0x0d, 0x03, 0x0e, 0x0f, 0x08, 0x04, 0x07, 0x01, 0x02]
/-- sbox.go:10-27 -/
def isbox : List W := [
  0x55, 0x5e, 0x5f, 0x58, 0x5c, 0x51, 0x52, 0x5d, 0x5b, 0x54, 0x56, 0x53, 0x50, 0x57, 0x59, 0x5a,
  0xe5, 0xee, 0xef, 0xe8, 0xec, 0xe1, 0xe2, 0xed, 0xeb, 0xe4, 0xe6, 0xe3, 0xe0, 0xe7, 0xe9, 0xea,
  0xf5, 0xfe, 0xff, 0xf8, 0xfc, 0xf1, 0xf2, 0xfd, 0xfb, 0xf4, 0xf6, 0xf3, 0xf0, 0xf7, 0xf9, 0xfa,
  0x85, 0x8e, 0x8f, 0x88, 0x8c, 0x81, 0x82, 0x8d, 0x8b, 0x84, 0x86, 0x83, 0x80, 0x87, 0x89, 0x8a,
  0xc5, 0xce, 0xcf, 0xc8, 0xcc, 0xc1, 0xc2, 0xcd, 0xcb, 0xc4, 0xc6, 0xc3, 0xc0, 0xc7, 0xc9, 0xca,
  0x15, 0x1e, 0x1f, 0x18, 0x1c, 0x11, 0x12, 0x1d, 0x1b, 0x14, 0x16, 0x13, 0x10, 0x17, 0x19, 0x1a,
  0x25, 0x2e, 0x2f, 0x28, 0x2c, 0x21, 0x22, 0x2d, 0x2b, 0x24, 0x26, 0x23, 0x20, 0x27, 0x29, 0x2a,
  0xd5, 0xde, 0xdf, 0xd8, 0xdc, 0xd1, 0xd2, 0xdd, 0xdb, 0xd4, 0xd6, 0xd3, 0xd0, 0xd7, 0xd9, 0xda,
  0xb5, 0xbe, 0xbf, 0xb8, 0xbc, 0xb1, 0xb2, 0xbd, 0xbb, 0xb4, 0xb6, 0xb3, 0xb0, 0xb7, 0xb9, 0xba,
  0x45, 0x4e, 0x4f, 0x48, 0x4c, 0x41, 0x42, 0x4d, 0x4b, 0x44, 0x46, 0x43, 0x40, 0x47, 0x49, 0x4a,
  0x65, 0x6e, 0x6f, 0x68, 0x6c, 0x61, 0x62, 0x6d, 0x6b, 0x64, 0x66, 0x63, 0x60, 0x67, 0x69, 0x6a,
  0x35, 0x3e, 0x3f, 0x38, 0x3c, 0x31, 0x32, 0x3d, 0x3b, 0x34, 0x36, 0x33, 0x30, 0x37, 0x39, 0x3a,
  0x05, 0x0e, 0x0f, 0x08, 0x0c, 0x01, 0x02, 0x0d, 0x0b, 0x04, 0x06, 0x03, 0x00, 0x07, 0x09, 0x0a,
  0x75, 0x7e, 0x7f, 0x78, 0x7c, 0x71, 0x72, 0x7d, 0x7b, 0x74, 0x76, 0x73, 0x70, 0x77, 0x79, 0x7a,
  0x95, 0x9e, 0x9f, 0x98, 0x9c, 0x91, 0x92, 0x9d, 0x9b, 0x94, 0x96, 0x93, 0x90, 0x97, 0x99, 0x9a,
  0xa5, 0xae, 0xaf, 0xa8, 0xac, 0xa1, 0xa2, 0xad, 0xab, 0xa4, 0xa6, 0xa3, 0xa0, 0xa7, 0xa9, 0xaa]
/-- sbox.go:30-63 -/
def ipbox : List W := [
  0x00000000, 0x00000001, 0x00000010, 0x00000011, 0x00000100, 0x00000101, 0x00000110, 0x00000111, 0x00001000, 0x00001001, 0x00001010, 0x00001011, 0x00001100, 0x00001101, 0x00001110, 0x00001111,
  0x00010000, 0x00010001, 0x00010010, 0x00010011, 0x00010100, 0x00010101, 0x00010110, 0x00010111, 0x00011000, 0x00011001, 0x00011010, 0x00011011, 0x00011100, 0x00011101, 0x00011110, 0x00011111,
  0x00100000, 0x00100001, 0x00100010, 0x00100011, 0x00100100, 0x00100101, 0x00100110, 0x00100111, 0x00101000, 0x00101001, 0x00101010, 0x00101011, 0x00101100, 0x00101101, 0x00101110, 0x00101111,
  0x00110000, 0x00110001, 0x00110010, 0x00110011, 0x00110100, 0x00110101, 0x00110110, 0x00110111, 0x00111000, 0x00111001, 0x00111010, 0x00111011, 0x00111100, 0x00111101, 0x00111110, 0x00111111,
  0x01000000, 0x01000001, 0x01000010, 0x01000011, 0x01000100, 0x01000101, 0x01000110, 0x01000111, 0x01001000, 0x01001001, 0x01001010, 0x01001011, 0x01001100, 0x01001101, 0x01001110, 0x01001111,
  0x01010000, 0x01010001, 0x01010010, 0x01010011, 0x01010100, 0x01010101, 0x01010110, 0x01010111, 0x01011000, 0x01011001, 0x01011010, 0x01011011, 0x01011100, 0x01011101, 0x01011110, 0x01011111,
  0x01100000, 0x01100001, 0x01100010, 0x01100011, 0x01100100, 0x01100101, 0x01100110, 0x01100111, 0x01101000, 0x01101001, 0x01101010, 0x01101011, 0x01101100, 0x01101101, 0x01101110, 0x01101111,
  0x01110000, 0x01110001, 0x01110010, 0x01110011, 0x01110100, 0x01110101, 0x01110110, 0x01110111, 0x01111000, 0x01111001, 0x01111010, 0x01111011, 0x01111100, 0x01111101, 0x01111110, 0x01111111,
  0x10000000, 0x10000001, 0x10000010, 0x10000011, 0x10000100, 0x10000101, 0x10000110, 0x10000111, 0x10001000, 0x10001001, 0x10001010, 0x10001011, 0x10001100, 0x10001101, 0x10001110, 0x10001111,
  0x10010000, 0x10010001, 0x10010010, 0x10010011, 0x10010100, 0x10010101, 0x10010110, 0x10010111, 0x10011000, 0x10011001, 0x10011010, 0x10011011, 0x10011100, 0x10011101, 0x10011110, 0x10011111,
  0x10100000, 0x10100001, 0x10100010, 0x10100011, 0x10100100, 0x10100101, 0x10100110, 0x10100111, 0x10101000, 0x10101001, 0x10101010, 0x10101011, 0x10101100, 0x10101101, 0x10101110, 0x10101111,
  0x10110000, 0x10110001, 0x10110010, 0x10110011, 0x10110100, 0x10110101, 0x10110110, 0x10110111, 0x10111000, 0x10111001, 0x10111010, 0x10111011, 0x10111100, 0x10111101, 0x10111110, 0x10111111,
  0x11000000, 0x11000001, 0x11000010, 0x11000011, 0x11000100, 0x11000101, 0x11000110, 0x11000111, 0x11001000, 0x11001001, 0x11001010, 0x11001011, 0x11001100, 0x11001101, 0x11001110, 0x11001111,
  0x11010000, 0x11010001, 0x11010010, 0x11010011, 0x11010100, 0x11010101, 0x11010110, 0x11010111, 0x11011000, 0x11011001, 0x11011010, 0x11011011, 0x11011100, 0x11011101, 0x11011110, 0x11011111,
  0x11100000, 0x11100001, 0x11100010, 0x11100011, 0x11100100, 0x11100101, 0x11100110, 0x11100111, 0x11101000, 0x11101001, 0x11101010, 0x11101011, 0x11101100, 0x11101101, 0x11101110, 0x11101111,
  0x11110000, 0x11110001, 0x11110010, 0x11110011, 0x11110100, 0x11110101, 0x11110110, 0x11110111, 0x11111000, 0x11111001, 0x11111010, 0x11111011, 0x11111100, 0x11111101, 0x11111110, 0x11111111]
/-- sbox.go:66-131 -/
def spbox : List W := [
  0x0003000300000000, 0x0002000300000001, 0x0002000300010000, 0x0003000200010001, 0x0003000200000001, 0x0002000200000000, 0x0003000200010000, 0x0003000300000001, 0x0002000200010001, 0x0003000300010000, 0x0003000300010001, 0x0003000200000000, 0x0002000300000000, 0x0002000300010001, 0x0002000200000001, 0x0002000200010000,
  0x0001000300000002, 0x0000000300000003, 0x0000000300010002, 0x0001000200010003, 0x0001000200000003, 0x0000000200000002, 0x0001000200010002, 0x0001000300000003, 0x0000000200010003, 0x0001000300010002, 0x0001000300010003, 0x0001000200000002, 0x0000000300000002, 0x0000000300010003, 0x0000000200000003, 0x0000000200010002,
  0x0001000300020000, 0x0000000300020001, 0x0000000300030000, 0x0001000200030001, 0x0001000200020001, 0x0000000200020000, 0x0001000200030000, 0x0001000300020001, 0x0000000200030001, 0x0001000300030000, 0x0001000300030001, 0x0001000200020000, 0x0000000300020000, 0x0000000300030001, 0x0000000200020001, 0x0000000200030000,
  0x0003000100020002, 0x0002000100020003, 0x0002000100030002, 0x0003000000030003, 0x0003000000020003, 0x0002000000020002, 0x0003000000030002, 0x0003000100020003, 0x0002000000030003, 0x0003000100030002, 0x0003000100030003, 0x0003000000020002, 0x0002000100020002, 0x0002000100030003, 0x0002000000020003, 0x0002000000030002,
  0x0003000100000002, 0x0002000100000003, 0x0002000100010002, 0x0003000000010003, 0x0003000000000003, 0x0002000000000002, 0x0003000000010002, 0x0003000100000003, 0x0002000000010003, 0x0003000100010002, 0x0003000100010003, 0x0003000000000002, 0x0002000100000002, 0x0002000100010003, 0x0002000000000003, 0x0002000000010002,
  0x0001000100000000, 0x0000000100000001, 0x0000000100010000, 0x0001000000010001, 0x0001000000000001, 0x0000000000000000, 0x0001000000010000, 0x0001000100000001, 0x0000000000010001, 0x0001000100010000, 0x0001000100010001, 0x0001000000000000, 0x0000000100000000, 0x0000000100010001, 0x0000000000000001, 0x0000000000010000,
  0x0003000100020000, 0x0002000100020001, 0x0002000100030000, 0x0003000000030001, 0x0003000000020001, 0x0002000000020000, 0x0003000000030000, 0x0003000100020001, 0x0002000000030001, 0x0003000100030000, 0x0003000100030001, 0x0003000000020000, 0x0002000100020000, 0x0002000100030001, 0x0002000000020001, 0x0002000000030000,
  0x0003000300000002, 0x0002000300000003, 0x0002000300010002, 0x0003000200010003, 0x0003000200000003, 0x0002000200000002, 0x0003000200010002, 0x0003000300000003, 0x0002000200010003, 0x0003000300010002, 0x0003000300010003, 0x0003000200000002, 0x0002000300000002, 0x0002000300010003, 0x0002000200000003, 0x0002000200010002,
  0x0001000100020002, 0x0000000100020003, 0x0000000100030002, 0x0001000000030003, 0x0001000000020003, 0x0000000000020002, 0x0001000000030002, 0x0001000100020003, 0x0000000000030003, 0x0001000100030002, 0x0001000100030003, 0x0001000000020002, 0x0000000100020002, 0x0000000100030003, 0x0000000000020003, 0x0000000000030002,
  0x0003000300020000, 0x0002000300020001, 0x0002000300030000, 0x0003000200030001, 0x0003000200020001, 0x0002000200020000, 0x0003000200030000, 0x0003000300020001, 0x0002000200030001, 0x0003000300030000, 0x0003000300030001, 0x0003000200020000, 0x0002000300020000, 0x0002000300030001, 0x0002000200020001, 0x0002000200030000,
  0x0003000300020002, 0x0002000300020003, 0x0002000300030002, 0x0003000200030003, 0x0003000200020003, 0x0002000200020002, 0x0003000200030002, 0x0003000300020003, 0x0002000200030003, 0x0003000300030002, 0x0003000300030003, 0x0003000200020002, 0x0002000300020002, 0x0002000300030003, 0x0002000200020003, 0x0002000200030002,
  0x0003000100000000, 0x0002000100000001, 0x0002000100010000, 0x0003000000010001, 0x0003000000000001, 0x0002000000000000, 0x0003000000010000, 0x0003000100000001, 0x0002000000010001, 0x0003000100010000, 0x0003000100010001, 0x0003000000000000, 0x0002000100000000, 0x0002000100010001, 0x0002000000000001, 0x0002000000010000,
  0x0001000300000000, 0x0000000300000001, 0x0000000300010000, 0x0001000200010001, 0x0001000200000001, 0x0000000200000000, 0x0001000200010000, 0x0001000300000001, 0x0000000200010001, 0x0001000300010000, 0x0001000300010001, 0x0001000200000000, 0x0000000300000000, 0x0000000300010001, 0x0000000200000001, 0x0000000200010000,
  0x0001000300020002, 0x0000000300020003, 0x0000000300030002, 0x0001000200030003, 0x0001000200020003, 0x0000000200020002, 0x0001000200030002, 0x0001000300020003, 0x0000000200030003, 0x0001000300030002, 0x0001000300030003, 0x0001000200020002, 0x0000000300020002, 0x0000000300030003, 0x0000000200020003, 0x0000000200030002,
  0x0001000100000002, 0x0000000100000003, 0x0000000100010002, 0x0001000000010003, 0x0001000000000003, 0x0000000000000002, 0x0001000000010002, 0x0001000100000003, 0x0000000000010003, 0x0001000100010002, 0x0001000100010003, 0x0001000000000002, 0x0000000100000002, 0x0000000100010003, 0x0000000000000003, 0x0000000000010002,
  0x0001000100020000, 0x0000000100020001, 0x0000000100030000, 0x0001000000030001, 0x0001000000020001, 0x0000000000020000, 0x0001000000030000, 0x0001000100020001, 0x0000000000030001, 0x0001000100030000, 0x0001000100030001, 0x0001000000020000, 0x0000000100020000, 0x0000000100030001, 0x0000000000020001, 0x0000000000030000]

/-- present.go:83-107: the 80-bit key schedule from the state (kh, kl). -/
def exp80 : Nat → Nat → W → W → List W
  | 0, _, _, _ => []
  | n + 1, i, kh, kl =>
    let t := kh &&& 0xFFFF
    let kh := (kl >>> 3) &&& 0xFFFF
    let kl := (kl <<< 61) ||| (t <<< 45) ||| (kl >>> 19)
    let t := sbox.getD ((kh >>> 12) &&& 0x0F).toNat 0
    let kh := (kh &&& 0x0FFF) ||| (t <<< 12)
    let kl := kl ^^^ (BitVec.ofNat 64 i <<< 15)
    ((kh <<< 48) ||| (kl >>> 16)) :: exp80 n (i + 1) kh kl
/-- present.go:117-135: the 128-bit key schedule. -/
def exp128 : Nat → Nat → W → W → List W
  | 0, _, _, _ => []
  | n + 1, i, kh, kl =>
    let t := kh
    let kh := (t <<< 61) ||| (kl >>> 3)
    let kl := (kl <<< 61) ||| (t >>> 3)
    let t := sbox.getD ((kh >>> 56) &&& 0x0F).toNat 0
    let kh := (kh &&& 0xF0FFFFFFFFFFFFFF) ||| (t <<< 56)
    let t := sbox.getD ((kh >>> 60) &&& 0x0F).toNat 0
    let kh := (kh &&& 0x0FFFFFFFFFFFFFFF) ||| (t <<< 60)
    let kh := kh ^^^ (BitVec.ofNat 64 i >>> 2)
    let kl := kl ^^^ (BitVec.ofNat 64 i <<< 62)
    kh :: exp128 n (i + 1) kh kl
/-- present.go:73-138 `expandKey` -/
def expandKey (key : Bytes) : List W :=
  if key.length = 10 then
    let kh := ld1BE 64 8 (key.take 8)
    let kl := ld1BE 64 8 ((key.drop 2).take 8)
    ((kh <<< 48) ||| (kl >>> 16)) :: exp80 31 1 kh kl
  else
    let kh := ld1BE 64 8 (key.take 8)
    let kl := ld1BE 64 8 ((key.drop 8).take 8)
    kh :: exp128 31 1 kh kl

/-- `(x >> (8 * i)) & 0xFF` -/
def byteAt (x : W) (i : Nat) : Byte := (x >>> (8 * i)).setWidth 8
/-- The or of eight rotated table entries, one for each byte of `x`. -/
def lookup (tab : List W) (r : Nat → Nat) (x : W) : W :=
  (List.range 8).foldl (fun s i => s ||| rotl (tab.getD (byteAt x i).toNat 0) (r i)) 0
/-- present.go:156-170 -/
def spLayer : W → W := lookup spbox (fun i => 2 * i)
/-- present.go:197-211 -/
def ipLayer : W → W := lookup ipbox (fun i => i / 2 + 32 * (i % 2))
/-- present.go:214-228 -/
def isLayer : W → W := lookup isbox (fun i => 8 * i)

/-- present.go:140-179 -/
def enc (k : List W) (s : W) : W := (List.range 31).foldl (fun s i => spLayer s ^^^ k.getD (i + 1) 0) (s ^^^ k.getD 0 0)
/-- present.go:181-237 -/
def dec (k : List W) (s : W) : W := (List.range 31).reverse.foldl (fun s i => isLayer (ipLayer (s ^^^ k.getD (i + 1) 0))) s ^^^ k.getD 0 0

def encrypt (key : Bytes) : Bytes → Bytes := enc1BE 64 8 (enc (expandKey key))
def decrypt (key : Bytes) : Bytes → Bytes := enc1BE 64 8 (dec (expandKey key))
/-- present.go:23-71 -/
def newCipher (key : Bytes) : Res Obj :=
  if key.length = 10 ∨ key.length = 16 then .ok ⟨8, guarded 8 (whole 8 (encrypt key)), guarded 8 (whole 8 (decrypt key))⟩ else .err

/-! The inverse permutation distributes over or -/

theorem byteAt_or (x y : W) (i : Nat) : byteAt (x ||| y) i = byteAt x i ||| byteAt y i := by
  unfold byteAt
  apply BitVec.eq_of_getLsbD_eq; intro j hj
  simp [hj]
theorem rotl_or {w : Nat} (a b : BitVec w) (n : Nat) : rotl (a ||| b) n = rotl a n ||| rotl b n := by
  apply BitVec.eq_of_getLsbD_eq
  intro i hi
  unfold rotl
  simp only [BitVec.getLsbD_rotateLeft, BitVec.getLsbD_or]
  cases decide (i < n % w) <;> cases decide (i < w) <;> simp
/-- The entry of a byte is the or of the entries of its bits. -/
def ipOf (b : Byte) : W := (List.range 8).foldl (fun s i => s ||| if b.getLsbD i then ipbox.getD (2 ^ i) 0 else 0) 0
set_option maxRecDepth 10000 in
theorem ipbox_eq : ∀ n, n < 256 → ipbox.getD n 0 = ipOf (BitVec.ofNat 8 n) := by decide +kernel
theorem ipbox_byte (b : Byte) : ipbox.getD b.toNat 0 = ipOf b := by
  rw [ipbox_eq _ b.isLt, BitVec.ofNat_toNat, BitVec.setWidth_eq]
theorem range8 : List.range 8 = [0, 1, 2, 3, 4, 5, 6, 7] := rfl
theorem ite_or (a b : Bool) (v : W) : (if (a || b) = true then v else 0) = (if a = true then v else 0) ||| (if b = true then v else 0) := by
  cases a <;> cases b <;> simp
theorem zor (x : W) : (0 : W) ||| x = x := BitVec.zero_or
theorem ipOf_or (a b : Byte) : ipOf (a ||| b) = ipOf a ||| ipOf b := by
  unfold ipOf
  rw [range8]
  simp only [List.foldl_cons, List.foldl_nil, BitVec.getLsbD_or, ite_or, zor]
  ac_rfl
theorem ipLayer_or (x y : W) : ipLayer (x ||| y) = ipLayer x ||| ipLayer y := by
  unfold ipLayer lookup
  rw [range8]
  simp only [List.foldl_cons, List.foldl_nil, ipbox_byte, byteAt_or, ipOf_or, rotl_or, zor]
  ac_rfl
theorem ipLayer_zero : ipLayer 0 = 0 := by decide +kernel

/-- Two S-boxes on the halves of a byte. -/
def sbyte (n : Nat) : W := (sbox.getD (n / 16) 0 <<< 4) ||| sbox.getD (n % 16) 0
set_option maxRecDepth 10000 in
theorem ip_sp : ∀ i, i < 8 → ∀ n, n < 256 → ipLayer (rotl (spbox.getD n 0) (2 * i)) = rotl (sbyte n) (8 * i) := by decide +kernel
theorem ip_sp' (i : Nat) (hi : i < 8) (b : Byte) : ipLayer (rotl (spbox.getD b.toNat 0) (2 * i)) = rotl (sbyte b.toNat) (8 * i) := ip_sp i hi _ b.isLt
set_option maxRecDepth 10000 in
theorem is_sbyte : ∀ n, n < 256 → isbox.getD (byteAt (sbyte n) 0).toNat 0 = BitVec.ofNat 64 n ∧ sbyte n = (byteAt (sbyte n) 0).setWidth 64 := by decide +kernel

theorem byteAt_rotl (c : Byte) (i j : Nat) (hi : i < 8) (hj : j < 8) : byteAt (rotl (c.setWidth 64) (8 * i)) j = if i = j then c else 0 := by
  apply BitVec.eq_of_getLsbD_eq; intro k hk
  unfold byteAt rotl
  rw [BitVec.getLsbD_setWidth, BitVec.getLsbD_ushiftRight]
  have hr := rotl_bit (w := 64) (c.setWidth 64) (8 * i) (8 * j + k) (by omega) (by omega)
  unfold rotl at hr
  rw [hr]
  by_cases h : 8 * j + k < 8 * i
  · rw [if_pos h, if_neg (by omega), BitVec.getLsbD_setWidth, BitVec.getLsbD_of_ge c _ (by omega)]
    simp
  · rw [if_neg h, BitVec.getLsbD_setWidth]
    by_cases hij : i = j
    · subst hij
      rw [if_pos rfl]
      simp only [show 8 * i + k - 8 * i = k by omega, hk, show 8 * i + k < 64 by omega, show k < 64 by omega]
      simp
    · rw [if_neg hij, BitVec.getLsbD_of_ge c _ (by omega)]
      simp

theorem lookup_bytes (x : W) : (List.range 8).foldl (fun s i => s ||| rotl ((byteAt x i).setWidth 64) (8 * i)) 0 = x := by
  have hb : ∀ y : W, (∀ j, j < 8 → byteAt y j = byteAt x j) → y = x := by
    intro y h
    apply BitVec.eq_of_getLsbD_eq; intro k hk
    have := congrArg (fun b : Byte => b.getLsbD (k % 8)) (h (k / 8) (by omega))
    unfold byteAt at this
    simp only [BitVec.getLsbD_setWidth, BitVec.getLsbD_ushiftRight, show 8 * (k / 8) + k % 8 = k by omega, show k % 8 < 8 by omega, decide_true, Bool.true_and] at this
    exact this
  apply hb
  intro j hj
  rw [range8]
  simp only [List.foldl_cons, List.foldl_nil, byteAt_or]
  rw [byteAt_rotl _ 0 j (by decide) hj, byteAt_rotl _ 1 j (by decide) hj, byteAt_rotl _ 2 j (by decide) hj, byteAt_rotl _ 3 j (by decide) hj,
    byteAt_rotl _ 4 j (by decide) hj, byteAt_rotl _ 5 j (by decide) hj, byteAt_rotl _ 6 j (by decide) hj, byteAt_rotl _ 7 j (by decide) hj]
  have z : byteAt 0 j = 0 := by unfold byteAt; simp
  rw [z]
  obtain rfl | rfl | rfl | rfl | rfl | rfl | rfl | rfl : j = 0 ∨ j = 1 ∨ j = 2 ∨ j = 3 ∨ j = 4 ∨ j = 5 ∨ j = 6 ∨ j = 7 := by omega
  all_goals simp

theorem ip_spLayer (x : W) : ipLayer (spLayer x) = (List.range 8).foldl (fun s i => s ||| rotl (sbyte (byteAt x i).toNat) (8 * i)) 0 := by
  unfold spLayer
  conv_lhs => unfold lookup
  rw [range8]
  simp only [List.foldl_cons, List.foldl_nil, ipLayer_or]
  rw [ip_sp' 0 (by decide), ip_sp' 1 (by decide), ip_sp' 2 (by decide), ip_sp' 3 (by decide), ip_sp' 4 (by decide), ip_sp' 5 (by decide), ip_sp' 6 (by decide),
    ip_sp' 7 (by decide), ipLayer_zero]

theorem isLayer_ip_sp (x : W) : isLayer (ipLayer (spLayer x)) = x := by
  rw [ip_spLayer]
  have hby : ∀ j, j < 8 → byteAt ((List.range 8).foldl (fun s i => s ||| rotl (sbyte (byteAt x i).toNat) (8 * i)) 0) j = byteAt (sbyte (byteAt x j).toNat) 0 := by
    intro j hj
    have e : ∀ i, sbyte (byteAt x i).toNat = (byteAt (sbyte (byteAt x i).toNat) 0).setWidth 64 := fun i => (is_sbyte _ (byteAt x i).isLt).2
    rw [range8]
    simp only [List.foldl_cons, List.foldl_nil, byteAt_or]
    rw [e 0, e 1, e 2, e 3, e 4, e 5, e 6, e 7]
    rw [byteAt_rotl _ 0 j (by decide) hj, byteAt_rotl _ 1 j (by decide) hj, byteAt_rotl _ 2 j (by decide) hj, byteAt_rotl _ 3 j (by decide) hj,
      byteAt_rotl _ 4 j (by decide) hj, byteAt_rotl _ 5 j (by decide) hj, byteAt_rotl _ 6 j (by decide) hj, byteAt_rotl _ 7 j (by decide) hj]
    have z : byteAt 0 j = 0 := by unfold byteAt; simp
    rw [z]
    obtain rfl | rfl | rfl | rfl | rfl | rfl | rfl | rfl : j = 0 ∨ j = 1 ∨ j = 2 ∨ j = 3 ∨ j = 4 ∨ j = 5 ∨ j = 6 ∨ j = 7 := by omega
    all_goals simp
  have hv : ∀ j, isbox.getD (byteAt (sbyte (byteAt x j).toNat) 0).toNat 0 = (byteAt x j).setWidth 64 := by
    intro j
    rw [(is_sbyte _ (byteAt x j).isLt).1]
    apply BitVec.eq_of_toNat_eq
    simp
  unfold isLayer
  conv_lhs => unfold lookup
  conv_rhs => rw [← lookup_bytes x]
  rw [show List.range 8 = [0, 1, 2, 3, 4, 5, 6, 7] from rfl] at hby ⊢
  simp only [List.foldl_cons, List.foldl_nil] at hby ⊢
  rw [hby 0 (by decide), hby 1 (by decide), hby 2 (by decide), hby 3 (by decide), hby 4 (by decide), hby 5 (by decide), hby 6 (by decide), hby 7 (by decide)]
  simp only [hv]

theorem dec_enc (k : List W) (s : W) : dec k (enc k s) = s := by
  unfold dec enc
  rw [foldl_undo (fun s i => spLayer s ^^^ k.getD (i + 1) 0) (fun s i => isLayer (ipLayer (s ^^^ k.getD (i + 1) 0))) (fun s i => by
    simp only [xor_self_right, isLayer_ip_sp]), xor_self_right]

theorem implements : Implements newCipher (fun n => n = 10 ∨ n = 16) 8 :=
  implements_fn (ok := fun n => n = 10 ∨ n = 16) fun key _ => blockFn_1BE (w := 64) (sz := 8) 8 rfl rfl (f := enc (expandKey key)) (g := dec (expandKey key)) (dec_enc _)

end Verif.Cipher.Present
