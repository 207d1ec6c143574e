import Verif.Cipher.Linear
/-
Model of cipher/aria (aria.go, utils.go, sbox.go). The round keys are kept in the source as 32-bit words and turned back into 16 bytes at each use
(`copyBytes`, `toBytes`); the model keeps the 16 bytes.
-/
namespace Verif.Cipher.Aria

/-- sbox.go -/
def sb1 : List Byte := [
  0x63, 0x7c, 0x77, 0x7b, 0xf2, 0x6b, 0x6f, 0xc5, 0x30, 0x01, 0x67, 0x2b, 0xfe, 0xd7, 0xab, 0x76,
  0xca, 0x82, 0xc9, 0x7d, 0xfa, 0x59, 0x47, 0xf0, 0xad, 0xd4, 0xa2, 0xaf, 0x9c, 0xa4, 0x72, 0xc0,
  0xb7, 0xfd, 0x93, 0x26, 0x36, 0x3f, 0xf7, 0xcc, 0x34, 0xa5, 0xe5, 0xf1, 0x71, 0xd8, 0x31, 0x15,
  0x04, 0xc7, 0x23, 0xc3, 0x18, 0x96, 0x05, 0x9a, 0x07, 0x12, 0x80, 0xe2, 0xeb, 0x27, 0xb2, 0x75,
  0x09, 0x83, 0x2c, 0x1a, 0x1b, 0x6e, 0x5a, 0xa0, 0x52, 0x3b, 0xd6, 0xb3, 0x29, 0xe3, 0x2f, 0x84,
  0x53, 0xd1, 0x00, 0xed, 0x20, 0xfc, 0xb1, 0x5b, 0x6a, 0xcb, 0xbe, 0x39, 0x4a, 0x4c, 0x58, 0xcf,
  0xd0, 0xef, 0xaa, 0xfb, 0x43, 0x4d, 0x33, 0x85, 0x45, 0xf9, 0x02, 0x7f, 0x50, 0x3c, 0x9f, 0xa8,
  0x51, 0xa3, 0x40, 0x8f, 0x92, 0x9d, 0x38, 0xf5, 0xbc, 0xb6, 0xda, 0x21, 0x10, 0xff, 0xf3, 0xd2,
  0xcd, 0x0c, 0x13, 0xec, 0x5f, 0x97, 0x44, 0x17, 0xc4, 0xa7, 0x7e, 0x3d, 0x64, 0x5d, 0x19, 0x73,
  0x60, 0x81, 0x4f, 0xdc, 0x22, 0x2a, 0x90, 0x88, 0x46, 0xee, 0xb8, 0x14, 0xde, 0x5e, 0x0b, 0xdb,
  0xe0, 0x32, 0x3a, 0x0a, 0x49, 0x06, 0x24, 0x5c, 0xc2, 0xd3, 0xac, 0x62, 0x91, 0x95, 0xe4, 0x79,
  0xe7, 0xc8, 0x37, 0x6d, 0x8d, 0xd5, 0x4e, 0xa9, 0x6c, 0x56, 0xf4, 0xea, 0x65, 0x7a, 0xae, 0x08,
  0xba, 0x78, 0x25, 0x2e, 0x1c, 0xa6, 0xb4, 0xc6, 0xe8, 0xdd, 0x74, 0x1f, 0x4b, 0xbd, 0x8b, 0x8a,
  0x70, 0x3e, 0xb5, 0x66, 0x48, 0x03, 0xf6, 0x0e, 0x61, 0x35, 0x57, 0xb9, 0x86, 0xc1, 0x1d, 0x9e,
  0xe1, 0xf8, 0x98, 0x11, 0x69, 0xd9, 0x8e, 0x94, 0x9b, 0x1e, 0x87, 0xe9, 0xce, 0x55, 0x28, 0xdf,
  0x8c, 0xa1, 0x89, 0x0d, 0xbf, 0xe6, 0x42, 0x68, 0x41, 0x99, 0x2d, 0x0f, 0xb0, 0x54, 0xbb, 0x16]
def sb2 : List Byte := [
  0xe2, 0x4e, 0x54, 0xfc, 0x94, 0xc2, 0x4a, 0xcc, 0x62, 0x0d, 0x6a, 0x46, 0x3c, 0x4d, 0x8b, 0xd1,
  0x5e, 0xfa, 0x64, 0xcb, 0xb4, 0x97, 0xbe, 0x2b, 0xbc, 0x77, 0x2e, 0x03, 0xd3, 0x19, 0x59, 0xc1,
  0x1d, 0x06, 0x41, 0x6b, 0x55, 0xf0, 0x99, 0x69, 0xea, 0x9c, 0x18, 0xae, 0x63, 0xdf, 0xe7, 0xbb,
  0x00, 0x73, 0x66, 0xfb, 0x96, 0x4c, 0x85, 0xe4, 0x3a, 0x09, 0x45, 0xaa, 0x0f, 0xee, 0x10, 0xeb,
  0x2d, 0x7f, 0xf4, 0x29, 0xac, 0xcf, 0xad, 0x91, 0x8d, 0x78, 0xc8, 0x95, 0xf9, 0x2f, 0xce, 0xcd,
  0x08, 0x7a, 0x88, 0x38, 0x5c, 0x83, 0x2a, 0x28, 0x47, 0xdb, 0xb8, 0xc7, 0x93, 0xa4, 0x12, 0x53,
  0xff, 0x87, 0x0e, 0x31, 0x36, 0x21, 0x58, 0x48, 0x01, 0x8e, 0x37, 0x74, 0x32, 0xca, 0xe9, 0xb1,
  0xb7, 0xab, 0x0c, 0xd7, 0xc4, 0x56, 0x42, 0x26, 0x07, 0x98, 0x60, 0xd9, 0xb6, 0xb9, 0x11, 0x40,
  0xec, 0x20, 0x8c, 0xbd, 0xa0, 0xc9, 0x84, 0x04, 0x49, 0x23, 0xf1, 0x4f, 0x50, 0x1f, 0x13, 0xdc,
  0xd8, 0xc0, 0x9e, 0x57, 0xe3, 0xc3, 0x7b, 0x65, 0x3b, 0x02, 0x8f, 0x3e, 0xe8, 0x25, 0x92, 0xe5,
  0x15, 0xdd, 0xfd, 0x17, 0xa9, 0xbf, 0xd4, 0x9a, 0x7e, 0xc5, 0x39, 0x67, 0xfe, 0x76, 0x9d, 0x43,
  0xa7, 0xe1, 0xd0, 0xf5, 0x68, 0xf2, 0x1b, 0x34, 0x70, 0x05, 0xa3, 0x8a, 0xd5, 0x79, 0x86, 0xa8,
  0x30, 0xc6, 0x51, 0x4b, 0x1e, 0xa6, 0x27, 0xf6, 0x35, 0xd2, 0x6e, 0x24, 0x16, 0x82, 0x5f, 0xda,
  0xe6, 0x75, 0xa2, 0xef, 0x2c, 0xb2, 0x1c, 0x9f, 0x5d, 0x6f, 0x80, 0x0a, 0x72, 0x44, 0x9b, 0x6c,
  0x90, 0x0b, 0x5b, 0x33, 0x7d, 0x5a, 0x52, 0xf3, 0x61, 0xa1, 0xf7, 0xb0, 0xd6, 0x3f, 0x7c, 0x6d,
  0xed, 0x14, 0xe0, 0xa5, 0x3d, 0x22, 0xb3, 0xf8, 0x89, 0xde, 0x71, 0x1a, 0xaf, 0xba, 0xb5, 0x81]
def sb3 : List Byte := [
  0x52, 0x09, 0x6a, 0xd5, 0x30, 0x36, 0xa5, 0x38, 0xbf, 0x40, 0xa3, 0x9e, 0x81, 0xf3, 0xd7, 0xfb,
  0x7c, 0xe3, 0x39, 0x82, 0x9b, 0x2f, 0xff, 0x87, 0x34, 0x8e, 0x43, 0x44, 0xc4, 0xde, 0xe9, 0xcb,
  0x54, 0x7b, 0x94, 0x32, 0xa6, 0xc2, 0x23, 0x3d, 0xee, 0x4c, 0x95, 0x0b, 0x42, 0xfa, 0xc3, 0x4e,
  0x08, 0x2e, 0xa1, 0x66, 0x28, 0xd9, 0x24, 0xb2, 0x76, 0x5b, 0xa2, 0x49, 0x6d, 0x8b, 0xd1, 0x25,
  0x72, 0xf8, 0xf6, 0x64, 0x86, 0x68, 0x98, 0x16, 0xd4, 0xa4, 0x5c, 0xcc, 0x5d, 0x65, 0xb6, 0x92,
  0x6c, 0x70, 0x48, 0x50, 0xfd, 0xed, 0xb9, 0xda, 0x5e, 0x15, 0x46, 0x57, 0xa7, 0x8d, 0x9d, 0x84,
  0x90, 0xd8, 0xab, 0x00, 0x8c, 0xbc, 0xd3, 0x0a, 0xf7, 0xe4, 0x58, 0x05, 0xb8, 0xb3, 0x45, 0x06,
  0xd0, 0x2c, 0x1e, 0x8f, 0xca, 0x3f, 0x0f, 0x02, 0xc1, 0xaf, 0xbd, 0x03, 0x01, 0x13, 0x8a, 0x6b,
  0x3a, 0x91, 0x11, 0x41, 0x4f, 0x67, 0xdc, 0xea, 0x97, 0xf2, 0xcf, 0xce, 0xf0, 0xb4, 0xe6, 0x73,
  0x96, 0xac, 0x74, 0x22, 0xe7, 0xad, 0x35, 0x85, 0xe2, 0xf9, 0x37, 0xe8, 0x1c, 0x75, 0xdf, 0x6e,
  0x47, 0xf1, 0x1a, 0x71, 0x1d, 0x29, 0xc5, 0x89, 0x6f, 0xb7, 0x62, 0x0e, 0xaa, 0x18, 0xbe, 0x1b,
  0xfc, 0x56, 0x3e, 0x4b, 0xc6, 0xd2, 0x79, 0x20, 0x9a, 0xdb, 0xc0, 0xfe, 0x78, 0xcd, 0x5a, 0xf4,
  0x1f, 0xdd, 0xa8, 0x33, 0x88, 0x07, 0xc7, 0x31, 0xb1, 0x12, 0x10, 0x59, 0x27, 0x80, 0xec, 0x5f,
  0x60, 0x51, 0x7f, 0xa9, 0x19, 0xb5, 0x4a, 0x0d, 0x2d, 0xe5, 0x7a, 0x9f, 0x93, 0xc9, 0x9c, 0xef,
  0xa0, 0xe0, 0x3b, 0x4d, 0xae, 0x2a, 0xf5, 0xb0, 0xc8, 0xeb, 0xbb, 0x3c, 0x83, 0x53, 0x99, 0x61,
  0x17, 0x2b, 0x04, 0x7e, 0xba, 0x77, 0xd6, 0x26, 0xe1, 0x69, 0x14, 0x63, 0x55, 0x21, 0x0c, 0x7d]
def sb4 : List Byte := [
  0x30, 0x68, 0x99, 0x1b, 0x87, 0xb9, 0x21, 0x78, 0x50, 0x39, 0xdb, 0xe1, 0x72, 0x09, 0x62, 0x3c,
  0x3e, 0x7e, 0x5e, 0x8e, 0xf1, 0xa0, 0xcc, 0xa3, 0x2a, 0x1d, 0xfb, 0xb6, 0xd6, 0x20, 0xc4, 0x8d,
  0x81, 0x65, 0xf5, 0x89, 0xcb, 0x9d, 0x77, 0xc6, 0x57, 0x43, 0x56, 0x17, 0xd4, 0x40, 0x1a, 0x4d,
  0xc0, 0x63, 0x6c, 0xe3, 0xb7, 0xc8, 0x64, 0x6a, 0x53, 0xaa, 0x38, 0x98, 0x0c, 0xf4, 0x9b, 0xed,
  0x7f, 0x22, 0x76, 0xaf, 0xdd, 0x3a, 0x0b, 0x58, 0x67, 0x88, 0x06, 0xc3, 0x35, 0x0d, 0x01, 0x8b,
  0x8c, 0xc2, 0xe6, 0x5f, 0x02, 0x24, 0x75, 0x93, 0x66, 0x1e, 0xe5, 0xe2, 0x54, 0xd8, 0x10, 0xce,
  0x7a, 0xe8, 0x08, 0x2c, 0x12, 0x97, 0x32, 0xab, 0xb4, 0x27, 0x0a, 0x23, 0xdf, 0xef, 0xca, 0xd9,
  0xb8, 0xfa, 0xdc, 0x31, 0x6b, 0xd1, 0xad, 0x19, 0x49, 0xbd, 0x51, 0x96, 0xee, 0xe4, 0xa8, 0x41,
  0xda, 0xff, 0xcd, 0x55, 0x86, 0x36, 0xbe, 0x61, 0x52, 0xf8, 0xbb, 0x0e, 0x82, 0x48, 0x69, 0x9a,
  0xe0, 0x47, 0x9e, 0x5c, 0x04, 0x4b, 0x34, 0x15, 0x79, 0x26, 0xa7, 0xde, 0x29, 0xae, 0x92, 0xd7,
  0x84, 0xe9, 0xd2, 0xba, 0x5d, 0xf3, 0xc5, 0xb0, 0xbf, 0xa4, 0x3b, 0x71, 0x44, 0x46, 0x2b, 0xfc,
  0xeb, 0x6f, 0xd5, 0xf6, 0x14, 0xfe, 0x7c, 0x70, 0x5a, 0x7d, 0xfd, 0x2f, 0x18, 0x83, 0x16, 0xa5,
  0x91, 0x1f, 0x05, 0x95, 0x74, 0xa9, 0xc1, 0x5b, 0x4a, 0x85, 0x6d, 0x13, 0x07, 0x4f, 0x4e, 0x45,
  0xb2, 0x0f, 0xc9, 0x1c, 0xa6, 0xbc, 0xec, 0x73, 0x90, 0x7b, 0xcf, 0x59, 0x8f, 0xa1, 0xf9, 0x2d,
  0xf2, 0xb1, 0x00, 0x94, 0x37, 0x9f, 0xd0, 0x2e, 0x9c, 0x6e, 0x28, 0x3f, 0x80, 0xf0, 0x3d, 0xd3,
  0x25, 0x8a, 0xb5, 0xe7, 0x42, 0xb3, 0xc7, 0xea, 0xf7, 0x4c, 0x11, 0x33, 0x03, 0xa2, 0xac, 0x60]
def c1 : Bytes := [
  0x51, 0x7c, 0xc1, 0xb7, 0x27, 0x22, 0x0a, 0x94, 0xfe, 0x13, 0xab, 0xe8, 0xfa, 0x9a, 0x6e, 0xe0]
def c2 : Bytes := [
  0x6d, 0xb1, 0x4a, 0xcc, 0x9e, 0x21, 0xc8, 0x20, 0xff, 0x28, 0xb1, 0xd5, 0xef, 0x5d, 0xe2, 0xb0]
def c3 : Bytes := [
  0xdb, 0x92, 0x37, 0x1d, 0x21, 0x26, 0xe9, 0x70, 0x03, 0x24, 0x97, 0x75, 0x04, 0xe8, 0xc9, 0x0e]

/-- utils.go:65-82 `substitute1`: the table for position `i`. -/
def tab1 (i : Nat) : List Byte := if i % 4 = 0 then sb1 else if i % 4 = 1 then sb2 else if i % 4 = 2 then sb3 else sb4
/-- utils.go:84-101 `substitute2` -/
def tab2 (i : Nat) : List Byte := if i % 4 = 0 then sb3 else if i % 4 = 1 then sb4 else if i % 4 = 2 then sb1 else sb2
def substitute1 (x : Bytes) : Bytes := (List.range 16).map fun i => (tab1 i).getD (x.getD i 0).toNat 0
def substitute2 (x : Bytes) : Bytes := (List.range 16).map fun i => (tab2 i).getD (x.getD i 0).toNat 0

/-- utils.go:103-122 `diffuse`: row `i` lists the indices `j` with `x[j]` in the sum `y[i]`. -/
def rows : List (List Nat) := [[3, 4, 6, 8, 9, 13, 14],
  [2, 5, 7, 8, 9, 12, 15],
  [1, 4, 6, 10, 11, 12, 15],
  [0, 5, 7, 10, 11, 13, 14],
  [0, 2, 5, 8, 11, 14, 15],
  [1, 3, 4, 9, 10, 14, 15],
  [0, 2, 7, 9, 10, 12, 13],
  [1, 3, 6, 8, 11, 12, 13],
  [0, 1, 4, 7, 10, 13, 15],
  [0, 1, 5, 6, 11, 12, 14],
  [2, 3, 5, 6, 8, 13, 15],
  [2, 3, 4, 7, 9, 12, 14],
  [1, 2, 6, 7, 9, 11, 12],
  [0, 3, 6, 7, 8, 10, 13],
  [0, 3, 4, 5, 9, 11, 14],
  [1, 2, 4, 5, 8, 10, 15]]
def diffuse (x : Bytes) : Bytes := rowMap rows x

/-- utils.go:55-63 -/
def roundOdd (d rk : Bytes) : Bytes := diffuse (substitute1 (xorb d rk))
def roundEven (d rk : Bytes) : Bytes := diffuse (substitute2 (xorb d rk))

/-- utils.go:129-140 `lrot` -/
def lrot (x : Bytes) (n : Nat) : Bytes :=
  (List.range 16).map fun i => (x.getD ((n / 8 + i) % 16) 0 <<< (n % 8)) ||| (x.getD ((n / 8 + i + 1) % 16) 0 >>> (8 - n % 8))
/-- utils.go:142-152 `rrot` -/
def rrot (x : Bytes) (n : Nat) : Bytes :=
  (List.range 16).map fun i => (x.getD ((i + 16 - n / 8 % 16) % 16) 0 >>> (n % 8)) ||| (x.getD ((i + 15 - n / 8 % 16) % 16) 0 <<< (8 - n % 8))

/-- aria.go:81-83 -/
def rounds (key : Bytes) : Nat := key.length / 4 + 8

/-- aria.go:116-175: the encryption round keys (17 of them; the first `rounds + 1` are used). -/
def encKeys (key : Bytes) : List Bytes :=
  let kl := copyInto (List.replicate 16 0) (key.take 16)
  let kr := copyInto (List.replicate 16 0) (key.drop 16)
  let (ck1, ck2, ck3) := if key.length = 16 then (c1, c2, c3) else if key.length = 24 then (c2, c3, c1) else (c3, c1, c2)
  let w0 := kl
  let w1 := xorb (roundOdd w0 ck1) kr
  let w2 := xorb (roundEven w1 ck2) w0
  let w3 := xorb (roundOdd w2 ck3) w1
  [xorb w0 (rrot w1 19), xorb w1 (rrot w2 19), xorb w2 (rrot w3 19), xorb w3 (rrot w0 19),
   xorb w0 (rrot w1 31), xorb w1 (rrot w2 31), xorb w2 (rrot w3 31), xorb w3 (rrot w0 31),
   xorb w0 (lrot w1 61), xorb w1 (lrot w2 61), xorb w2 (lrot w3 61), xorb w3 (lrot w0 61),
   xorb w0 (lrot w1 31)] ++
  (if rounds key > 12 then [xorb w1 (lrot w2 31), xorb w2 (lrot w3 31)] else []) ++
  (if rounds key > 14 then [xorb w3 (lrot w0 31), xorb w0 (lrot w1 19)] else [])

/-- aria.go:177-188: the decryption round keys. -/
def decKeys (ek : List Bytes) (n : Nat) : List Bytes :=
  [ek.getD n []] ++ ((List.range (n - 1)).map fun i => diffuse (ek.getD (n - (i + 1)) [])) ++ [ek.getD 0 []]

/-- aria.go:85-103 `cryptBlock` -/
def cryptBlock (xk : List Bytes) (n : Nat) (p : Bytes) : Bytes :=
  let p := (List.range (n - 1)).foldl (fun p i => if (i + 1) % 2 = 1 then roundOdd p (xk.getD i []) else roundEven p (xk.getD i [])) p
  xorb (substitute2 (xorb p (xk.getD (n - 1) []))) (xk.getD n [])

def encrypt (key : Bytes) : Bytes → Bytes := cryptBlock (encKeys key) (rounds key)
def decrypt (key : Bytes) : Bytes → Bytes := cryptBlock (decKeys (encKeys key) (rounds key)) (rounds key)

/-- aria.go:30-79 -/
def newCipher (key : Bytes) : Res Obj :=
  if key.length = 16 ∨ key.length = 24 ∨ key.length = 32 then .ok ⟨16, guarded 16 (whole 16 (encrypt key)), guarded 16 (whole 16 (decrypt key))⟩ else .err

/-! Proofs -/

@[simp] theorem sub1_len (x : Bytes) : (substitute1 x).length = 16 := by simp [substitute1]
@[simp] theorem sub2_len (x : Bytes) : (substitute2 x).length = 16 := by simp [substitute2]
@[simp] theorem diffuse_len (x : Bytes) : (diffuse x).length = 16 := by simp [diffuse, rows]

theorem rows_inv : RowsInv 16 rows rows := by
  refine ⟨rfl, rfl, ?_, ?_, ?_⟩ <;> decide +kernel
theorem diffuse_inv (x : Bytes) (h : x.length = 16) : diffuse (diffuse x) = x := rowMap_inv rows_inv x h
theorem diffuse_xor (x y : Bytes) (hx : x.length = 16) (hy : y.length = 16) : diffuse (xorb x y) = xorb (diffuse x) (diffuse y) := rowMap_xor rows 16 x y hx hy

theorem boxes (b : Nat) (h : b < 256) : (sb3.getD (sb1.getD b 0).toNat 0).toNat = b ∧ (sb1.getD (sb3.getD b 0).toNat 0).toNat = b ∧
    (sb4.getD (sb2.getD b 0).toNat 0).toNat = b ∧ (sb2.getD (sb4.getD b 0).toNat 0).toNat = b := by
  revert b
  decide +kernel

theorem tab21 (i : Nat) (b : Byte) : (tab2 i).getD ((tab1 i).getD b.toNat 0).toNat 0 = b ∧ (tab1 i).getD ((tab2 i).getD b.toNat 0).toNat 0 = b := by
  have h := boxes b.toNat b.isLt
  unfold tab1 tab2
  have hi : i % 4 = 0 ∨ i % 4 = 1 ∨ i % 4 = 2 ∨ i % 4 = 3 := by omega
  rcases hi with hi | hi | hi | hi <;> simp only [hi] <;> constructor <;> apply BitVec.eq_of_toNat_eq
  · exact h.1
  · exact h.2.1
  · exact h.2.2.1
  · exact h.2.2.2
  · exact h.2.1
  · exact h.1
  · exact h.2.2.2
  · exact h.2.2.1

theorem sub_inv (x : Bytes) (h : x.length = 16) : substitute2 (substitute1 x) = x ∧ substitute1 (substitute2 x) = x := by
  constructor
  · apply List.ext_getElem (by simp [h])
    intro i h1 h2
    simp only [substitute2, substitute1, List.getElem_map, List.getElem_range, List.getD_eq_getElem?_getD, List.getElem?_map, List.getElem?_range (show i < 16 by omega), Option.map_some, Option.getD_some]
    have := (tab21 i (x.getD i 0)).1
    simp only [List.getD_eq_getElem?_getD] at this
    rw [this, List.getElem?_eq_getElem h2]
    rfl
  · apply List.ext_getElem (by simp [h])
    intro i h1 h2
    simp only [substitute2, substitute1, List.getElem_map, List.getElem_range, List.getD_eq_getElem?_getD, List.getElem?_map, List.getElem?_range (show i < 16 by omega), Option.map_some, Option.getD_some]
    have := (tab21 i (x.getD i 0)).2
    simp only [List.getD_eq_getElem?_getD] at this
    rw [this, List.getElem?_eq_getElem h2]
    rfl

/-- The substitution of round `i` (counted from 0). -/
def sub (i : Nat) (x : Bytes) : Bytes := if (i + 1) % 2 = 1 then substitute1 x else substitute2 x
@[simp] theorem sub_len (i : Nat) (x : Bytes) : (sub i x).length = 16 := by unfold sub; split <;> simp
theorem sub_sub (i j : Nat) (hij : (i + j) % 2 = 1) (x : Bytes) (h : x.length = 16) : sub i (sub j x) = x := by
  unfold sub
  by_cases hi : (i + 1) % 2 = 1
  · rw [if_pos hi, if_neg (by omega)]; exact (sub_inv x h).2
  · rw [if_neg hi, if_pos (by omega)]; exact (sub_inv x h).1

/-- The state after `m` rounds. -/
def run (xk : List Bytes) (m : Nat) (p : Bytes) : Bytes := (List.range m).foldl (fun p i => diffuse (sub i (xorb p (xk.getD i [])))) p
theorem run_succ (xk : List Bytes) (m : Nat) (p : Bytes) : run xk (m + 1) p = diffuse (sub m (xorb (run xk m p) (xk.getD m []))) := by
  unfold run
  rw [List.range_succ, List.foldl_append]
  rfl
theorem run_len (xk : List Bytes) (m : Nat) (p : Bytes) (h : p.length = 16) : (run xk m p).length = 16 := by
  cases m with
  | zero => exact h
  | succ m => rw [run_succ]; simp

theorem crypt_eq (xk : List Bytes) (n : Nat) (hn : n % 2 = 0) (h0 : 0 < n) (p : Bytes) :
    cryptBlock xk n p = xorb (sub (n - 1) (xorb (run xk (n - 1) p) (xk.getD (n - 1) []))) (xk.getD n []) := by
  unfold cryptBlock
  have e : (fun (p : Bytes) i => if (i + 1) % 2 = 1 then roundOdd p (xk.getD i []) else roundEven p (xk.getD i [])) =
      fun p i => diffuse (sub i (xorb p (xk.getD i []))) := by
    funext p i
    unfold sub roundOdd roundEven
    split <;> rfl
  have e2 : ∀ x, sub (n - 1) x = substitute2 x := by
    intro x
    unfold sub
    rw [if_neg (by omega)]
  rw [e, e2]
  rfl

theorem xorb_cancel (x k : Bytes) (hx : x.length = 16) (hk : k.length = 16) : xorb (xorb x k) k = x := xorb_xorb_cancel_right x k (by omega)
theorem xorb_len16 (x y : Bytes) (hx : x.length = 16) (hy : y.length = 16) : (xorb x y).length = 16 := by rw [xorb_length, hx, hy]; rfl

theorem dec_enc (ek : List Bytes) (n : Nat) (hn : n % 2 = 0) (h2 : 2 ≤ n) (hk : ∀ i, i ≤ n → (ek.getD i []).length = 16) (p : Bytes) (hp : p.length = 16) :
    cryptBlock (decKeys ek n) n (cryptBlock ek n p) = p := by
  rw [crypt_eq ek n hn (by omega), crypt_eq _ n hn (by omega)]
  have d0 : (decKeys ek n).getD 0 [] = ek.getD n [] := rfl
  have dn : (decKeys ek n).getD n [] = ek.getD 0 [] := by
    unfold decKeys
    rw [List.getD_eq_getElem?_getD, List.getElem?_append_right (by simp; omega)]
    have : n - ([ek.getD n []] ++ (List.range (n - 1)).map fun i => diffuse (ek.getD (n - (i + 1)) [])).length = 0 := by simp; omega
    rw [this]
    rfl
  have di : ∀ i, 1 ≤ i → i ≤ n - 1 → (decKeys ek n).getD i [] = diffuse (ek.getD (n - i) []) := by
    intro i h1 h3
    unfold decKeys
    rw [List.getD_eq_getElem?_getD, List.getElem?_append_left (by simp; omega), List.getElem?_append_right (by simp; omega)]
    simp only [List.length_singleton, List.getElem?_map, List.getElem?_range (show i - 1 < n - 1 by omega), Option.map_some, Option.getD_some]
    rw [show i - 1 + 1 = i from by omega]
  have hx := fun m => run_len ek m p hp
  -- the state after `i` rounds of decryption
  have key : ∀ i, 1 ≤ i → i ≤ n - 1 →
      run (decKeys ek n) i (xorb (sub (n - 1) (xorb (run ek (n - 1) p) (ek.getD (n - 1) []))) (ek.getD n [])) =
        diffuse (xorb (run ek (n - i) p) (ek.getD (n - i) [])) := by
    intro i h1
    induction i with
    | zero => omega
    | succ i ih =>
      intro h3
      rw [run_succ]
      by_cases h0 : i = 0
      · subst h0
        rw [d0]
        show diffuse (sub 0 (xorb (xorb _ _) _)) = _
        rw [xorb_cancel _ _ (by simp) (hk n (by omega)), sub_sub 0 (n - 1) (by omega) _ (xorb_len16 _ _ (hx _) (hk _ (by omega)))]
      · rw [ih (by omega) (by omega), di i (by omega) (by omega), ← diffuse_xor _ _ (xorb_len16 _ _ (hx _) (hk _ (by omega))) (hk _ (by omega)),
          xorb_cancel _ _ (hx _) (hk _ (by omega))]
        obtain ⟨m, hm⟩ : ∃ m, n - i = m + 1 := ⟨n - i - 1, by omega⟩
        rw [hm, run_succ, diffuse_inv _ (by simp), sub_sub i m (by omega) _ (xorb_len16 _ _ (hx _) (hk _ (by omega))), show n - (i + 1) = m from by omega]
  rw [key (n - 1) (by omega) (by omega), dn, di (n - 1) (by omega) (by omega), show n - (n - 1) = 1 from by omega,
    ← diffuse_xor _ _ (xorb_len16 _ _ (hx _) (hk _ (by omega))) (hk _ (by omega)), xorb_cancel _ _ (hx _) (hk _ (by omega)), run_succ, diffuse_inv _ (by simp),
    sub_sub (n - 1) 0 (by omega) _ (xorb_len16 _ _ (hx _) (hk _ (by omega))), xorb_cancel _ _ (hx _) (hk _ (by omega))]
  rfl

theorem crypt_len (xk : List Bytes) (n : Nat) (p : Bytes) (hk : (xk.getD n []).length = 16) : (cryptBlock xk n p).length = 16 := by
  unfold cryptBlock
  exact xorb_len16 _ _ (by simp) hk

@[simp] theorem lrot_len (x : Bytes) (n : Nat) : (lrot x n).length = 16 := by simp [lrot]
@[simp] theorem rrot_len (x : Bytes) (n : Nat) : (rrot x n).length = 16 := by simp [rrot]

theorem encKeys_len (key : Bytes) (hk : key.length = 16 ∨ key.length = 24 ∨ key.length = 32) : ∀ i, i ≤ rounds key → ((encKeys key).getD i []).length = 16 := by
  have all : ∀ k ∈ encKeys key, k.length = 16 := by
    intro k h
    have hl : (copyInto (List.replicate 16 (0 : Byte)) (key.take 16)).length = 16 := by simp
    have hr : (copyInto (List.replicate 16 (0 : Byte)) (key.drop 16)).length = 16 := by simp
    unfold encKeys at h
    revert h
    generalize copyInto (List.replicate 16 (0 : Byte)) (key.take 16) = kl at hl ⊢
    generalize copyInto (List.replicate 16 (0 : Byte)) (key.drop 16) = kr at hr ⊢
    generalize (if key.length = 16 then (c1, c2, c3) else if key.length = 24 then (c2, c3, c1) else (c3, c1, c2)) = cc
    obtain ⟨a, b, c⟩ := cc
    intro h
    simp only at h
    have h1 : ∀ x, (xorb (roundOdd kl x) kr).length = 16 := fun x => xorb_len16 _ _ (by simp [roundOdd]) hr
    generalize hw1 : xorb (roundOdd kl a) kr = w1 at h
    have l1 : w1.length = 16 := by rw [← hw1]; exact h1 a
    generalize hw2 : xorb (roundEven w1 b) kl = w2 at h
    have l2 : w2.length = 16 := by rw [← hw2]; exact xorb_len16 _ _ (by simp [roundEven]) hl
    generalize hw3 : xorb (roundOdd w2 c) w1 = w3 at h
    have l3 : w3.length = 16 := by rw [← hw3]; exact xorb_len16 _ _ (by simp [roundOdd]) l1
    rw [List.mem_append, List.mem_append] at h
    rcases h with (h | h) | h
    · simp only [List.mem_cons, List.not_mem_nil, or_false] at h
      rcases h with h | h | h | h | h | h | h | h | h | h | h | h | h <;> rw [h] <;> exact xorb_len16 _ _ (by assumption) (by simp)
    · split at h
      · simp only [List.mem_cons, List.not_mem_nil, or_false] at h
        rcases h with h | h <;> rw [h] <;> exact xorb_len16 _ _ (by assumption) (by simp)
      · simp at h
    · split at h
      · simp only [List.mem_cons, List.not_mem_nil, or_false] at h
        rcases h with h | h <;> rw [h] <;> exact xorb_len16 _ _ (by assumption) (by simp)
      · simp at h
  have len : rounds key < (encKeys key).length := by
    unfold encKeys
    rcases hk with h | h | h <;> simp [rounds, h]
  intro i hi
  have hi' : i < (encKeys key).length := by omega
  rw [List.getD_eq_getElem?_getD, List.getElem?_eq_getElem hi']
  exact all _ (List.getElem_mem hi')

theorem implements : Implements newCipher (fun n => n = 16 ∨ n = 24 ∨ n = 32) 16 := by
  refine implements_of (ok := fun n => n = 16 ∨ n = 24 ∨ n = 32) (f := encrypt) (g := decrypt) fun key hk => ?_
  have hl := encKeys_len key hk
  have hn : rounds key % 2 = 0 ∧ 2 ≤ rounds key := by unfold rounds; rcases hk with h | h | h <;> rw [h] <;> decide
  refine isBlock_left 16 _ _ (fun b _ => crypt_len _ _ _ (hl _ (Nat.le_refl _))) (fun b _ => crypt_len _ _ _ ?_) (fun b hb => dec_enc _ _ hn.1 hn.2 hl b hb)
  unfold decKeys
  rw [List.getD_eq_getElem?_getD, List.getElem?_append_right (by simp; omega)]
  have : rounds key - ([(encKeys key).getD (rounds key) []] ++ (List.range (rounds key - 1)).map fun i => diffuse ((encKeys key).getD (rounds key - (i + 1)) [])).length = 0 := by simp; omega
  rw [this]
  exact hl 0 (by omega)

end Verif.Cipher.Aria
