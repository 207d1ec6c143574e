import Verif.Cipher.CastTables
/-
Model of cipher/cast (cast.go, utils.go, sboxs.go).
-/
namespace Verif.Cipher.Cast
open CastTables

abbrev St := W × W × W × W

/-- `S[0][byte(I >> 24)]` and so on -/
def at' (t : List W) (i : W) (n : Nat) : W := t.getD ((i >>> n).setWidth 8 : Byte).toNat 0

/-- utils.go:51-54 -/
def f1 (D : W) (kr : Byte) (km : W) : W :=
  let I := rotl (km + D) kr.toNat
  ((at' S0 I 24 ^^^ at' S1 I 16) - at' S2 I 8) + at' S3 I 0
/-- utils.go:56-59 -/
def f2 (D : W) (kr : Byte) (km : W) : W :=
  let I := rotl (km ^^^ D) kr.toNat
  ((at' S0 I 24 - at' S1 I 16) + at' S2 I 8) ^^^ at' S3 I 0
/-- utils.go:61-64 -/
def f3 (D : W) (kr : Byte) (km : W) : W :=
  let I := rotl (km - D) kr.toNat
  ((at' S0 I 24 + at' S1 I 16) ^^^ at' S2 I 8) - at' S3 I 0

/-- sboxs.go:142-167 `tm` and 169-194 `tr`, the 24 rows of eight one after the other. -/
def tm : List W := [
  0x5a827999, 0xc95c653a, 0x383650db, 0xa7103c7c, 0x15ea281d, 0x84c413be, 0xf39dff5f, 0x6277eb00,
  0xd151d6a1, 0x402bc242, 0xaf05ade3, 0x1ddf9984, 0x8cb98525, 0xfb9370c6, 0x6a6d5c67, 0xd9474808,
  0x482133a9, 0xb6fb1f4a, 0x25d50aeb, 0x94aef68c, 0x0388e22d, 0x7262cdce, 0xe13cb96f, 0x5016a510,
  0xbef090b1, 0x2dca7c52, 0x9ca467f3, 0x0b7e5394, 0x7a583f35, 0xe9322ad6, 0x580c1677, 0xc6e60218,
  0x35bfedb9, 0xa499d95a, 0x1373c4fb, 0x824db09c, 0xf1279c3d, 0x600187de, 0xcedb737f, 0x3db55f20,
  0xac8f4ac1, 0x1b693662, 0x8a432203, 0xf91d0da4, 0x67f6f945, 0xd6d0e4e6, 0x45aad087, 0xb484bc28,
  0x235ea7c9, 0x9238936a, 0x01127f0b, 0x6fec6aac, 0xdec6564d, 0x4da041ee, 0xbc7a2d8f, 0x2b541930,
  0x9a2e04d1, 0x0907f072, 0x77e1dc13, 0xe6bbc7b4, 0x5595b355, 0xc46f9ef6, 0x33498a97, 0xa2237638,
  0x10fd61d9, 0x7fd74d7a, 0xeeb1391b, 0x5d8b24bc, 0xcc65105d, 0x3b3efbfe, 0xaa18e79f, 0x18f2d340,
  0x87ccbee1, 0xf6a6aa82, 0x65809623, 0xd45a81c4, 0x43346d65, 0xb20e5906, 0x20e844a7, 0x8fc23048,
  0xfe9c1be9, 0x6d76078a, 0xdc4ff32b, 0x4b29decc, 0xba03ca6d, 0x28ddb60e, 0x97b7a1af, 0x06918d50,
  0x756b78f1, 0xe4456492, 0x531f5033, 0xc1f93bd4, 0x30d32775, 0x9fad1316, 0x0e86feb7, 0x7d60ea58,
  0xec3ad5f9, 0x5b14c19a, 0xc9eead3b, 0x38c898dc, 0xa7a2847d, 0x167c701e, 0x85565bbf, 0xf4304760,
  0x630a3301, 0xd1e41ea2, 0x40be0a43, 0xaf97f5e4, 0x1e71e185, 0x8d4bcd26, 0xfc25b8c7, 0x6affa468,
  0xd9d99009, 0x48b37baa, 0xb78d674b, 0x266752ec, 0x95413e8d, 0x041b2a2e, 0x72f515cf, 0xe1cf0170,
  0x50a8ed11, 0xbf82d8b2, 0x2e5cc453, 0x9d36aff4, 0x0c109b95, 0x7aea8736, 0xe9c472d7, 0x589e5e78,
  0xc7784a19, 0x365235ba, 0xa52c215b, 0x14060cfc, 0x82dff89d, 0xf1b9e43e, 0x6093cfdf, 0xcf6dbb80,
  0x3e47a721, 0xad2192c2, 0x1bfb7e63, 0x8ad56a04, 0xf9af55a5, 0x68894146, 0xd7632ce7, 0x463d1888,
  0xb5170429, 0x23f0efca, 0x92cadb6b, 0x01a4c70c, 0x707eb2ad, 0xdf589e4e, 0x4e3289ef, 0xbd0c7590,
  0x2be66131, 0x9ac04cd2, 0x099a3873, 0x78742414, 0xe74e0fb5, 0x5627fb56, 0xc501e6f7, 0x33dbd298,
  0xa2b5be39, 0x118fa9da, 0x8069957b, 0xef43811c, 0x5e1d6cbd, 0xccf7585e, 0x3bd143ff, 0xaaab2fa0,
  0x19851b41, 0x885f06e2, 0xf738f283, 0x6612de24, 0xd4ecc9c5, 0x43c6b566, 0xb2a0a107, 0x217a8ca8,
  0x90547849, 0xff2e63ea, 0x6e084f8b, 0xdce23b2c, 0x4bbc26cd, 0xba96126e, 0x296ffe0f, 0x9849e9b0,
  0x0723d551, 0x75fdc0f2, 0xe4d7ac93, 0x53b19834, 0xc28b83d5, 0x31656f76, 0xa03f5b17, 0x0f1946b8]
def tr : List Byte := [
  0x13, 0x04, 0x15, 0x06, 0x17, 0x08, 0x19, 0x0a, 0x1b, 0x0c, 0x1d, 0x0e, 0x1f, 0x10, 0x01, 0x12,
  0x03, 0x14, 0x05, 0x16, 0x07, 0x18, 0x09, 0x1a, 0x0b, 0x1c, 0x0d, 0x1e, 0x0f, 0x00, 0x11, 0x02,
  0x13, 0x04, 0x15, 0x06, 0x17, 0x08, 0x19, 0x0a, 0x1b, 0x0c, 0x1d, 0x0e, 0x1f, 0x10, 0x01, 0x12,
  0x03, 0x14, 0x05, 0x16, 0x07, 0x18, 0x09, 0x1a, 0x0b, 0x1c, 0x0d, 0x1e, 0x0f, 0x00, 0x11, 0x02,
  0x13, 0x04, 0x15, 0x06, 0x17, 0x08, 0x19, 0x0a, 0x1b, 0x0c, 0x1d, 0x0e, 0x1f, 0x10, 0x01, 0x12,
  0x03, 0x14, 0x05, 0x16, 0x07, 0x18, 0x09, 0x1a, 0x0b, 0x1c, 0x0d, 0x1e, 0x0f, 0x00, 0x11, 0x02,
  0x13, 0x04, 0x15, 0x06, 0x17, 0x08, 0x19, 0x0a, 0x1b, 0x0c, 0x1d, 0x0e, 0x1f, 0x10, 0x01, 0x12,
  0x03, 0x14, 0x05, 0x16, 0x07, 0x18, 0x09, 0x1a, 0x0b, 0x1c, 0x0d, 0x1e, 0x0f, 0x00, 0x11, 0x02,
  0x13, 0x04, 0x15, 0x06, 0x17, 0x08, 0x19, 0x0a, 0x1b, 0x0c, 0x1d, 0x0e, 0x1f, 0x10, 0x01, 0x12,
  0x03, 0x14, 0x05, 0x16, 0x07, 0x18, 0x09, 0x1a, 0x0b, 0x1c, 0x0d, 0x1e, 0x0f, 0x00, 0x11, 0x02,
  0x13, 0x04, 0x15, 0x06, 0x17, 0x08, 0x19, 0x0a, 0x1b, 0x0c, 0x1d, 0x0e, 0x1f, 0x10, 0x01, 0x12,
  0x03, 0x14, 0x05, 0x16, 0x07, 0x18, 0x09, 0x1a, 0x0b, 0x1c, 0x0d, 0x1e, 0x0f, 0x00, 0x11, 0x02]

/-- utils.go:68-75: one pass of `ks` with row `r` of the tables. -/
def pass (k : List W) (r : Nat) : List W :=
  let t := fun i => (tr.getD (8 * r + i) 0, tm.getD (8 * r + i) 0)
  let up := fun (k : List W) (d s : Nat) (f : W → Byte → W → W) (i : Nat) => k.set d (k.getD d 0 ^^^ f (k.getD s 0) (t i).1 (t i).2)
  let k := up k 6 7 f1 0
  let k := up k 5 6 f2 1
  let k := up k 4 5 f3 2
  let k := up k 3 4 f1 3
  let k := up k 2 3 f2 4
  let k := up k 1 2 f3 5
  let k := up k 0 1 f1 6
  up k 7 0 f2 7

/-- The tables `km` and `kr`. -/
structure Key where
  km : List W
  kr : List Byte

/-- utils.go:66-93 `ks` for `i` from 0 to 11, on the words of the key padded with zeros (cast.go:131-143) -/
def expandKey (key : Bytes) : Key :=
  let k := ldBE 32 4 8 (key ++ List.replicate (32 - key.length) 0)
  let r := (List.range 12).foldl (fun (x : Key × List W) i =>
    let k := pass (pass x.2 (2 * i)) (2 * i + 1)
    (⟨x.1.km ++ [k.getD 7 0, k.getD 5 0, k.getD 3 0, k.getD 1 0],
      x.1.kr ++ [(k.getD 0 0 &&& 0x1f).setWidth 8, (k.getD 2 0 &&& 0x1f).setWidth 8, (k.getD 4 0 &&& 0x1f).setWidth 8, (k.getD 6 0 &&& 0x1f).setWidth 8]⟩, k)) (⟨[], []⟩, k)
  r.1

/-- cast.go:85-88, 113-116: the forward quad-round with the keys `4 g` to `4 g + 3`. -/
def fwd (K : Key) (s : St) (g : Nat) : St :=
  let (a, b, c, d) := s
  let k := fun j => K.km.getD (4 * g + j) 0
  let r := fun j => K.kr.getD (4 * g + j) 0
  let c := c ^^^ f1 d (r 0) (k 0)
  let b := b ^^^ f2 c (r 1) (k 1)
  let a := a ^^^ f3 b (r 2) (k 2)
  let d := d ^^^ f1 a (r 3) (k 3)
  (a, b, c, d)
/-- cast.go:92-95, 120-123: the reverse quad-round (`i = 4 g + 4`). -/
def inv (K : Key) (s : St) (g : Nat) : St :=
  let (a, b, c, d) := s
  let k := fun j => K.km.getD (4 * g + j) 0
  let r := fun j => K.kr.getD (4 * g + j) 0
  let d := d ^^^ f1 a (r 3) (k 3)
  let a := a ^^^ f3 b (r 2) (k 2)
  let b := b ^^^ f2 c (r 1) (k 1)
  let c := c ^^^ f1 d (r 0) (k 0)
  (a, b, c, d)

/-- cast.go:75-101 `encrypt`: `i` = 0, 4, …, 20 forward, then 28, …, 48 in reverse form. -/
def enc (K : Key) (s : St) : St :=
  let s := [0, 1, 2, 3, 4, 5].foldl (fwd K) s
  [6, 7, 8, 9, 10, 11].foldl (inv K) s
/-- cast.go:103-129 `decrypt`: `i` = 44, …, 24 forward, then 24, …, 4 in reverse form. -/
def dec (K : Key) (s : St) : St :=
  let s := [6, 7, 8, 9, 10, 11].reverse.foldl (fwd K) s
  [0, 1, 2, 3, 4, 5].reverse.foldl (inv K) s

theorem inv_fwd (K : Key) (s : St) (g : Nat) : inv K (fwd K s g) g = s := by
  obtain ⟨a, b, c, d⟩ := s
  simp only [fwd, inv, xor_self_right]
theorem fwd_inv (K : Key) (s : St) (g : Nat) : fwd K (inv K s g) g = s := by
  obtain ⟨a, b, c, d⟩ := s
  simp only [fwd, inv, xor_self_right]
theorem dec_enc (K : Key) (s : St) : dec K (enc K s) = s := by
  simp only [dec, enc, foldl_undo (inv K) (fwd K) (fwd_inv K), foldl_undo (fwd K) (inv K) (inv_fwd K)]
theorem enc_dec (K : Key) (s : St) : enc K (dec K s) = s := by
  simp only [dec, enc, foldl_undo' (fwd K) (inv K) (fwd_inv K), foldl_undo' (inv K) (fwd K) (inv_fwd K)]

/-- Key lengths in bytes. -/
def keyOK (n : Nat) : Prop := n = 16 ∨ n = 20 ∨ n = 24 ∨ n = 28 ∨ n = 32
instance : DecidablePred keyOK := fun n => by unfold keyOK; infer_instance

def encrypt (key : Bytes) : Bytes → Bytes := enc4BE 32 4 (enc (expandKey key))
def decrypt (key : Bytes) : Bytes → Bytes := enc4BE 32 4 (dec (expandKey key))

/-- cast.go:24-73 `NewCipher`, `Encrypt`, `Decrypt` -/
def newCipher (key : Bytes) : Res Obj :=
  if keyOK key.length then .ok ⟨16, guarded 16 (whole 16 (encrypt key)), guarded 16 (whole 16 (decrypt key))⟩ else .err

theorem implements : Implements newCipher keyOK 16 :=
  implements_of (ok := keyOK) fun key _ =>
    isBlock_4BE (w := 32) (sz := 4) 16 rfl rfl (f := enc (expandKey key)) (g := dec (expandKey key)) (dec_enc _) (enc_dec _)

end Verif.Cipher.Cast
