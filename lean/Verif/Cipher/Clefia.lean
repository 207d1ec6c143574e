import Verif.Cipher.Common2
/-
Model of cipher/clefia (clefia.go, utils.go, sbox.go).
-/
namespace Verif.Cipher.Clefia

abbrev W := BitVec 32
abbrev St := W × W × W × W

/-- sbox.go:4-38 -/
def s0 : List Byte := [
  0x57, 0x49, 0xd1, 0xc6, 0x2f, 0x33, 0x74, 0xfb, 0x95, 0x6d, 0x82, 0xea, 0x0e, 0xb0, 0xa8, 0x1c,
  0x28, 0xd0, 0x4b, 0x92, 0x5c, 0xee, 0x85, 0xb1, 0xc4, 0x0a, 0x76, 0x3d, 0x63, 0xf9, 0x17, 0xaf,
  0xbf, 0xa1, 0x19, 0x65, 0xf7, 0x7a, 0x32, 0x20, 0x06, 0xce, 0xe4, 0x83, 0x9d, 0x5b, 0x4c, 0xd8,
  0x42, 0x5d, 0x2e, 0xe8, 0xd4, 0x9b, 0x0f, 0x13, 0x3c, 0x89, 0x67, 0xc0, 0x71, 0xaa, 0xb6, 0xf5,
  0xa4, 0xbe, 0xfd, 0x8c, 0x12, 0x00, 0x97, 0xda, 0x78, 0xe1, 0xcf, 0x6b, 0x39, 0x43, 0x55, 0x26,
  0x30, 0x98, 0xcc, 0xdd, 0xeb, 0x54, 0xb3, 0x8f, 0x4e, 0x16, 0xfa, 0x22, 0xa5, 0x77, 0x09, 0x61,
  0xd6, 0x2a, 0x53, 0x37, 0x45, 0xc1, 0x6c, 0xae, 0xef, 0x70, 0x08, 0x99, 0x8b, 0x1d, 0xf2, 0xb4,
  0xe9, 0xc7, 0x9f, 0x4a, 0x31, 0x25, 0xfe, 0x7c, 0xd3, 0xa2, 0xbd, 0x56, 0x14, 0x88, 0x60, 0x0b,
  0xcd, 0xe2, 0x34, 0x50, 0x9e, 0xdc, 0x11, 0x05, 0x2b, 0xb7, 0xa9, 0x48, 0xff, 0x66, 0x8a, 0x73,
  0x03, 0x75, 0x86, 0xf1, 0x6a, 0xa7, 0x40, 0xc2, 0xb9, 0x2c, 0xdb, 0x1f, 0x58, 0x94, 0x3e, 0xed,
  0xfc, 0x1b, 0xa0, 0x04, 0xb8, 0x8d, 0xe6, 0x59, 0x62, 0x93, 0x35, 0x7e, 0xca, 0x21, 0xdf, 0x47,
  0x15, 0xf3, 0xba, 0x7f, 0xa6, 0x69, 0xc8, 0x4d, 0x87, 0x3b, 0x9c, 0x01, 0xe0, 0xde, 0x24, 0x52,
  0x7b, 0x0c, 0x68, 0x1e, 0x80, 0xb2, 0x5a, 0xe7, 0xad, 0xd5, 0x23, 0xf4, 0x46, 0x3f, 0x91, 0xc9,
  0x6e, 0x84, 0x72, 0xbb, 0x0d, 0x18, 0xd9, 0x96, 0xf0, 0x5f, 0x41, 0xac, 0x27, 0xc5, 0xe3, 0x3a,
  0x81, 0x6f, 0x07, 0xa3, 0x79, 0xf6, 0x2d, 0x38, 0x1a, 0x44, 0x5e, 0xb5, 0xd2, 0xec, 0xcb, 0x90,
  0x9a, 0x36, 0xe5, 0x29, 0xc3, 0x4f, 0xab, 0x64, 0x51, 0xf8, 0x10, 0xd7, 0xbc, 0x02, 0x7d, 0x8e]
/-- sbox.go:40-75 -/
def s1 : List Byte := [
  0x6c, 0xda, 0xc3, 0xe9, 0x4e, 0x9d, 0x0a, 0x3d, 0xb8, 0x36, 0xb4, 0x38, 0x13, 0x34, 0x0c, 0xd9,
  0xbf, 0x74, 0x94, 0x8f, 0xb7, 0x9c, 0xe5, 0xdc, 0x9e, 0x07, 0x49, 0x4f, 0x98, 0x2c, 0xb0, 0x93,
  0x12, 0xeb, 0xcd, 0xb3, 0x92, 0xe7, 0x41, 0x60, 0xe3, 0x21, 0x27, 0x3b, 0xe6, 0x19, 0xd2, 0x0e,
  0x91, 0x11, 0xc7, 0x3f, 0x2a, 0x8e, 0xa1, 0xbc, 0x2b, 0xc8, 0xc5, 0x0f, 0x5b, 0xf3, 0x87, 0x8b,
  0xfb, 0xf5, 0xde, 0x20, 0xc6, 0xa7, 0x84, 0xce, 0xd8, 0x65, 0x51, 0xc9, 0xa4, 0xef, 0x43, 0x53,
  0x25, 0x5d, 0x9b, 0x31, 0xe8, 0x3e, 0x0d, 0xd7, 0x80, 0xff, 0x69, 0x8a, 0xba, 0x0b, 0x73, 0x5c,
  0x6e, 0x54, 0x15, 0x62, 0xf6, 0x35, 0x30, 0x52, 0xa3, 0x16, 0xd3, 0x28, 0x32, 0xfa, 0xaa, 0x5e,
  0xcf, 0xea, 0xed, 0x78, 0x33, 0x58, 0x09, 0x7b, 0x63, 0xc0, 0xc1, 0x46, 0x1e, 0xdf, 0xa9, 0x99,
  0x55, 0x04, 0xc4, 0x86, 0x39, 0x77, 0x82, 0xec, 0x40, 0x18, 0x90, 0x97, 0x59, 0xdd, 0x83, 0x1f,
  0x9a, 0x37, 0x06, 0x24, 0x64, 0x7c, 0xa5, 0x56, 0x48, 0x08, 0x85, 0xd0, 0x61, 0x26, 0xca, 0x6f,
  0x7e, 0x6a, 0xb6, 0x71, 0xa0, 0x70, 0x05, 0xd1, 0x45, 0x8c, 0x23, 0x1c, 0xf0, 0xee, 0x89, 0xad,
  0x7a, 0x4b, 0xc2, 0x2f, 0xdb, 0x5a, 0x4d, 0x76, 0x67, 0x17, 0x2d, 0xf4, 0xcb, 0xb1, 0x4a, 0xa8,
  0xb5, 0x22, 0x47, 0x3a, 0xd5, 0x10, 0x4c, 0x72, 0xcc, 0x00, 0xf9, 0xe0, 0xfd, 0xe2, 0xfe, 0xae,
  0xf8, 0x5f, 0xab, 0xf1, 0x1b, 0x42, 0x81, 0xd6, 0xbe, 0x44, 0x29, 0xa6, 0x57, 0xb9, 0xaf, 0xf2,
  0xd4, 0x75, 0x66, 0xbb, 0x68, 0x9f, 0x50, 0x02, 0x01, 0x3c, 0x7f, 0x8d, 0x1a, 0x88, 0xbd, 0xac,
  0xf7, 0xe4, 0x79, 0x96, 0xa2, 0xfc, 0x6d, 0xb2, 0x6b, 0x03, 0xe1, 0x2e, 0x7d, 0x14, 0x95, 0x1d]

/-- utils.go:10-17 `ClefiaMul2` -/
def mul2 (x : Byte) : Byte :=
  let x := if x &&& 0x80 > 0 then x ^^^ 0x0e else x
  (x <<< 1) ||| (x >>> 7)
/-- utils.go:19-21 -/
def mul4 (x : Byte) : Byte := mul2 (mul2 x)
/-- utils.go:23-25 -/
def mul6 (x : Byte) : Byte := mul2 x ^^^ mul4 x
/-- utils.go:27-29 -/
def mul8 (x : Byte) : Byte := mul2 (mul4 x)
/-- utils.go:31-33 -/
def mulA (x : Byte) : Byte := mul2 x ^^^ mul8 x

/-- Byte `i` of four bytes held as a big-endian word. -/
def byteOf (x : W) (i : Nat) : Byte := (x >>> (24 - 8 * i)).setWidth 8

/-- utils.go:35-58 `ClefiaF0Xor`: the value xored to the second four bytes, from the first four after key addition. Four bytes are held as a word. -/
def f0 (x : W) : W :=
  let z0 := s0.getD (byteOf x 0).toNat 0
  let z1 := s1.getD (byteOf x 1).toNat 0
  let z2 := s0.getD (byteOf x 2).toNat 0
  let z3 := s1.getD (byteOf x 3).toNat 0
  (z0 ^^^ mul2 z1 ^^^ mul4 z2 ^^^ mul6 z3) ++ (mul2 z0 ^^^ z1 ^^^ mul6 z2 ^^^ mul4 z3) ++
  (mul4 z0 ^^^ mul6 z1 ^^^ z2 ^^^ mul2 z3) ++ (mul6 z0 ^^^ mul4 z1 ^^^ mul2 z2 ^^^ z3)
/-- utils.go:60-83 `ClefiaF1Xor` -/
def f1 (x : W) : W :=
  let z0 := s1.getD (byteOf x 0).toNat 0
  let z1 := s0.getD (byteOf x 1).toNat 0
  let z2 := s1.getD (byteOf x 2).toNat 0
  let z3 := s0.getD (byteOf x 3).toNat 0
  (z0 ^^^ mul8 z1 ^^^ mul2 z2 ^^^ mulA z3) ++ (mul8 z0 ^^^ z1 ^^^ mulA z2 ^^^ mul2 z3) ++
  (mul2 z0 ^^^ mulA z1 ^^^ z2 ^^^ mul8 z3) ++ (mulA z0 ^^^ mul2 z1 ^^^ mul8 z2 ^^^ z3)

/-- Four bytes of the key material at word `i`. -/
def wd (rk : Bytes) (i : Nat) : W := (ldBE 32 4 1 ((rk.drop (4 * i)).take 4)).getD 0 0

/-- utils.go:85-104: `ClefiaF0Xor` and `ClefiaF1Xor` on the two halves, with the round keys `2 i`, `2 i + 1`. -/
def layer (rk : Bytes) (s : St) (i : Nat) : St :=
  (s.1, s.2.1 ^^^ f0 (s.1 ^^^ wd rk (2 * i)), s.2.2.1, s.2.2.2 ^^^ f1 (s.2.2.1 ^^^ wd rk (2 * i + 1)))
/-- utils.go:85-104: the rotation of the four words after a round -/
def swap (s : St) : St := (s.2.1, s.2.2.1, s.2.2.2, s.1)
/-- utils.go:128-145: the rotation back -/
def unswap (s : St) : St := (s.2.2.2, s.1, s.2.1, s.2.2.1)

/-- utils.go:85-104 `ClefiaGfn4` for `r = m + 1` rounds; the swap after the last round is not output. -/
def gfn4 (rk : Bytes) (m : Nat) (s : St) : St := layer rk ((List.range m).foldl (fun s i => swap (layer rk s i)) s) m
/-- utils.go:128-145 `ClefiaGfn4Inv` for `r = m + 1` rounds: round keys `m`, `m - 1`, …, 0. -/
def gfn4Inv (rk : Bytes) (m : Nat) (s : St) : St := layer rk (((List.range m).reverse.map (· + 1)).foldl (fun s i => unswap (layer rk s i)) s) 0

/-- utils.go:106-126 `ClefiaGfn8`: ten rounds on 32 bytes held as eight words. -/
def gfn8 (rk : Bytes) (x : List W) : List W :=
  let lay := fun (x : List W) (i : Nat) =>
    let g := fun j => x.getD j 0
    [g 0, g 1 ^^^ f0 (g 0 ^^^ wd rk (4 * i)), g 2, g 3 ^^^ f1 (g 2 ^^^ wd rk (4 * i + 1)), g 4, g 5 ^^^ f0 (g 4 ^^^ wd rk (4 * i + 2)), g 6, g 7 ^^^ f1 (g 6 ^^^ wd rk (4 * i + 3))]
  lay ((List.range 9).foldl (fun x i => let y := lay x i; y.tail ++ y.take 1) x) 9

/-- utils.go:147-169 `ClefiaDoubleSwap` -/
def doubleSwap (l : Bytes) : Bytes :=
  let g := fun i => l.getD i 0
  (List.range 7).map (fun i => (g i <<< 7) ||| (g (i + 1) >>> 1)) ++ [(g 7 <<< 7) ||| (g 15 &&& 0x7f), (g 8 >>> 7) ||| (g 0 &&& 0xfe)] ++
  (List.range 7).map (fun i => (g (i + 9) >>> 7) ||| (g (i + 8) <<< 1))

/-- utils.go:171-200 `ClefiaConSet` -/
def conSet : Nat → Byte → Byte → Bytes
  | 0, _, _ => []
  | n + 1, t0, t1 =>
    let out : Bytes := [t0 ^^^ 0xb7, t1 ^^^ 0xe1, ~~~((t0 <<< 1) ||| (t1 >>> 7)), ~~~((t1 <<< 1) ||| (t0 >>> 7)), ~~~t0 ^^^ 0x24, ~~~t1 ^^^ 0x3f, t1, t0]
    let (t0, t1) := if t1 &&& 1 > 0 then (t0 ^^^ 0xa8, t1 ^^^ 0x30) else (t0, t1)
    let tmp := t0 <<< 7
    out ++ conSet n ((t0 >>> 1) ||| (t1 <<< 7)) ((t1 >>> 1) ||| tmp)

def sl (l : Bytes) (i n : Nat) : Bytes := (l.drop i).take n

/-- utils.go:202-227 `ClefiaKeySet128` -/
def keySet128 (key : Bytes) : Bytes :=
  let con := conSet 30 0x42 0x8a
  let lk := st4BE 4 (gfn4 con 11 (ld4BE 32 4 key))
  let r := (List.range 9).foldl (fun (x : Bytes × Bytes) i =>
    let rk := xorb x.2 (sl con (i * 16 + 4 * 24) 16)
    let rk := if i % 2 > 0 then xorb rk (sl key 0 16) else rk
    (x.1 ++ rk, doubleSwap x.2)) ([], lk)
  sl key 0 8 ++ r.1 ++ sl key 8 8
/-- utils.go:229-269, 271-302: the round keys from the two halves of `lk`. -/
def keys256 (n : Nat) (con key lk : Bytes) : Bytes :=
  ((List.range n).foldl (fun (x : Bytes × Bytes × Bytes) i =>
    if (i / 2) % 2 > 0 then
      let rk := xorb x.2.2 (sl con (i * 16 + 4 * 40) 16)
      let rk := if i % 2 > 0 then xorb rk (sl key 0 16) else rk
      (x.1 ++ rk, x.2.1, doubleSwap x.2.2)
    else
      let rk := xorb x.2.1 (sl con (i * 16 + 4 * 40) 16)
      let rk := if i % 2 > 0 then xorb rk (sl key 16 16) else rk
      (x.1 ++ rk, doubleSwap x.2.1, x.2.2)) ([], sl lk 0 16, sl lk 16 16)).1
/-- utils.go:229-269 `ClefiaKeySet192` -/
def keySet192 (key : Bytes) : Bytes :=
  let key := key ++ (sl key 0 8).map (~~~ ·)
  let con := conSet 42 0x71 0x37
  let lk := stBE 4 (gfn8 con (ldBE 32 4 8 key))
  xorb (sl key 0 8) (sl key 16 8) ++ keys256 11 con key lk ++ xorb (sl key 8 8) (sl key 24 8)
/-- utils.go:271-302 `ClefiaKeySet256` -/
def keySet256 (key : Bytes) : Bytes :=
  let con := conSet 46 0xb5 0xc0
  let lk := stBE 4 (gfn8 con (ldBE 32 4 8 key))
  xorb (sl key 0 8) (sl key 16 8) ++ keys256 13 con key lk ++ xorb (sl key 8 8) (sl key 24 8)
/-- utils.go:304-318 `ClefiaKeySet`: the keys and the number of rounds less one. Called by every Encrypt and Decrypt on the kept copy of the key
(clefia.go:74-93). -/
def keySet (key : Bytes) : Bytes × Nat :=
  if key.length = 16 then (keySet128 key, 17) else if key.length = 24 then (keySet192 key, 21) else (keySet256 key, 25)

/-- utils.go:320-335 `ClefiaEncrypt`, with `r = m + 1` -/
def enc (rk : Bytes) (m : Nat) (s : St) : St :=
  let s : St := (s.1, s.2.1 ^^^ wd rk 0, s.2.2.1, s.2.2.2 ^^^ wd rk 1)
  let s := gfn4 (rk.drop 8) m s
  (s.1, s.2.1 ^^^ wd (rk.drop 8) (2 * m + 2), s.2.2.1, s.2.2.2 ^^^ wd (rk.drop 8) (2 * m + 3))
/-- utils.go:337-351 `ClefiaDecrypt` -/
def dec (rk : Bytes) (m : Nat) (s : St) : St :=
  let s : St := (s.1, s.2.1 ^^^ wd (rk.drop 8) (2 * m + 2), s.2.2.1, s.2.2.2 ^^^ wd (rk.drop 8) (2 * m + 3))
  let s := gfn4Inv (rk.drop 8) m s
  (s.1, s.2.1 ^^^ wd rk 0, s.2.2.1, s.2.2.2 ^^^ wd rk 1)

def encrypt (key : Bytes) : Bytes → Bytes := enc4BE 32 4 (enc (keySet key).1 (keySet key).2)
def decrypt (key : Bytes) : Bytes → Bytes := enc4BE 32 4 (dec (keySet key).1 (keySet key).2)

/-- clefia.go:23-72 -/
def newCipher (key : Bytes) : Res Obj :=
  if key.length = 16 ∨ key.length = 24 ∨ key.length = 32 then .ok ⟨16, guarded 16 (whole 16 (encrypt key)), guarded 16 (whole 16 (decrypt key))⟩ else .err

theorem layer_layer (rk : Bytes) (s : St) (i : Nat) : layer rk (layer rk s i) i = s := by
  simp only [layer, xor_self_right]
theorem unswap_swap (s : St) : unswap (swap s) = s := rfl

theorem gfn_inv (rk : Bytes) (m : Nat) (s : St) : gfn4Inv rk m (gfn4 rk m s) = s := by
  have main : ∀ m s, ((List.range m).reverse.map (· + 1)).foldl (fun s i => unswap (layer rk s i)) (gfn4 rk m s) = layer rk s 0 := by
    intro m
    induction m with
    | zero => intro s; rfl
    | succ m ih =>
      intro s
      rw [List.range_succ, List.reverse_append, List.map_append]
      have e : unswap (layer rk (gfn4 rk (m + 1) s) (m + 1)) = gfn4 rk m s := by
        unfold gfn4
        rw [layer_layer, List.range_succ, List.foldl_append]
        rfl
      simp only [List.reverse_cons, List.reverse_nil, List.nil_append, List.map_cons, List.map_nil, List.foldl_append, List.foldl_cons, List.foldl_nil]
      rw [e]
      exact ih s
  unfold gfn4Inv
  rw [main, layer_layer]

theorem dec_enc (rk : Bytes) (m : Nat) (s : St) : dec rk m (enc rk m s) = s := by
  simp only [dec, enc, xor_self_right]
  rw [show ∀ t : St, (t.1, t.2.1, t.2.2.1, t.2.2.2) = t from fun _ => rfl, gfn_inv]
  simp only [xor_self_right]

theorem implements : Implements newCipher (fun n => n = 16 ∨ n = 24 ∨ n = 32) 16 :=
  implements_fn (ok := fun n => n = 16 ∨ n = 24 ∨ n = 32) fun key _ =>
    blockFn_4BE (w := 32) (sz := 4) 16 rfl rfl (f := enc (keySet key).1 (keySet key).2) (g := dec (keySet key).1 (keySet key).2) (dec_enc _ _)

end Verif.Cipher.Clefia
