import Verif.Cipher.Common2
/-
Model of cipher/magenta.
-/
namespace Verif.Cipher.Magenta

abbrev W := BitVec 32
abbrev V := W × W × W × W
abbrev H := W × W

/-- `sBox` (cipher/magenta/sbox.go:3-37). The entries of the Go table are `uint32`, all below 256; here they are bytes. -/
def sBox : List Byte := [
  0x01, 0x02, 0x04, 0x08, 0x10, 0x20, 0x40, 0x80, 0x65, 0xca, 0xf1, 0x87, 0x6b, 0xd6, 0xc9, 0xf7,
  0x8b, 0x73, 0xe6, 0xa9, 0x37, 0x6e, 0xdc, 0xdd, 0xdf, 0xdb, 0xd3, 0xc3, 0xe3, 0xa3, 0x23, 0x46,
  0x8c, 0x7d, 0xfa, 0x91, 0x47, 0x8e, 0x79, 0xf2, 0x81, 0x67, 0xce, 0xf9, 0x97, 0x4b, 0x96, 0x49,
  0x92, 0x41, 0x82, 0x61, 0xc2, 0xe1, 0xa7, 0x2b, 0x56, 0xac, 0x3d, 0x7a, 0xf4, 0x8d, 0x7f, 0xfe,
  0x99, 0x57, 0xae, 0x39, 0x72, 0xe4, 0xad, 0x3f, 0x7e, 0xfc, 0x9d, 0x5f, 0xbe, 0x19, 0x32, 0x64,
  0xc8, 0xf5, 0x8f, 0x7b, 0xf6, 0x89, 0x77, 0xee, 0xb9, 0x17, 0x2e, 0x5c, 0xb8, 0x15, 0x2a, 0x54,
  0xa8, 0x35, 0x6a, 0xd4, 0xcd, 0xff, 0x9b, 0x53, 0xa6, 0x29, 0x52, 0xa4, 0x2d, 0x5a, 0xb4, 0x0d,
  0x1a, 0x34, 0x68, 0xd0, 0xc5, 0xef, 0xbb, 0x13, 0x26, 0x4c, 0x98, 0x55, 0xaa, 0x31, 0x62, 0xc4,
  0xed, 0xbf, 0x1b, 0x36, 0x6c, 0xd8, 0xd5, 0xcf, 0xfb, 0x93, 0x43, 0x86, 0x69, 0xd2, 0xc1, 0xe7,
  0xab, 0x33, 0x66, 0xcc, 0xfd, 0x9f, 0x5b, 0xb6, 0x09, 0x12, 0x24, 0x48, 0x90, 0x45, 0x8a, 0x71,
  0xe2, 0xa1, 0x27, 0x4e, 0x9c, 0x5d, 0xba, 0x11, 0x22, 0x44, 0x88, 0x75, 0xea, 0xb1, 0x07, 0x0e,
  0x1c, 0x38, 0x70, 0xe0, 0xa5, 0x2f, 0x5e, 0xbc, 0x1d, 0x3a, 0x74, 0xe8, 0xb5, 0x0f, 0x1e, 0x3c,
  0x78, 0xf0, 0x85, 0x6f, 0xde, 0xd9, 0xd7, 0xcb, 0xf3, 0x83, 0x63, 0xc6, 0xe9, 0xb7, 0x0b, 0x16,
  0x2c, 0x58, 0xb0, 0x05, 0x0a, 0x14, 0x28, 0x50, 0xa0, 0x25, 0x4a, 0x94, 0x4d, 0x9a, 0x51, 0xa2,
  0x21, 0x42, 0x84, 0x6d, 0xda, 0xd1, 0xc7, 0xeb, 0xb3, 0x03, 0x06, 0x0c, 0x18, 0x30, 0x60, 0xc0,
  0xe5, 0xaf, 0x3b, 0x76, 0xec, 0xbd, 0x1f, 0x3e, 0x7c, 0xf8, 0x95, 0x4f, 0x9e, 0x59, 0xb2, 0x00]

/-- `genTab` (cipher/magenta/utils.go:72-91), which nothing calls; the loop as a recursion with the value of `f`. -/
def genTab : Nat → W → List Byte
  | 0, _ => [0]
  | n + 1, f =>
    let g := f <<< 1
    f.setWidth 8 :: genTab n (if g &&& 0x100 > 0 then g ^^^ 0x165 else g)

/-- `Byte` (cipher/magenta/utils.go:66-68). -/
def byteN (x : W) (n : Nat) : Byte := (x >>> (8 * n)).setWidth 8

/-- `a | b << 8 | c << 16 | d << 24` of bytes. -/
def join4 (a b c d : Byte) : W := a.setWidth 32 ||| b.setWidth 32 <<< 8 ||| c.setWidth 32 <<< 16 ||| d.setWidth 32 <<< 24

/-- `sBox[x ^ sBox[y]]`. -/
def A (x y : Byte) : Byte := sBox.getD (x ^^^ sBox.getD y.toNat 0).toNat 0

/-- `pi` (cipher/magenta/utils.go:93-113). -/
def pi : V → V
  | (x0, x1, x2, x3) =>
    (join4 (A (byteN x0 0) (byteN x2 0)) (A (byteN x2 0) (byteN x0 0)) (A (byteN x0 1) (byteN x2 1)) (A (byteN x2 1) (byteN x0 1)),
     join4 (A (byteN x0 2) (byteN x2 2)) (A (byteN x2 2) (byteN x0 2)) (A (byteN x0 3) (byteN x2 3)) (A (byteN x2 3) (byteN x0 3)),
     join4 (A (byteN x1 0) (byteN x3 0)) (A (byteN x3 0) (byteN x1 0)) (A (byteN x1 1) (byteN x3 1)) (A (byteN x3 1) (byteN x1 1)),
     join4 (A (byteN x1 2) (byteN x3 2)) (A (byteN x3 2) (byteN x1 2)) (A (byteN x1 3) (byteN x3 3)) (A (byteN x3 3) (byteN x1 3)))

/-- The four statements after the calls of `pi` (cipher/magenta/utils.go:127-130 and twice more). -/
def shuffle : V → V
  | (u0, u1, u2, u3) =>
    (join4 (byteN u0 0) (byteN u0 2) (byteN u1 0) (byteN u1 2), join4 (byteN u2 0) (byteN u2 2) (byteN u3 0) (byteN u3 2),
     join4 (byteN u0 1) (byteN u0 3) (byteN u1 1) (byteN u1 3), join4 (byteN u2 1) (byteN u2 3) (byteN u3 1) (byteN u3 3))

def xor4 : V → V → V
  | (a, b, c, d), (a', b', c', d') => (a ^^^ a', b ^^^ b', c ^^^ c', d ^^^ d')

/-- `e3` (cipher/magenta/utils.go:115-165): the words that are written back to `x[0]` and `x[1]`. -/
def e3 (x : V) : H :=
  let v := shuffle (pi (pi (pi (pi x))))
  let v := shuffle (pi (pi (pi (pi (xor4 x v)))))
  let v := shuffle (pi (pi (pi (pi (xor4 x v)))))
  (v.1, v.2.1)

/-- `r` (cipher/magenta/utils.go:167-177): the new value of `x`. -/
def r (x y k : H) : H :=
  let t := e3 (y.1, y.2, k.1, k.2)
  (x.1 ^^^ t.1, x.2 ^^^ t.2)

/-- `lkey[2*i:]`. -/
def key (lkey : List W) (i : Nat) : H := (lkey.getD (2 * i) 0, lkey.getD (2 * i + 1) 0)

/-- Two calls of `r`, the first on `blk[0:]`, the second on `blk[2:]` (cipher/magenta/magenta.go:97-98 and the like). -/
def pair (lkey : List W) (s : H × H) (i : Nat) : H × H :=
  let x := r s.1 s.2 (key lkey (2 * i))
  let y := r s.2 x (key lkey (2 * i + 1))
  (x, y)

/-- The calls of `r` in `encrypt` and `decrypt` (cipher/magenta/magenta.go:97-109, 127-139). -/
def rounds (lkey : List W) (klen : Nat) (s : H × H) : H × H := (List.range (if klen = 4 then 4 else 3)).foldl (pair lkey) s

/-- `encrypt` (cipher/magenta/magenta.go:87-115). -/
def encrypt (lkey : List W) (klen : Nat) : V → V
  | (a, b, c, d) =>
    let s := rounds lkey klen ((a, b), (c, d))
    (s.1.1, s.1.2, s.2.1, s.2.2)

/-- `decrypt` (cipher/magenta/magenta.go:117-145). -/
def decrypt (lkey : List W) (klen : Nat) : V → V
  | (a, b, c, d) =>
    let s := rounds lkey klen ((c, d), (a, b))
    (s.2.1, s.2.2, s.1.1, s.1.2)

/-- `expandKey` (cipher/magenta/magenta.go:147-204): `klen` and `lkey` without the trailing zeros. -/
def expandKey (k : Bytes) : Nat × List W :=
  let w := fun i => (ldBE 32 4 (k.length / 4) k).getD i 0
  let klen := (k.length * 8 + 63) / 64
  (klen,
    if klen = 2 then [w 0, w 1, w 0, w 1, w 2, w 3, w 2, w 3, w 0, w 1, w 0, w 1]
    else if klen = 3 then [w 0, w 1, w 2, w 3, w 4, w 5, w 4, w 5, w 2, w 3, w 0, w 1]
    else if klen = 4 then [w 0, w 1, w 2, w 3, w 4, w 5, w 6, w 7, w 6, w 7, w 4, w 5, w 2, w 3, w 0, w 1]
    else [])

def encB (k : Bytes) : Bytes → Bytes := enc4BE 32 4 (encrypt (expandKey k).2 (expandKey k).1)
def decB (k : Bytes) : Bytes → Bytes := enc4BE 32 4 (decrypt (expandKey k).2 (expandKey k).1)

/-- `NewCipher`, `BlockSize`, `Encrypt`, `Decrypt` (cipher/magenta/magenta.go:23-85): all of `src` is converted, the result is as long and copied. -/
def newCipher (k : Bytes) : Res Obj :=
  if k.length = 16 ∨ k.length = 24 ∨ k.length = 32 then .ok ⟨16, spill 4 16 (encB k), spill 4 16 (decB k)⟩ else .err

/-! Inverses -/

def swap (s : H × H) : H × H := (s.2, s.1)

theorem r_r (x y k : H) : r (r x y k) y k = x := by
  obtain ⟨a, b⟩ := x
  simp only [r, BitVec.xor_assoc, BitVec.xor_self, BitVec.xor_zero]

theorem pair_pair (lkey : List W) (i j : Nat) (h1 : key lkey (2 * j) = key lkey (2 * i + 1)) (h2 : key lkey (2 * j + 1) = key lkey (2 * i)) (s : H × H) :
    pair lkey (swap (pair lkey s i)) j = swap s := by
  simp only [pair, swap, h1, h2, r_r]

/-- The round keys read the same from both ends. -/
def Pal (lkey : List W) (n : Nat) : Prop := ∀ i < 2 * n, key lkey (2 * n - 1 - i) = key lkey i

theorem rounds_rounds (lkey : List W) (klen : Nat) (h : Pal lkey (if klen = 4 then 4 else 3)) (s : H × H) :
    rounds lkey klen (swap (rounds lkey klen s)) = swap s := by
  unfold rounds
  by_cases hk : klen = 4
  · rw [if_pos hk] at *
    rw [show List.range 4 = [0, 1, 2, 3] from rfl]
    simp only [List.foldl_cons, List.foldl_nil]
    rw [pair_pair lkey 3 0 (h 7 (by decide)) (h 6 (by decide)), pair_pair lkey 2 1 (h 5 (by decide)) (h 4 (by decide)),
      pair_pair lkey 1 2 (h 3 (by decide)) (h 2 (by decide)), pair_pair lkey 0 3 (h 1 (by decide)) (h 0 (by decide))]
  · rw [if_neg hk] at *
    rw [show List.range 3 = [0, 1, 2] from rfl]
    simp only [List.foldl_cons, List.foldl_nil]
    rw [pair_pair lkey 2 0 (h 5 (by decide)) (h 4 (by decide)), pair_pair lkey 1 1 (h 3 (by decide)) (h 2 (by decide)),
      pair_pair lkey 0 2 (h 1 (by decide)) (h 0 (by decide))]

theorem decrypt_encrypt (lkey : List W) (klen : Nat) (h : Pal lkey (if klen = 4 then 4 else 3)) (v : V) : decrypt lkey klen (encrypt lkey klen v) = v := by
  obtain ⟨a, b, c, d⟩ := v
  simp only [decrypt, encrypt]
  have e := rounds_rounds lkey klen h ((a, b), (c, d))
  rw [swap, swap] at e
  rw [e]

theorem pal (k : Bytes) (hk : k.length = 16 ∨ k.length = 24 ∨ k.length = 32) : Pal (expandKey k).2 (if (expandKey k).1 = 4 then 4 else 3) := by
  unfold expandKey
  generalize (fun i => (ldBE 32 4 (k.length / 4) k).getD i 0) = w
  have six (l : List W) (h0 : key l 5 = key l 0) (h1 : key l 4 = key l 1) (h2 : key l 3 = key l 2) : Pal l 3 := fun i hi =>
    match i, hi with | 0, _ => h0 | 1, _ => h1 | 2, _ => h2 | 3, _ => h2.symm | 4, _ => h1.symm | 5, _ => h0.symm
  have eight (l : List W) (h0 : key l 7 = key l 0) (h1 : key l 6 = key l 1) (h2 : key l 5 = key l 2) (h3 : key l 4 = key l 3) : Pal l 4 := fun i hi =>
    match i, hi with | 0, _ => h0 | 1, _ => h1 | 2, _ => h2 | 3, _ => h3 | 4, _ => h3.symm | 5, _ => h2.symm | 6, _ => h1.symm | 7, _ => h0.symm
  rcases hk with h | h | h <;> rw [h]
  · exact six _ rfl rfl rfl
  · exact six _ rfl rfl rfl
  · exact eight _ rfl rfl rfl rfl

theorem implements : ImplementsSpill newCipher (fun n => n = 16 ∨ n = 24 ∨ n = 32) 16 4 :=
  implementsSpill_of (ok := fun n => n = 16 ∨ n = 24 ∨ n = 32) (f := encB) (g := decB) fun k hk =>
    blockFn_4BE (w := 32) (sz := 4) 16 rfl rfl (decrypt_encrypt _ _ (pal k hk))

end Verif.Cipher.Magenta
