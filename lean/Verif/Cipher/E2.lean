import Verif.Cipher.Common2
/-
Model of cipher/e2.
-/
namespace Verif.Cipher.E2
set_option maxRecDepth 100000

abbrev W := BitVec 32

/-- `s_box` (cipher/e2/sbox.go:3-26). -/
def sBox : List Byte := [
  0xe1, 0x42, 0x3e, 0x81, 0x4e, 0x17, 0x9e, 0xfd, 0xb4, 0x3f, 0x2c, 0xda, 0x31, 0x1e, 0xe0, 0x41,
  0xcc, 0xf3, 0x82, 0x7d, 0x7c, 0x12, 0x8e, 0xbb, 0xe4, 0x58, 0x15, 0xd5, 0x6f, 0xe9, 0x4c, 0x4b,
  0x35, 0x7b, 0x5a, 0x9a, 0x90, 0x45, 0xbc, 0xf8, 0x79, 0xd6, 0x1b, 0x88, 0x2, 0xab, 0xcf, 0x64,
  0x9, 0xc, 0xf0, 0x1, 0xa4, 0xb0, 0xf6, 0x93, 0x43, 0x63, 0x86, 0xdc, 0x11, 0xa5, 0x83, 0x8b,
  0xc9, 0xd0, 0x19, 0x95, 0x6a, 0xa1, 0x5c, 0x24, 0x6e, 0x50, 0x21, 0x80, 0x2f, 0xe7, 0x53, 0xf,
  0x91, 0x22, 0x4, 0xed, 0xa6, 0x48, 0x49, 0x67, 0xec, 0xf7, 0xc0, 0x39, 0xce, 0xf2, 0x2d, 0xbe,
  0x5d, 0x1c, 0xe3, 0x87, 0x7, 0xd, 0x7a, 0xf4, 0xfb, 0x32, 0xf5, 0x8c, 0xdb, 0x8f, 0x25, 0x96,
  0xa8, 0xea, 0xcd, 0x33, 0x65, 0x54, 0x6, 0x8d, 0x89, 0xa, 0x5e, 0xd9, 0x16, 0xe, 0x71, 0x6c,
  0xb, 0xff, 0x60, 0xd2, 0x2e, 0xd3, 0xc8, 0x55, 0xc2, 0x23, 0xb7, 0x74, 0xe2, 0x9b, 0xdf, 0x77,
  0x2b, 0xb9, 0x3c, 0x62, 0x13, 0xe5, 0x94, 0x34, 0xb1, 0x27, 0x84, 0x9f, 0xd7, 0x51, 0x0, 0x61,
  0xad, 0x85, 0x73, 0x3, 0x8, 0x40, 0xef, 0x68, 0xfe, 0x97, 0x1f, 0xde, 0xaf, 0x66, 0xe8, 0xb8,
  0xae, 0xbd, 0xb3, 0xeb, 0xc6, 0x6b, 0x47, 0xa9, 0xd8, 0xa7, 0x72, 0xee, 0x1d, 0x7e, 0xaa, 0xb6,
  0x75, 0xcb, 0xd4, 0x30, 0x69, 0x20, 0x7f, 0x37, 0x5b, 0x9d, 0x78, 0xa3, 0xf1, 0x76, 0xfa, 0x5,
  0x3d, 0x3a, 0x44, 0x57, 0x3b, 0xca, 0xc7, 0x8a, 0x18, 0x46, 0x9c, 0xbf, 0xba, 0x38, 0x56, 0x1a,
  0x92, 0x4d, 0x26, 0x29, 0xa2, 0x98, 0x10, 0x99, 0x70, 0xa0, 0xc5, 0x28, 0xc1, 0x6d, 0x14, 0xac,
  0xf9, 0x5f, 0x4f, 0xc4, 0xc3, 0xd1, 0xfc, 0xdd, 0xb2, 0x59, 0xe6, 0xb5, 0x36, 0x52, 0x4a, 0x2a]

/-- `l_box[n][x & 255]` (cipher/e2/sbox.go:43-119): the tables are literals, equal to what `init_box` (cipher/e2/utils.go:282-291, never called) would compute. -/
def L (n : Nat) (x : W) : W := (sBox.getD (x &&& 255).toNat 0).setWidth 32 <<< (8 * n)

/-- `rotr` (cipher/e2/utils.go:66-68). -/
def rotr (x : W) (n : Nat) : W := (x >>> n) ||| (x <<< (32 - n))
/-- `bswap`, `io_swap` (cipher/e2/utils.go:70-80). -/
def bswap (x : W) : W := ((((x <<< 8) ||| (x >>> 24)) &&& 0x00ff00ff) ||| (rotr x 8 &&& 0xff00ff00))

/-- Exchange the bits of `e` and `g` under a mask: half of `bp_fun`, `ibp_fun` and all of `bp2_fun` (cipher/e2/utils.go:82-107). -/
def sw (m : W) (s : W × W) : W × W := let u := (s.1 ^^^ s.2) &&& m; (s.1 ^^^ u, s.2 ^^^ u)

/-- Two pairs of words: `a`, `b` and `c`, `d`. -/
abbrev St := (W × W) × (W × W)

/-- `bp_fun` (cipher/e2/utils.go:82-90). -/
def bp (s : St) : St :=
  let x := sw 0x00ffff00 (s.1.1, s.2.1)
  let y := sw 0x0000ffff (s.1.2, s.2.2)
  ((x.1, y.1), (x.2, y.2))
/-- `ibp_fun` (cipher/e2/utils.go:92-100). -/
def ibp (s : St) : St :=
  let x := sw 0xff0000ff (s.1.1, s.2.1)
  let y := sw 0xffff0000 (s.1.2, s.2.2)
  ((x.1, y.1), (x.2, y.2))

/-- `s_fun` (cipher/e2/utils.go:109-127). -/
def sFun (s : W × W) : W × W :=
  (L 0 s.2 ||| L 1 (s.1 >>> 8) ||| L 2 (s.2 >>> 16) ||| L 3 (s.1 >>> 24), L 0 s.1 ||| L 1 (s.2 >>> 8) ||| L 2 (s.1 >>> 16) ||| L 3 (s.2 >>> 24))
/-- `sx_fun` (cipher/e2/utils.go:129-145). -/
def sxFun (s : W × W) : W × W :=
  (L 0 s.1 ||| L 1 (s.1 >>> 8) ||| L 2 (s.1 >>> 16) ||| L 3 (s.1 >>> 24), L 0 s.2 ||| L 1 (s.2 >>> 8) ||| L 2 (s.2 >>> 16) ||| L 3 (s.2 >>> 24))
/-- The last four lines of `spx_fun` and `sp_fun` (cipher/e2/utils.go:150-153, 159-162). -/
def pFun (s : W × W) : W × W :=
  let y := s.2 ^^^ s.1
  let x := s.1 ^^^ rotr y 16
  let y := y ^^^ rotr x 8
  (x ^^^ y, y)
/-- `sr_fun` (cipher/e2/utils.go:165-183). -/
def srFun (s : W × W) : W × W :=
  (L 1 s.2 ||| L 2 (s.1 >>> 8) ||| L 3 (s.2 >>> 16) ||| L 0 (s.2 >>> 24), L 1 s.1 ||| L 2 (s.2 >>> 8) ||| L 3 (s.1 >>> 16) ||| L 0 (s.1 >>> 24))

/-- What `f_fun` adds to `a` and `b` (cipher/e2/utils.go:185-198). -/
def F (k : Nat → W) (s : W × W) : W × W :=
  let t := pFun (sFun (s.1 ^^^ k 0, s.2 ^^^ k 1))
  let t := srFun (t.1 ^^^ k 2, t.2 ^^^ k 3)
  (t.2, t.1)
/-- `*a ^= …; *b ^= …` of `f_fun` (cipher/e2/utils.go:196-197). -/
def xor2 (s t : W × W) : W × W := (s.1 ^^^ t.1, s.2 ^^^ t.2)

/-- The loop of `mod_inv` (cipher/e2/utils.go:209-237) on `a`, `b`, `y1`, `y2`; division by zero panics. -/
def invLoop (x : W) : Nat → W → W → W → W → Res W
  | 0, _, _, _, _ => .hang
  | fuel + 1, a, b, y1, y2 =>
    if b = 0 then .panic
    else
      let q := a / b
      let a := a - q * b
      if a = 0 then .ok (if x * y1 = 1 then y1 else -y1)
      else
        let y2 := y2 - q * y1
        let q := b / a
        let b := b - q * a
        if b = 0 then .ok (if x * y2 = 1 then y2 else -y2)
        else invLoop x fuel a b (y1 - q * y2) y2

/-- `mod_inv` (cipher/e2/utils.go:200-238), for `x ≠ 0`; `a` decreases from turn to turn, so `x` turns are more than enough (`invLoop_spec`). -/
def modInv (x : W) : Res W :=
  let y1 := ~~~ ((-x) / x)
  invLoop x (x.toNat + 1) x (y1 * x) y1 1

/-- `g_fun` (cipher/e2/utils.go:240-280): the words of `l` and the new `v`. `y` is a copy. -/
def gFun (y : List W) (v : W × W) : List W × (W × W) :=
  let step (p : List W × (W × W)) (i : Nat) : List W × (W × W) :=
    let t := pFun (sxFun (y.getD (2 * i) 0, y.getD (2 * i + 1) 0))
    let v := xor2 (pFun (sxFun p.2)) t
    (p.1 ++ [v.1, v.2], v)
  [0, 1, 2, 3].foldl step ([], v)

/-- The words `lk` of `expandKey` (cipher/e2/e2.go:92-133). -/
def lkWords (key : Bytes) : List W :=
  let k := ldBE 32 4 (key.length / 4) key
  let w (i : Nat) := k.getD i 0
  [w 0, w 1, w 2, w 3, if key.length > 16 then w 4 else 0x30d32e58, if key.length > 16 then w 5 else 0xb89e4984,
    if key.length > 24 then w 6 else 0x0957cfec, if key.length > 24 then w 7 else 0xd800502e].map bswap

/-- The inner loop over `j` (cipher/e2/e2.go:144-158) at turn `i`; `k` is computed in `uint32`. -/
def scatter (i : Nat) (lout : List W) (B : Bytes) : Bytes :=
  let o := stBE 4 lout
  [0, 1, 2, 3].foldl (fun B j =>
    let k : W := 2 * (48 - 16 * BitVec.ofNat 32 j + 2 * BitVec.ofNat 32 (i / 2) - BitVec.ofNat 32 (i % 2))
    let put (B : Bytes) (a b : Nat) : Bytes := B.set (k + BitVec.ofNat 32 a).toNat (o.getD (j + b) 0)
    put (put (put (put (put (put (put (put B 3 0) 2 16) 19 8) 18 24) 131 4) 130 20) 147 12) 146 28) B

/-- The loop over `i` (cipher/e2/e2.go:139-159), `n` turns from `i` on. -/
def fill (lk : List W) : Nat → Nat → W × W → Bytes → Bytes
  | 0, _, _, B => B
  | n + 1, i, v, B => let r := gFun lk v; fill lk n (i + 1) r.2 (scatter i r.1 B)

/-- The words after that loop (cipher/e2/e2.go:135-161). -/
def raw (key : Bytes) : List W :=
  let lk := lkWords key
  let r := gFun lk (bswap 0x67452301, bswap 0xefcdab89)
  ldBE 32 4 72 (fill lk 8 0 r.2 (List.replicate 288 0))

/-- The eight odd factors (cipher/e2/e2.go:163-164). -/
def factor (key : Bytes) (j : Nat) : W := (raw key).getD (52 + j) 0 ||| 1

/-- The inverses of the factors from `j` on (cipher/e2/e2.go:165). -/
def inverses (key : Bytes) : Nat → Nat → Res (List W)
  | 0, _ => .ok []
  | n + 1, j => (modInv (factor key j)).bind fun y => (inverses key n (j + 1)).bind fun ys => .ok (y :: ys)

/-- `l_key` at the end of `expandKey` (cipher/e2/e2.go:163-173), the inverses given: words 52 to 59 are made odd, words 64 to 71 are the inverses, and `bp2_fun` is applied
to words `i` and `i + 1` for `i` = 0, 4, …, 44. -/
def lKey (key : Bytes) (inv : List W) (j : Nat) : W :=
  let r (i : Nat) := (raw key).getD i 0
  if j < 48 then
    (if j % 4 = 0 then (sw 0x00ff00ff (r j, r (j + 1))).1 else if j % 4 = 1 then (sw 0x00ff00ff (r (j - 1), r j)).2 else r j)
  else if j < 52 then r j
  else if j < 60 then factor key (j - 52)
  else if j < 64 then r j
  else inv.getD (j - 64) 0

/-- Two rounds of `encrypt` (cipher/e2/e2.go:198-209): rounds `2 j` and `2 j + 1`. -/
def dbl (K : Nat → W) (s : St) (j : Nat) : St :=
  let ab := xor2 s.1 (F (fun i => K (8 * j + i)) s.2)
  (ab, xor2 s.2 (F (fun i => K (8 * j + 4 + i)) ab))
/-- Two rounds of `decrypt` (cipher/e2/e2.go:253-264). -/
def ddbl (K : Nat → W) (s : St) (j : Nat) : St :=
  let ab := xor2 s.1 (F (fun i => K (8 * j + 4 + i)) s.2)
  (ab, xor2 s.2 (F (fun i => K (8 * j + i)) ab))

/-- The additions of key words at both ends of a block (cipher/e2/e2.go:186-189, 217-220). -/
def xorK (K : Nat → W) (n : Nat) (s : St) : St := ((s.1.1 ^^^ K n, s.1.2 ^^^ K (n + 1)), (s.2.1 ^^^ K (n + 2), s.2.2 ^^^ K (n + 3)))
/-- The multiplications by key words (cipher/e2/e2.go:191-194, 213-216). -/
def mulK (K : Nat → W) (n : Nat) (s : St) : St := ((s.1.1 * K n, s.1.2 * K (n + 1)), (s.2.1 * K (n + 2), s.2.2 * K (n + 3)))
/-- Reading and writing of the words (cipher/e2/e2.go:181-184, 222-225). -/
def io (s : W × W × W × W) : St := ((bswap s.1, bswap s.2.1), (bswap s.2.2.1, bswap s.2.2.2))
def oi (s : St) : W × W × W × W := (bswap s.1.1, bswap s.1.2, bswap s.2.1, bswap s.2.2)

/-- `encrypt` (cipher/e2/e2.go:175-228). -/
def encrypt (K : Nat → W) (s : W × W × W × W) : W × W × W × W :=
  oi (xorK K 60 (mulK K 68 (ibp ((List.range 6).foldl (dbl K) (bp (mulK K 52 (xorK K 48 (io s))))))))
/-- `decrypt` (cipher/e2/e2.go:230-287). -/
def decrypt (K : Nat → W) (s : W × W × W × W) : W × W × W × W :=
  oi (xorK K 48 (mulK K 64 (ibp ((List.range 6).reverse.foldl (ddbl K) (bp (mulK K 56 (xorK K 60 (io s))))))))

def encB (key : Bytes) (inv : List W) : Bytes → Bytes := enc4BE 32 4 (encrypt (lKey key inv))
def decB (key : Bytes) (inv : List W) : Bytes → Bytes := enc4BE 32 4 (decrypt (lKey key inv))

/-- `NewCipher`, `Encrypt`, `Decrypt` (cipher/e2/e2.go:22-84). -/
def newCipher (key : Bytes) : Res Obj :=
  if key.length = 16 ∨ key.length = 24 ∨ key.length = 32 then
    (inverses key 8 0).bind fun inv => .ok ⟨16, spill 4 16 (encB key inv), spill 4 16 (decB key inv)⟩
  else .err

end Verif.Cipher.E2
