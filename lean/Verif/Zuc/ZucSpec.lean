import Verif.Go.Basic
/-
Specification of ZUC as the standard defines it (GB/T 33133.1, ETSI/SAGE "Specification of the 3GPP Confidentiality
and Integrity Algorithms 128-EEA3 & 128-EIA3, Document 2: ZUC Specification", and "The ZUC-256 Stream Cipher"):
arithmetic in the integers modulo 2^31 - 1, the S-boxes by their algebra.  Nothing here refers to the model.
-/
namespace Verif.Zuc.Spec

/-- The prime. -/
def p : Nat := 2 ^ 31 - 1

/-- The representative in 1..p. -/
def rep (n : Nat) : Nat := if n % p = 0 then p else n % p

/-- The sixteen cells of the register, as numbers. -/
abbrev Cells := Nat → Nat

/-- The feedback sum. -/
def fb (s : Cells) : Nat := 2 ^ 15 * s 15 + 2 ^ 17 * s 13 + 2 ^ 21 * s 10 + 2 ^ 20 * s 4 + (1 + 2 ^ 8) * s 0

/-- One clock of the register; `u` is added during initialisation. -/
def clock (u : Nat) (s : Cells) : Cells := fun i => if i < 15 then s (i + 1) else if i = 15 then rep (fb s + u) else 0

/-- The high and the low sixteen bits of a 31-bit cell. -/
def hi (c : Nat) : BitVec 16 := BitVec.ofNat 16 (c / 2 ^ 15)
def lo (c : Nat) : BitVec 16 := BitVec.ofNat 16 c

/-- Bit reorganisation. -/
def x0 (s : Cells) : BitVec 32 := hi (s 15) ++ lo (s 14)
def x1 (s : Cells) : BitVec 32 := lo (s 11) ++ hi (s 9)
def x2 (s : Cells) : BitVec 32 := lo (s 7) ++ hi (s 5)
def x3 (s : Cells) : BitVec 32 := lo (s 2) ++ hi (s 0)

/-- The three 4-bit permutations and functions of S0. -/
def P1 : List Nat := [9, 15, 0, 14, 15, 15, 2, 10, 0, 4, 0, 12, 7, 5, 3, 9]
def P2 : List Nat := [8, 13, 6, 5, 7, 0, 12, 4, 11, 1, 14, 10, 15, 3, 9, 2]
def P3 : List Nat := [2, 6, 10, 6, 0, 13, 10, 15, 3, 3, 13, 5, 0, 9, 12, 13]

/-- S0: three Feistel rounds on the two halves, then a rotation by five. -/
def s0 (x : BitVec 8) : BitVec 8 :=
  let a := x.toNat / 16
  let b := x.toNat % 16
  let q1 := a ^^^ P1.getD b 0
  let q2 := b ^^^ P2.getD q1 0
  let q3 := q1 ^^^ P3.getD q2 0
  (BitVec.ofNat 8 (16 * q3 + q2)).rotateLeft 5

/-- Multiplication by x in GF(2^8) modulo x^8 + x^7 + x^3 + x + 1. -/
def xtime (a : BitVec 8) : BitVec 8 := if a.msb then (a <<< 1) ^^^ 0x8b else a <<< 1

/-- Multiplication in that field. -/
def mulGo : Nat → BitVec 8 → BitVec 8 → BitVec 8
  | 0, _, _ => 0
  | n + 1, a, b => (if b.getLsbD 0 then a else 0) ^^^ mulGo n (xtime a) (b >>> 1)
def mul (a b : BitVec 8) : BitVec 8 := mulGo 8 a b

/-- The images of the eight basis elements under the linear map of S1. -/
def rows : List (BitVec 8) := [0x97, 0x3e, 0x6d, 0xcb, 0xee, 0xdd, 0xbb, 0x77]

/-- The linear map of S1. -/
def lin (x : BitVec 8) : BitVec 8 := (List.range 8).foldl (fun acc i => if x.getLsbD i then acc ^^^ rows.getD i 0 else acc) 0

/-- S1, the table the standard prints, a row of sixteen entries a line. -/
def s1Rows : List Nat :=
  [0x55c263713bc847869f3cda5b29aafd77,
   0x8cc5940ca61a1300e3a8167240f9f842,
   0x4426689681d9453e1076c6a78b3943e1,
   0x3ab5562ac06db3052266bfdc0bfa6248,
   0xdd20110636c9c1cff62752bb69f5d487,
   0x7f844cd29c57a4bc4f9adffed68d7aeb,
   0x2b53d85ca11417fb23d57d3067730809,
   0xeeb7703f61b2198e4ee54b938f5ddba9,
   0xadf1ae2ecb0dfcf42d466e1d97e8d1e9,
   0x4d37a5755e839eab829db91ce0cd4989,
   0x01b6bd5824a25f387899159050b895e4,
   0xd091c7ceed0fb46fa0ccf0024a79c3de,
   0xa3efea51e66b18ec1b2c80f774e7ff21,
   0x5a6a541e41319235c433070aba7e0e34,
   0x88b1987cf33d606c7bcad31f32650428,
   0x64be859b2f598ad7b025acaf1203e2f2]
def s1 (x : BitVec 8) : BitVec 8 := BitVec.ofNat 8 (s1Rows.getD (x.toNat / 16) 0 >>> (8 * (15 - x.toNat % 16)))

/-- What the standard says the table is: the affine image of the inverse `v` of `x`, 0 counting as its own inverse. -/
def S1Algebra : Prop := ∀ x : BitVec 8, ∃ v : BitVec 8, (if x = 0 then v = 0 else mul x v = 1) ∧ s1 x = lin v ^^^ 0x55

/-- The S-box layer on the four bytes of a word. -/
def sbox (x : BitVec 32) : BitVec 32 :=
  s0 (x.extractLsb' 24 8) ++ s1 (x.extractLsb' 16 8) ++ s0 (x.extractLsb' 8 8) ++ s1 (x.extractLsb' 0 8)

/-- The linear transforms. -/
def lin1 (x : BitVec 32) : BitVec 32 := x ^^^ x.rotateLeft 2 ^^^ x.rotateLeft 10 ^^^ x.rotateLeft 18 ^^^ x.rotateLeft 24
def lin2 (x : BitVec 32) : BitVec 32 := x ^^^ x.rotateLeft 8 ^^^ x.rotateLeft 14 ^^^ x.rotateLeft 22 ^^^ x.rotateLeft 30

/-- The state: register and the two words of the nonlinear function. -/
structure State where
  s : Cells
  r1 : BitVec 32
  r2 : BitVec 32

/-- The output of the nonlinear function. -/
def w (z : State) : BitVec 32 := (x0 z.s ^^^ z.r1) + z.r2

/-- The update of R1 and R2. -/
def upd (z : State) : BitVec 32 × BitVec 32 :=
  let w1 := z.r1 + x1 z.s
  let w2 := z.r2 ^^^ x2 z.s
  (sbox (lin1 (w1.extractLsb' 0 16 ++ w2.extractLsb' 16 16)),
   sbox (lin2 (w2.extractLsb' 0 16 ++ w1.extractLsb' 16 16)))

/-- One step of the initialisation and one step of the working stage. -/
def initStep (z : State) : State :=
  ⟨clock ((w z).toNat / 2) z.s, (upd z).1, (upd z).2⟩
def workStep (z : State) : State := ⟨clock 0 z.s, (upd z).1, (upd z).2⟩

/-- A step repeated. -/
def times (f : State → State) : Nat → State → State
  | 0, z => z
  | n + 1, z => f (times f n z)

/-- Key word `i` from a loaded register: 32 initialisation steps, one working step whose output is dropped, then one
word per step. -/
def word (load : Cells) (i : Nat) : BitVec 32 :=
  let z := times (workStep) (i + 1) (times (initStep) 32 ⟨load, 0, 0⟩)
  x3 z.s ^^^ w z

/-- The constants of ZUC-128, 15 bits each. -/
def d128 : List Nat :=
  [0b100010011010111, 0b010011010111100, 0b110001001101011, 0b001001101011110, 0b101011110001001, 0b011010111100010,
   0b111000100110101, 0b000100110101111, 0b100110101111000, 0b010111100010011, 0b110101111000100, 0b001101011110001,
   0b101111000100110, 0b011110001001101, 0b111100010011010, 0b100011110101100]

/-- Key loading of ZUC-128: key byte (8 bits), constant (15 bits), iv byte (8 bits). -/
def load128 (key iv : Bytes) : Cells := fun i =>
  if i < 16 then (key.getD i 0).toNat * 2 ^ 23 + d128.getD i 0 * 2 ^ 8 + (iv.getD i 0).toNat else 0

/-- A cell of four fields: 8, 7, 8 and 8 bits. -/
def cell (a b c d : Nat) : Nat := a * 2 ^ 23 + b * 2 ^ 16 + c * 2 ^ 8 + d

/-- The last eight iv elements of ZUC-256 have six bits each, packed into the last six iv bytes, most significant
first: element 17 + j of `iv`. -/
def iv6 (iv : Bytes) (j : Nat) : Nat :=
  ((iv.drop 17).take 6).foldl (fun acc b => 256 * acc + b.toNat) 0 / 64 ^ (7 - j) % 64

/-- The constants of ZUC-256 by size of the MAC in bits (0 for the stream cipher). -/
def d256 (n : Nat) : List Nat :=
  let tl := [0b0101010, 0b1101101, 0b1000000, 0b1000000, 0b1000000, 0b1000000, 0b1000000, 0b1000000, 0b1000000,
    0b1000000, 0b1010010, 0b0010000, 0b0110000]
  (if n < 64 then 0b0100010 else 0b0100011) :: 0b0101111 :: (if n = 32 ∨ n = 128 then 0b0100101 else 0b0100100) :: tl

/-- Key loading of ZUC-256. -/
def load256 (n : Nat) (key iv : Bytes) : Cells := fun i =>
  let k := fun j => (key.getD j 0).toNat
  let v := fun j => (iv.getD j 0).toNat
  let d := fun j => (d256 n).getD j 0
  let q := fun j => iv6 iv (j - 17)
  ([cell (k 0) (d 0) (k 21) (k 16), cell (k 1) (d 1) (k 22) (k 17), cell (k 2) (d 2) (k 23) (k 18),
    cell (k 3) (d 3) (k 24) (k 19), cell (k 4) (d 4) (k 25) (k 20), cell (v 0) (d 5 + q 17) (k 5) (k 26),
    cell (v 1) (d 6 + q 18) (k 6) (k 27), cell (v 10) (d 7 + q 19) (k 7) (v 2),
    cell (k 8) (d 8 + q 20) (v 3) (v 11), cell (k 9) (d 9 + q 21) (v 12) (v 4),
    cell (v 5) (d 10 + q 22) (k 10) (k 28), cell (k 11) (d 11 + q 23) (v 6) (v 13),
    cell (k 12) (d 12 + q 24) (v 7) (v 14), cell (k 13) (d 13) (v 15) (v 8),
    cell (k 14) (d 14 + k 31 / 16) (v 16) (v 9), cell (k 15) (d 15 + k 31 % 16) (k 30) (k 29)] : List Nat).getD i 0

/-- Bytes of a key stream of words, most significant byte of a word first. -/
def byteOf (z : Nat → BitVec 32) (i : Nat) : Byte := (z (i / 4)).extractLsb' (24 - 8 * (i % 4)) 8

/-- `n` bytes of the key stream, from the start of word `q`. -/
def keyBytes (z : Nat → BitVec 32) (q n : Nat) : Bytes := (List.range n).map fun i => byteOf z (4 * q + i)

/-- Bit `i` of a sequence of words, most significant bit of a word first. -/
def bitOf (z : Nat → BitVec 32) (i : Nat) : Bool := (z (i / 32)).getLsbD (31 - i % 32)

/-- The iv of 128-EEA3: COUNT (32 bits), BEARER (5 bits), DIRECTION (1 bit), 26 zero bits; then the same again. -/
def eea3IV (count bearer direction : Nat) : Bytes :=
  let h : Nat := count * 2 ^ 32 + bearer * 2 ^ 27 + direction * 2 ^ 26
  let b := (List.range 8).map fun i => BitVec.ofNat 8 (h / 256 ^ (7 - i))
  b ++ b

end Verif.Zuc.Spec
