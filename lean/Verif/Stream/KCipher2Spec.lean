import Verif.Cipher.Common
/-
KCipher-2 (RFC 7008), by its recurrences and field arithmetic, without tables.
-/
namespace Verif.Strm.KCipher2Spec
open Verif.Cipher

abbrev W := BitVec 32

/-- Multiplication of polynomials over GF(2), `b` having at most 8 bits, modulo `p` of degree 8. -/
def gmulAux (p : Nat) : Nat → Nat → Nat → Nat
  | 0, _, _ => 0
  | n + 1, a, b =>
    (if b % 2 = 1 then a else 0) ^^^ gmulAux p n (if 2 * a < 256 then 2 * a else (2 * a) ^^^ p) (b / 2)
def gmul (p a b : Nat) : Nat := gmulAux p 8 a b
def gpow (p a : Nat) : Nat → Nat
  | 0 => 1
  | n + 1 => gmul p (gpow p a n) a

/-- Inverses modulo x^8+x^4+x^3+x+1 (that of 0 is 0). -/
def invAux : Nat → Nat → Nat
  | 0, _ => 1
  | n + 1, s => gmul 0x11B (gmul 0x11B s s) (invAux n (gmul 0x11B s s))
/-- The inverse is the 254th power, x²·x⁴·x⁸·…·x¹²⁸. -/
def inv (x : Nat) : Nat := invAux 7 x
/-- The S-box of AES: the inverse, then the affine map with constant 0x63. -/
def affBit (y i : Nat) : Bool :=
  Bool.xor (Bool.xor (Bool.xor (Bool.xor (y.testBit i) (y.testBit ((i + 4) % 8))) (Bool.xor (y.testBit ((i + 5) % 8)) (y.testBit ((i + 6) % 8))))
    (y.testBit ((i + 7) % 8))) ((0x63 : Nat).testBit i)
def sbox (x : Nat) : Nat := ((List.range 8).map fun i => if affBit (inv x) i then 2 ^ i else 0).sum

/-- Byte `i` (0 the lowest) of a word. -/
def byte (x : W) (i : Nat) : Nat := x.toNat / 2 ^ (8 * i) % 256

/-- The word of four bytes, the lowest first. -/
def word (b0 b1 b2 b3 : Nat) : W := BitVec.ofNat 32 (b0 + 2 ^ 8 * b1 + 2 ^ 16 * b2 + 2 ^ 24 * b3)

/-- Sub_K2 (2.4.2): the S-box on each byte, then the matrix of AES's MixColumns. -/
def sub (x : W) : W :=
  let t i := sbox (byte x i)
  let m := gmul 0x11B
  word (m (t 0) 2 ^^^ m (t 1) 3 ^^^ t 2 ^^^ t 3) (t 0 ^^^ m (t 1) 2 ^^^ m (t 2) 3 ^^^ t 3) (t 0 ^^^ t 1 ^^^ m (t 2) 2 ^^^ m (t 3) 3)
    (m (t 0) 3 ^^^ t 1 ^^^ t 2 ^^^ m (t 3) 2)

/-- Multiplication of `x3 α³ + x2 α² + x1 α + x0` by a root `α` of `X⁴ + β^e3 X³ + β^e2 X² + β^e1 X + β^e0`, over the field of 256
elements of the polynomial `p`, whose root is `β`. -/
def alpha (p e3 e2 e1 e0 : Nat) (x : W) : W :=
  let c e := gmul p (byte x 3) (gpow p 2 e)
  word (c e0) (byte x 0 ^^^ c e1) (byte x 1 ^^^ c e2) (byte x 2 ^^^ c e3)

/-- α0 to α3 (2.4.3). -/
def alpha0 := alpha 0x1C3 24 3 12 71
def alpha1 := alpha 0x12D 230 156 93 29
def alpha2 := alpha 0x14D 34 16 199 248
def alpha3 := alpha 0x165 157 253 56 16

def nlf (a b c d : W) : W := (a + b) ^^^ c ^^^ d

/-- The sequences of the two registers and of the four memories: `A t`, `B t` are the oldest words at time `t`; 24 steps feed the
output back, then the key stream starts.  `ik` is the expanded key (2.3.2). -/
structure IsRun (key iv : Bytes) (A B L1 R1 L2 R2 : Nat → W) : Prop where
  /-- The expanded key: `ik 0..3` the key, then `ik m = ik (m-4) ⊕ ik (m-1)`, with `Sub(ik (m-1) <<< 8) ⊕ Rcon` for m = 4, 8. -/
  ik : ∃ ik : Nat → W, (∀ i, i < 4 → ik i = (ldBE 32 4 4 key).getD i 0) ∧
    (∀ i, 4 ≤ i → i < 12 → ik i = ik (i - 4) ^^^
      (if i = 4 then sub ((ik (i - 1)).rotateLeft 8) ^^^ 0x01000000 else if i = 8 then sub ((ik (i - 1)).rotateLeft 8) ^^^ 0x02000000
        else ik (i - 1))) ∧
    (∀ i, i < 5 → A i = ik (4 - i)) ∧
    B 0 = ik 10 ∧ B 1 = ik 11 ∧ B 2 = (ldBE 32 4 4 iv).getD 0 0 ∧ B 3 = (ldBE 32 4 4 iv).getD 1 0 ∧ B 4 = ik 8 ∧ B 5 = ik 9 ∧
    B 6 = (ldBE 32 4 4 iv).getD 2 0 ∧ B 7 = (ldBE 32 4 4 iv).getD 3 0 ∧ B 8 = ik 7 ∧ B 9 = ik 5 ∧ B 10 = ik 6
  fsr0 : L1 0 = 0 ∧ R1 0 = 0 ∧ L2 0 = 0 ∧ R2 0 = 0
  l1 : ∀ t, L1 (t + 1) = sub (R2 t + B (t + 4))
  r1 : ∀ t, R1 (t + 1) = sub (L2 t + B (t + 9))
  l2 : ∀ t, L2 (t + 1) = sub (L1 t)
  r2 : ∀ t, R2 (t + 1) = sub (R1 t)
  a : ∀ t, A (t + 5) = alpha0 (A t) ^^^ A (t + 3) ^^^ (if t < 24 then nlf (B t) (R2 t) (R1 t) (A (t + 4)) else 0)
  b : ∀ t, B (t + 11) = (if (A (t + 2)).getLsbD 30 then alpha1 (B t) else alpha2 (B t)) ^^^ B (t + 1) ^^^ B (t + 6) ^^^
      (if (A (t + 2)).getLsbD 31 then alpha3 (B (t + 8)) else B (t + 8)) ^^^
      (if t < 24 then nlf (B (t + 10)) (L2 t) (L1 t) (A t) else 0)

/-- The key stream: at each time from 24 the words z^H and z^L, big-endian. -/
def keystream (A B L1 R1 L2 R2 : Nat → W) (p : Nat) : Byte :=
  let t := 24 + p / 8
  (stBE 4 [nlf (B (t + 10)) (L2 t) (L1 t) (A t), nlf (B t) (R2 t) (R1 t) (A (t + 4))]).getD (p % 8) 0

end Verif.Strm.KCipher2Spec
