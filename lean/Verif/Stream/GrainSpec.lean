import Verif.Go.Basic
import Verif.Cipher.Common
/-
Grain-128AEAD, from the submission to the NIST lightweight cryptography project (first version): bit by bit.
-/
namespace Verif.Strm.GrainSpec
open Verif.Cipher (leBytes)

/-- Bit `n` of a register. -/
def bit (S : List Bool) (n : Nat) : Bool := S.getD n false

/-- The linear feedback. -/
def L (S : List Bool) : Bool := bit S 0 ^^ bit S 7 ^^ bit S 38 ^^ bit S 70 ^^ bit S 81 ^^ bit S 96

/-- The non-linear feedback. -/
def F (B : List Bool) : Bool :=
  bit B 0 ^^ bit B 26 ^^ bit B 56 ^^ bit B 91 ^^ bit B 96 ^^ (bit B 3 && bit B 67) ^^ (bit B 11 && bit B 13) ^^ (bit B 17 && bit B 18) ^^
  (bit B 27 && bit B 59) ^^ (bit B 40 && bit B 48) ^^ (bit B 61 && bit B 65) ^^ (bit B 68 && bit B 84) ^^
  (bit B 22 && bit B 24 && bit B 25) ^^ (bit B 70 && bit B 78 && bit B 82) ^^ (bit B 88 && bit B 92 && bit B 93 && bit B 95)

/-- The pre-output. -/
def y (S B : List Bool) : Bool :=
  (bit B 12 && bit S 8) ^^ (bit S 13 && bit S 20) ^^ (bit B 95 && bit S 42) ^^ (bit S 60 && bit S 79) ^^ (bit B 12 && bit B 95 && bit S 94) ^^
  bit S 93 ^^ bit B 2 ^^ bit B 15 ^^ bit B 36 ^^ bit B 45 ^^ bit B 64 ^^ bit B 73 ^^ bit B 89

/-- One clock, with a bit added to each of the feedbacks. -/
def clock (xs xb : Bool) (R : List Bool × List Bool) : List Bool × List Bool :=
  (R.1.tail ++ [L R.1 ^^ xs], R.2.tail ++ [bit R.1 0 ^^ F R.2 ^^ xb])

/-- The bits of bytes, the least significant first. -/
def bits (l : Bytes) : List Bool := l.flatMap fun b => (List.range 8).map b.getLsbD

/-- The two registers after `t` clocks: 256 clocks with the pre-output fed back, then 128 with the key added to the LFSR, then no input. -/
def state (key nonce : Bytes) : Nat → List Bool × List Bool
  | 0 => (bits nonce ++ List.replicate 31 true ++ [false], bits key)
  | t + 1 =>
    let R := state key nonce t
    if t < 256 then clock (y R.1 R.2) (y R.1 R.2) R
    else if t < 384 then clock (bit (bits key) (t - 256)) false R
    else clock false false R

/-- The pre-output at time `t`. -/
def Y (key nonce : Bytes) (t : Nat) : Bool := y (state key nonce t).1 (state key nonce t).2

/-- A word from its bits, the least significant first. -/
def word (w : Nat) (f : Nat → Bool) : BitVec w := (BitVec.ofBoolListLE ((List.range w).map f)).setWidth w

/-- Byte `p` of the key stream (the even bits) and of the authentication stream (the odd ones). -/
def kbyte (key nonce : Bytes) (p : Nat) : Byte := word 8 fun j => Y key nonce (384 + 16 * p + 2 * j)
def mbyte (key nonce : Bytes) (p : Nat) : Byte := word 8 fun j => Y key nonce (384 + 16 * p + 2 * j + 1)

/-- The accumulator and the authentication register absorb message bit `m`; `z` enters the register. -/
def absorbBit (a : BitVec 64 × BitVec 64) (m z : Bool) : BitVec 64 × BitVec 64 :=
  (if m then a.1 ^^^ a.2 else a.1, (a.2 >>> 1) ||| (if z then 0x8000000000000000 else 0 : BitVec 64))

def absorbByte (a : BitVec 64 × BitVec 64) (b z : Byte) : BitVec 64 × BitVec 64 :=
  (List.range 8).foldl (fun a j => absorbBit a (b.getLsbD j) (z.getLsbD j)) a

/-- Message bytes from position `p` on. -/
def absorb (key nonce : Bytes) (a : BitVec 64 × BitVec 64) : Nat → Bytes → BitVec 64 × BitVec 64
  | _, [] => a
  | p, b :: l => absorb key nonce (absorbByte a b (mbyte key nonce p)) (p + 1) l

/-- The tag of a message: after its bits, a bit 1. -/
def tag (key nonce msg : Bytes) : Bytes :=
  let a := absorb key nonce (word 64 fun j => Y key nonce (256 + j), word 64 fun j => Y key nonce (320 + j)) 0 msg
  leBytes 8 (absorbBit a true false).1.toNat

/-- Encryption and decryption: the key stream from position `p` on. -/
def crypt (key nonce : Bytes) (p : Nat) (l : Bytes) : Bytes := xorb l ((List.range l.length).map fun i => kbyte key nonce (p + i))

/-- The length of the additional data, in DER. -/
def der (n : Nat) : Bytes :=
  if n < 128 then [BitVec.ofNat 8 n]
  else
    let k := (Nat.log2 n + 8) / 8
    BitVec.ofNat 8 (0x80 + k) :: (leBytes k n).reverse

/-- Grain-128AEAD, for a given encoding of the length of the additional data. -/
def sealWith (enc : Nat → Bytes) (key nonce ad pt : Bytes) : Bytes :=
  let pre := enc ad.length ++ ad
  crypt key nonce pre.length pt ++ tag key nonce (pre ++ pt)

/-- Grain-128AEAD. -/
def aead (key nonce ad pt : Bytes) : Bytes := sealWith der key nonce ad pt

end Verif.Strm.GrainSpec
