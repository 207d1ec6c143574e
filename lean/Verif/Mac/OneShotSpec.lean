import Verif.Mac.Spec
/-
The MAC algorithms of ISO/IEC 9797-1 / GB/T 15852.1 over block ciphers with `n`-byte blocks, padding method 2, before
truncation to the tag length.
-/
namespace Verif.Mac.Spec
open Verif.Mode.Spec (natBe beNat)

/-- Algorithm 1 (CBC-MAC). -/
def cbcMac (E : Bytes → Bytes) (n : Nat) (M : Bytes) : Bytes := cbc E n (zero n) (pad2 n M)

/-- Algorithm 2 (EMAC): a second encryption of the CBC-MAC. -/
def emac (E1 E2 : Bytes → Bytes) (n : Nat) (M : Bytes) : Bytes := E2 (cbcMac E1 n M)

/-- Algorithm 3 (ANSI retail MAC): decrypt with the second key, encrypt with the first. -/
def retail (E1 D2 : Bytes → Bytes) (n : Nat) (M : Bytes) : Bytes := E1 (D2 (cbcMac E1 n M))

/-- Algorithm 4 (MAC-DES): the first block is encrypted a second time with the third key, the result with the second. -/
def macDes (E1 E2 E3 : Bytes → Bytes) (n : Nat) (M : Bytes) : Bytes :=
  E2 (cbc E1 n (E3 (E1 ((pad2 n M).take n))) ((pad2 n M).drop n))

/-- All blocks but the last. -/
def initPart (n : Nat) (X : Bytes) : Bytes := X.take (X.length - n)
/-- The last block. -/
def lastBlk (n : Nat) (X : Bytes) : Bytes := X.drop (X.length - n)

/-- Algorithm 6 (LMAC): the last block is processed with the second key. -/
def lmac (E1 E2 : Bytes → Bytes) (n : Nat) (M : Bytes) : Bytes :=
  let X := pad2 n M
  E2 (xorb (cbc E1 n (zero n) (initPart n X)) (lastBlk n X))

/-- Algorithm 7 (TrCBC), truncated to `t` bytes: whole messages are not padded and yield the left end of the last block,
others are padded and yield its right end. -/
def trCbc (E : Bytes → Bytes) (n t : Nat) (M : Bytes) : Bytes :=
  if Whole n M then (cbc E n (zero n) M).take t
  else (cbc E n (zero n) (pad2 n M)).drop (n - t)

/-- Rotation of a block by one bit to the left. -/
def rotl (n : Nat) (x : Bytes) : Bytes := natBe n (2 * beNat x % 2 ^ (8 * n) + beNat x / 2 ^ (8 * n - 1))
/-- Rotation of a block by one bit to the right. -/
def rotr (n : Nat) (x : Bytes) : Bytes := natBe n (beNat x / 2 + beNat x % 2 * 2 ^ (8 * n - 1))

/-- Algorithm 8 (CBCR): CBC from `E(0)`; the last input is rotated right for whole messages, and left for padded
ones. -/
def cbcr (E : Bytes → Bytes) (n : Nat) (M : Bytes) : Bytes :=
  let X := if Whole n M then M else pad2 n M
  let y := xorb (cbc E n (E (zero n)) (initPart n X)) (lastBlk n X)
  E (if Whole n M then rotr n y else rotl n y)

end Verif.Mac.Spec
