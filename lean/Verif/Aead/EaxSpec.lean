import Verif.Aead.CcmSpec
/-
EAX (Bellare, Rogaway, Wagner) over a block cipher `E` with 16-byte blocks.
-/
namespace Verif.Aead.Spec
open Verif.Mode.Spec (natBe beNat keyBytes streamOf)

/-- Doubling in GF(2^128) modulo x^128 + x^7 + x^2 + x + 1, blocks read as big-endian polynomials. -/
def gfDouble (x : Bytes) : Bytes :=
  natBe 16 (if beNat x < 2 ^ 127 then 2 * beNat x else (2 * beNat x - 2 ^ 128) ^^^ 0x87)

/-- XOR the block `Y` into the end of `X`. -/
def xorEnd (X Y : Bytes) : Bytes := X.take (X.length - 16) ++ xorb (X.drop (X.length - 16)) Y

/-- OMAC1: CBC-MAC of the string, its end masked with `2L`, or padded with `10…0` and masked with `4L`. -/
def omac (E : Bytes → Bytes) (M : Bytes) : Bytes :=
  let L := E (List.replicate 16 0)
  cbcMac E (List.replicate 16 0)
    (if M ≠ [] ∧ 16 ∣ M.length then xorEnd M (gfDouble L)
     else xorEnd (M ++ 0x80 :: List.replicate (15 - M.length % 16) 0) (gfDouble (gfDouble L)))

/-- `OMAC^t(M) = OMAC([t]_128 ‖ M)`. -/
def omacT (E : Bytes → Bytes) (t : Byte) (M : Bytes) : Bytes := omac E (List.replicate 15 0 ++ [t] ++ M)

/-- CTR mode from the given first counter block. -/
def ctr128 (E : Bytes → Bytes) (iv P : Bytes) : Bytes :=
  xorb P (keyBytes (streamOf 16 (fun j => E (natBe 16 (beNat iv + j)))) 0 P.length)

/-- The EAX tag of a ciphertext `C` (without tag), nonce `N`, header `A`. -/
def eaxTag (E : Bytes → Bytes) (tau : Nat) (N A C : Bytes) : Bytes :=
  (xorb (xorb (omacT E 0 N) (omacT E 2 C)) (omacT E 1 A)).take tau

/-- EAX encryption. -/
def eax (E : Bytes → Bytes) (tau : Nat) (N P A : Bytes) : Bytes :=
  let C := ctr128 E (omacT E 0 N) P
  C ++ eaxTag E tau N A C

end Verif.Aead.Spec
