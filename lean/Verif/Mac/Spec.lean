import Verif.Mode.Blocks
import Verif.Mode.StreamSpec
import Verif.Aead.OcbSpec
/-
Message authentication codes from a block cipher `E` with `n`-byte blocks, as the standards define them.
-/
namespace Verif.Mac.Spec
open Verif.Mode (chunks)
open Verif.Mode.Spec (natBe beNat)

/-- Doubling in the field of 8n-bit blocks (read as big-endian polynomials) modulo x^(8n) + r. -/
def dbl (n r : Nat) (x : Bytes) : Bytes :=
  natBe n (if beNat x < 2 ^ (8 * n - 1) then 2 * beNat x else (2 * beNat x - 2 ^ (8 * n)) ^^^ r)

/-- The block of zero bytes. -/
def zero (n : Nat) : Bytes := List.replicate n 0

/-- CBC-MAC chaining from `s` over the blocks of `x`. -/
def cbc (E : Bytes → Bytes) (n : Nat) (s x : Bytes) : Bytes := (chunks n x).foldl (fun s b => E (xorb s b)) s

/-- XOR the block `Y` into the last `n` bytes of `X`. -/
def xorEnd (n : Nat) (X Y : Bytes) : Bytes := X.take (X.length - n) ++ xorb (X.drop (X.length - n)) Y

/-- Padding method 2 of ISO/IEC 9797-1: a one bit, then zeros up to the block boundary. -/
def pad2 (n : Nat) (M : Bytes) : Bytes := M ++ 0x80 :: List.replicate (n - 1 - M.length % n) 0

/-- The message is a positive number of whole blocks. -/
def Whole (n : Nat) (M : Bytes) : Prop := M ≠ [] ∧ n ∣ M.length

instance (n : Nat) (M : Bytes) : Decidable (Whole n M) := by unfold Whole; infer_instance

/-- CMAC (NIST SP 800-38B, RFC 4493): CBC-MAC of the message with its last block masked by `K1 = 2L`, or, when that
block is incomplete, padded and masked by `K2 = 4L`, where `L = E(0)`. -/
def cmac (E : Bytes → Bytes) (n r : Nat) (M : Bytes) : Bytes :=
  let K1 := dbl n r (E (zero n))
  cbc E n (zero n) (if Whole n M then xorEnd n M K1 else xorEnd n (pad2 n M) (dbl n r K1))

/-- The reduction polynomials of the block sizes for which CMAC is defined here (lexicographically first irreducible
polynomials of minimal weight): x^64+x^4+x^3+x+1, x^128+x^7+x^2+x+1, x^256+x^10+x^5+x^2+1, x^512+x^8+x^5+x^2+1,
x^1024+x^19+x^6+x+1. -/
def reduction (n : Nat) : Option Nat :=
  match n with
  | 8 => some 0x1b | 16 => some 0x87 | 32 => some 0x425 | 64 => some 0x125 | 128 => some 0x80043 | _ => none

/-- `L · x^k`. -/
def lPow (E : Bytes → Bytes) (n r : Nat) : Nat → Bytes
  | 0 => E (zero n)
  | k + 1 => dbl n r (lPow E n r k)

/-- PMAC offsets: `Z_0 = 0`, `Z_i = Z_{i-1} ⊕ L · x^{ntz i}`. -/
def pmacZ (E : Bytes → Bytes) (n r : Nat) : Nat → Bytes
  | 0 => zero n
  | i + 1 => xorb (pmacZ E n r i) (lPow E n r (Aead.Spec.ntz (i + 1)))

/-- XOR of `E(M_i ⊕ Z_i)` over a list of blocks, the first having number `i`. -/
def pmacSum (E : Bytes → Bytes) (n r : Nat) (i : Nat) (bs : List Bytes) : Bytes :=
  ((bs.zipIdx i).map fun (b, i) => E (xorb b (pmacZ E n r i))).foldl xorb (zero n)

/-- Length of the last block of a message: between 1 and `n`, or 0 for the empty message. -/
def tailLen (n : Nat) (M : Bytes) : Nat := if M = [] then 0 else (M.length - 1) % n + 1

/-- PMAC (Black–Rogaway): all blocks but the last are summed as `E(M_i ⊕ Z_i)`; the last is added masked by
`Linv = L · x^{-1}` when complete and padded otherwise, and the sum is encrypted. -/
def pmac (E : Bytes → Bytes) (n r : Nat) (Linv : Bytes) (M : Bytes) : Bytes :=
  let t := tailLen n M
  let S := pmacSum E n r 1 (chunks n (M.take (M.length - t)))
  let last := M.drop (M.length - t)
  E (xorb S (if t = n then xorb last Linv else pad2 n last))

end Verif.Mac.Spec
