import Verif.Aead.CcmSpec
import Verif.Alg.Gf2
/-
MGM as in RFC 9058 over a block cipher `E` with 16-byte blocks and a 16-byte tag.
-/
namespace Verif.Aead.Spec
open Verif.Mode (chunks)
open Verif.Mode.Spec (natBe beNat keyBytes streamOf)
open Polynomial

/-- The field polynomial `x^128 + x^7 + x^2 + x + 1`. -/
noncomputable def p128 : (ZMod 2)[X] := X ^ 128 + (X ^ 7 + X ^ 2 + X + 1)

/-- Product of two blocks in GF(2^128): multiplication of polynomials modulo `p128`, the first bit of a block being
the coefficient of `x^127`. -/
noncomputable def gfMul (x y : Bytes) : Bytes :=
  natBe 16 (Gf2.ofPoly 128 ((Gf2.poly (beNat x) * Gf2.poly (beNat y)) %ₘ p128))

/-- `incr_l` applied `i` times: the left half counts modulo `2^64`. -/
def incrL (Z : Bytes) (i : Nat) : Bytes := natBe 8 (beNat (Z.take 8) + i) ++ Z.drop 8

/-- `incr_r` applied `i` times: the right half counts modulo `2^64`. -/
def incrR (Y : Bytes) (i : Nat) : Bytes := Y.take 8 ++ natBe 8 (beNat (Y.drop 8) + i)

/-- The block `b ‖ ICN`: a bit followed by the 127-bit nonce (the first bit of the 16-byte nonce is not used). -/
def mgmIcn (b : Nat) (N : Bytes) : Bytes := natBe 16 (b * 2 ^ 127 + beNat N % 2 ^ 127)

/-- Encryption and decryption: `C_i = P_i ⊕ E(Y_i)`. -/
def mgmCrypt (E : Bytes → Bytes) (N P : Bytes) : Bytes :=
  xorb P (keyBytes (streamOf 16 (fun j => E (incrR (E (mgmIcn 0 N)) j))) 0 P.length)

/-- The sum `⊕ H_i ⊗ B_i` over a list of blocks, `H_i = E(incr_l^i(Z))`, counting from `i`. -/
noncomputable def mgmSum (E : Bytes → Bytes) (Z : Bytes) : Nat → List Bytes → Bytes
  | _, [] => List.replicate 16 0
  | i, b :: bs => xorb (gfMul (E (incrL Z i)) b) (mgmSum E Z (i + 1) bs)

/-- The tag of ciphertext `C` and associated data `A`. -/
noncomputable def mgmTag (E : Bytes → Bytes) (N A C : Bytes) : Bytes :=
  E (mgmSum E (E (mgmIcn 1 N)) 0
    (chunks 16 (padZero 16 A) ++ chunks 16 (padZero 16 C) ++ [natBe 8 (8 * A.length) ++ natBe 8 (8 * C.length)]))

/-- Authenticated encryption. -/
noncomputable def mgm (E : Bytes → Bytes) (N P A : Bytes) : Bytes :=
  let C := mgmCrypt E N P
  C ++ mgmTag E N A C

end Verif.Aead.Spec
