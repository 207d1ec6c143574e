import Verif.Mode.Blocks
import Verif.Mode.StreamSpec
import Verif.Aead.CcmSpec
/-
HCTR (Wang, Feng, Wu 2005) over a block cipher `E`/`D` with 16-byte blocks, a 16-byte hash key and a 16-byte tweak.
-/
namespace Verif.Hctr.Spec
open Verif.Mode (chunks)
open Verif.Mode.Spec (natBe beNat)
open Verif.Aead.Spec (padZero)

/-- Multiplication by `x` in GF(2^128) = GF(2)[x]/(x^128+x^7+x^2+x+1) in the bit order of GCM: the first (leftmost) bit
is the coefficient of 1 (NIST SP 800-38D 6.3, the step of `V`). -/
def mulX (v : BitVec 128) : BitVec 128 := if v.getLsbD 0 then (v >>> 1) ^^^ (0xe1#128 <<< 120) else v >>> 1

/-- Sum of `v · x^i` over the positions `i` of the set bits of a bit string. -/
def mulBits : List Bool → BitVec 128 → BitVec 128
  | [], _ => 0
  | b :: bs, v => (if b then v else 0) ^^^ mulBits bs (mulX v)

/-- The bits of a block, leftmost first. -/
def bits (y : BitVec 128) : List Bool := (List.range 128).map y.getMsbD

/-- Product in GF(2^128) (NIST SP 800-38D 6.3, algorithm 1). -/
def gmul (y h : BitVec 128) : BitVec 128 := mulBits (bits y) h

/-- A 16-byte block as a bit string. -/
def blk (x : Bytes) : BitVec 128 := BitVec.ofNat 128 (beNat x)

/-- Bit length of a message of `n` bytes as a block, modulo 2^64. -/
def lenBlk (n : Nat) : Bytes := List.replicate 8 0 ++ natBe 8 (8 * n)

/-- The polynomial hash of `M ‖ T`, zero-padded, followed by the length. -/
def hash (K T M : Bytes) : Bytes :=
  natBe 16 ((chunks 16 (padZero 16 (M ++ T)) ++ [lenBlk (M ++ T).length]).foldl (fun y b => gmul (y ^^^ blk b) (blk K)) 0).toNat

/-- Key stream: `E(S ⊕ 1) ‖ E(S ⊕ 2) ‖ …`, starting at block number `i`, with a counter of 64 bits. -/
def stream (E : Bytes → Bytes) (S : Bytes) (i : Nat) : Nat → Bytes
  | 0 => []
  | n + 1 => E (xorb S (List.replicate 8 0 ++ natBe 8 i)) ++ stream E S (i + 1) n

/-- XOR with the key stream. -/
def ctr (E : Bytes → Bytes) (S X : Bytes) : Bytes := xorb X (stream E S 1 ((X.length + 15) / 16))

/-- Hash, encrypt, counter mode, hash with a given hash function `H`. -/
def encryptH (H : Bytes → Bytes) (E : Bytes → Bytes) (P : Bytes) : Bytes :=
  let MM := xorb (P.take 16) (H (P.drop 16))
  let CC := E MM
  let C := ctr E (xorb MM CC) (P.drop 16)
  xorb CC (H C) ++ C

/-- HCTR encryption of a message of at least 16 bytes. -/
def encrypt (E : Bytes → Bytes) (K T P : Bytes) : Bytes := encryptH (hash K T) E P

/-- Inverse of `encryptH`. -/
def decryptH (H : Bytes → Bytes) (E D : Bytes → Bytes) (C : Bytes) : Bytes :=
  let CC := xorb (C.take 16) (H (C.drop 16))
  let MM := D CC
  let P := ctr E (xorb CC MM) (C.drop 16)
  xorb MM (H P) ++ P

/-- HCTR decryption. -/
def decrypt (E D : Bytes → Bytes) (K T C : Bytes) : Bytes := decryptH (hash K T) E D C

end Verif.Hctr.Spec
