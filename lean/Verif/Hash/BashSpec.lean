import Verif.Hash.Stream
/-
The sponge of STB 34.101.77 over a 1536-bit permutation `F` given on 24 words: security level `l`, digest of `hs = l/4`
bytes, blocks of `192 - 2*hs` bytes.
-/
namespace Verif.Hash.Bash.Spec
open Verif.Cipher

/-- Padding `01000000…` to a whole number of blocks. -/
def pad (bs : Nat) (M : Bytes) : Bytes := M ++ 0x40#8 :: List.replicate (bs - 1 - M.length % bs) 0#8

/-- Initial state: `⟨l/4⟩` in the first byte of the last word, zeros elsewhere. -/
def init (hs : Nat) : List (BitVec 64) := List.replicate 23 (0 : BitVec 64) ++ [BitVec.ofNat 64 (hs % 256) <<< 56]

/-- Absorb one block: it is XORed into the first bytes of the state. -/
def absorb1 (F : List (BitVec 64) → List (BitVec 64)) (bs : Nat) (s : List (BitVec 64)) (X : Bytes) : List (BitVec 64) :=
  F (List.zipWith (· ^^^ ·) s (ldBE 64 8 24 (X ++ List.replicate (192 - bs) 0#8)))

/-- The digest of `hs` bytes. -/
def bash (F : List (BitVec 64) → List (BitVec 64)) (hs : Nat) (M : Bytes) : Bytes :=
  (stBE 8 ((fullBlocks (192 - 2 * hs) (pad (192 - 2 * hs) M)).foldl (absorb1 F (192 - 2 * hs)) (init hs))).take hs

/-- No `Write` of the history goes past the end of the block being filled. -/
def fits (bs : Nat) : Bytes → List Op → Prop
  | _, [] => True
  | M, .write x :: ops => M.length % bs + x.length ≤ bs ∧ fits bs (M ++ x) ops
  | M, .sum _ :: ops => fits bs M ops
  | _, .reset :: ops => fits bs [] ops

end Verif.Hash.Bash.Spec
