import Verif.Mode.Blocks
import Verif.Aead.Base
/-!
# Ascon-128 and Ascon-128a, from the submission "Ascon v1.2"

The state is 40 bytes: the words `x0 … x4`, each with its most significant byte first.
-/
namespace Verif.Ascon.Spec
open Verif

/-- Table 5: the 5-bit S-box, `x0` the most significant bit. -/
def sbox : List Nat :=
  [0x4, 0xb, 0x1f, 0x14, 0x1a, 0x15, 0x9, 0x2, 0x1b, 0x5, 0x8, 0x12, 0x1d, 0x3, 0x6, 0x1c,
   0x1e, 0x13, 0x7, 0xe, 0x0, 0xd, 0x11, 0x18, 0x10, 0xc, 0x1, 0x19, 0x16, 0xa, 0xf, 0x17]

/-- A state as bits: `B i j` is bit `j` of word `i`, bit 0 the least significant. -/
abbrev Bits := Nat → Nat → Bool

/-- Table 4: the constant of round `i` of 12. -/
def rc (i : Nat) : Nat := 0xf0 - 0x0f * i

/-- Section 2.6.1. -/
def addC (c : Nat) (B : Bits) : Bits := fun i j => B i j ^^ (i == 2 && c.testBit j)

/-- Section 2.6.2: the S-box on each of the 64 columns. -/
def sub (B : Bits) : Bits := fun i j =>
  (sbox.getD ((B 0 j).toNat * 16 + (B 1 j).toNat * 8 + (B 2 j).toNat * 4 + (B 3 j).toNat * 2 + (B 4 j).toNat) 0).testBit (4 - i)

/-- Section 2.6.3: the rotations to the right. -/
def rots : List (Nat × Nat) := [(19, 28), (61, 39), (1, 6), (10, 17), (7, 41)]

/-- Section 2.6.3. -/
def lin (B : Bits) : Bits := fun i j =>
  B i j ^^ B i ((j + (rots.getD i (0, 0)).1) % 64) ^^ B i ((j + (rots.getD i (0, 0)).2) % 64)

/-- `p^k`: the last `k` of 12 rounds. -/
def perm (k : Nat) (B : Bits) : Bits :=
  ((List.range 12).drop (12 - k)).foldl (fun B i => lin (sub (addC (rc i) B))) B

/-- The bits of 40 bytes. -/
def bitsOf (S : Bytes) : Bits := fun i j => (S.getD (8 * i + (7 - j / 8)) 0).getLsbD (j % 8)

/-- The byte with bits `f 0 … f 7`, the least significant first. -/
def octet (f : Nat → Bool) : Byte := (BitVec.ofBoolListLE ((List.range 8).map f)).setWidth 8

/-- The 40 bytes of a state. -/
def bytesOf (B : Bits) : Bytes := (List.range 40).map fun q => octet fun t => B (q / 8) (8 * (7 - q % 8) + t)

/-- `p^k` on bytes. -/
def P (k : Nat) (S : Bytes) : Bytes := bytesOf (perm k (bitsOf S))

/-- The parameters: rate in bytes and number of rounds `b`. -/
structure Var where
  r : Nat
  b : Nat

/-- Table 1. -/
def ascon128 : Var := ⟨8, 6⟩
def ascon128a : Var := ⟨16, 8⟩

/-- A single 1, and zeros up to a multiple of the rate. -/
def pad (r : Nat) (X : Bytes) : Bytes := X ++ 0x80 :: List.replicate (r - 1 - X.length % r) 0

/-- XOR into the first bytes of the state. -/
def xorS (S B : Bytes) : Bytes := xorb S B ++ S.drop B.length

/-- Section 2.4.1: `IV ‖ K ‖ N`, `p^12`, key. -/
def initial (v : Var) (K N : Bytes) : Bytes :=
  let S := P 12 ([128, BitVec.ofNat 8 (8 * v.r), 12, BitVec.ofNat 8 v.b, 0, 0, 0, 0] ++ K ++ N)
  xorb S (List.replicate 24 0 ++ K)

/-- Section 2.4.2: the padded blocks of non-empty associated data, then the domain separation. -/
def assoc (v : Var) (S A : Bytes) : Bytes :=
  let S := if A = [] then S else (Mode.chunks v.r (pad v.r A)).foldl (fun S B => P v.b (xorS S B)) S
  xorb S (List.replicate 39 0 ++ [1])

/-- Section 2.4.3: the padded blocks; what each leaves in the rate is ciphertext, and no permutation follows the last. -/
def duplex (v : Var) : Bytes → List Bytes → Bytes × Bytes
  | S, [] => ([], S)
  | S, B :: Bs =>
    let S := xorS S B
    let r := duplex v (if Bs = [] then S else P v.b S) Bs
    (S.take v.r ++ r.1, r.2)

/-- Section 2.4.4. -/
def final (v : Var) (S K : Bytes) : Bytes :=
  let S := P 12 (xorb S (List.replicate v.r 0 ++ K ++ List.replicate (24 - v.r) 0))
  xorb (S.drop 24) K

/-- Algorithm 1: ciphertext and tag. -/
def aead (v : Var) (K N A M : Bytes) : Bytes :=
  let r := duplex v (assoc v (initial v K N) A) (Mode.chunks v.r (pad v.r M))
  r.1.take M.length ++ final v r.2 K

end Verif.Ascon.Spec
