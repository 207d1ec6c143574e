import Verif.Hash.Stream
/-
HAS-160 as TTAS.KO-12.0011 describes it: 80 steps on five registers that move along.
-/
namespace Verif.Hash.Has160.Spec
open Verif.Cipher

abbrev W := BitVec 32
abbrev V := W × W × W × W × W

/-- Amount of rotation of `A` in step `j` of a round. -/
def rotA (j : Nat) : Nat := [5, 11, 7, 15, 6, 13, 8, 14, 7, 12, 9, 11, 8, 15, 6, 12, 9, 14, 5, 13].getD j 0

/-- Rotation of `B`, additive constant and boolean function of round `r`. -/
def rotB (r : Nat) : Nat := [10, 17, 25, 30].getD r 0
def K (r : Nat) : W := [0x00000000, 0x5a827999, 0x6ed9eba1, 0x8f1bbcdc].getD r 0
def F (r : Nat) (x y z : W) : W :=
  match r with
  | 0 => (x &&& y) ||| (~~~x &&& z)
  | 2 => y ^^^ (x ||| ~~~z)
  | _ => x ^^^ y ^^^ z

/-- Which message words a step of a round uses: every fifth step uses the XOR of four words, the others one word. -/
def uses (r : Nat) : List (List Nat) :=
  [[[8, 9, 10, 11], [0], [1], [2], [3], [12, 13, 14, 15], [4], [5], [6], [7], [0, 1, 2, 3], [8], [9], [10], [11], [4, 5, 6, 7], [12], [13], [14], [15]],
   [[1, 4, 11, 14], [3], [6], [9], [12], [0, 7, 10, 13], [15], [2], [5], [8], [3, 6, 9, 12], [11], [14], [1], [4], [2, 5, 8, 15], [7], [10], [13], [0]],
   [[4, 6, 13, 15], [12], [5], [14], [7], [1, 3, 8, 10], [0], [9], [2], [11], [5, 7, 12, 14], [4], [13], [6], [15], [0, 2, 9, 11], [8], [1], [10], [3]],
   [[0, 5, 10, 15], [7], [2], [13], [8], [1, 6, 11, 12], [3], [14], [9], [4], [2, 7, 8, 13], [15], [10], [5], [0], [3, 4, 9, 14], [11], [6], [1], [12]]].getD r []

/-- The word a step uses. -/
def X (m : List W) (r j : Nat) : W := (((uses r).getD j []).map fun i => m.getD i 0).foldl (· ^^^ ·) 0

/-- Step `j` of round `r`. -/
def step (m : List W) (r j : Nat) : V → V
  | (A, B, C, D, E) => (rotl A (rotA j) + F r B C D + E + X m r j + K r, A, rotl B (rotB r), C, D)

/-- Round `r`: twenty steps. -/
def round (m : List W) (r : Nat) (v : V) : V := (List.range 20).foldl (fun v j => step m r j v) v

def addV : V → V → V
  | (a, b, c, d, e), (a', b', c', d', e') => (a + a', b + b', c + c', d + d', e + e')

/-- The compression function. -/
def compress (v : V) (B : Bytes) : V := addV v ((List.range 4).foldl (fun v r => round (ldLE 32 4 16 B) r v) v)

def IV : V := (0x67452301, 0xefcdab89, 0x98badcfe, 0x10325476, 0xc3d2e1f0)

def toBytes : V → Bytes
  | (a, b, c, d, e) => stLE 4 [a, b, c, d, e]

/-- The digest: the bit length (modulo 2^64) is stored in 8 little-endian bytes. -/
def has160 (M : Bytes) : Bytes := toBytes ((fullBlocks 64 (mdPad (leBytes 8 (8 * M.length)) M)).foldl compress IV)

end Verif.Hash.Has160.Spec
