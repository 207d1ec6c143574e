import Verif.Cipher.Common
/-
Trivium as its authors specify it (De Cannière and Preneel, eSTREAM).  The state is the list of the 288 bits `s1 … s288`.
-/
namespace Verif.Strm.TriviumSpec

/-- Bit `s_i`, counted from 1. -/
def s (S : List Bool) (i : Nat) : Bool := S.getD (i - 1) false

/-- One step: the key stream bit and the next state. -/
def step (S : List Bool) : Bool × List Bool :=
  let t1 := s S 66 ^^ s S 93
  let t2 := s S 162 ^^ s S 177
  let t3 := s S 243 ^^ s S 288
  let z := t1 ^^ t2 ^^ t3
  let t1 := t1 ^^ (s S 91 && s S 92) ^^ s S 171
  let t2 := t2 ^^ (s S 175 && s S 176) ^^ s S 264
  let t3 := t3 ^^ (s S 286 && s S 287) ^^ s S 69
  (z, (t3 :: S.take 92) ++ (t1 :: (S.drop 93).take 83) ++ (t2 :: (S.drop 177).take 110))

/-- The key's 80 bits `K1 … K80`: the eSTREAM order, `K1` is the top bit of the last byte, `K80` the low bit of the
first (the number the bytes are in little-endian order, top bit first). -/
def bits80 (k : Bytes) : List Bool := (List.range 80).map fun i => (Cipher.leN k).testBit (79 - i)

/-- `(s1…s93) = (K1…K80,0…0)`, `(s94…s177) = (IV1…IV80,0…0)`, `(s178…s288) = (0…0,1,1,1)`. -/
def init (key iv : Bytes) : List Bool :=
  (bits80 key ++ List.replicate 13 false) ++ (bits80 iv ++ List.replicate 4 false) ++
    (List.replicate 108 false ++ [true, true, true])

/-- The state after `n` steps. -/
def run : Nat → List Bool → List Bool
  | 0, S => S
  | n + 1, S => (step (run n S)).2

/-- Bit `j` of the key stream: 4·288 steps produce no output. -/
def bit (key iv : Bytes) (j : Nat) : Bool := (step (run (4 * 288 + j) (init key iv))).1

/-- Byte `i` of the key stream: eight bits, the first in the low position. -/
def keystream (key iv : Bytes) (i : Nat) : Byte :=
  BitVec.ofNat 8 (((List.range 8).map fun j => (bit key iv (8 * i + j)).toNat * 2 ^ j).sum)

end Verif.Strm.TriviumSpec
