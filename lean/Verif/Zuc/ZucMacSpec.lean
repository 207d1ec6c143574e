import Verif.Zuc.ZucSpec
/-
The two ZUC message authentication codes, from their standards (3GPP TS 35.221, 128-EIA3; ZUC-256, section on MACs),
over the sequence of key words `z`.
-/
namespace Verif.Zuc.Spec

/-- The bits of a string of bytes, most significant first. -/
def bits (m : Bytes) : List Bool := m.flatMap fun b => (List.range 8).map fun i => b.getLsbD (7 - i)

/-- The 32 key stream bits from bit `p` on, as a word. -/
def win (z : Nat → BitVec 32) (p : Nat) : BitVec 32 := (z (p / 32) ++ z (p / 32 + 1)).extractLsb' (32 - p % 32) 32

/-- XOR of the words at positions `p + i` over the message bits `i` that are 1. -/
def acc (z : Nat → BitVec 32) : Nat → List Bool → BitVec 32
  | _, [] => 0
  | p, b :: bs => (if b then win z p else 0) ^^^ acc z (p + 1) bs

/-- 128-EIA3: the words at the 1 bits, the word at position LENGTH and the last key word, number
`⌈LENGTH / 32⌉ + 2` counted from 1. -/
def eia3 (z : Nat → BitVec 32) (m : List Bool) : BitVec 32 :=
  acc z 0 m ^^^ win z m.length ^^^ z ((m.length + 31) / 32 + 1)

/-- The iv of 128-EIA3: COUNT (32 bits), BEARER (5 bits), 27 zero bits; then the same eight bytes again, with DIRECTION
added to the first bit of bytes 8 and 14. -/
def eia3IV (count bearer direction : Nat) : Bytes :=
  let h : Nat := count * 2 ^ 32 + bearer * 2 ^ 27
  let b := fun i => BitVec.ofNat 8 (h / 256 ^ (7 - i))
  (List.range 8).map b ++ (List.range 8).map fun i => b i ^^^ (if i = 0 ∨ i = 6 then BitVec.ofNat 8 (128 * direction) else 0)

/-- The ZUC-256 MAC of `32 * n` bits, word by word: initial tag, the key stream after it at the 1 bits, and at the end
of the message. -/
def mac256 (z : Nat → BitVec 32) (n : Nat) (m : List Bool) : List (BitVec 32) :=
  (List.range n).map fun j => z j ^^^ acc z (32 * n + 32 * j) m ^^^ win z (32 * n + 32 * j + m.length)

/-- Four bytes of a word, most significant first. -/
def wordBytes (a : BitVec 32) : Bytes := (List.range 4).map fun i => a.extractLsb' (24 - 8 * i) 8

end Verif.Zuc.Spec
