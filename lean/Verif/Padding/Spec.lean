import Verif.Go.Slice
/-
What each padding scheme means, independently of the code.
-/
namespace Verif.Padding.Spec

/-- `m` is the least multiple of `bs` strictly greater than `n`. -/
def LeastMultipleAbove (n bs m : Nat) : Prop :=
  bs ∣ m ∧ n < m ∧ ∀ m', bs ∣ m' → n < m' → m ≤ m'

/-- `src` is `t` followed by `k ≥ 1` copies of the byte `k`. -/
def PKCS7 (t src : Bytes) : Prop :=
  ∃ k : Nat, 1 ≤ k ∧ k ≤ 255 ∧ src = t ++ List.replicate k (BitVec.ofNat 8 k)

/-- `src` is `t` followed by `k-1` zero bytes and the byte `k ≥ 1`. -/
def X923 (t src : Bytes) : Prop :=
  ∃ k : Nat, 1 ≤ k ∧ k ≤ 255 ∧ src = t ++ List.replicate (k - 1) 0 ++ [BitVec.ofNat 8 k]

/-- `src` is `t` followed by `k-1` arbitrary bytes and the byte `k ≥ 1`. -/
def ISO10126 (t src : Bytes) : Prop :=
  ∃ (k : Nat) (f : Bytes), 1 ≤ k ∧ k ≤ 255 ∧ f.length = k - 1 ∧ src = t ++ f ++ [BitVec.ofNat 8 k]

/-- The one degenerate form the length-byte schemes of this library also accept: a final byte 0,
nothing removed. -/
def TrailingZero (t src : Bytes) : Prop := src = t ∧ src.getLast? = some 0

/-- `src` is `t`, the marker 0x80, and zero or more zero bytes. -/
def ISO7816 (t src : Bytes) : Prop := ∃ z : Nat, src = t ++ 0x80 :: List.replicate z 0

/-- The complement byte of trailing-bit-complement padding: 0x00 after a last bit 1, 0xFF after a last
bit 0 or after nothing. -/
def tbcByte (t : Bytes) : Byte :=
  match t.getLast? with
  | none => 0xFF
  | some b => if b.toNat % 2 = 1 then 0x00 else 0xFF

/-- `src` is `t` followed by one or more complement bytes. -/
def TBC (t src : Bytes) : Prop := ∃ k : Nat, 1 ≤ k ∧ src = t ++ List.replicate k (tbcByte t)

end Verif.Padding.Spec
