import Verif.Go.Basic
/-
Go indexing and slicing on slice contents, with the run-time bounds checks as panics.
-/
namespace Verif

/-- `b[i]` : run-time panic when out of range. -/
def idx (b : Bytes) (i : Nat) : Res Byte :=
  match b[i]? with
  | some x => .ok x
  | none => .panic

/-- `b[i:]`. -/
def sliceFrom (b : Bytes) (i : Nat) : Res Bytes :=
  if i ≤ b.length then .ok (b.drop i) else .panic

/-- `b[:i]` for `i ≤ len b` (the code modelled here never reslices up to the capacity). -/
def sliceTo (b : Bytes) (i : Nat) : Res Bytes :=
  if i ≤ b.length then .ok (b.take i) else .panic

/-- Go conversion `byte(n)` of a non-negative int: truncation modulo 256. -/
def byteOf (n : Nat) : Byte := BitVec.ofNat 8 n

theorem byteOf_toNat (n : Nat) : (byteOf n).toNat = n % 256 := by simp [byteOf]

theorem byteOf_toNat_lt (n : Nat) (h : n < 256) : (byteOf n).toNat = n := by
  rw [byteOf_toNat]; omega

theorem byteOf_of_toNat (b : Byte) : byteOf b.toNat = b := by simp [byteOf]

theorem idx_ok (b : Bytes) (i : Nat) (h : i < b.length) : idx b i = .ok b[i] := by
  simp [idx, h]

theorem idx_panic (b : Bytes) (i : Nat) (h : b.length ≤ i) : idx b i = .panic := by
  simp [idx, h]

end Verif
