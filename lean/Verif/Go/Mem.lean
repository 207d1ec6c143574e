import Verif.Go.Basic
/-
Flat byte-addressed memory and slices, used where aliasing of buffers matters.
-/
namespace Verif

/-- Byte-addressed memory. -/
abbrev Mem := Nat → Byte

/-- A Go slice header for `[]byte`. -/
structure Slice where
  ptr : Nat
  len : Nat
  cap : Nat
  deriving Repr, DecidableEq

/-- Contents of `n` bytes at `p`. -/
def Mem.read (m : Mem) (p n : Nat) : Bytes := (List.range n).map (fun i => m (p + i))

/-- Memory after storing `bs` at `p`. -/
def Mem.write (m : Mem) (p : Nat) (bs : Bytes) : Mem :=
  fun a => if p ≤ a ∧ a < p + bs.length then bs.getD (a - p) 0 else m a

/-- `tool/alias/alias.go:9-13` `AnyOverlap` : addresses of the two byte ranges intersect. -/
def anyOverlap (x y : Slice) : Bool :=
  x.len > 0 && y.len > 0 && decide (x.ptr ≤ y.ptr + y.len - 1) && decide (y.ptr ≤ x.ptr + x.len - 1)

/-- `tool/alias/alias.go:21-26` `InexactOverlap`. -/
def inexactOverlap (x y : Slice) : Bool :=
  if x.len = 0 ∨ y.len = 0 ∨ x.ptr = y.ptr then false else anyOverlap x y

namespace Mem

@[simp] theorem read_length (m : Mem) (p n : Nat) : (m.read p n).length = n := by simp [read]

theorem read_getElem (m : Mem) (p n i : Nat) (h : i < (m.read p n).length) :
    (m.read p n)[i] = m (p + i) := by simp [read]

theorem write_of_lt (m : Mem) (p : Nat) (bs : Bytes) (a : Nat) (h : a < p) :
    m.write p bs a = m a := by
  unfold write; rw [if_neg]; omega

theorem write_of_ge (m : Mem) (p : Nat) (bs : Bytes) (a : Nat) (h : p + bs.length ≤ a) :
    m.write p bs a = m a := by
  unfold write; rw [if_neg]; omega

theorem write_at (m : Mem) (p : Nat) (bs : Bytes) (i : Nat) (h : i < bs.length) :
    m.write p bs (p + i) = bs[i] := by
  unfold write
  rw [if_pos ⟨by omega, by omega⟩, Nat.add_sub_cancel_left, List.getD_eq_getElem?_getD,
    List.getElem?_eq_getElem h]; rfl

@[simp] theorem read_write_self (m : Mem) (p : Nat) (bs : Bytes) :
    (m.write p bs).read p bs.length = bs := by
  apply List.ext_getElem
  · simp
  · intro i h1 h2
    rw [read_getElem, write_at _ _ _ _ h2]

theorem read_write_self' (m : Mem) (p n : Nat) (bs : Bytes) (h : bs.length = n) :
    (m.write p bs).read p n = bs := by subst h; simp

theorem read_write_disjoint (m : Mem) (p q n : Nat) (bs : Bytes)
    (h : q + n ≤ p ∨ p + bs.length ≤ q) :
    (m.write p bs).read q n = m.read q n := by
  apply List.ext_getElem
  · simp
  · intro i h1 h2
    simp only [read_length] at h1
    rw [read_getElem, read_getElem]
    rcases h with h | h
    · exact write_of_lt _ _ _ _ (by omega)
    · exact write_of_ge _ _ _ _ (by omega)

theorem write_nil (m : Mem) (p : Nat) : m.write p [] = m := by
  funext a; unfold write; rw [if_neg]; simp

theorem write_write_same (m : Mem) (p : Nat) (a b : Bytes) (h : a.length = b.length) :
    (m.write p a).write p b = m.write p b := by
  funext x
  by_cases hx : p ≤ x ∧ x < p + b.length
  · simp only [write, if_pos hx]
  · simp only [write, if_neg hx, h]

theorem write_append (m : Mem) (p : Nat) (a b : Bytes) :
    m.write p (a ++ b) = (m.write p a).write (p + a.length) b := by
  funext x
  by_cases h1 : x < p
  · rw [write_of_lt _ _ _ _ h1, write_of_lt _ _ _ _ (by omega), write_of_lt _ _ _ _ h1]
  · by_cases h2 : x < p + a.length
    · rw [write_of_lt _ (p + a.length) b x h2]
      obtain ⟨i, rfl⟩ : ∃ i, x = p + i := ⟨x - p, by omega⟩
      rw [write_at _ p (a ++ b) i (by simp; omega), write_at _ p a i (by omega)]
      rw [List.getElem_append_left]
    · by_cases h3 : x < p + a.length + b.length
      · obtain ⟨i, rfl⟩ : ∃ i, x = p + a.length + i := ⟨x - (p + a.length), by omega⟩
        rw [write_at _ _ _ _ (by omega), Nat.add_assoc, write_at _ _ _ _ (by simp; omega),
          List.getElem_append_right (by omega)]
        congr 1; omega
      · rw [write_of_ge _ _ _ _ (by simp; omega), write_of_ge _ _ _ _ (by omega),
          write_of_ge _ _ _ _ (by omega)]

theorem read_append (m : Mem) (p a b : Nat) :
    m.read p (a + b) = m.read p a ++ m.read (p + a) b := by
  apply List.ext_getElem
  · simp
  · intro i h1 h2
    simp only [read_length] at h1
    rw [read_getElem]
    by_cases h : i < a
    · rw [List.getElem_append_left (by simpa using h), read_getElem]
    · rw [List.getElem_append_right (by simp; omega), read_getElem]
      congr 1; simp; omega

theorem read_take (m : Mem) (p n k : Nat) : (m.read p n).take k = m.read p (min k n) := by
  apply List.ext_getElem
  · simp
  · intro i h1 h2
    rw [List.getElem_take, read_getElem, read_getElem]

theorem read_drop (m : Mem) (p n k : Nat) : (m.read p n).drop k = m.read (p + k) (n - k) := by
  apply List.ext_getElem
  · simp
  · intro i h1 h2
    rw [List.getElem_drop, read_getElem, read_getElem, Nat.add_assoc]

end Mem
end Verif
