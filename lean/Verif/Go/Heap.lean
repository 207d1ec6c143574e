import Verif.Go.Mem
/-
Heap with Go `append`: in place when the capacity suffices, fresh allocation otherwise.
-/
namespace Verif

/-- Memory together with the first unallocated address. -/
structure Heap where
  mem : Mem
  brk : Nat

/-- A slice lies inside the allocated part of the heap. -/
def Slice.Valid (s : Slice) (h : Heap) : Prop := s.len ≤ s.cap ∧ s.ptr + s.cap ≤ h.brk

/-- Contents visible through a slice. -/
def Heap.bytes (h : Heap) (s : Slice) : Bytes := h.mem.read s.ptr s.len

/-- Go `append(s, bs...)`. `slack` is the runtime's growth policy (arbitrary): the capacity of a newly
allocated array is the needed length plus `slack` of it. -/
def appendM (slack : Nat → Nat) (h : Heap) (s : Slice) (bs : Bytes) : Heap × Slice :=
  if s.len + bs.length ≤ s.cap then
    ({ h with mem := h.mem.write (s.ptr + s.len) bs }, { s with len := s.len + bs.length })
  else
    let n := s.len + bs.length
    ({ mem := (h.mem.write h.brk (h.bytes s)).write (h.brk + s.len) bs, brk := h.brk + (n + slack n) },
     { ptr := h.brk, len := n, cap := n + slack n })

/-- `s[i] = b` for an index in range. -/
def storeM (h : Heap) (s : Slice) (i : Nat) (b : Byte) : Heap :=
  { h with mem := h.mem.write (s.ptr + i) [b] }

/-- Memory reachable before the operation (below `h.brk`) is unchanged, except possibly inside
`[lo, hi)`. -/
def FrameExcept (h h' : Heap) (lo hi : Nat) : Prop :=
  h.brk ≤ h'.brk ∧ ∀ a, a < h.brk → (a < lo ∨ hi ≤ a) → h'.mem a = h.mem a

theorem FrameExcept.refl (h : Heap) (lo hi : Nat) : FrameExcept h h lo hi :=
  ⟨Nat.le_refl _, fun _ _ _ => rfl⟩

/-- What `append` does: resulting contents, validity, location, and frame. -/
theorem appendM_spec (slack : Nat → Nat) (h : Heap) (s : Slice) (bs : Bytes) (hv : s.Valid h) :
    let r := appendM slack h s bs
    r.2.Valid r.1 ∧ r.1.bytes r.2 = h.bytes s ++ bs ∧ r.2.len = s.len + bs.length ∧
    FrameExcept h r.1 (s.ptr + s.len) (s.ptr + s.cap) ∧
    ((r.2.ptr = s.ptr ∧ r.2.cap = s.cap) ∨ h.brk ≤ r.2.ptr) := by
  obtain ⟨h1, h2⟩ := hv
  unfold appendM
  by_cases hc : s.len + bs.length ≤ s.cap
  · simp only [hc, if_true]
    refine ⟨⟨hc, h2⟩, ?_, trivial, ⟨Nat.le_refl _, ?_⟩, Or.inl ⟨trivial, trivial⟩⟩
    · simp only [Heap.bytes, Mem.read_append]
      rw [Mem.read_write_disjoint _ _ _ _ _ (Or.inl (by omega)), Mem.read_write_self]
    · intro a ha hor
      rcases hor with hor | hor
      · exact Mem.write_of_lt _ _ _ _ hor
      · exact Mem.write_of_ge _ _ _ _ (by omega)
  · simp only [hc, if_false]
    have hl : (h.bytes s).length = s.len := by simp [Heap.bytes]
    refine ⟨⟨by simp, by simp⟩, ?_, trivial, ⟨by simp, ?_⟩, Or.inr (Nat.le_refl _)⟩
    · simp only [Heap.bytes, Mem.read_append]
      rw [Mem.read_write_disjoint _ _ _ _ _ (Or.inl (by omega)), Mem.read_write_self,
        Mem.read_write_self' _ _ _ _ (by simp)]
    · intro a ha _
      simp only
      rw [Mem.write_of_lt _ _ _ _ (by omega), Mem.write_of_lt _ _ _ _ ha]

end Verif
