import Verif.Go.Heap
import Verif.Mode.Cipher
import Verif.Mode.StreamSpec
import Verif.Mode.OfbLemmas
import Verif.Mode.WrapLemmas
/-
What the AEAD packages share: `alias.SliceForAppend`, the standard library's CTR stream, and the vocabulary in
which the AEAD properties are stated.
-/
namespace Verif.Aead
open Verif.Mode (chunks)

/-- tool/alias/alias.go:33-43 `SliceForAppend(in, n)` : head and tail. -/
def sliceForAppend (h : Heap) (s : Slice) (n : Nat) : Heap × Slice × Slice :=
  if s.len + n ≤ s.cap then
    (h, ⟨s.ptr, s.len + n, s.cap⟩, ⟨s.ptr + s.len, n, s.cap - s.len⟩)
  else
    (⟨h.mem.write h.brk (h.bytes s ++ List.replicate n 0), h.brk + (s.len + n)⟩,
     ⟨h.brk, s.len + n, s.len + n⟩, ⟨h.brk + s.len, n, n⟩)

/-- Key stream of the standard library's `cipher.NewCTR(c, iv)`: block `j` is `E(iv + j)`, the IV being a
big-endian number modulo `2^(8·bs)`. -/
def ctrKs (E : Bytes → Bytes) (bs : Nat) (iv : Bytes) (n : Nat) : Bytes :=
  Mode.Spec.keyBytes (Mode.Spec.streamOf bs (fun j => E (Mode.Spec.natBe bs (Mode.Spec.beNat iv + j)))) 0 n

/-- Standard library `cipher.NewCTR(c, iv).XORKeyStream(dst, src)` on a new stream. -/
def ctrXor (c : BlockCipher) (iv : Bytes) (m : Mem) (dst src : Slice) : Res Mem :=
  if iv.length ≠ c.bs then .panic
  else if dst.len < src.len then .panic
  else if inexactOverlap ⟨dst.ptr, src.len, dst.cap⟩ src then .panic
  else .ok (m.write dst.ptr (xorb (m.read src.ptr src.len) (ctrKs c.E c.bs iv src.len)))

/-- `subtle.XORBytes(out, out, data)`: the first `min` bytes of `out` are combined. -/
def xorInto (out data : Bytes) : Bytes := xorb out data ++ out.drop data.length

/-! Vocabulary of the statements. -/

/-- The result of a call that appends `X` to `dst`: the returned slice holds `dst`'s contents followed by `X`, and
no memory that existed before is changed, except the `X.length` bytes behind `dst` when they fit into its
capacity. -/
structure Appended (h : Heap) (dst : Slice) (X : Bytes) (h' : Heap) (r : Slice) : Prop where
  valid : r.Valid h'
  bytes : h'.bytes r = h.bytes dst ++ X
  frame : ∀ a, a < h.brk → (dst.len + X.length ≤ dst.cap → a < dst.ptr + dst.len ∨ dst.ptr + dst.len + X.length ≤ a) →
    h'.mem a = h.mem a
  brk : h.brk ≤ h'.brk

/-- The `n` bytes behind `dst` that a call may write do not meet the slice `x`. -/
def Apart (dst : Slice) (n : Nat) (x : Slice) : Prop :=
  dst.len + n ≤ dst.cap → x.len = 0 ∨ n = 0 ∨ x.ptr + x.len ≤ dst.ptr + dst.len ∨ dst.ptr + dst.len + n ≤ x.ptr

/-- The output goes exactly over the input `x` (as in `Seal(p[:0], …, p, …)`). -/
def InPlace (dst : Slice) (n : Nat) (x : Slice) : Prop := dst.len + n ≤ dst.cap ∧ x.ptr = dst.ptr + dst.len

/-- The `n` output bytes behind `dst` meet `x` without starting at the same address. -/
def PartialOverlap (dst : Slice) (n : Nat) (x : Slice) : Prop :=
  dst.len + n ≤ dst.cap ∧ 0 < x.len ∧ 0 < n ∧ x.ptr ≠ dst.ptr + dst.len ∧
    x.ptr < dst.ptr + dst.len + n ∧ dst.ptr + dst.len < x.ptr + x.len

/-! Facts about `sliceForAppend`. -/

/-- Address of the tail. -/
def tailAt (h : Heap) (s : Slice) (n : Nat) : Nat := if s.len + n ≤ s.cap then s.ptr + s.len else h.brk + s.len

variable {h : Heap} {dst : Slice} {n : Nat}

theorem sfa_tail : (sliceForAppend h dst n).2.2.ptr = tailAt h dst n ∧ (sliceForAppend h dst n).2.2.len = n := by
  unfold sliceForAppend tailAt
  split <;> exact ⟨rfl, rfl⟩

theorem sfa_head : (sliceForAppend h dst n).2.1.ptr + dst.len = tailAt h dst n ∧
    (sliceForAppend h dst n).2.1.len = dst.len + n := by
  unfold sliceForAppend tailAt
  split <;> exact ⟨rfl, rfl⟩

theorem sfa_read {p k : Nat} (hx : p + k ≤ h.brk) : (sliceForAppend h dst n).1.mem.read p k = h.mem.read p k := by
  unfold sliceForAppend
  split
  · rfl
  · exact Mem.read_write_disjoint _ _ _ _ _ (Or.inl hx)

theorem sfa_bytes {x : Slice} (hx : x.Valid h) : (sliceForAppend h dst n).1.mem.read x.ptr x.len = h.bytes x :=
  sfa_read (by have := hx.1; have := hx.2; omega)

theorem sfa_brk : h.brk ≤ (sliceForAppend h dst n).1.brk := by
  unfold sliceForAppend
  split
  · exact Nat.le_refl _
  · exact Nat.le_add_right _ _

/-- Storing `X` over the tail is appending `X`. -/
theorem sfa_appended (hv : dst.Valid h) (X : Bytes) (hX : X.length = n) :
    Appended h dst X ⟨(sliceForAppend h dst n).1.mem.write (tailAt h dst n) X, (sliceForAppend h dst n).1.brk⟩
      (sliceForAppend h dst n).2.1 := by
  obtain ⟨h1, h2⟩ := hv
  unfold sliceForAppend tailAt
  by_cases hf : dst.len + n ≤ dst.cap
  · simp only [hf, if_true]
    refine ⟨⟨hf, h2⟩, ?_, ?_, Nat.le_refl _⟩
    · simp only [Heap.bytes]
      rw [Mem.read_append, Mem.read_write_disjoint _ _ _ _ _ (Or.inl (Nat.le_refl _)),
        Mem.read_write_self' _ _ _ _ hX]
    · intro a _ hor
      rcases hor (by rw [hX]; exact hf) with h | h
      · exact Mem.write_of_lt _ _ _ _ h
      · exact Mem.write_of_ge _ _ _ _ h
  · simp only [hf, if_false]
    have hl : (h.bytes dst ++ List.replicate n (0 : Byte)).length = dst.len + n := by simp [Heap.bytes]
    have hb : (h.bytes dst).length = dst.len := by simp [Heap.bytes]
    refine ⟨⟨Nat.le_refl _, Nat.le_refl _⟩, ?_, ?_, Nat.le_add_right _ _⟩
    · simp only [Heap.bytes]
      rw [Mem.read_append, Mem.read_write_disjoint _ _ _ _ _ (Or.inl (Nat.le_refl _)),
        Mem.read_write_self' _ _ _ _ hX, Mem.write_append,
        Mem.read_write_disjoint _ _ _ _ _ (Or.inl (by change _ ≤ h.brk + (h.bytes dst).length; rw [hb]; exact Nat.le_refl _)),
        Mem.read_write_self' _ _ _ _ (Mem.read_length ..)]
    · intro a ha _
      simp only
      rw [Mem.write_of_lt _ _ _ _ (by omega), Mem.write_of_lt _ _ _ _ ha]

/-- Nothing written: as appending nothing new, memory below the old break unchanged. -/
theorem sfa_frame (a : Nat) (ha : a < h.brk) : (sliceForAppend h dst n).1.mem a = h.mem a := by
  unfold sliceForAppend
  split
  · rfl
  · exact Mem.write_of_lt _ _ _ _ ha

/-- A slice apart from the output, or in place. -/
theorem sfa_apart {x : Slice} (hx : x.Valid h) (ha : Apart dst n x) :
    x.len = 0 ∨ n = 0 ∨ x.ptr + x.len ≤ tailAt h dst n ∨ tailAt h dst n + n ≤ x.ptr := by
  unfold tailAt
  by_cases hf : dst.len + n ≤ dst.cap
  · rw [if_pos hf]; exact ha hf
  · rw [if_neg hf]
    have := hx.1; have := hx.2
    right; right; left; omega

theorem sfa_apart_read {x : Slice} (hx : x.Valid h) (ha : Apart dst n x) (X : Bytes)
    (hX : X.length ≤ n) :
    Mem.read ((sliceForAppend h dst n).1.mem.write (tailAt h dst n) X) x.ptr x.len = h.bytes x := by
  rcases sfa_apart hx ha with h0 | h0 | h0 | h0
  · rw [h0]; unfold Heap.bytes; rw [h0]; rfl
  · rw [List.eq_nil_of_length_eq_zero (show X.length = 0 by omega), Mem.write_nil]; exact sfa_bytes hx
  · rw [Mem.read_write_disjoint _ _ _ _ _ (Or.inl h0)]; exact sfa_bytes hx
  · rw [Mem.read_write_disjoint _ _ _ _ _ (Or.inr (by omega))]; exact sfa_bytes hx

theorem tailAt_inPlace {x : Slice} (hi : InPlace dst n x) : tailAt h dst n = x.ptr := by
  unfold tailAt; rw [if_pos hi.1, hi.2]

/-- The overlap test passes for slices apart or in place. -/
theorem inexact_false_of {p k k' cp : Nat} {x : Slice} (hk : k' ≤ k)
    (hx : x.ptr = p ∨ x.len = 0 ∨ k = 0 ∨ x.ptr + x.len ≤ p ∨ p + k ≤ x.ptr) :
    inexactOverlap ⟨p, k', cp⟩ x = false := by
  unfold inexactOverlap
  by_cases h0 : k' = 0 ∨ x.len = 0 ∨ p = x.ptr
  · simp [h0]
  · rw [if_neg h0]
    have h1 : ¬ k' = 0 := fun e => h0 (Or.inl e)
    have h2 : ¬ x.len = 0 := fun e => h0 (Or.inr (Or.inl e))
    have h3 : ¬ p = x.ptr := fun e => h0 (Or.inr (Or.inr e))
    unfold anyOverlap
    simp only [Bool.and_eq_false_iff, decide_eq_false_iff_not]
    omega

/-- The overlap test of the AEADs. -/
theorem inexact_sfa {x : Slice} (hx : x.Valid h) :
    inexactOverlap (sliceForAppend h dst n).2.2 x = true ↔ PartialOverlap dst n x := by
  obtain ⟨e1, e2⟩ := @sfa_tail h dst n
  obtain ⟨hx1, hx2⟩ := hx
  unfold inexactOverlap PartialOverlap anyOverlap
  rw [e1, e2]
  unfold tailAt
  by_cases hf : dst.len + n ≤ dst.cap
  · rw [if_pos hf]
    by_cases h0 : n = 0 ∨ x.len = 0 ∨ dst.ptr + dst.len = x.ptr
    · rw [if_pos h0]; simp only [Bool.false_eq_true, false_iff]; omega
    · rw [if_neg h0]; simp only [Bool.and_eq_true, decide_eq_true_eq]; omega
  · rw [if_neg hf]
    by_cases h0 : n = 0 ∨ x.len = 0 ∨ h.brk + dst.len = x.ptr
    · rw [if_pos h0]; simp only [Bool.false_eq_true, false_iff]; omega
    · rw [if_neg h0]; simp only [Bool.and_eq_true, decide_eq_true_eq]; omega

theorem inexact_mono {p k k' cp cp' : Nat} {x : Slice} (hk : k' ≤ k) (h0 : inexactOverlap ⟨p, k, cp⟩ x = false) :
    inexactOverlap ⟨p, k', cp'⟩ x = false := by
  unfold inexactOverlap anyOverlap at h0 ⊢
  by_cases h1 : k' = 0 ∨ x.len = 0 ∨ p = x.ptr
  · simp only [h1, if_true]
  · have h2 : ¬ (k = 0 ∨ x.len = 0 ∨ p = x.ptr) := by omega
    simp only [h1, h2, if_false, Bool.and_eq_false_iff, decide_eq_false_iff_not] at h0 ⊢
    omega

theorem Apart.sub {x y : Slice} (ha : Apart dst n x) (h1 : x.ptr ≤ y.ptr) (h2 : y.ptr + y.len ≤ x.ptr + x.len) :
    Apart dst n y := by
  intro hf
  have := ha hf
  omega

theorem not_partial_of_apart {x : Slice} (ha : Apart dst n x) : ¬ PartialOverlap dst n x := by
  intro ⟨h1, h2, h3, _, h5, h6⟩
  have := ha h1
  omega

theorem not_partial_of_inPlace {x : Slice} (ha : InPlace dst n x) : ¬ PartialOverlap dst n x :=
  fun h => h.2.2.2.1 ha.2

/-- A slice apart from the output keeps its contents. -/
theorem Appended.keeps {X : Bytes} {h' : Heap} {r x : Slice} (ha : Appended h dst X h' r) (hx : x.Valid h)
    (hap : Apart dst X.length x) : x.Valid h' ∧ h'.bytes x = h.bytes x := by
  obtain ⟨hx1, hx2⟩ := hx
  refine ⟨⟨hx1, Nat.le_trans hx2 ha.brk⟩, ?_⟩
  unfold Heap.bytes
  apply List.ext_getElem
  · simp
  · intro i h1 h2
    rw [Mem.read_length] at h1
    rw [Mem.read_getElem, Mem.read_getElem]
    apply ha.frame _ (by omega)
    intro hf
    have := hap hf
    omega

theorem ctrKs_length (E : Bytes → Bytes) (bs : Nat) (iv : Bytes) (n : Nat) : (ctrKs E bs iv n).length = n := by
  simp [ctrKs, Mode.Spec.keyBytes]

/-- The CTR stream at work: when the ranges are equal or disjoint. -/
theorem ctrXor_ok (c : BlockCipher) (iv : Bytes) (hiv : iv.length = c.bs) (m : Mem) (d src : Slice)
    (h1 : src.len ≤ d.len) (h2 : inexactOverlap ⟨d.ptr, src.len, d.cap⟩ src = false) :
    ctrXor c iv m d src = .ok (m.write d.ptr (xorb (m.read src.ptr src.len) (ctrKs c.E c.bs iv src.len))) := by
  unfold ctrXor
  rw [if_neg (by simpa using hiv), if_neg (by omega), h2]
  rfl

theorem xor_ctr_ctr (E : Bytes → Bytes) (bs : Nat) (iv p : Bytes) (n : Nat) (h : p.length = n) :
    xorb (xorb p (ctrKs E bs iv n)) (ctrKs E bs iv n) = p :=
  xorb_xorb_cancel_right _ _ (by rw [ctrKs_length]; omega)

end Verif.Aead
