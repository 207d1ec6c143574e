import Verif.Padding.HeapModel
import Verif.Padding.Lemmas
/-
Property C10 : which memory `Padding` writes, and that the heap-level code computes the list-level model.
-/
namespace Verif.Padding

/-- The result slice `r` of an operation on `text` is good: valid, with contents `out`, and memory that
existed before is unchanged outside the spare capacity of `text`; the result either extends `text` in place
or lives in fresh memory. -/
structure Good (h : Heap) (text : Slice) (out : Bytes) (r : Heap × Slice) : Prop where
  valid : r.2.Valid r.1
  bytes : r.1.bytes r.2 = out
  len : r.2.len = out.length
  grows : text.len ≤ r.2.len
  frame : FrameExcept h r.1 (text.ptr + text.len) (text.ptr + text.cap)
  place : (r.2.ptr = text.ptr ∧ r.2.cap = text.cap) ∨ h.brk ≤ r.2.ptr

theorem Good.refl (h : Heap) (text : Slice) (hv : text.Valid h) : Good h text (h.bytes text) (h, text) :=
  ⟨hv, rfl, by simp [Heap.bytes], Nat.le_refl _, FrameExcept.refl _ _ _, Or.inl ⟨rfl, rfl⟩⟩

theorem Good.append {slack : Nat → Nat} {h : Heap} {text : Slice} {out : Bytes} {r : Heap × Slice}
    (g : Good h text out r) (bs : Bytes) :
    Good h text (out ++ bs) (appendM slack r.1 r.2 bs) := by
  have hs := appendM_spec slack r.1 r.2 bs g.valid
  obtain ⟨h1, h2, h3, ⟨h4a, h4b⟩, h5⟩ := hs
  refine ⟨h1, by rw [h2, g.bytes], by rw [h3, g.len]; simp, by have := g.grows; omega, ⟨?_, ?_⟩, ?_⟩
  · exact Nat.le_trans g.frame.1 h4a
  · intro a ha hor
    have hbrk := g.frame.1
    rw [h4b a (by omega) ?_]
    · exact g.frame.2 a ha hor
    · have := g.grows
      rcases g.place with ⟨p1, p2⟩ | p
      · rw [p1, p2]; rcases hor with h | h
        · left; omega
        · right; exact h
      · left; omega
  · rcases h5 with ⟨p1, p2⟩ | p
    · rw [p1, p2]; exact g.place
    · right; exact Nat.le_trans g.frame.1 p

theorem read_write_one (m : Mem) (p n i : Nat) (b : Byte) :
    (m.write (p + i) [b]).read p n = (m.read p n).set i b := by
  apply List.ext_getElem
  · simp
  · intro j h1 h2
    rw [Mem.read_getElem, List.getElem_set]
    by_cases hj : i = j
    · subst hj
      have := Mem.write_at m (p + i) [b] 0 (by simp)
      simpa using this
    · rw [if_neg hj, Mem.read_getElem]
      rcases Nat.lt_or_ge j i with h | h
      · exact Mem.write_of_lt _ _ _ _ (by omega)
      · exact Mem.write_of_ge _ _ _ _ (by simp; omega)

theorem Good.store {h : Heap} {text : Slice} {out : Bytes} {r : Heap × Slice}
    (g : Good h text out r) (i : Nat) (b : Byte) (h1 : text.len ≤ i) (h2 : i < r.2.len) :
    Good h text (out.set i b) (storeM r.1 r.2 i b, r.2) := by
  refine ⟨g.valid, ?_, by simp [g.len], g.grows, ⟨g.frame.1, ?_⟩, g.place⟩
  · simp only [Heap.bytes, storeM]
    rw [read_write_one]
    have := g.bytes
    simp only [Heap.bytes] at this
    rw [this]
  · intro a ha hor
    have hv := g.valid
    simp only [storeM]
    have : (Mem.write r.1.mem (r.2.ptr + i) [b]) a = r.1.mem a := by
      rcases g.place with ⟨p1, p2⟩ | p
      · rcases hor with h | h
        · exact Mem.write_of_lt _ _ _ _ (by omega)
        · exact Mem.write_of_ge _ _ _ _ (by simp; have := hv.1; omega)
      · exact Mem.write_of_lt _ _ _ _ (by omega)
    rw [this]; exact g.frame.2 a ha hor

theorem bytes_length (h : Heap) (s : Slice) : (h.bytes s).length = s.len := by simp [Heap.bytes]

/-- Every padding: the heap-level code yields exactly the list-level padding of the text's contents, and the
only pre-existing memory it may change is the spare capacity `[ptr+len, ptr+cap)` of the caller's slice. -/
theorem C10_only_spare_capacity (slack : Nat → Nat) (rnd : Nat → Nat) (bt : String) (h : Heap)
    (text : Slice) (bs : Int) (hv : text.Valid h) :
    Good h text (pkcs7Pad (h.bytes text) bs) (pkcs7PadM slack h text bs) ∧
    Good h text (pkcs5Pad (h.bytes text) bs) (pkcs5PadM slack h text bs) ∧
    Good h text (x923Pad (h.bytes text) bs) (x923PadM slack h text bs) ∧
    Good h text (iso10126Pad rnd (h.bytes text) bs) (iso10126PadM slack rnd h text bs) ∧
    Good h text (iso7816Pad (h.bytes text) bs) (iso7816PadM slack h text bs) ∧
    Good h text (zeroPad (h.bytes text) bs) (zeroPadM slack h text bs) ∧
    Good h text (tbcPad (h.bytes text) bs) (tbcPadM slack h text bs) ∧
    Good h text (pkcs1Pad rnd bt (h.bytes text) bs) (pkcs1PadM slack rnd bt h text bs) := by
  have g0 := Good.refl h text hv
  have hl := bytes_length h text
  refine ⟨?_, ?_, ?_, ?_, ?_, ?_, ?_, ?_⟩
  · unfold pkcs7Pad pkcs7PadM sizeM
    by_cases hb : bs < 1
    · simpa [hb] using g0
    · simp only [hb, if_false, hl]; exact g0.append _
  · unfold pkcs5Pad pkcs5PadM
    simp only [hl]; exact g0.append _
  · unfold x923Pad x923PadM sizeM
    by_cases hb : bs < 1
    · simpa [hb] using g0
    · simp only [hb, if_false, hl]
      have hp := padSize_pos text.len bs.toNat (by omega)
      have g1 := g0.append (slack := slack) (List.replicate (padSize text.len bs.toNat) 0)
      have hlen := g1.len
      rw [List.length_append, List.length_replicate, hl] at hlen
      dsimp only at hlen
      have := g1.store ((appendM slack h text (List.replicate (padSize text.len bs.toNat) 0)).2.len - 1)
        (byteOf (padSize text.len bs.toNat)) (by omega) (by dsimp only; omega)
      rw [List.length_append, List.length_replicate, hl, ← hlen]
      exact this
  · unfold iso10126Pad iso10126PadM sizeM
    by_cases hb : bs < 1
    · simpa [hb] using g0
    · simp only [hb, if_false, hl]; exact (g0.append _).append _
  · unfold iso7816Pad iso7816PadM sizeM
    by_cases hb : bs < 1
    · simpa [hb] using g0
    · simp only [hb, if_false, hl]
      have hp := padSize_pos text.len bs.toNat (by omega)
      have g1 := g0.append (slack := slack) (List.replicate (padSize text.len bs.toNat) 0)
      have hlen := g1.len
      rw [List.length_append, List.length_replicate, hl] at hlen
      dsimp only at hlen
      exact g1.store text.len 0x80 (Nat.le_refl _) (by dsimp only; omega)
  · unfold zeroPad zeroPadM sizeM
    by_cases hb : bs < 1
    · simpa [hb] using g0
    · simp only [hb, if_false, hl]; exact g0.append _
  · unfold tbcPad tbcPadM sizeM
    by_cases hb : bs < 1
    · simpa [hb] using g0
    · simp only [hb, if_false, hl]
      have e : (if text.len > 0 then
            if (h.bytes text).getD (text.len - 1) 0 &&& 1 ≠ 0 then (0x00 : Byte) else 0xFF else 0xFF)
          = (if text.len > 0 then
            if h.mem (text.ptr + (text.len - 1)) &&& 1 ≠ 0 then (0x00 : Byte) else 0xFF else 0xFF) := by
        by_cases h0 : text.len > 0
        · have : (h.bytes text).getD (text.len - 1) 0 = h.mem (text.ptr + (text.len - 1)) := by
            rw [List.getD_eq_getElem?_getD, List.getElem?_eq_getElem (by rw [hl]; omega)]
            simp [Heap.bytes, Mem.read]
          rw [this]
        · simp [h0]
      rw [e]; exact g0.append _
  · unfold pkcs1Pad pkcs1PadM
    simp only [hl]
    by_cases hb : bs < 1
    · simpa [hb] using g0
    · simp only [hb, if_false]
      by_cases hf : bs - 3 - (text.len : Int) < 8
      · simpa [hf] using g0
      · simp only [hf, if_false]
        by_cases b0 : bt = "00"
        · simp only [b0, if_true]
          exact ((((g0.append _).append _).append _).append _).append _
        · by_cases b1 : bt = "01"
          · simp only [b1, if_true]
            exact ((((g0.append _).append _).append _).append _).append _
          · by_cases b2 : bt = "02"
            · simp only [b2, if_true]
              exact ((((g0.append _).append _).append _).append _).append _
            · simp only [b0, b1, b2, if_false]
              exact ((g0.append _).append _).append _

/-- With no spare capacity nothing the caller can see changes. -/
theorem C10_no_spare_capacity_no_write (h : Heap) (text : Slice) (out : Bytes) (r : Heap × Slice)
    (hcap : text.cap = text.len) (g : Good h text out r) :
    ∀ a, a < h.brk → r.1.mem a = h.mem a := by
  intro a ha
  refine g.frame.2 a ha ?_
  rw [hcap]; omega

/-- The unconditional claim fails: padding the first 3 bytes of an 8-byte buffer overwrites the other 5. -/
theorem C10_spare_capacity_clobbered_violated :
    ∃ (h : Heap) (text other : Slice), text.Valid h ∧ other.Valid h ∧
      (pkcs7PadM (fun _ => 0) h text 8).1.bytes other ≠ h.bytes other :=
  ⟨⟨fun a => BitVec.ofNat 8 a, 8⟩, ⟨0, 3, 8⟩, ⟨3, 5, 5⟩, ⟨by decide, by decide⟩, ⟨by decide, by decide⟩, by decide⟩

example : (⟨0, 3, 3⟩ : Slice).Valid ⟨fun a => BitVec.ofNat 8 a, 8⟩ := ⟨by decide, by decide⟩
example : (pkcs7PadM (fun _ => 0) ⟨fun a => BitVec.ofNat 8 a, 8⟩ ⟨1, 3, 3⟩ 8).1.bytes
    (pkcs7PadM (fun _ => 0) ⟨fun a => BitVec.ofNat 8 a, 8⟩ ⟨1, 3, 3⟩ 8).2 = [1, 2, 3, 5, 5, 5, 5, 5] := by decide

end Verif.Padding
