import Verif.Mode.Cipher
/-
The loop shape shared by all modes of operation, on memory, and the lemma that turns it into a function
on byte strings.
-/
namespace Verif.Mode

/-- A Go loop `for len(src) > 0 { ... dst = dst[n:]; src = src[n:] }`: `step` processes some bytes at
destination `d`, source `s` with `l` bytes remaining and reports how many it consumed.  `fuel` bounds the
number of iterations; when it runs out the result is `hang`. -/
def segLoop {σ : Type} (step : σ → Mem → Nat → Nat → Nat → Res (Nat × Mem × σ)) :
    Nat → σ → Mem → Nat → Nat → Nat → Res (Mem × σ)
  | 0, st, m, _, _, l => if l = 0 then .ok (m, st) else .hang
  | fuel + 1, st, m, d, s, l =>
    if l = 0 then .ok (m, st)
    else do
      let (n, m, st) ← step st m d s l
      segLoop step fuel st m (d + n) (s + n) (l - n)

/-- `[d, d+l)` and `[s, s+l)` are the same range or disjoint. -/
def SameOrDisjoint (d s l : Nat) : Prop := d = s ∨ d + l ≤ s ∨ s + l ≤ d

/-- The generic correctness lemma. `run` is the abstract meaning on byte strings, `R` relates the object's
registers to the abstract state, `P` is a side condition on the number of remaining bytes. -/
theorem segLoop_ok {σ τ : Type} (step : σ → Mem → Nat → Nat → Nat → Res (Nat × Mem × σ))
    (R : σ → τ → Prop) (run : τ → Bytes → Bytes × τ) (P : Nat → Prop)
    (C : Nat → Nat → Nat → Prop)
    (hC : ∀ d s l n, C d s l → n ≤ l → C (d + n) (s + n) (l - n))
    (hCd : ∀ d s l, C d s l → SameOrDisjoint d s l)
    (hnil : ∀ t, run t [] = ([], t))
    (hstep : ∀ st t m d s l, R st t → 0 < l → C d s l → P l →
      ∃ n o st' t', step st m d s l = .ok (n, m.write d o, st') ∧ 1 ≤ n ∧ n ≤ l ∧ o.length = n ∧
        R st' t' ∧ P (l - n) ∧
        run t (m.read s l) = (o ++ (run t' (m.read (s + n) (l - n))).1,
          (run t' (m.read (s + n) (l - n))).2)) :
    ∀ fuel st t m d s l, l ≤ fuel → R st t → C d s l → P l →
      ∃ st', segLoop step fuel st m d s l = .ok (m.write d (run t (m.read s l)).1, st') ∧
        R st' (run t (m.read s l)).2 ∧ (run t (m.read s l)).1.length = l := by
  intro fuel
  induction fuel with
  | zero =>
    intro st t m d s l hl hR _ _
    have : l = 0 := by omega
    subst this
    refine ⟨st, ?_, ?_, ?_⟩ <;> simp [segLoop, Mem.read, hnil, Mem.write_nil, hR]
  | succ fuel ih =>
    intro st t m d s l hl hR hd hP
    by_cases h0 : l = 0
    · subst h0
      refine ⟨st, ?_, ?_, ?_⟩ <;> simp [segLoop, Mem.read, hnil, Mem.write_nil, hR]
    · obtain ⟨n, o, st', t', e, h1, h2, h3, hR', hP', hrun⟩ := hstep st t m d s l hR (by omega) hd hP
      have hrd : (m.write d o).read (s + n) (l - n) = m.read (s + n) (l - n) := by
        apply Mem.read_write_disjoint
        rcases hCd _ _ _ hd with h | h | h <;> omega
      obtain ⟨st'', e2, hR2, hlen⟩ := ih st' t' (m.write d o) (d + n) (s + n) (l - n) (by omega) hR'
        (hC _ _ _ _ hd h2) hP'
      rw [hrd] at e2 hR2 hlen
      refine ⟨st'', ?_, ?_, ?_⟩
      · rw [segLoop, if_neg h0, e]
        simp only [Res.bind_ok]
        rw [e2, hrun, Mem.write_append, h3]
      · rw [hrun]; exact hR2
      · rw [hrun]; simp only [List.length_append, hlen, h3]; omega

theorem sameOrDisjoint_shift (d s l n : Nat) (h : SameOrDisjoint d s l) (hn : n ≤ l) :
    SameOrDisjoint (d + n) (s + n) (l - n) := by
  unfold SameOrDisjoint at *; omega

/-- If no inexact overlap is detected the ranges are equal or disjoint (or empty). -/
theorem sameOrDisjoint_of_check (dst src : Slice) (h2 : inexactOverlap ⟨dst.ptr, src.len, dst.cap⟩ src = false) :
    src.len = 0 ∨ SameOrDisjoint dst.ptr src.ptr src.len := by
  unfold inexactOverlap anyOverlap at h2
  unfold SameOrDisjoint
  by_cases h0 : src.len = 0
  · exact Or.inl h0
  · right
    by_cases hp : dst.ptr = src.ptr
    · exact Or.inl hp
    · right
      simp only [h0, hp, or_self, if_false, Bool.and_eq_false_iff, decide_eq_false_iff_not] at h2
      omega

/-- The part of `dst` that receives output does not partially overlap `src` (it is the same range or
disjoint). -/
def NoPartialOverlap (dst src : Slice) : Prop := inexactOverlap ⟨dst.ptr, src.len, dst.cap⟩ src = false

/-- No overlap at all between `src` and the part of `dst` that receives output. -/
def NoOverlap (dst src : Slice) : Prop := anyOverlap ⟨dst.ptr, src.len, dst.cap⟩ src = false

instance (dst src : Slice) : Decidable (NoPartialOverlap dst src) := by
  unfold NoPartialOverlap; infer_instance

instance (dst src : Slice) : Decidable (NoOverlap dst src) := by unfold NoOverlap; infer_instance

/-- A sequence of API calls on one object: `ins` are the source contents of the successive calls and `outs`
what each call left in the first `len(src)` bytes of its destination.  Every call may use its own memory and
buffers, subject to the aliasing restriction `A dst src`. -/
inductive Calls {σ : Type} (A : Slice → Slice → Prop) (call : σ → Mem → Slice → Slice → Res (Mem × σ)) :
    σ → List Bytes → List Bytes → σ → Prop
  | nil (st : σ) : Calls A call st [] [] st
  | cons {st st' st'' : σ} {m m' : Mem} {dst src : Slice} {ins outs : List Bytes}
      (ha : A dst src) (h : call st m dst src = .ok (m', st')) (t : Calls A call st' ins outs st'') :
      Calls A call st (m.read src.ptr src.len :: ins) (m'.read dst.ptr src.len :: outs) st''

/-- If every call computes `run` and `run` is a left-to-right stream function, so does any history. -/
theorem calls_run {σ τ : Type} {A : Slice → Slice → Prop}
    {call : σ → Mem → Slice → Slice → Res (Mem × σ)}
    (R : σ → τ → Prop) (run : τ → Bytes → Bytes × τ) (P : Bytes → Prop)
    (hnil : ∀ t, run t [] = ([], t))
    (happ : ∀ t a b, P a → run t (a ++ b) = ((run t a).1 ++ (run (run t a).2 b).1, (run (run t a).2 b).2))
    (hcall : ∀ st t m dst src m' st', R st t → A dst src → call st m dst src = .ok (m', st') →
      P (m.read src.ptr src.len) ∧
      m'.read dst.ptr src.len = (run t (m.read src.ptr src.len)).1 ∧
      R st' (run t (m.read src.ptr src.len)).2)
    {st st' : σ} {ins outs : List Bytes} (h : Calls A call st ins outs st') :
    ∀ t, R st t → outs.flatten = (run t ins.flatten).1 ∧ R st' (run t ins.flatten).2 ∧ ∀ i ∈ ins, P i := by
  induction h with
  | nil st => intro t hR; simp [hnil, hR]
  | cons ha h _ ih =>
    intro t hR
    obtain ⟨hP, e1, e2⟩ := hcall _ t _ _ _ _ _ hR ha h
    obtain ⟨e3, e4, e5⟩ := ih _ e2
    simp only [List.flatten_cons]
    rw [happ _ _ _ hP, e1, e3]
    refine ⟨rfl, e4, ?_⟩
    intro i hi
    rcases List.mem_cons.mp hi with rfl | hi
    · exact hP
    · exact e5 i hi

theorem NoOverlap.disjoint {dst src : Slice} (h : NoOverlap dst src) :
    src.len = 0 ∨ dst.ptr + src.len ≤ src.ptr ∨ src.ptr + src.len ≤ dst.ptr := by
  unfold NoOverlap anyOverlap at h
  by_cases h0 : src.len = 0
  · exact Or.inl h0
  · right
    simp only [Bool.and_eq_false_iff, decide_eq_false_iff_not] at h
    omega

theorem NoOverlap.noPartial {dst src : Slice} (h : NoOverlap dst src) : NoPartialOverlap dst src := by
  unfold NoOverlap NoPartialOverlap inexactOverlap at *
  split
  · rfl
  · exact h

end Verif.Mode
