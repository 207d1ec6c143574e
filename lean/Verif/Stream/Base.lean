import Verif.Mode.StreamProps2
import Mathlib.Tactic.ByContra
import Mathlib.Data.List.Induction
/-
What it means for an object with `XORKeyStream(dst, src)` to be a stream cipher, and the shape most of the
stream ciphers of /repo/cipher share.
-/
namespace Verif.Strm
open Verif.Mode

/-- Specification.  `call x m dst src` is one `XORKeyStream(dst, src)` on an object in state `x` in memory `m`.
The object is a stream cipher with key stream `ks` (the byte at every position) when, after every history of
successful calls whose buffers satisfy `A`, (1) the outputs joined together are the inputs joined together XOR
the key stream from position 0, wherever the data was cut, and (2) the next call, for every memory and every
pair of buffers, either XORs its input with the key stream at the current position into dst and changes no
other byte of memory, or panics, and it panics exactly when dst is too short or the buffers overlap partially. -/
def IsStream {σ : Type} (A : Slice → Slice → Prop) (call : σ → Mem → Slice → Slice → Res (Mem × σ)) (x : σ)
    (ks : Nat → Byte) : Prop :=
  ∀ ins outs y, Calls A call x ins outs y →
    outs.flatten = xorb ins.flatten (Spec.keyBytes ks 0 ins.flatten.length) ∧
    ∀ m dst src, A dst src →
      (src.len ≤ dst.len ∧ NoPartialOverlap dst src →
        ∃ y', call y m dst src = .ok (m.write dst.ptr (xorb (m.read src.ptr src.len)
          (Spec.keyBytes ks ins.flatten.length src.len)), y')) ∧
      (¬ (src.len ≤ dst.len ∧ NoPartialOverlap dst src) → call y m dst src = .panic)

/-- The condition that allows every pair of buffers. -/
def Any (_ _ : Slice) : Prop := True

/-- A second object with the same key stream undoes any history of the first, however either was cut up. -/
theorem IsStream.roundtrip {σ τ : Type} {A B : Slice → Slice → Prop} {call : σ → Mem → Slice → Slice → Res (Mem × σ)}
    {call' : τ → Mem → Slice → Slice → Res (Mem × τ)} {x y : σ} {x' y' : τ} {ks : Nat → Byte}
    (h : IsStream A call x ks) (h' : IsStream B call' x' ks) {ins outs ins' outs' : List Bytes}
    (he : Calls A call x ins outs y) (hd : Calls B call' x' ins' outs' y') (hf : ins'.flatten = outs.flatten) :
    outs'.flatten = ins.flatten := by
  rw [(h' _ _ _ hd).1, hf, (h _ _ _ he).1]
  have hl : (xorb ins.flatten (Spec.keyBytes ks 0 ins.flatten.length)).length = ins.flatten.length := by
    simp [Spec.keyBytes]
  rw [hl]
  exact xorb_xorb_cancel_right _ _ (by simp [Spec.keyBytes])

/-- How it is proved: a relation between states and positions. -/
theorem isStream_of {σ : Type} {A : Slice → Slice → Prop} {call : σ → Mem → Slice → Slice → Res (Mem × σ)} {x : σ}
    {ks : Nat → Byte} (R : σ → Nat → Prop) (h0 : R x 0)
    (hok : ∀ st p m dst src, R st p → A dst src → src.len ≤ dst.len → NoPartialOverlap dst src →
      ∃ st', call st m dst src = .ok (m.write dst.ptr (xorb (m.read src.ptr src.len) (Spec.keyBytes ks p src.len)), st') ∧
        R st' (p + src.len))
    (hbad : ∀ st m dst src, ¬ (src.len ≤ dst.len ∧ NoPartialOverlap dst src) → call st m dst src = .panic) :
    IsStream A call x ks := by
  have key : ∀ st ins outs y, Calls A call st ins outs y → ∀ p, R st p →
      outs.flatten = xorb ins.flatten (Spec.keyBytes ks p ins.flatten.length) ∧ R y (p + ins.flatten.length) := by
    intro st ins outs y hc
    induction hc with
    | nil st => intro p hp; simpa [Spec.keyBytes, xorb] using hp
    | @cons st st' st'' m m' dst src ins outs ha h t ih =>
      intro p hp
      have hg : src.len ≤ dst.len ∧ NoPartialOverlap dst src := by
        by_contra hn
        rw [hbad _ _ _ _ hn] at h; cases h
      obtain ⟨s1, e1, e2⟩ := hok st p m dst src hp ha hg.1 hg.2
      rw [e1] at h
      obtain ⟨rfl, rfl⟩ := Prod.mk.inj (Res.ok.inj h)
      obtain ⟨f1, f2⟩ := ih _ e2
      have hl : (xorb (m.read src.ptr src.len) (Spec.keyBytes ks p src.len)).length = src.len := by
        simp [Spec.keyBytes]
      refine ⟨?_, ?_⟩
      · rw [List.flatten_cons, List.flatten_cons, f1, Mem.read_write_self' _ _ _ _ hl, List.length_append,
          ← ksTake_keyBytes, ← ksTake_keyBytes, ← ksTake_keyBytes, ksTake_append, xorb_append _ _ _ _ (by simp)]
        simp
      · rw [List.flatten_cons, List.length_append, Mem.read_length, ← Nat.add_assoc]; exact f2
  intro ins outs y hc
  obtain ⟨k1, k2⟩ := key x ins outs y hc 0 h0
  refine ⟨k1, fun m dst src ha => ⟨fun hg => ?_, fun hn => hbad _ _ _ _ hn⟩⟩
  obtain ⟨s1, e1, _⟩ := hok y _ m dst src k2 ha hg.1 hg.2
  rw [Nat.zero_add] at e1
  exact ⟨s1, e1⟩

/-- Every list of inputs is the input of some history, when buffers that do not overlap are allowed. -/
theorem isStream_exists {σ : Type} {A : Slice → Slice → Prop} {call : σ → Mem → Slice → Slice → Res (Mem × σ)} {x : σ}
    {ks : Nat → Byte} (h : IsStream A call x ks) (ins : List Bytes)
    (hA : ∀ i ∈ ins, A ⟨i.length, i.length, i.length⟩ ⟨0, i.length, i.length⟩) : ∃ outs y, Calls A call x ins outs y := by
  have happ : ∀ st i1 o1 y1 i2 o2 y2, Calls A call st i1 o1 y1 → Calls A call y1 i2 o2 y2 → Calls A call st (i1 ++ i2) (o1 ++ o2) y2 := by
    intro st i1 o1 y1 i2 o2 y2 h1 h2
    induction h1 with
    | nil => exact h2
    | cons ha h t ih => exact Calls.cons ha h (ih h2)
  induction ins using List.reverseRecOn with
  | nil => exact ⟨[], x, .nil x⟩
  | append_singleton ins i ih =>
    obtain ⟨outs, y, hc⟩ := ih (fun j hj => hA j (by simp [hj]))
    have hno : NoOverlap ⟨i.length, i.length, i.length⟩ ⟨0, i.length, i.length⟩ := by
      simp [NoOverlap, anyOverlap]; omega
    have hr : (Mem.write (fun _ => 0) 0 i).read 0 i.length = i := Mem.read_write_self _ _ _
    obtain ⟨y', e⟩ := ((h _ _ _ hc).2 (Mem.write (fun _ => 0) 0 i) ⟨i.length, i.length, i.length⟩ ⟨0, i.length, i.length⟩
      (hA i (by simp))).1 ⟨Nat.le_refl _, hno.noPartial⟩
    have := Calls.cons (A := A) (hA i (by simp)) e (Calls.nil y')
    simp only [hr] at this
    exact ⟨_, _, happ _ _ _ _ _ _ _ hc this⟩

/-! ### Byte generators -/

/-- `f` applied `n` times, the first application innermost. -/
def iterate {σ : Type} (f : σ → σ) : Nat → σ → σ
  | 0, s => s
  | n + 1, s => iterate f n (f s)

theorem iterate_succ {σ : Type} (f : σ → σ) (n : Nat) (s : σ) : iterate f (n + 1) s = f (iterate f n s) := by
  induction n generalizing s with
  | zero => rfl
  | succ n ih => exact ih (f s)

theorem iterate_add {σ : Type} (f : σ → σ) (a b : Nat) (s : σ) : iterate f (a + b) s = iterate f b (iterate f a s) := by
  induction b with
  | zero => rfl
  | succ b ih => rw [← Nat.add_assoc, iterate_succ, ih, iterate_succ]

/-- One iteration of a loop `for i := range src { dst[i] = src[i] ^ next() }`. -/
def byteStep {σ : Type} (g : σ → Byte × σ) (_e : Nat) (x : σ) (m : Mem) (d s _l : Nat) : Res (Nat × Mem × σ) :=
  .ok (1, m.write d [m s ^^^ (g x).1], (g x).2)

/-- The byte at position `i` of what a byte generator produces. -/
def genByte {σ : Type} (g : σ → Byte × σ) (x : σ) (i : Nat) : Byte := (g (iterate (fun s => (g s).2) i x)).1

/-- One call of a byte generator, with the state it leaves. -/
theorem byteStep_call {σ : Type} (g : σ → Byte × σ) (x : σ) (p : Nat) (m : Mem) (dst src : Slice) (h2 : src.len ≤ dst.len)
    (h3 : NoPartialOverlap dst src) : xorKeyStream (byteStep g) (iterate (fun s => (g s).2) p x) m dst src =
      .ok (m.write dst.ptr (xorb (m.read src.ptr src.len) (Spec.keyBytes (genByte g x) p src.len)),
        iterate (fun s => (g s).2) (p + src.len) x) := by
  have hs : StreamOK (byteStep g) (fun st p => st = iterate (fun s => (g s).2) p x) (addRun (genByte g x)) := by
    apply streamOK_of_addStep
    intro e st p m d s l hR hl _
    refine ⟨1, (g st).2, Nat.le_refl _, hl, ?_, ?_⟩
    · have : xorb (Mem.read m s 1) (ksTake (genByte g x) p 1) = [m s ^^^ (g st).1] := by
        subst hR
        simp [Mem.read, ksTake, xorb, genByte, List.range_succ, List.range_zero]
      rw [this]; rfl
    · rw [hR, iterate_succ]
  obtain ⟨st', e1, e2, _⟩ := hs.call (t := p) rfl m dst src h2 h3
  rw [e1]
  have e3 : st' = iterate (fun s => (g s).2) (p + src.len) x := by simpa [addRun] using e2
  rw [e3]
  simp [addRun, ksTake_keyBytes]

theorem xorKeyStream_panics {σ : Type} (step : Nat → σ → Mem → Nat → Nat → Nat → Res (Nat × Mem × σ)) (st : σ) (m : Mem)
    (dst src : Slice) (hn : ¬ (src.len ≤ dst.len ∧ NoPartialOverlap dst src)) : xorKeyStream step st m dst src = .panic := by
  unfold xorKeyStream
  by_cases h2 : src.len ≤ dst.len
  · have h3 : ¬ NoPartialOverlap dst src := fun h3 => hn ⟨h2, h3⟩
    rw [if_neg (by omega), if_pos (by simpa [NoPartialOverlap] using h3)]
  · rw [if_pos (by omega)]

theorem byteStep_stream {σ : Type} (g : σ → Byte × σ) (x : σ) :
    IsStream Any (xorKeyStream (byteStep g)) x (genByte g x) := by
  refine isStream_of (fun st p => st = iterate (fun s => (g s).2) p x) rfl ?_ ?_
  · intro st p m dst src hR _ h2 h3
    exact ⟨_, by rw [hR, byteStep_call g x p m dst src h2 h3], rfl⟩
  · intro st m dst src hn
    exact xorKeyStream_panics _ _ _ _ _ hn

/-- Two states whose next byte and next state agree produce the same bytes. -/
theorem genByte_congr {σ : Type} (g : σ → Byte × σ) {x y : σ} (h : g x = g y) (i : Nat) : genByte g x i = genByte g y i := by
  cases i with
  | zero => exact congrArg Prod.fst h
  | succ i => show (g (iterate _ i (g x).2)).1 = (g (iterate _ i (g y).2)).1; rw [h]

/-- `XORKeyStream` functions that return at once on an empty input, before any check. -/
def skipEmpty {σ : Type} (call : σ → Mem → Slice → Slice → Res (Mem × σ)) (x : σ) (m : Mem) (dst src : Slice) :
    Res (Mem × σ) := if src.len = 0 then .ok (m, x) else call x m dst src

theorem skipEmpty_eq {σ : Type} (step : Nat → σ → Mem → Nat → Nat → Nat → Res (Nat × Mem × σ)) :
    skipEmpty (xorKeyStream step) = xorKeyStream step := by
  funext x m dst src
  unfold skipEmpty
  split
  · rename_i h
    unfold xorKeyStream
    rw [if_neg (by omega), if_neg (by simp [inexactOverlap, h]), h]
    rfl
  · rfl

/-- Generators that keep a block of `k` bytes and hand it out byte by byte. -/
theorem genByte_blocks {σ ρ : Type} (g : σ → Byte × σ) (k : Nat) (hk : 0 < k) (blk : ρ → Bytes) (next : ρ → ρ)
    (st : ρ → Nat → σ)
    (hblk : ∀ r j, j < k → g (st r j) = ((blk r).getD j 0, if j + 1 = k then st (next r) 0 else st r (j + 1)))
    (r0 : ρ) (i : Nat) : genByte g (st r0 0) i = (blk (iterate next (i / k) r0)).getD (i % k) 0 := by
  have key : ∀ i, iterate (fun s => (g s).2) i (st r0 0) = st (iterate next (i / k) r0) (i % k) := by
    intro i
    induction i with
    | zero => simp [iterate]
    | succ i ih =>
      rw [iterate_succ, ih, hblk _ _ (Nat.mod_lt _ hk)]
      have hm := Nat.mod_lt i hk
      have hd := Nat.div_add_mod i k
      by_cases h : i % k + 1 = k
      · rw [if_pos h]
        have e : i + 1 = k * (i / k + 1) := by rw [Nat.mul_add, Nat.mul_one]; omega
        rw [e, Nat.mul_div_cancel_left _ hk, Nat.mul_mod_right, iterate_succ]
      · rw [if_neg h]
        have e : i + 1 = k * (i / k) + (i % k + 1) := by omega
        have e1 : (i + 1) / k = i / k := by
          rw [e, Nat.mul_add_div hk, Nat.div_eq_of_lt (show i % k + 1 < k by omega), Nat.add_zero]
        have e2 : (i + 1) % k = i % k + 1 := by
          conv => lhs; rw [e]
          rw [Nat.mul_add_mod, Nat.mod_eq_of_lt (show i % k + 1 < k by omega)]
        rw [e1, e2]
  rw [genByte, key, hblk _ _ (Nat.mod_lt _ hk)]

end Verif.Strm
