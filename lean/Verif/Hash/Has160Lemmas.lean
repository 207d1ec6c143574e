import Verif.Hash.Has160
import Verif.Hash.Has160Spec
namespace Verif.Hash.Has160
open Verif.Cipher

/-- The registers at the start of step `i` of a round. -/
def view (i : Nat) (h : List W) : Spec.V :=
  (h.getD (4 - (4 + i) % 5) 0, h.getD (4 - (3 + i) % 5) 0, h.getD (4 - (2 + i) % 5) 0, h.getD (4 - (1 + i) % 5) 0, h.getD (4 - i % 5) 0)

def stepV (x : List W) (xs : List Nat) (k : W) (f : W → W → W → W) (r i : Nat) : Spec.V → Spec.V
  | (A, B, C, D, E) => (E + (rotl A (s1.getD i 0) + x.getD (xs.getD i 0) 0 + k + f B C D), A, rotl B r, C, D)

theorem step_gen (x : List W) (xs : List Nat) (k : W) (f : W → W → W → W) (r : Nat) (h : List W) (hl : h.length = 5) (i : Nat) :
    view (i + 1) (fstep xs k f r x h (4 - (4 + i) % 5) (4 - (3 + i) % 5) (4 - (2 + i) % 5) (4 - (1 + i) % 5) (4 - i % 5) i) =
      stepV x xs k f r i (view i h) := by
  match h, hl with
  | [h0, h1, h2, h3, h4], _ =>
    have e4 : (4 + i) % 5 = (4 + i % 5) % 5 := by omega
    have e3 : (3 + i) % 5 = (3 + i % 5) % 5 := by omega
    have e2 : (2 + i) % 5 = (2 + i % 5) % 5 := by omega
    have e1 : (1 + i) % 5 = (1 + i % 5) % 5 := by omega
    have g4 : (4 + (i + 1)) % 5 = (5 + i % 5) % 5 := by omega
    have g3 : (3 + (i + 1)) % 5 = (4 + i % 5) % 5 := by omega
    have g2 : (2 + (i + 1)) % 5 = (3 + i % 5) % 5 := by omega
    have g1 : (1 + (i + 1)) % 5 = (2 + i % 5) % 5 := by omega
    have g0 : (i + 1) % 5 = (1 + i % 5) % 5 := by omega
    have h5 : i % 5 = 0 ∨ i % 5 = 1 ∨ i % 5 = 2 ∨ i % 5 = 3 ∨ i % 5 = 4 := by omega
    unfold view stepV fstep
    rw [e4, e3, e2, e1, g4, g3, g2, g1, g0]
    rcases h5 with h | h | h | h | h <;> rw [h] <;> rfl

theorem fstep_length (xs : List Nat) (k : W) (f : W → W → W → W) (r : Nat) (x h : List W) (a b c d e j : Nat) :
    (fstep xs k f r x h a b c d e j).length = h.length := by simp [fstep]

theorem loop_gen (x : List W) (xs : List Nat) (k : W) (f : W → W → W → W) (r : Nat) (g : Nat → Spec.V → Spec.V)
    (hg : ∀ i < 20, ∀ v, g i v = stepV x xs k f r i v) :
    ∀ n, n ≤ 20 → ∀ h : List W, h.length = 5 →
      ((List.range n).foldl (fun h i => fstep xs k f r x h (4 - (4 + i) % 5) (4 - (3 + i) % 5) (4 - (2 + i) % 5) (4 - (1 + i) % 5) (4 - i % 5) i) h).length = 5 ∧
      view n ((List.range n).foldl (fun h i => fstep xs k f r x h (4 - (4 + i) % 5) (4 - (3 + i) % 5) (4 - (2 + i) % 5) (4 - (1 + i) % 5) (4 - i % 5) i) h) =
        (List.range n).foldl (fun v j => g j v) (view 0 h) := by
  intro n
  induction n with
  | zero => intro _ h hl; exact ⟨hl, rfl⟩
  | succ n ih =>
    intro hn h hl
    obtain ⟨h1, h2⟩ := ih (by omega) h hl
    rw [List.range_succ, List.foldl_append, List.foldl_append]
    simp only [List.foldl_cons, List.foldl_nil]
    refine ⟨by rw [fstep_length, h1], ?_⟩
    rw [step_gen _ _ _ _ _ _ h1, h2, hg n (by omega)]

theorem view20 (h : List W) : view 20 h = view 0 h := rfl

theorem round_gen (xs : List Nat) (k : W) (f : W → W → W → W) (r : Nat) (x : List W) (g : Nat → Spec.V → Spec.V)
    (hg : ∀ i < 20, ∀ v, g i v = stepV x xs k f r i v) (h : List W) (hl : h.length = 5) :
    (loop20 (fstep xs k f r) x h).length = 5 ∧ view 0 (loop20 (fstep xs k f r) x h) = (List.range 20).foldl (fun v j => g j v) (view 0 h) := by
  have := loop_gen x xs k f r g hg 20 (Nat.le_refl _) h hl
  rw [view20] at this
  exact this

theorem perm4 (A E k f x : W) : A + f + E + x + k = E + (A + x + k + f) := by
  rw [← BitVec.add_assoc, ← BitVec.add_assoc, ← BitVec.add_assoc, BitVec.add_comm E A, BitVec.add_assoc _ f E, BitVec.add_comm f E,
    ← BitVec.add_assoc, BitVec.add_assoc _ f x, BitVec.add_comm f x, ← BitVec.add_assoc, BitVec.add_assoc _ f k, BitVec.add_comm f k, ← BitVec.add_assoc]

theorem m16 (m : List W) (h : m.length = 16) : ∃ a b c d e f g i j k l n o p q r, m = [a, b, c, d, e, f, g, i, j, k, l, n, o, p, q, r] := by
  match m, h with
  | [a, b, c, d, e, f, g, i, j, k, l, n, o, p, q, r], _ => exact ⟨a, b, c, d, e, f, g, i, j, k, l, n, o, p, q, r, rfl⟩

theorem words1 (m : List W) (h : m.length = 16) : ∀ j < 20, (ext1 m).getD (x1.getD j 0) 0 = Spec.X m 0 j := by
  obtain ⟨a, b, c, d, e, f, g, i, j, k, l, n, o, p, q, r, rfl⟩ := m16 m h
  intro j hj
  match j, hj with
  | 0, _ | 1, _ | 2, _ | 3, _ | 4, _ | 5, _ | 6, _ | 7, _ | 8, _ | 9, _ | 10, _ | 11, _ | 12, _ | 13, _ | 14, _ | 15, _ | 16, _ | 17, _ | 18, _ | 19, _ =>
    simp [ext1, x1, x4of, Spec.X, Spec.uses]
  | n + 20, hj => exact absurd hj (by omega)
theorem words2 (m : List W) (h : m.length = 16) : ∀ j < 20, (ext2 m).getD (x2.getD j 0) 0 = Spec.X m 1 j := by
  obtain ⟨a, b, c, d, e, f, g, i, j, k, l, n, o, p, q, r, rfl⟩ := m16 m h
  intro j hj
  match j, hj with
  | 0, _ | 1, _ | 2, _ | 3, _ | 4, _ | 5, _ | 6, _ | 7, _ | 8, _ | 9, _ | 10, _ | 11, _ | 12, _ | 13, _ | 14, _ | 15, _ | 16, _ | 17, _ | 18, _ | 19, _ =>
    simp [ext2, x2, x4of, Spec.X, Spec.uses]
  | n + 20, hj => exact absurd hj (by omega)
theorem words3 (m : List W) (h : m.length = 16) : ∀ j < 20, (ext3 m).getD (x3.getD j 0) 0 = Spec.X m 2 j := by
  obtain ⟨a, b, c, d, e, f, g, i, j, k, l, n, o, p, q, r, rfl⟩ := m16 m h
  intro j hj
  match j, hj with
  | 0, _ | 1, _ | 2, _ | 3, _ | 4, _ | 5, _ | 6, _ | 7, _ | 8, _ | 9, _ | 10, _ | 11, _ | 12, _ | 13, _ | 14, _ | 15, _ | 16, _ | 17, _ | 18, _ | 19, _ =>
    simp [ext3, x3, x4of, Spec.X, Spec.uses]
  | n + 20, hj => exact absurd hj (by omega)
theorem words4 (m : List W) (h : m.length = 16) : ∀ j < 20, (ext4 m).getD (x4.getD j 0) 0 = Spec.X m 3 j := by
  obtain ⟨a, b, c, d, e, f, g, i, j, k, l, n, o, p, q, r, rfl⟩ := m16 m h
  intro j hj
  match j, hj with
  | 0, _ | 1, _ | 2, _ | 3, _ | 4, _ | 5, _ | 6, _ | 7, _ | 8, _ | 9, _ | 10, _ | 11, _ | 12, _ | 13, _ | 14, _ | 15, _ | 16, _ | 17, _ | 18, _ | 19, _ =>
    simp [ext4, x4, x4of, Spec.X, Spec.uses]
  | n + 20, hj => exact absurd hj (by omega)

theorem round_eq (m : List W) (hm : m.length = 16) (h : List W) (hl : h.length = 5) :
    ((loop20 f1 (ext1 m) h).length = 5 ∧ view 0 (loop20 f1 (ext1 m) h) = Spec.round m 0 (view 0 h)) ∧
    ((loop20 f2 (ext2 m) h).length = 5 ∧ view 0 (loop20 f2 (ext2 m) h) = Spec.round m 1 (view 0 h)) ∧
    ((loop20 f3 (ext3 m) h).length = 5 ∧ view 0 (loop20 f3 (ext3 m) h) = Spec.round m 2 (view 0 h)) ∧
    ((loop20 f4 (ext4 m) h).length = 5 ∧ view 0 (loop20 f4 (ext4 m) h) = Spec.round m 3 (view 0 h)) := by
  refine ⟨?_, ?_, ?_, ?_⟩
  · refine round_gen _ _ _ _ _ (Spec.step m 0) ?_ h hl
    rintro i hi ⟨A, B, C, D, E⟩
    simp only [Spec.step, stepV, perm4, words1 m hm i hi]
    rfl
  · refine round_gen _ _ _ _ _ (Spec.step m 1) ?_ h hl
    rintro i hi ⟨A, B, C, D, E⟩
    simp only [Spec.step, stepV, perm4, words2 m hm i hi]
    rfl
  · refine round_gen _ _ _ _ _ (Spec.step m 2) ?_ h hl
    rintro i hi ⟨A, B, C, D, E⟩
    simp only [Spec.step, stepV, perm4, words3 m hm i hi]
    rfl
  · refine round_gen _ _ _ _ _ (Spec.step m 3) ?_ h hl
    rintro i hi ⟨A, B, C, D, E⟩
    simp only [Spec.step, stepV, perm4, words4 m hm i hi]
    rfl

theorem add_view (s h : List W) (hs : s.length = 5) (hl : h.length = 5) :
    (List.zipWith (· + ·) s h).length = 5 ∧ view 0 (List.zipWith (· + ·) s h) = Spec.addV (view 0 s) (view 0 h) := by
  match s, hs, h, hl with
  | [_, _, _, _, _], _, [_, _, _, _, _], _ => exact ⟨rfl, rfl⟩

theorem stepBlock_eq (s : List W) (hs : s.length = 5) (b : Bytes) :
    (stepBlock s b).length = 5 ∧ view 0 (stepBlock s b) = Spec.compress (view 0 s) b := by
  have hm : (ldLE 32 4 16 b).length = 16 := by simp
  have r1 := (round_eq _ hm s hs).1
  have r2 := (round_eq _ hm _ r1.1).2.1
  have r3 := (round_eq _ hm _ r2.1).2.2.1
  have r4 := (round_eq _ hm _ r3.1).2.2.2
  have e : view 0 (loop20 f4 (ext4 (ldLE 32 4 16 b)) (loop20 f3 (ext3 (ldLE 32 4 16 b)) (loop20 f2 (ext2 (ldLE 32 4 16 b)) (loop20 f1 (ext1 (ldLE 32 4 16 b)) s)))) =
      (List.range 4).foldl (fun v r => Spec.round (ldLE 32 4 16 b) r v) (view 0 s) := by
    rw [r4.2, r3.2, r2.2, r1.2]
    simp [List.range_succ]
  rw [Spec.compress, ← e]
  simp only [stepBlock]
  have hl := r4.1
  generalize loop20 f4 (ext4 (ldLE 32 4 16 b)) (loop20 f3 (ext3 (ldLE 32 4 16 b)) (loop20 f2 (ext2 (ldLE 32 4 16 b)) (loop20 f1 (ext1 (ldLE 32 4 16 b)) s))) = h at hl
  exact add_view s h hs hl

theorem fold_eq (L : List Bytes) : ∀ s : List W, s.length = 5 →
    (L.foldl stepBlock s).length = 5 ∧ view 0 (L.foldl stepBlock s) = L.foldl Spec.compress (view 0 s) := by
  induction L with
  | nil => intro s hs; exact ⟨hs, rfl⟩
  | cons b L ih =>
    intro s hs
    have h := stepBlock_eq s hs b
    have h2 := ih (stepBlock s b) h.1
    rw [h.2] at h2
    simp only [List.foldl_cons]
    exact h2

theorem toBytes_view (s : List W) (hs : s.length = 5) : Spec.toBytes (view 0 s) = stLE 4 s := by
  match s, hs with
  | [_, _, _, _, _], _ => rfl

abbrev Holds := Hash.Holds 64 stepBlock initH

theorem lenField (n : Nat) : leBytes 8 (BitVec.ofNat 64 n * 8).toNat = leBytes 8 (8 * n) := by
  rw [← leBytes_mod 8 (8 * n)]
  congr 1
  rw [BitVec.toNat_mul, BitVec.toNat_ofNat, show (8 : BitVec 64).toNat = 8 from rfl]
  omega

theorem checkSum_eq (d : D) (M : Bytes) (h : Holds d M) : checkSum d = .ok (Spec.has160 M) := by
  have hn := h.nx
  have hr := Nat.mod_lt M.length (show 0 < 64 by decide)
  have hT := h.x
  rw [hn] at hT
  have hTl := tailOf_length 64 M
  have hA := fold_eq (fullBlocks 64 (mdPad (leBytes 8 (8 * M.length)) M)) initH rfl
  rw [Spec.has160, show Spec.IV = view 0 initH from rfl, ← hA.2, toBytes_view _ hA.1]
  have hfin : copyInto (List.replicate 20 0#8) (stLE 4 ((fullBlocks 64 (mdPad (leBytes 8 (8 * M.length)) M)).foldl stepBlock initH)) =
      stLE 4 ((fullBlocks 64 (mdPad (leBytes 8 (8 * M.length)) M)).foldl stepBlock initH) :=
    copyInto_eq_left _ _ (by rw [stLE_length, hA.1, List.length_replicate])
  rw [checkSum, if_neg (by rw [h.xl, hn]; omega)]
  simp only
  rw [← hfin]
  congr 2
  congr 1
  change _ = absorb 64 stepBlock initH (mdPad (leBytes 8 (8 * M.length)) M)
  rw [h.len, lenField, hn]
  by_cases hc : M.length % 64 + 1 > 56
  · rw [if_pos hc]
    simp only
    rw [padBuf d.x (tailOf 64 M) _ h.xl hr hT, absorb_md_long _ _ _ _ (leBytes_length ..) (by omega), h.s,
      putAt_zeros _ 0 64 (by omega) (by simp [hTl]; omega), show (tailOf 64 M ++ 0x80#8 :: List.replicate (63 - M.length % 64) 0#8).length - 0 = 64 by simp [hTl]; omega,
      List.take_zero, List.nil_append, zeros_len _ (leBytes_length ..)]
  · rw [if_neg hc]
    simp only
    rw [padBuf d.x (tailOf 64 M) _ h.xl hr hT, absorb_md_short _ _ _ _ (leBytes_length ..) (by omega), h.s,
      padBuf_len _ _ _ hTl (by omega) (leBytes_length ..)]

end Verif.Hash.Has160
