import Verif.Ascon.Ascon
import Verif.Ascon.AsconSpec
/-! Words and bytes of the Ascon model. -/
namespace Verif.Ascon
open Verif

abbrev zs (n : Nat) : Bytes := List.replicate n 0
/-- The bytes of a word. -/
scoped notation "be64" => put64n 8

theorem put_len (n : Nat) (x : W) : (put64n n x).length = n := by simp [put64n]

theorem put_get (n : Nat) (x : W) (i : Nat) (h : i < (put64n n x).length) : (put64n n x)[i] = byteAt i x := by
  simp [put64n]

theorem put_take (n m : Nat) (x : W) : (put64n n x).take m = put64n (min m n) x := by
  simp only [put64n, ← List.map_take, List.take_range]

theorem byteAt_bit (i : Nat) (x : W) (k : Nat) : (byteAt i x).getLsbD k = (decide (k < 8) && x.getLsbD (56 - 8 * i + k)) := by
  unfold byteAt
  rw [BitVec.getLsbD_setWidth, BitVec.getLsbD_ushiftRight]

theorem byteAt_xor (i : Nat) (x y : W) : byteAt i (x ^^^ y) = byteAt i x ^^^ byteAt i y := by
  apply BitVec.eq_of_getLsbD_eq
  intro k hk
  simp only [BitVec.getLsbD_xor, BitVec.getLsbD_or, BitVec.getLsbD_and, byteAt_bit, hk, decide_true, Bool.true_and]

theorem byteAt_or (i : Nat) (x y : W) : byteAt i (x ||| y) = byteAt i x ||| byteAt i y := by
  apply BitVec.eq_of_getLsbD_eq
  intro k hk
  simp only [BitVec.getLsbD_xor, BitVec.getLsbD_or, BitVec.getLsbD_and, byteAt_bit, hk, decide_true, Bool.true_and]

theorem byteAt_and (i : Nat) (x y : W) : byteAt i (x &&& y) = byteAt i x &&& byteAt i y := by
  apply BitVec.eq_of_getLsbD_eq
  intro k hk
  simp only [BitVec.getLsbD_xor, BitVec.getLsbD_or, BitVec.getLsbD_and, byteAt_bit, hk, decide_true, Bool.true_and]

theorem byteAt_not (i : Nat) (x : W) : byteAt i (~~~x) = ~~~ byteAt i x := by
  apply BitVec.eq_of_getLsbD_eq
  intro k hk
  simp only [byteAt_bit, BitVec.getLsbD_not, hk]
  by_cases h : i < 8
  · simp; omega
  · simp; omega

theorem byteAt_shift (b : Byte) (i j : Nat) (hi : i < 8) (hj : j < 8) :
    byteAt j (b.setWidth 64 <<< (56 - 8 * i)) = if i = j then b else 0 := by
  apply BitVec.eq_of_getLsbD_eq
  intro k hk
  rw [byteAt_bit, BitVec.getLsbD_shiftLeft, BitVec.getLsbD_setWidth]
  rcases Nat.lt_trichotomy i j with h | h | h
  · rw [if_neg (by omega)]
    have : 56 - 8 * j + k < 56 - 8 * i := by omega
    simp [this]
  · subst h
    rw [if_pos rfl, Nat.add_sub_cancel_left]
    have h1 : 56 - 8 * i + k < 64 := by omega
    have h2 : k < 64 := by omega
    simp [hk, h1, h2]
  · rw [if_neg (by omega)]
    have : b.getLsbD (56 - 8 * j + k - (56 - 8 * i)) = false := BitVec.getLsbD_of_ge _ _ (by omega)
    simp [this]

/-- A word is its eight bytes. -/
theorem word_ext (x y : W) (h : ∀ i < 8, byteAt i x = byteAt i y) : x = y := by
  apply BitVec.eq_of_getLsbD_eq
  intro k hk
  have := congrArg (fun b : Byte => b.getLsbD (k % 8)) (h (7 - k / 8) (by omega))
  simp only [byteAt_bit] at this
  have h1 : k % 8 < 8 := by omega
  have h2 : 56 - 8 * (7 - k / 8) + k % 8 = k := by omega
  simpa [h1, h2] using this

theorem be64_inj (x y : W) (h : be64 x = be64 y) : x = y := by
  apply word_ext
  intro i hi
  have := congrArg (fun l : Bytes => l[i]?) h
  simpa [put64n, hi] using this

theorem put_xor (n : Nat) (x y : W) : put64n n (x ^^^ y) = xorb (put64n n x) (put64n n y) := by
  apply List.ext_getElem
  · simp [put64n, xorb]
  · intro i h1 h2
    rw [put_get, xorb_getElem, put_get, put_get, byteAt_xor]

theorem be64n_fold (b : Bytes) (j : Nat) (hj : j < 8) (L : List Nat) (hL : ∀ i ∈ L, i < 8) (acc : W) (ha : byteAt j acc = 0 ∨ byteAt j acc = b.getD j 0) :
    byteAt j (L.foldl (fun x i => x ||| (b.getD i 0).setWidth 64 <<< (56 - i * 8)) acc) =
      if j ∈ L then b.getD j 0 else byteAt j acc := by
  induction L generalizing acc with
  | nil => simp
  | cons i L ih =>
    have hi := hL i (by simp)
    rw [List.foldl_cons]
    have e : byteAt j (acc ||| (b.getD i 0).setWidth 64 <<< (56 - i * 8)) = if i = j then b.getD j 0 else byteAt j acc := by
      rw [byteAt_or, Nat.mul_comm i 8, byteAt_shift _ _ _ hi hj]
      by_cases h : i = j
      · subst h
        rw [if_pos rfl, if_pos rfl]
        rcases ha with h | h <;> rw [h] <;> simp
      · rw [if_neg h, if_neg h]; simp
    rw [ih (fun k hk => hL k (by simp [hk])) _ (by rw [e]; split <;> simp_all), e]
    by_cases h1 : j ∈ L
    · simp [h1]
    · by_cases h2 : i = j
      · subst h2; simp
      · have : ¬ j = i := fun h => h2 h.symm
        simp [h1, h2, this]

theorem byteAt_zero (j : Nat) : byteAt j (0 : W) = 0 := by
  apply BitVec.eq_of_getLsbD_eq; intro k hk; rw [byteAt_bit]; simp

theorem byteAt_be64n (b : Bytes) (hb : b.length ≤ 8) (j : Nat) (hj : j < 8) : byteAt j (be64n b) = b.getD j 0 := by
  unfold be64n
  rw [be64n_fold b j hj _ (by intro i hi; simp at hi; omega) 0 (Or.inl (byteAt_zero j)), byteAt_zero]
  by_cases h : j < b.length
  · simp [h]
  · simp [h, List.getElem?_eq_none (Nat.le_of_not_lt h)]

/-- The bytes of `be64n`. -/
theorem be64_be64n (b : Bytes) (hb : b.length ≤ 8) : be64 (be64n b) = b ++ zs (8 - b.length) := by
  apply List.ext_getElem
  · simp [put_len]; omega
  · intro i h1 h2
    rw [put_len] at h1
    rw [put_get, byteAt_be64n b hb i h1]
    by_cases h : i < b.length
    · rw [List.getElem_append_left h]; simp [h]
    · rw [List.getElem_append_right (by omega)]; simp [List.getElem?_eq_none (Nat.le_of_not_lt h)]

theorem be64n_be64 (x : W) : be64n (be64 x) = x := by
  apply be64_inj
  rw [be64_be64n _ (by rw [put_len]; exact Nat.le_refl _), put_len]
  simp

theorem be64_pad (n : Nat) (hn : n < 8) : be64 (pad n) = zs n ++ 0x80 :: zs (7 - n) := by
  have e : pad n = (0x80#8).setWidth 64 <<< (56 - 8 * n) := rfl
  apply List.ext_getElem
  · simp [put_len]; omega
  · intro i h1 h2
    rw [put_len] at h1
    rw [put_get, e, byteAt_shift _ _ _ hn h1]
    rcases Nat.lt_trichotomy i n with h | h | h
    · rw [if_neg (by omega), List.getElem_append_left (by simp; exact h)]; simp
    · subst h
      rw [if_pos rfl, List.getElem_append_right (by simp)]; simp
    · rw [if_neg (by omega), List.getElem_append_right (by simp; omega)]
      obtain ⟨d, rfl⟩ : ∃ d, i = n + 1 + d := ⟨i - (n + 1), by omega⟩
      have : n + 1 + d - (zs n).length = d + 1 := by simp; omega
      simp only [this, List.getElem_cons_succ, List.getElem_replicate]

theorem byteAt_mask (x : W) (n j : Nat) (hn : n ≤ 8) (hj : j < 8) : byteAt j (mask x n) = if j < n then 0 else byteAt j x := by
  induction n with
  | zero => simp [mask]
  | succ n ih =>
    have e : mask x (n + 1) = mask x n &&& ~~~((255#8).setWidth 64 <<< (56 - 8 * n)) := by
      unfold mask
      rw [List.range_succ, List.foldl_append]; rfl
    rw [e, byteAt_and, byteAt_not, byteAt_shift _ _ _ (by omega) hj, ih (by omega)]
    by_cases h1 : j < n
    · simp [h1, show j < n + 1 by omega]
    · by_cases h2 : n = j
      · subst h2; simp
      · rw [if_neg h1, if_neg h2, if_neg (by omega)]
        show byteAt j x &&& BitVec.allOnes 8 = _
        exact BitVec.and_allOnes

theorem be64_mask_or (x : W) (c : Bytes) (hc : c.length ≤ 8) :
    be64 (mask x c.length ||| be64n c) = c ++ (be64 x).drop c.length := by
  apply List.ext_getElem
  · simp [put_len]; omega
  · intro i h1 h2
    rw [put_len] at h1
    rw [put_get, byteAt_or, byteAt_mask _ _ _ hc h1, byteAt_be64n c hc i h1]
    by_cases h : i < c.length
    · rw [List.getElem_append_left h, if_pos h]; simp [h]
    · rw [List.getElem_append_right (by omega), if_neg h, List.getElem_drop, put_get,
        show c.length + (i - c.length) = i by omega]
      simp [List.getElem?_eq_none (Nat.le_of_not_lt h)]

/-! ### The state as 40 bytes -/

/-- The bytes of a state. -/
def ser (s : St) : Bytes := be64 s.x0 ++ (be64 s.x1 ++ (be64 s.x2 ++ (be64 s.x3 ++ be64 s.x4)))

theorem ser_len (s : St) : (ser s).length = 40 := by simp [ser, put_len]

theorem ser_inj (s t : St) (h : ser s = ser t) : s = t := by
  unfold ser at h
  obtain ⟨h0, h⟩ := List.append_inj h (by simp [put_len])
  obtain ⟨h1, h⟩ := List.append_inj h (by simp [put_len])
  obtain ⟨h2, h⟩ := List.append_inj h (by simp [put_len])
  obtain ⟨h3, h4⟩ := List.append_inj h (by simp [put_len])
  cases s; cases t
  simp only [St.mk.injEq]
  refine ⟨be64_inj _ _ h0, be64_inj _ _ h1, be64_inj _ _ h2, be64_inj _ _ h3, be64_inj _ _ h4⟩

end Verif.Ascon
