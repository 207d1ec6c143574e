import Verif.Padding.Model
import Verif.Padding.Spec
namespace Verif.Padding

theorem padSize_pos (n bs : Nat) (h : 1 ≤ bs) : 1 ≤ padSize n bs := by
  have := Nat.mod_lt n (show bs > 0 by omega); unfold padSize; omega

theorem padSize_le (n bs : Nat) : padSize n bs ≤ bs := by unfold padSize; omega

theorem padSize_dvd (n bs : Nat) (h : 1 ≤ bs) : bs ∣ n + padSize n bs := by
  have h1 := Nat.mod_lt n (show bs > 0 by omega)
  have h2 := Nat.div_add_mod n bs
  refine ⟨n / bs + 1, ?_⟩
  unfold padSize
  rw [Nat.mul_add]; omega

theorem padSize_least (n bs : Nat) (h : 1 ≤ bs) :
    Spec.LeastMultipleAbove n bs (n + padSize n bs) := by
  refine ⟨padSize_dvd n bs h, by have := padSize_pos n bs h; omega, ?_⟩
  rintro m' ⟨q, rfl⟩ hlt
  have h1 := Nat.mod_lt n (show bs > 0 by omega)
  have h2 := Nat.div_add_mod n bs
  have h3 : n / bs < q := by
    rcases Nat.lt_or_ge (n / bs) q with h3 | h3
    · exact h3
    · have := Nat.mul_le_mul_left bs h3; omega
  have h4 := Nat.mul_le_mul_left bs (show n / bs + 1 ≤ q by omega)
  rw [Nat.mul_add] at h4
  unfold padSize; omega

theorem checkEq_eq (p : Bytes) (w : Byte) (i c : Nat) (h : i + c ≤ p.length) :
    checkEq p w i c = if (p.drop i).take c = List.replicate c w then .ok () else .err := by
  induction c generalizing i with
  | zero => simp [checkEq]
  | succ c ih =>
    have hi : i < p.length := by omega
    rw [checkEq, idx_ok p i hi]
    rw [List.drop_eq_getElem_cons hi, List.take_succ_cons, List.replicate_succ]
    simp only [Res.bind_ok, List.cons.injEq]
    by_cases hb : p[i] = w
    · simp [hb, ih (i + 1) (by omega)]
    · simp [hb]

theorem lastIndexByte_spec (s : Bytes) (c : Byte) (n : Nat) (hn : n ≤ s.length) :
    match lastIndexByte s c n with
    | none => ∀ i, i < n → s.getD i 0 ≠ c
    | some k => k < n ∧ s.getD k 0 = c ∧ ∀ i, k < i → i < n → s.getD i 0 ≠ c := by
  induction n with
  | zero => simp [lastIndexByte]
  | succ n ih =>
    rw [lastIndexByte]
    by_cases h : s.getD n 0 = c
    · simp only [h, if_true]
      exact ⟨by omega, trivial, fun i h1 h2 => by omega⟩
    · simp only [h, if_false]
      have := ih (by omega)
      revert this
      cases hl : lastIndexByte s c n with
      | none =>
        intro this i hi
        rcases Nat.lt_or_ge i n with h1 | h1
        · exact this i h1
        · have : i = n := by omega
          subst this; exact h
      | some k =>
        rintro ⟨h1, h2, h3⟩
        refine ⟨by omega, h2, fun i h4 h5 => ?_⟩
        rcases Nat.lt_or_ge i n with h6 | h6
        · exact h3 i h4 h6
        · have : i = n := by omega
          subst this; exact h

theorem idx_last (src : Bytes) (h : src ≠ []) :
    idx src (src.length - 1) = .ok (src.getLast h) := by
  have : 0 < src.length := List.length_pos_iff.mpr h
  rw [idx_ok _ _ (by omega), List.getLast_eq_getElem]

theorem toNat_nonneg_sub (n k : Nat) (h : k ≤ n) : ((n : Int) - (k : Int)).toNat = n - k := by omega

/-- Removing `k` bytes that satisfy a check: shape of all length-byte unpaddings. -/
theorem pkcs7Unpad_eq (src : Bytes) (h : src ≠ []) :
    pkcs7Unpad src =
      let last := src.getLast h
      let k := last.toNat
      if src.length < k then .err
      else if src.drop (src.length - k) = List.replicate k last then .ok (src.take (src.length - k))
      else .err := by
  have hp : 0 < src.length := List.length_pos_iff.mpr h
  unfold pkcs7Unpad
  simp only [show ¬ src.length = 0 by omega, if_false, idx_last src h, Res.bind_ok]
  by_cases hk : src.length < (src.getLast h).toNat
  · rw [if_pos (by omega), if_pos hk]
  · rw [if_neg (by omega), if_neg hk, toNat_nonneg_sub _ _ (by omega)]
    simp only [sliceFrom, sliceTo, Nat.sub_le, if_true, Res.bind_ok]
    rw [checkEq_eq _ _ _ _ (by simp; omega), byteOf_of_toNat]
    simp only [List.drop_zero]
    rw [List.take_of_length_le (by simp; omega)]
    split <;> rfl

theorem pkcs5Unpad_eq (src : Bytes) (h : src ≠ []) :
    pkcs5Unpad src =
      let last := src.getLast h
      let k := last.toNat
      if src.length < k ∨ 8 < k then .err
      else if src.drop (src.length - k) = List.replicate k last then .ok (src.take (src.length - k))
      else .err := by
  have hp : 0 < src.length := List.length_pos_iff.mpr h
  unfold pkcs5Unpad
  simp only [show ¬ src.length = 0 by omega, if_false, idx_last src h, Res.bind_ok]
  by_cases hk : src.length < (src.getLast h).toNat ∨ 8 < (src.getLast h).toNat
  · rw [if_pos (by omega), if_pos hk]
  · rw [if_neg (by omega), if_neg hk, toNat_nonneg_sub _ _ (by omega)]
    simp only [sliceFrom, sliceTo, Nat.sub_le, if_true, Res.bind_ok]
    rw [checkEq_eq _ _ _ _ (by simp; omega), byteOf_of_toNat]
    simp only [List.drop_zero]
    rw [List.take_of_length_le (by simp; omega)]
    split <;> rfl

theorem x923Unpad_eq (src : Bytes) (h : src ≠ []) :
    x923Unpad src =
      let k := (src.getLast h).toNat
      if src.length < k then .err
      else if (src.drop (src.length - k)).take (k - 1) = List.replicate (k - 1) 0 then
        .ok (src.take (src.length - k))
      else .err := by
  have hp : 0 < src.length := List.length_pos_iff.mpr h
  unfold x923Unpad
  simp only [show ¬ src.length = 0 by omega, if_false, idx_last src h, Res.bind_ok]
  by_cases hk : src.length < (src.getLast h).toNat
  · rw [if_pos (by omega), if_pos hk]
  · rw [if_neg (by omega), if_neg hk, toNat_nonneg_sub _ _ (by omega)]
    simp only [sliceFrom, sliceTo, Nat.sub_le, if_true, Res.bind_ok]
    rw [checkEq_eq _ _ _ _ (by simp; omega)]
    simp only [List.drop_zero]
    split <;> rfl

theorem iso10126Unpad_eq (src : Bytes) (h : src ≠ []) :
    iso10126Unpad src =
      let k := (src.getLast h).toNat
      if src.length < k then .err else .ok (src.take (src.length - k)) := by
  have hp : 0 < src.length := List.length_pos_iff.mpr h
  unfold iso10126Unpad
  simp only [show ¬ src.length = 0 by omega, if_false, idx_last src h, Res.bind_ok]
  by_cases hk : src.length < (src.getLast h).toNat
  · rw [if_pos (by omega), if_pos hk]
  · rw [if_neg (by omega), if_neg hk, toNat_nonneg_sub _ _ (by omega)]
    simp [sliceTo]

theorem getLast_append_replicate (t : Bytes) (k : Nat) (b : Byte) (hk : 1 ≤ k)
    (h : t ++ List.replicate k b ≠ []) : (t ++ List.replicate k b).getLast h = b := by
  obtain ⟨k, rfl⟩ : ∃ j, k = j + 1 := ⟨k - 1, by omega⟩
  rw [List.getLast_append_of_ne_nil _ (by simp)]
  simp

theorem getLast_snoc (t : Bytes) (b : Byte) (h : t ++ [b] ≠ []) : (t ++ [b]).getLast h = b := by
  rw [List.getLast_append_of_ne_nil _ (by simp)]; simp

theorem getLast?_of_ne (t : Bytes) (h : t ≠ []) : t.getLast? = some (t.getLast h) := by
  rw [List.getLast?_eq_getElem?, List.getLast_eq_getElem, List.getElem?_eq_getElem]

theorem randomBytes_length (rnd : Nat → Nat) (n : Nat) : (randomBytes rnd n).length = n := by
  simp [randomBytes]

theorem x923Pad_eq (text : Bytes) (bs : Nat) (h : 1 ≤ bs) :
    x923Pad text bs = text ++ List.replicate (padSize text.length bs - 1) 0
      ++ [byteOf (padSize text.length bs)] := by
  have hp := padSize_pos text.length bs h
  unfold x923Pad
  rw [if_neg (by omega)]
  simp only [Int.toNat_natCast]
  generalize padSize text.length bs = p at hp
  obtain ⟨k, rfl⟩ : ∃ j, p = j + 1 := ⟨p - 1, by omega⟩
  simp only [List.replicate_succ', Nat.add_sub_cancel, List.length_append, List.length_replicate,
    List.length_singleton, ← List.append_assoc]
  rw [List.set_append_right _ _ (by simp)]
  simp

theorem iso7816Pad_eq (text : Bytes) (bs : Nat) (h : 1 ≤ bs) :
    iso7816Pad text bs = text ++ 0x80 :: List.replicate (padSize text.length bs - 1) 0 := by
  have hp := padSize_pos text.length bs h
  unfold iso7816Pad
  rw [if_neg (by omega)]
  simp only [Int.toNat_natCast]
  generalize padSize text.length bs = p at hp
  obtain ⟨k, rfl⟩ : ∃ j, p = j + 1 := ⟨p - 1, by omega⟩
  rw [List.set_append_right _ _ (by simp)]
  simp [List.replicate_succ]

end Verif.Padding
