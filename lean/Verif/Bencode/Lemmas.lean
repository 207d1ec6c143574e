import Verif.Bencode.Spec
/-
Helper lemmas for the bencode properties.
-/
namespace Verif.Bencode

/-! ### decimal numbers -/

theorem ascii_append (a b : String) : ascii (a ++ b) = ascii a ++ ascii b := by
  simp [ascii, String.toList_append]

theorem digitChar_toNat : ∀ n, n < 10 → n.digitChar.toNat = 48 + n := by decide

theorem decF_eq (f n : Nat) (h : n ≤ f) : decF f n = (Nat.toDigits 10 n).map fun c => BitVec.ofNat 8 c.toNat := by
  induction f generalizing n with
  | zero =>
    have : n = 0 := by omega
    subst this; decide
  | succ f ih =>
    rw [decF, Nat.toDigits_eq_if (by decide)]
    by_cases h10 : n < 10
    · simp [h10, digitChar_toNat n h10]
    · simp only [h10, if_false, List.map_append, List.map_cons, List.map_nil]
      rw [ih (n / 10) (by omega), digitChar_toNat _ (Nat.mod_lt _ (by decide))]

theorem ascii_nat (n : Nat) : ascii (toString n) = dec n := by
  rw [dec, decF_eq n n (Nat.le_refl _), ascii]
  show (Nat.repr n).toList.map _ = _
  rw [Nat.toList_repr]

theorem ascii_int (n : Int) : ascii (toString n) = decI n := by
  cases n with
  | ofNat n =>
    show ascii (toString n) = _
    rw [ascii_nat, decI, if_neg (by simp)]; simp
  | negSucc n =>
    rw [decI, if_pos (Int.negSucc_lt_zero n)]
    show ascii ("-" ++ toString (n + 1)) = _
    rw [ascii_append, ascii_nat]; rfl

theorem digits_append (acc : Nat) (a : Bytes) (b : Byte) (n : Nat) (h : digits acc a = some n) (hb : isDigit b = true) :
    digits acc (a ++ [b]) = some (n * 10 + (b.toNat - 48)) := by
  induction a generalizing acc with
  | nil => simp only [digits] at h; cases h; simp [digits, hb]
  | cons x a ih =>
    simp only [digits, List.cons_append] at h ⊢
    split at h
    · rename_i hx; rw [if_pos hx]; exact ih _ h
    · cases h

theorem toNat_dig (n : Nat) (h : n < 10) : (BitVec.ofNat 8 (48 + n)).toNat = 48 + n := by
  rw [BitVec.toNat_ofNat]; omega

theorem isDigit_dig (n : Nat) (h : n < 10) : isDigit (BitVec.ofNat 8 (48 + n)) = true := by
  simp only [isDigit, toNat_dig n h]; simp; omega

theorem digits_decF (f n : Nat) (h : n ≤ f) : digits 0 (decF f n) = some n := by
  induction f generalizing n with
  | zero => have : n = 0 := by omega
            subst this; decide
  | succ f ih =>
    rw [decF]
    by_cases h10 : n < 10
    · simp only [h10, if_true, digits, isDigit_dig n h10, toNat_dig n h10]; simp
    · simp only [h10, if_false]
      have hm : n % 10 < 10 := Nat.mod_lt _ (by decide)
      rw [digits_append 0 _ _ _ (ih (n / 10) (by omega)) (isDigit_dig _ hm), toNat_dig _ hm]
      congr 1; omega

theorem digits_dec (n : Nat) : digits 0 (dec n) = some n := digits_decF n n (Nat.le_refl _)

/-- First digit and the rest of a printed number. -/
theorem decF_shape (f n : Nat) (h : n ≤ f) : ∃ b t, decF f n = b :: t ∧ isDigit b = true ∧ (∀ x ∈ t, isDigit x = true) ∧
    (n = 0 → t = []) ∧ (n ≠ 0 → b ≠ 0x30#8) := by
  induction f generalizing n with
  | zero => have : n = 0 := by omega
            subst this; exact ⟨0x30#8, [], by decide⟩
  | succ f ih =>
    rw [decF]
    by_cases h10 : n < 10
    · refine ⟨_, [], by simp only [h10, if_true], isDigit_dig n h10, by simp, fun _ => rfl, ?_⟩
      intro hn hb
      have := congrArg BitVec.toNat hb
      rw [toNat_dig n h10] at this
      simp at this; omega
    · obtain ⟨b, t, he, hb, ht, h0, hn0⟩ := ih (n / 10) (by omega)
      refine ⟨b, t ++ [BitVec.ofNat 8 (48 + n % 10)], by simp [h10, he], hb, ?_, by omega, fun _ => hn0 (by omega)⟩
      intro x hx
      rcases List.mem_append.1 hx with hx | hx
      · exact ht x hx
      · rw [List.mem_singleton.1 hx]; exact isDigit_dig _ (Nat.mod_lt _ (by decide))

theorem dec_shape (n : Nat) : ∃ b t, dec n = b :: t ∧ isDigit b = true ∧ (∀ x ∈ t, isDigit x = true) ∧
    (n = 0 → t = []) ∧ (n ≠ 0 → b ≠ 0x30#8) := decF_shape n n (Nat.le_refl _)

/-- A run of digits without a leading zero is the printed form of its value. -/
theorem digits_all (acc : Nat) (s : Bytes) (n : Nat) (h : digits acc s = some n) : ∀ x ∈ s, isDigit x = true := by
  induction s generalizing acc with
  | nil => simp
  | cons a s ih =>
    simp only [digits] at h
    split at h
    · rename_i hx
      intro x hx'
      rcases List.mem_cons.1 hx' with rfl | hx'
      · exact hx
      · exact ih _ h x hx'
    · cases h

theorem decF_fuel (f g n : Nat) (hf : n ≤ f) (hg : n ≤ g) : decF f n = decF g n := by
  rw [decF_eq f n hf, decF_eq g n hg]

theorem dec_step (n d : Nat) (hn : n ≠ 0) (hd : d < 10) : dec (n * 10 + d) = dec n ++ [BitVec.ofNat 8 (48 + d)] := by
  unfold dec
  obtain ⟨k, hk⟩ : ∃ k, n * 10 + d = k + 1 := ⟨n * 10 + d - 1, by omega⟩
  rw [hk, decF, ← hk, if_neg (by omega), show (n * 10 + d) / 10 = n by omega, show (n * 10 + d) % 10 = d by omega,
    decF_fuel k n n (by omega) (Nat.le_refl _)]

theorem dig_inv (b : Byte) (h : isDigit b = true) : BitVec.ofNat 8 (48 + (b.toNat - 48)) = b ∧ b.toNat - 48 < 10 := by
  simp only [isDigit, Bool.and_eq_true, decide_eq_true_eq] at h
  refine ⟨?_, by omega⟩
  rw [show 48 + (b.toNat - 48) = b.toNat by omega, BitVec.ofNat_toNat]; simp

theorem dec_digits_aux (s : Bytes) (acc n : Nat) (ha : acc ≠ 0) (h : digits acc s = some n) : dec n = dec acc ++ s := by
  induction s generalizing acc with
  | nil => simp only [digits] at h; cases h; simp
  | cons b s ih =>
    simp only [digits] at h
    split at h
    · rename_i hb
      obtain ⟨h1, h2⟩ := dig_inv b hb
      rw [ih _ (by omega) h, dec_step acc _ ha h2, h1]; simp
    · cases h

theorem dec_lt (n : Nat) (h : n < 10) : dec n = [BitVec.ofNat 8 (48 + n)] := by
  unfold dec
  cases n with
  | zero => decide
  | succ k => rw [decF, if_pos h]

theorem dec_digits (b : Byte) (s : Bytes) (n : Nat) (h : digits 0 (b :: s) = some n) (hz : s = [] ∨ b ≠ 0x30#8) :
    dec n = b :: s := by
  simp only [digits] at h
  split at h
  · rename_i hb
    obtain ⟨h1, h2⟩ := dig_inv b hb
    simp only [Nat.zero_mul, Nat.zero_add] at h
    rcases hz with rfl | hz
    · simp only [digits] at h; cases h
      rw [dec_lt _ h2, h1]
    · have hne : b.toNat - 48 ≠ 0 := by
        intro h0
        apply hz
        simp only [isDigit, Bool.and_eq_true, decide_eq_true_eq] at hb
        apply BitVec.eq_of_toNat_eq
        simp; omega
      rw [dec_digits_aux s _ n hne h, dec_lt _ h2, h1]; simp
  · cases h

/-! ### the decoder's number syntax -/

theorem isDigit_ne {b : Byte} (h : isDigit b = true) : b ≠ chMinus ∧ b ≠ chPlus ∧ b ≠ chE ∧ b ≠ chD ∧ b ≠ chL ∧ b ≠ chI ∧ b ≠ chColon := by
  refine ⟨?_, ?_, ?_, ?_, ?_, ?_, ?_⟩ <;> (rintro rfl; revert h; decide)

theorem parseDec_dec (n : Nat) : parseDec (dec n) = some (n : Int) := by
  obtain ⟨b, t, he, hb, -⟩ := dec_shape n
  obtain ⟨h1, h2, -⟩ := isDigit_ne hb
  have := digits_dec n
  rw [he] at this ⊢
  simp [parseDec, h1, h2, this]

theorem parseDec_decI (n : Int) : parseDec (decI n) = some n := by
  unfold decI
  split
  · rename_i hn
    obtain ⟨b, t, he, -⟩ := dec_shape n.natAbs
    rw [parseDec, if_pos rfl, if_neg (by rw [he]; simp), digits_dec]
    simp; omega
  · rw [parseDec_dec]; congr 1; omega

theorem lead_nonzero (b : Byte) (hb : isDigit b = true) (h0 : b ≠ 0x30#8) : ¬ b.toNat < 49 ∧ ¬ 57 < b.toNat := by
  simp only [isDigit, Bool.and_eq_true, decide_eq_true_eq] at hb
  refine ⟨?_, by omega⟩
  intro h
  apply h0
  apply BitVec.eq_of_toNat_eq
  simp; omega

theorem check_dec (n : Nat) : checkBufferedInt (dec n) = true := by
  obtain ⟨b, t, he, hb, ht, h0, hn⟩ := dec_shape n
  rw [he, checkBufferedInt]
  split
  · rfl
  · rename_i hl
    have hn0 : n ≠ 0 := by
      intro h; rw [h0 h] at hl; simp at hl
    obtain ⟨h1, h2⟩ := lead_nonzero b hb (hn hn0)
    simp only [List.headD_cons, (isDigit_ne hb).1, if_false]
    simp [h1, h2]

theorem check_decI (n : Int) : checkBufferedInt (decI n) = true := by
  unfold decI
  split
  · rename_i hneg
    obtain ⟨b, t, he, hb, ht, h0, hn⟩ := dec_shape n.natAbs
    obtain ⟨h1, h2⟩ := lead_nonzero b hb (hn (by omega))
    rw [he, checkBufferedInt]
    simp [h1, h2]
  · exact check_dec _

/-- What the decoder accepts as a number is what the encoder prints. -/
theorem decI_parse (s : Bytes) (n : Int) (hc : checkBufferedInt s = true) (h : parseDec s = some n) : decI n = s := by
  cases s with
  | nil => simp [parseDec] at h
  | cons b t =>
    simp only [parseDec] at h
    by_cases hm : b = chMinus
    · subst hm
      simp only [if_true] at h
      cases t with
      | nil => simp at h
      | cons c t =>
        simp only [reduceCtorEq, if_false, Option.map_eq_some_iff] at h
        obtain ⟨m, hd, rfl⟩ := h
        have hc' : ¬ c.toNat < 49 ∧ ¬ 57 < c.toNat := by
          simpa [checkBufferedInt] using hc
        have hc0 : c ≠ 0x30#8 := by
          rintro rfl; exact hc'.1 (by decide)
        have hdec := dec_digits c t m hd (Or.inr hc0)
        have hmne : m ≠ 0 := by
          rintro rfl
          have : dec 0 = [0x30#8] := by decide
          rw [this] at hdec
          injection hdec with h1 _
          exact hc0 h1.symm
        rw [decI, if_pos (by omega), show (-(m : Int)).natAbs = m by omega, hdec]
    · rw [if_neg hm] at h
      by_cases hp : b = chPlus
      · subst hp
        simp only [if_true] at h
        cases t with
        | nil => simp at h
        | cons c t => exact absurd hc (by simp [checkBufferedInt, show ¬ chPlus = chMinus by decide])
      · rw [if_neg hp, Option.map_eq_some_iff] at h
        obtain ⟨m, hd, rfl⟩ := h
        rw [decI, if_neg (by omega), show ((m : Int)).natAbs = m by omega]
        refine dec_digits b t m hd ?_
        cases t with
        | nil => exact Or.inl rfl
        | cons c t =>
          refine Or.inr ?_
          rintro rfl
          exact absurd hc (by simp [checkBufferedInt, show ¬ (0x30#8 : Byte) = chMinus by decide])

end Verif.Bencode
