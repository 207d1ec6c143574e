import Verif.Padding.Lemmas
/-
Properties C01–C09 : padding round trips, soundness of unpadding, alignment.
-/
namespace Verif.Padding
open Spec

/-! ### C01 -/

/-- PKCS7: for every text and block size 1..255 padding is undone by unpadding, and the padded length is
the least multiple of the block size above the text length. -/
theorem C01_pkcs7_roundtrip (text : Bytes) (bs : Nat) (h1 : 1 ≤ bs) (h2 : bs ≤ 255) :
    pkcs7Unpad (pkcs7Pad text bs) = .ok text ∧
    LeastMultipleAbove text.length bs (pkcs7Pad text bs).length := by
  have hp := padSize_pos text.length bs h1
  have hle := padSize_le text.length bs
  have he : pkcs7Pad text bs = text ++ List.replicate (padSize text.length bs)
      (byteOf (padSize text.length bs)) := by
    unfold pkcs7Pad; rw [if_neg (by omega)]; simp
  rw [he]
  constructor
  · generalize padSize text.length bs = p at *
    have hne : text ++ List.replicate p (byteOf p) ≠ [] := by
      intro h; have := congrArg List.length h; simp at this; omega
    rw [pkcs7Unpad_eq _ hne, getLast_append_replicate _ _ _ hp]
    dsimp only
    rw [byteOf_toNat_lt p (by omega)]
    simp
  · simpa using padSize_least text.length bs h1

/-- PKCS5: the same with the fixed block size 8, whatever block size is passed. -/
theorem C01_pkcs5_roundtrip (text : Bytes) (bs : Int) :
    pkcs5Unpad (pkcs5Pad text bs) = .ok text ∧
    LeastMultipleAbove text.length 8 (pkcs5Pad text bs).length := by
  have hp := padSize_pos text.length 8 (by omega)
  have hle := padSize_le text.length 8
  unfold pkcs5Pad
  constructor
  · simp only
    generalize padSize text.length 8 = p at *
    have hne : text ++ List.replicate p (byteOf p) ≠ [] := by
      intro h; have := congrArg List.length h; simp at this; omega
    rw [pkcs5Unpad_eq _ hne, getLast_append_replicate _ _ _ hp]
    dsimp only
    rw [byteOf_toNat_lt p (by omega)]
    have : ¬ 8 < p := by omega
    simp [this]
  · simpa using padSize_least text.length 8 (by omega)

/-- Exact range of PKCS7: for any block size ≥ 1 the round trip succeeds if and only if the number of
padding bytes fits in a byte. For block sizes ≥ 256 it therefore fails on some texts. -/
theorem C01_pkcs7_roundtrip_iff (text : Bytes) (bs : Nat) (h1 : 1 ≤ bs) :
    pkcs7Unpad (pkcs7Pad text bs) = .ok text ↔ bs - text.length % bs ≤ 255 := by
  have hp := padSize_pos text.length bs h1
  have he : pkcs7Pad text bs = text ++ List.replicate (padSize text.length bs)
      (byteOf (padSize text.length bs)) := by
    unfold pkcs7Pad; rw [if_neg (by omega)]; simp
  rw [he, show bs - text.length % bs = padSize text.length bs from rfl]
  generalize padSize text.length bs = p at *
  have hne : text ++ List.replicate p (byteOf p) ≠ [] := by
    intro h; have := congrArg List.length h; simp at this; omega
  rw [pkcs7Unpad_eq _ hne, getLast_append_replicate _ _ _ hp]
  dsimp only
  rw [byteOf_toNat]
  have hk : p % 256 < 256 := Nat.mod_lt _ (by omega)
  constructor
  · intro h
    rcases Nat.lt_or_ge 255 p with hlt | hge
    · exfalso
      rw [if_neg (by simp; omega)] at h
      split at h
      · have := congrArg List.length (Res.ok.inj h)
        simp at this; omega
      · cases h
    · exact hge
  · intro h
    have : p % 256 = p := Nat.mod_eq_of_lt (by omega)
    rw [this]; simp

/-- The boundary: with block size 256 an empty text does not round-trip (256 zero bytes come back). -/
theorem C01_pkcs7_bs256_violated : pkcs7Unpad (pkcs7Pad [] 256) ≠ .ok [] := by
  intro h
  have := (C01_pkcs7_roundtrip_iff [] 256 (by omega)).mp h
  simp at this

example : pkcs7Pad [0x61, 0x62, 0x63] 8 = [0x61, 0x62, 0x63, 5, 5, 5, 5, 5] := by decide
example : pkcs7Unpad [0x61, 0x62, 0x63, 5, 5, 5, 5, 5] = .ok [0x61, 0x62, 0x63] := by decide
example : pkcs5Pad [0x61, 0x62] 16 = [0x61, 0x62, 6, 6, 6, 6, 6, 6] := by decide

/-! ### C02 -/

/-- PKCS7 UnPadding: never panics, and accepts exactly well-formed paddings – and, beyond the standard,
any string whose last byte is 0 (which it returns unchanged). -/
theorem C02_pkcs7_unpad_iff (src : Bytes) :
    pkcs7Unpad src ≠ .panic ∧
    ∀ t, pkcs7Unpad src = .ok t ↔ (PKCS7 t src ∨ TrailingZero t src) := by
  by_cases h : src = []
  · subst h
    have he : pkcs7Unpad [] = .err := by rfl
    rw [he]
    refine ⟨by simp, fun t => ⟨fun h => by simp at h, ?_⟩⟩
    rintro (⟨k, h1, _, h3⟩ | ⟨_, h2⟩)
    · have := congrArg List.length h3; simp at this; omega
    · simp at h2
  · rw [pkcs7Unpad_eq src h]
    refine ⟨by simp only; split <;> (try split) <;> simp, fun t => ⟨fun he => ?_, ?_⟩⟩
    · simp only at he
      split at he
      · cases he
      · rename_i hlen
        split at he
        · rename_i hrep
          have ht := Res.ok.inj he
          subst ht
          have hsplit := (List.take_append_drop (src.length - (src.getLast h).toNat) src).symm
          by_cases hk : (src.getLast h).toNat = 0
          · right
            refine ⟨by rw [hk]; simp, ?_⟩
            rw [getLast?_of_ne _ h]
            congr 1
            exact BitVec.eq_of_toNat_eq (by simpa using hk)
          · left
            have := (src.getLast h).isLt
            refine ⟨(src.getLast h).toNat, by omega, by omega, ?_⟩
            rw [show (BitVec.ofNat 8 (src.getLast h).toNat) = src.getLast h from byteOf_of_toNat _]
            rw [← hrep]; exact hsplit
        · cases he
    · rintro (⟨k, h1, h2, rfl⟩ | ⟨rfl, hz⟩)
      · have hb := getLast_append_replicate t k (BitVec.ofNat 8 k) h1 h
        simp only [hb]
        rw [show (BitVec.ofNat 8 k).toNat = k from byteOf_toNat_lt k (by omega)]
        simp
      · rw [getLast?_of_ne _ h] at hz
        simp [Option.some.inj hz]

/-- PKCS5 UnPadding: the same, with at most 8 padding bytes. -/
theorem C02_pkcs5_unpad_iff (src : Bytes) :
    pkcs5Unpad src ≠ .panic ∧
    ∀ t, pkcs5Unpad src = .ok t ↔
      ((PKCS7 t src ∧ src.length ≤ t.length + 8) ∨ TrailingZero t src) := by
  by_cases h : src = []
  · subst h
    have he : pkcs5Unpad [] = .err := by rfl
    rw [he]
    refine ⟨by simp, fun t => ⟨fun h => by simp at h, ?_⟩⟩
    rintro (⟨⟨k, h1, _, h3⟩, _⟩ | ⟨_, h2⟩)
    · have := congrArg List.length h3; simp at this; omega
    · simp at h2
  · rw [pkcs5Unpad_eq src h]
    refine ⟨by simp only; split <;> (try split) <;> simp, fun t => ⟨fun he => ?_, ?_⟩⟩
    · simp only at he
      split at he
      · cases he
      · rename_i hlen
        split at he
        · rename_i hrep
          have ht := Res.ok.inj he
          subst ht
          have hsplit := (List.take_append_drop (src.length - (src.getLast h).toNat) src).symm
          by_cases hk : (src.getLast h).toNat = 0
          · right
            refine ⟨by rw [hk]; simp, ?_⟩
            rw [getLast?_of_ne _ h]
            congr 1
            exact BitVec.eq_of_toNat_eq (by simpa using hk)
          · left
            have := (src.getLast h).isLt
            refine ⟨⟨(src.getLast h).toNat, by omega, by omega, ?_⟩, by simp; omega⟩
            rw [show (BitVec.ofNat 8 (src.getLast h).toNat) = src.getLast h from byteOf_of_toNat _]
            rw [← hrep]; exact hsplit
        · cases he
    · rintro (⟨⟨k, h1, h2, rfl⟩, h8⟩ | ⟨rfl, hz⟩)
      · have hb := getLast_append_replicate t k (BitVec.ofNat 8 k) h1 h
        simp only [hb]
        rw [show (BitVec.ofNat 8 k).toNat = k from byteOf_toNat_lt k (by omega)]
        simp at h8
        have : ¬ 8 < k := by omega
        simp [this]
      · rw [getLast?_of_ne _ h] at hz
        simp [Option.some.inj hz]

/-- The strict reading of C02 (only `k ≥ 1` copies of `k`) fails: a final zero byte is accepted. -/
theorem C02_trailing_zero_accepted_violated :
    ∃ src t, pkcs7Unpad src = .ok t ∧ pkcs5Unpad src = .ok t ∧ ¬ PKCS7 t src := by
  refine ⟨[0x41, 0x00], [0x41, 0x00], by decide, by decide, ?_⟩
  rintro ⟨k, h1, _, h3⟩
  have := congrArg List.length h3; simp at this; omega

example : pkcs7Unpad [1, 2, 3, 2, 3] = .err := by decide
example : PKCS7 [7] [7, 2, 2] := ⟨2, by decide, by decide, by decide⟩

/-! ### C03 -/

theorem C03_x923_roundtrip (text : Bytes) (bs : Nat) (h1 : 1 ≤ bs) (h2 : bs ≤ 255) :
    x923Unpad (x923Pad text bs) = .ok text := by
  have hp := padSize_pos text.length bs h1
  have hle := padSize_le text.length bs
  rw [x923Pad_eq text bs h1]
  generalize padSize text.length bs = p at *
  have hne : text ++ List.replicate (p - 1) 0 ++ [byteOf p] ≠ [] := by simp
  rw [x923Unpad_eq _ hne]
  simp only [getLast_snoc, byteOf_toNat_lt p (show p < 256 by omega)]
  have hl : (text ++ List.replicate (p - 1) 0 ++ [byteOf p]).length = text.length + p := by
    simp; omega
  rw [hl, if_neg (by omega), Nat.add_sub_cancel]
  have e1 : List.drop text.length (text ++ List.replicate (p - 1) 0 ++ [byteOf p])
      = List.replicate (p - 1) 0 ++ [byteOf p] := by
    rw [List.append_assoc, List.drop_append_of_le_length (Nat.le_refl _)]; simp
  rw [e1, List.take_append_of_le_length (by simp)]
  rw [List.append_assoc, List.take_append_of_le_length (Nat.le_refl _)]
  simp

/-- X9.23 UnPadding never panics and accepts exactly `t ++ 0^(k-1) ++ [k]`, plus strings ending in 0. -/
theorem C03_x923_unpad_iff (src : Bytes) :
    x923Unpad src ≠ .panic ∧
    ∀ t, x923Unpad src = .ok t ↔ (X923 t src ∨ TrailingZero t src) := by
  by_cases h : src = []
  · subst h
    have he : x923Unpad [] = .err := by rfl
    rw [he]
    refine ⟨by simp, fun t => ⟨fun h => by simp at h, ?_⟩⟩
    rintro (⟨k, h1, _, h3⟩ | ⟨_, h2⟩)
    · simp at h3
    · simp at h2
  · rw [x923Unpad_eq src h]
    refine ⟨by simp only; split <;> (try split) <;> simp, fun t => ⟨fun he => ?_, ?_⟩⟩
    · simp only at he
      split at he
      · cases he
      · rename_i hlen
        split at he
        · rename_i hrep
          have ht := Res.ok.inj he
          subst ht
          by_cases hk : (src.getLast h).toNat = 0
          · right
            refine ⟨by rw [hk]; simp, ?_⟩
            rw [getLast?_of_ne _ h]
            congr 1
            exact BitVec.eq_of_toNat_eq (by simpa using hk)
          · left
            have := (src.getLast h).isLt
            refine ⟨(src.getLast h).toNat, by omega, by omega, ?_⟩
            rw [show (BitVec.ofNat 8 (src.getLast h).toNat) = src.getLast h from byteOf_of_toNat _]
            rw [← hrep]
            generalize hkk : (src.getLast h).toNat = k at *
            have e : src.take (src.length - k) ++ (src.drop (src.length - k)).take (k - 1)
                = src.take (src.length - 1) := by
              rw [← List.take_add]; congr 1; omega
            rw [e, ← List.dropLast_eq_take]
            exact (List.dropLast_concat_getLast h).symm
        · cases he
    · rintro (⟨k, h1, h2, rfl⟩ | ⟨rfl, hz⟩)
      · simp only [getLast_snoc]
        rw [show (BitVec.ofNat 8 k).toNat = k from byteOf_toNat_lt k (by omega)]
        have hl : (t ++ List.replicate (k - 1) 0 ++ [BitVec.ofNat 8 k]).length = t.length + k := by
          simp; omega
        rw [hl, if_neg (by omega), Nat.add_sub_cancel]
        have e1 : List.drop t.length (t ++ List.replicate (k - 1) 0 ++ [BitVec.ofNat 8 k])
            = List.replicate (k - 1) 0 ++ [BitVec.ofNat 8 k] := by
          rw [List.append_assoc, List.drop_append_of_le_length (Nat.le_refl _)]; simp
        rw [e1, List.take_append_of_le_length (by simp)]
        rw [List.append_assoc, List.take_append_of_le_length (Nat.le_refl _)]
        simp
      · rw [getLast?_of_ne _ h] at hz
        simp [Option.some.inj hz]

example : x923Pad [1, 2, 3] 8 = [1, 2, 3, 0, 0, 0, 0, 5] := by decide
example : x923Unpad [1, 2, 3, 0, 9, 0, 0, 5] = .err := by decide

/-! ### C04 -/

/-- ISO 10126: the round trip holds for every outcome `rnd` of the random source. -/
theorem C04_iso10126_roundtrip (rnd : Nat → Nat) (text : Bytes) (bs : Nat) (h1 : 1 ≤ bs)
    (h2 : bs ≤ 255) : iso10126Unpad (iso10126Pad rnd text bs) = .ok text := by
  have hp := padSize_pos text.length bs h1
  have hle := padSize_le text.length bs
  unfold iso10126Pad
  rw [if_neg (by omega)]
  simp only [Int.toNat_natCast]
  generalize padSize text.length bs = p at *
  have hne : text ++ randomBytes rnd (p - 1) ++ [byteOf p] ≠ [] := by simp
  rw [iso10126Unpad_eq _ hne]
  simp only [getLast_snoc, byteOf_toNat_lt p (show p < 256 by omega)]
  have hl : (text ++ randomBytes rnd (p - 1) ++ [byteOf p]).length = text.length + p := by
    simp [randomBytes_length]; omega
  rw [hl, if_neg (by omega), Nat.add_sub_cancel, List.append_assoc,
    List.take_append_of_le_length (Nat.le_refl _)]
  simp

/-- ISO 10126 UnPadding never panics and accepts exactly its format, plus strings ending in 0. -/
theorem C04_iso10126_unpad_iff (src : Bytes) :
    iso10126Unpad src ≠ .panic ∧
    ∀ t, iso10126Unpad src = .ok t ↔ (ISO10126 t src ∨ TrailingZero t src) := by
  by_cases h : src = []
  · subst h
    have he : iso10126Unpad [] = .err := by rfl
    rw [he]
    refine ⟨by simp, fun t => ⟨fun h => by simp at h, ?_⟩⟩
    rintro (⟨k, f, h1, _, _, h3⟩ | ⟨_, h2⟩)
    · simp at h3
    · simp at h2
  · rw [iso10126Unpad_eq src h]
    refine ⟨by simp only; split <;> simp, fun t => ⟨fun he => ?_, ?_⟩⟩
    · simp only at he
      split at he
      · cases he
      · rename_i hlen
        have ht := Res.ok.inj he
        subst ht
        by_cases hk : (src.getLast h).toNat = 0
        · right
          refine ⟨by rw [hk]; simp, ?_⟩
          rw [getLast?_of_ne _ h]
          congr 1
          exact BitVec.eq_of_toNat_eq (by simpa using hk)
        · left
          have := (src.getLast h).isLt
          refine ⟨(src.getLast h).toNat, (src.drop (src.length - (src.getLast h).toNat)).take
            ((src.getLast h).toNat - 1), by omega, by omega, by simp; omega, ?_⟩
          rw [show (BitVec.ofNat 8 (src.getLast h).toNat) = src.getLast h from byteOf_of_toNat _]
          generalize hkk : (src.getLast h).toNat = k at *
          have e : src.take (src.length - k) ++ (src.drop (src.length - k)).take (k - 1)
              = src.take (src.length - 1) := by
            rw [← List.take_add]; congr 1; omega
          rw [e, ← List.dropLast_eq_take]
          exact (List.dropLast_concat_getLast h).symm
    · rintro (⟨k, f, h1, h2, hf, rfl⟩ | ⟨rfl, hz⟩)
      · simp only [getLast_snoc]
        rw [show (BitVec.ofNat 8 k).toNat = k from byteOf_toNat_lt k (by omega)]
        have hl : (t ++ f ++ [BitVec.ofNat 8 k]).length = t.length + k := by
          simp; omega
        rw [hl, if_neg (by omega), Nat.add_sub_cancel, List.append_assoc,
          List.take_append_of_le_length (Nat.le_refl _)]
        simp
      · rw [getLast?_of_ne _ h] at hz
        simp [Option.some.inj hz]

example : iso10126Pad (fun i => 3 * i) [1, 2] 5 = [1, 2, 0x61, 0x64, 3] := by decide

/-! ### C05 -/

/-- ISO 7816-4 / ISO 9797-1 method 2 / PBOC2: UnPadding never panics and inverts exactly the strings
`t ++ [0x80] ++ zeros`. -/
theorem C05_iso7816_unpad_iff (src : Bytes) :
    iso7816Unpad src ≠ .panic ∧ ∀ t, iso7816Unpad src = .ok t ↔ ISO7816 t src := by
  by_cases h : src.length = 0
  · have : src = [] := List.length_eq_zero_iff.mp h
    subst this
    have he : iso7816Unpad [] = .err := by rfl
    rw [he]
    refine ⟨by simp, fun t => ⟨fun h => by simp at h, ?_⟩⟩
    rintro ⟨z, hz⟩; simp at hz
  · have hs := lastIndexByte_spec src 0x80 src.length (Nat.le_refl _)
    unfold iso7816Unpad
    simp only [h, if_false]
    cases hl : lastIndexByte src 0x80 src.length with
    | none =>
      rw [hl] at hs
      refine ⟨by simp, fun t => ⟨fun h => by simp at h, ?_⟩⟩
      rintro ⟨z, rfl⟩
      have := hs t.length (by simp)
      simp [List.getD_eq_getElem?_getD] at this
    | some k =>
      rw [hl] at hs
      obtain ⟨h1, h2, h3⟩ := hs
      have hsl : sliceFrom src k = .ok (src.drop k) := by unfold sliceFrom; rw [if_pos (by omega)]
      have hst : sliceTo src k = .ok (src.take k) := by unfold sliceTo; rw [if_pos (by omega)]
      simp only [hsl, hst, Res.bind_ok]
      rw [checkEq_eq _ _ _ _ (by simp; omega), List.drop_drop,
        List.take_of_length_le (by simp; omega)]
      have hk : src[k] = 0x80 := by
        rw [List.getD_eq_getElem?_getD, List.getElem?_eq_getElem h1] at h2; simpa using h2
      have hdrop : src.drop k = 0x80 :: src.drop (k + 1) := by
        rw [List.drop_eq_getElem_cons h1, hk]
      constructor
      · split <;> simp
      · intro t
        constructor
        · intro he
          split at he
          · rename_i hz
            simp only [Res.bind_ok, Res.ok.injEq] at he
            subst he
            refine ⟨src.length - k - 1, ?_⟩
            rw [← hz, ← hdrop, List.take_append_drop]
          · simp at he
        · rintro ⟨z, rfl⟩
          have hkt : k = t.length := by
            rcases Nat.lt_trichotomy k t.length with hlt | heq | hgt
            · exfalso
              exact h3 t.length hlt (by simp) (by simp [List.getD_eq_getElem?_getD])
            · exact heq
            · exfalso
              rw [List.getD_eq_getElem?_getD, List.getElem?_append_right (by omega)] at h2
              obtain ⟨j, hj⟩ : ∃ j, k - t.length = j + 1 := ⟨k - t.length - 1, by omega⟩
              rw [hj, List.getElem?_cons_succ, List.getElem?_replicate] at h2
              split at h2 <;> simp at h2
          subst hkt
          have e : List.drop (t.length + 1) (t ++ 0x80 :: List.replicate z 0) = List.replicate z 0 := by
            rw [show t ++ (0x80 : Byte) :: List.replicate z 0 = (t ++ [0x80]) ++ List.replicate z 0 by simp]
            rw [List.drop_append_of_le_length (by simp)]; simp
          rw [e]; simp

theorem C05_iso7816_roundtrip (text : Bytes) (bs : Nat) (h1 : 1 ≤ bs) :
    iso7816Unpad (iso7816Pad text bs) = .ok text := by
  rw [(C05_iso7816_unpad_iff _).2, iso7816Pad_eq text bs h1]
  exact ⟨_, rfl⟩

/-- Unpadding is injective up to the number of zero bytes: two texts never share a padded form. -/
theorem C05_iso7816_injective (t t' src : Bytes) (h : ISO7816 t src) (h' : ISO7816 t' src) : t = t' := by
  have h1 := ((C05_iso7816_unpad_iff src).2 t).mpr h
  have h2 := ((C05_iso7816_unpad_iff src).2 t').mpr h'
  rw [h1] at h2; exact Res.ok.inj h2

example : iso7816Pad [0x80, 0x00] 8 = [0x80, 0, 0x80, 0, 0, 0, 0, 0] := by decide
example : iso7816Unpad [0x80, 0, 0x80, 0, 0, 0, 0, 0] = .ok [0x80, 0] := by decide

/-! ### C06 -/

theorem dropWhile_replicate_append (n : Nat) (l : Bytes) :
    (List.replicate n (0 : Byte) ++ l).dropWhile (fun b => b == 0) = l.dropWhile (fun b => b == 0) := by
  induction n with
  | zero => simp
  | succ n ih => rw [List.replicate_succ, List.cons_append, List.dropWhile_cons]; simp

/-- Zero padding never fails and is undone exactly on the texts that do not end in a zero byte. -/
theorem C06_zero_roundtrip_iff (text : Bytes) (bs : Nat) (h1 : 1 ≤ bs) :
    zeroUnpad (zeroPad text bs) = .ok text ↔ text.getLast? ≠ some 0 := by
  unfold zeroPad
  rw [if_neg (by omega)]
  unfold zeroUnpad
  rw [List.reverse_append, List.reverse_replicate, dropWhile_replicate_append, Res.ok.injEq]
  have hl : text.getLast? = text.reverse.head? := by simp
  rw [hl]
  have : ((text.reverse.dropWhile (fun b => b == 0)).reverse = text)
      ↔ (text.reverse.dropWhile (fun b => b == 0) = text.reverse) := by
    constructor
    · intro h; have := congrArg List.reverse h; rwa [List.reverse_reverse] at this
    · intro h; rw [h, List.reverse_reverse]
  rw [this]
  cases hr : text.reverse with
  | nil => simp
  | cons a r =>
    rw [List.dropWhile_cons]
    by_cases ha : a = 0
    · subst ha
      simp only [BEq.rfl, if_true, List.head?_cons, ne_eq, not_true_eq_false, iff_false]
      intro h
      have h4 := List.Sublist.length_le (List.dropWhile_sublist (fun b => b == (0 : Byte)) (l := r))
      rw [h] at h4; simp at h4; omega
    · have hb : (a == 0) = false := by simpa using ha
      have hc : ¬ a = 0#8 := ha
      simp [hc]

example : zeroPad [1, 2, 3] 4 = [1, 2, 3, 0] := by decide
example : zeroUnpad [1, 2, 0, 0] = .ok [1, 2] := by decide
example : ([1, 2, 3] : Bytes).getLast? ≠ some 0 := by decide

/-! ### C07 -/

theorem tbcScan_spec (src : Bytes) (c : Byte) (n : Nat) (hn : n ≤ src.length) :
    ∃ k, tbcScan src c n = src.take k ∧ k ≤ n ∧ (∀ i, k ≤ i → i < n → src.getD i 0 = c) ∧
      (k = 0 ∨ src.getD (k - 1) 0 ≠ c) := by
  induction n with
  | zero => exact ⟨0, by simp [tbcScan], by omega, fun i h1 h2 => by omega, Or.inl rfl⟩
  | succ n ih =>
    rw [tbcScan]
    by_cases h : src.getD n 0 = c
    · obtain ⟨k, h1, h2, h3, h4⟩ := ih (by omega)
      refine ⟨k, by simp only [h, ne_eq, not_true_eq_false, if_false, h1], by omega, ?_, h4⟩
      intro i hi hlt
      rcases Nat.lt_or_ge i n with h5 | h5
      · exact h3 i hi h5
      · have : i = n := by omega
        subst this; exact h
    · exact ⟨n + 1, by simp only [ne_eq, h, not_false_eq_true, if_true], by omega,
        fun i h1 h2 => by omega, Or.inr (by simpa using h)⟩

theorem take_last_getD (src : Bytes) (k : Nat) (hk : k ≤ src.length) :
    (src.take k).getD ((src.take k).length - 1) 0 = if k = 0 then 0 else src.getD (k - 1) 0 := by
  rw [List.length_take, Nat.min_eq_left hk]
  by_cases h : k = 0
  · subst h; simp
  · rw [if_neg h, List.getD_eq_getElem?_getD, List.getD_eq_getElem?_getD,
      List.getElem?_take_of_lt (by omega)]

theorem and_one_eq_zero_iff (b : Byte) : b &&& 1 = 0 ↔ ¬ b.toNat % 2 = 1 := by
  revert b; decide +kernel

/-- Case split on how far a run of equal bytes at the end of `src` reaches. -/
theorem drop_eq_replicate_of_getD (src : Bytes) (c : Byte) (k : Nat) (hk : k ≤ src.length)
    (h : ∀ i, k ≤ i → i < src.length → src.getD i 0 = c) :
    src.drop k = List.replicate (src.length - k) c := by
  apply List.ext_getElem
  · simp
  · intro i h1 h2
    simp at h1
    rw [List.getElem_drop, List.getElem_replicate]
    have := h (k + i) (by omega) (by omega)
    rwa [List.getD_eq_getElem?_getD, List.getElem?_eq_getElem (by omega)] at this

/-- The scanned prefix of a padded string is the text itself. -/
theorem tbcScan_of_padded (t : Bytes) (k : Nat) (c : Byte) (h1 : 1 ≤ k)
    (hc : t.getLast? ≠ some c) :
    tbcScan (t ++ List.replicate k c) c ((t ++ List.replicate k c).length - 1) = t := by
  obtain ⟨j, e1, e2, e3, e4⟩ := tbcScan_spec (t ++ List.replicate k c) c
    ((t ++ List.replicate k c).length - 1) (by omega)
  rw [e1]
  simp only [List.length_append, List.length_replicate] at e2 e3
  have hj : j = t.length := by
    rcases Nat.lt_trichotomy j t.length with h | h | h
    · exfalso
      apply hc
      have := e3 (t.length - 1) (by omega) (by omega)
      rw [List.getD_eq_getElem?_getD, List.getElem?_append_left (by omega)] at this
      rw [List.getLast?_eq_getElem?, List.getElem?_eq_getElem (by omega)]
      rw [List.getElem?_eq_getElem (by omega)] at this
      simpa using this
    · exact h
    · exfalso
      rcases e4 with e4 | e4
      · omega
      · apply e4
        rw [List.getD_eq_getElem?_getD, List.getElem?_append_right (by omega),
          List.getElem?_replicate, if_pos (by omega)]; rfl
  subst hj
  simp

theorem getLast?_getD (t : Bytes) (b : Byte) (h : t.getLast? = some b) :
    t.length > 0 ∧ t.getD (t.length - 1) 0 = b := by
  rw [List.getLast?_eq_getElem?] at h
  have hl : t.length - 1 < t.length := by
    rcases Nat.lt_or_ge (t.length - 1) t.length with h1 | h1
    · exact h1
    · rw [List.getElem?_eq_none h1] at h; simp at h
  refine ⟨by omega, ?_⟩
  rw [List.getD_eq_getElem?_getD, h]; rfl

theorem tbcByte_ne_last (t : Bytes) : t.getLast? ≠ some (tbcByte t) := by
  unfold tbcByte
  cases h : t.getLast? with
  | none => simp
  | some b =>
    simp only [ne_eq, Option.some.injEq]
    clear h
    revert b; decide +kernel

theorem tbcPad_eq (text : Bytes) (bs : Nat) (h1 : 1 ≤ bs) :
    tbcPad text bs = text ++ List.replicate (padSize text.length bs) (tbcByte text) := by
  unfold tbcPad
  rw [if_neg (by omega)]
  simp only [Int.toNat_natCast]
  congr 2
  unfold tbcByte
  cases h : text.getLast? with
  | none =>
    have : text = [] := List.getLast?_eq_none_iff.mp h
    subst this; rfl
  | some b =>
    obtain ⟨hl, hb⟩ := getLast?_getD text b h
    rw [if_pos hl, hb]
    have := and_one_eq_zero_iff b
    by_cases hx : b.toNat % 2 = 1
    · simp only [hx, if_true]
      rw [if_pos (fun h => this.mp h hx)]
    · simp only [hx, if_false]
      rw [if_neg (fun h => h (this.mpr hx))]

/-- TBC UnPadding never panics and succeeds with `t` exactly on `t` followed by one or more complement
bytes of `t`'s last bit. -/
theorem C07_tbc_unpad_iff (src : Bytes) :
    tbcUnpad src ≠ .panic ∧ ∀ t, tbcUnpad src = .ok t ↔ TBC t src := by
  by_cases h : src = []
  · subst h
    have he : tbcUnpad [] = .err := by rfl
    rw [he]
    refine ⟨by simp, fun t => ⟨fun h => by simp at h, ?_⟩⟩
    rintro ⟨k, h1, h2⟩
    have := congrArg List.length h2; simp at this; omega
  · have hp : 0 < src.length := List.length_pos_iff.mpr h
    -- the forward direction for a run of complement bytes `c`
    have fwd : ∀ c t, src.getLast h = c → tbcScan src c (src.length - 1) = t →
        tbcByte t = c → TBC t src := by
      intro c t hlast hscan hbyte
      obtain ⟨j, e1, e2, e3, e4⟩ := tbcScan_spec src c (src.length - 1) (by omega)
      have ht : t = src.take j := by rw [← hscan, e1]
      refine ⟨src.length - j, by omega, ?_⟩
      rw [hbyte]
      have := drop_eq_replicate_of_getD src c j (by omega) (by
        intro i h1 h2
        rcases Nat.lt_or_ge i (src.length - 1) with h3 | h3
        · exact e3 i h1 h3
        · have hi : i = src.length - 1 := by omega
          rw [hi, List.getD_eq_getElem?_getD, List.getElem?_eq_getElem (by omega), ← hlast,
            List.getLast_eq_getElem]; rfl)
      rw [← this, ht, List.take_append_drop]
    have bwd : ∀ t, TBC t src → src.getLast h = tbcByte t ∧
        tbcScan src (tbcByte t) (src.length - 1) = t := by
      rintro t ⟨k, h1, rfl⟩
      exact ⟨getLast_append_replicate _ _ _ h1 _, tbcScan_of_padded t k _ h1 (tbcByte_ne_last t)⟩
    have hbyte0 : ∀ r : Bytes, r.length > 0 → ¬ (r.getD (r.length - 1) 0 &&& 1 = 0) →
        tbcByte r = 0x00 := by
      intro r hr hx
      have hne : r ≠ [] := List.length_pos_iff.mp hr
      have hg := getLast?_of_ne r hne
      have := (getLast?_getD r _ hg).2
      rw [this] at hx
      unfold tbcByte; rw [hg]
      have hb := and_one_eq_zero_iff (r.getLast hne)
      by_cases hl : (r.getLast hne).toNat % 2 = 1
      · simp only [hl, if_true]
      · exact absurd (hb.mpr hl) hx
    have hbyteF : ∀ r : Bytes, (r.length > 0 → (r.getD (r.length - 1) 0 &&& 1 = 0)) →
        tbcByte r = 0xFF := by
      intro r hx
      by_cases hr : r.length > 0
      · have hx := hx hr
        have hne : r ≠ [] := List.length_pos_iff.mp hr
        have hg := getLast?_of_ne r hne
        have := (getLast?_getD r _ hg).2
        rw [this] at hx
        unfold tbcByte; rw [hg]
        have hb := and_one_eq_zero_iff (r.getLast hne)
        simp only [hb.mp hx, if_false]
      · have : r = [] := List.length_eq_zero_iff.mp (by omega)
        subst this; rfl
    unfold tbcUnpad
    simp only [show ¬ src.length = 0 by omega, if_false, idx_last src h, Res.bind_ok]
    by_cases h0 : src.getLast h = 0x00
    · simp only [h0, if_true]
      by_cases hr : (tbcScan src 0x00 (src.length - 1)).length > 0
      · rw [if_pos hr]
        by_cases hx : (tbcScan src 0x00 (src.length - 1)).getD
            ((tbcScan src 0x00 (src.length - 1)).length - 1) 0 &&& 1 = 0
        · rw [if_pos hx]
          refine ⟨by simp, fun t => ⟨fun h => by simp at h, fun ht => ?_⟩⟩
          obtain ⟨b1, b2⟩ := bwd t ht
          rw [h0] at b1
          rw [← b1] at b2
          rw [b2] at hx hr
          have := hbyteF t (fun _ => hx)
          rw [this] at b1; exact absurd b1 (by decide)
        · rw [if_neg hx]
          refine ⟨by simp, fun t => ⟨fun he => ?_, fun ht => ?_⟩⟩
          · have := Res.ok.inj he
            exact fwd 0 t h0 this (this ▸ hbyte0 _ hr hx)
          · obtain ⟨b1, b2⟩ := bwd t ht
            rw [h0] at b1
            rw [← b1] at b2
            rw [b2]
      · rw [if_neg hr]
        refine ⟨by simp, fun t => ⟨fun h => by simp at h, fun ht => ?_⟩⟩
        obtain ⟨b1, b2⟩ := bwd t ht
        rw [h0] at b1
        rw [← b1] at b2
        rw [b2] at hr
        have := hbyteF t (fun hh => absurd hh hr)
        rw [this] at b1; exact absurd b1 (by decide)
    · rw [if_neg h0]
      by_cases hF : src.getLast h = 0xFF
      · rw [if_pos hF]
        by_cases hx : (tbcScan src 0xFF (src.length - 1)).length > 0 →
            (tbcScan src 0xFF (src.length - 1)).getD
            ((tbcScan src 0xFF (src.length - 1)).length - 1) 0 &&& 1 = 0
        · have e : (if (tbcScan src 0xFF (src.length - 1)).length > 0 then
              if (tbcScan src 0xFF (src.length - 1)).getD
                ((tbcScan src 0xFF (src.length - 1)).length - 1) 0 &&& 1 ≠ 0 then Res.err
              else Res.ok (tbcScan src 0xFF (src.length - 1))
              else Res.ok (tbcScan src 0xFF (src.length - 1)))
              = Res.ok (tbcScan src 0xFF (src.length - 1)) := by
            split
            · rename_i hh; rw [if_neg (by simpa using hx hh)]
            · rfl
          rw [e]
          refine ⟨by simp, fun t => ⟨fun he => ?_, fun ht => ?_⟩⟩
          · have := Res.ok.inj he
            exact fwd 0xFF t hF this (this ▸ hbyteF _ hx)
          · obtain ⟨b1, b2⟩ := bwd t ht
            rw [hF] at b1
            rw [← b1] at b2
            rw [b2]
        · rw [Classical.not_imp] at hx
          rw [if_pos hx.1, if_pos hx.2]
          refine ⟨by simp, fun t => ⟨fun h => by simp at h, fun ht => ?_⟩⟩
          obtain ⟨b1, b2⟩ := bwd t ht
          rw [hF] at b1
          rw [← b1] at b2
          rw [b2] at hx
          have := hbyte0 t hx.1 hx.2
          rw [this] at b1; exact absurd b1 (by decide)
      · rw [if_neg hF]
        refine ⟨by simp, fun t => ⟨fun h => by simp at h, fun ht => ?_⟩⟩
        obtain ⟨b1, b2⟩ := bwd t ht
        unfold tbcByte at b1
        split at b1
        · exact absurd b1 hF
        · split at b1
          · exact absurd b1 h0
          · exact absurd b1 hF

theorem C07_tbc_roundtrip (text : Bytes) (bs : Nat) (h1 : 1 ≤ bs) :
    tbcUnpad (tbcPad text bs) = .ok text := by
  rw [(C07_tbc_unpad_iff _).2, tbcPad_eq text bs h1]
  exact ⟨_, padSize_pos _ _ h1, rfl⟩

example : tbcPad [1, 2] 4 = [1, 2, 0xFF, 0xFF] := by decide
example : tbcUnpad [1, 3, 0, 0] = .ok [1, 3] := by decide
example : tbcUnpad [0xFF, 0xFF] = .ok [] := by decide

/-! ### C08 -/

/-- PKCS1-style padding: whenever padding is applied (at least 8 filler bytes fit, known block type) and
the text is shorter than 256 bytes, UnPadding returns the text, for every random filler.
Missing for the full claim C08: texts of 256 bytes and more (see the violation below), and the padded
length is `blockSize + 1` rather than `blockSize`. -/
theorem C08_pkcs1_roundtrip_partial (rnd : Nat → Nat) (bt : String) (text : Bytes) (bs : Nat)
    (hlen : text.length < 256) (hfit : text.length + 11 ≤ bs) :
    pkcs1Unpad (pkcs1Pad rnd bt text bs) = .ok text := by
  unfold pkcs1Pad
  simp only
  rw [if_neg (by omega), if_neg (by omega)]
  generalize hp : ((bs : Int) - 3 - (text.length : Int)).toNat = p
  obtain ⟨m, hm⟩ : ∃ m, (if bt = "00" then text ++ [0x00] ++ [0x00] ++ List.replicate p 0x00
        else if bt = "01" then text ++ [0x00] ++ [0x01] ++ List.replicate p 0xFF
        else if bt = "02" then text ++ [0x00] ++ [0x02] ++ randomBytes rnd p
        else text ++ [0x00]) = text ++ m := by
    split
    · exact ⟨[0x00] ++ ([0x00] ++ List.replicate p 0x00), by simp only [List.append_assoc]⟩
    · split
      · exact ⟨[0x00] ++ ([0x01] ++ List.replicate p 0xFF), by simp only [List.append_assoc]⟩
      · split
        · exact ⟨[0x00] ++ ([0x02] ++ randomBytes rnd p), by simp only [List.append_assoc]⟩
        · exact ⟨_, rfl⟩
  rw [hm]
  unfold pkcs1Unpad
  have hne : text ++ m ++ [0x00] ++ [byteOf text.length] ≠ [] := by simp
  simp only
  rw [if_neg (by simp), idx_last _ hne, getLast_snoc]
  simp only [Res.bind_ok, byteOf_toNat_lt _ hlen]
  rw [if_neg (by simp), sliceTo, if_pos (by simp)]
  simp

/-- The padded block has one byte more than the block size (for the block types 00, 01, 02). -/
theorem C08_pkcs1_length_violated (rnd : Nat → Nat) (bt : String) (text : Bytes) (bs : Nat)
    (hbt : bt = "00" ∨ bt = "01" ∨ bt = "02") (hfit : text.length + 11 ≤ bs) :
    (pkcs1Pad rnd bt text bs).length = bs + 1 := by
  unfold pkcs1Pad
  simp only
  rw [if_neg (by omega), if_neg (by omega)]
  rcases hbt with rfl | rfl | rfl <;> simp [randomBytes_length] <;> omega

/-- Texts of 256 bytes and more never round-trip when padding is applied: the length byte wraps. -/
theorem C08_pkcs1_long_violated (rnd : Nat → Nat) (bt : String) (text : Bytes) (bs : Nat)
    (hlen : 256 ≤ text.length) (hfit : text.length + 11 ≤ bs) :
    pkcs1Unpad (pkcs1Pad rnd bt text bs) ≠ .ok text := by
  unfold pkcs1Pad
  simp only
  rw [if_neg (by omega), if_neg (by omega)]
  generalize (if bt = "00" then text ++ [0x00] ++ [0x00] ++ List.replicate _ 0x00
        else if bt = "01" then text ++ [0x00] ++ [0x01] ++ List.replicate _ 0xFF
        else if bt = "02" then text ++ [0x00] ++ [0x02] ++ randomBytes rnd _
        else text ++ [0x00]) = m
  unfold pkcs1Unpad
  have hne : m ++ [0x00] ++ [byteOf text.length] ≠ [] := by simp
  simp only
  rw [if_neg (by simp), idx_last _ hne, getLast_snoc]
  simp only [Res.bind_ok, byteOf_toNat]
  intro h
  split at h
  · cases h
  · unfold sliceTo at h
    split at h
    · have := congrArg List.length (Res.ok.inj h)
      rw [List.length_take] at this
      have := Nat.mod_lt text.length (show 256 > 0 by omega)
      omega
    · cases h

example : pkcs1Pad (fun _ => 0) "01" [7] 12 = [7, 0, 1, 255, 255, 255, 255, 255, 255, 255, 255, 0, 1] := by
  decide

/-! ### C09 -/

/-- Every padding but PKCS1 keeps the text as a prefix and makes the length a positive multiple of the
block size. -/
theorem C09_keeps_text_and_aligns (rnd : Nat → Nat) (text : Bytes) (bs : Nat) (h1 : 1 ≤ bs) :
    ∀ out ∈ [pkcs7Pad text bs, x923Pad text bs, iso10126Pad rnd text bs, iso7816Pad text bs,
        zeroPad text bs, tbcPad text bs],
      text <+: out ∧ bs ∣ out.length ∧ 0 < out.length := by
  have hp := padSize_pos text.length bs h1
  have hd := padSize_dvd text.length bs h1
  have key : ∀ pad : Bytes, pad.length = padSize text.length bs →
      text <+: text ++ pad ∧ bs ∣ (text ++ pad).length ∧ 0 < (text ++ pad).length := by
    intro pad hl
    refine ⟨⟨pad, rfl⟩, by simpa [hl] using hd, by simp; omega⟩
  intro out ho
  simp only [List.mem_cons, List.not_mem_nil, or_false] at ho
  rcases ho with rfl | rfl | rfl | rfl | rfl | rfl
  · unfold pkcs7Pad; rw [if_neg (by omega)]; exact key _ (by simp)
  · rw [x923Pad_eq text bs h1, List.append_assoc]; exact key _ (by simp; omega)
  · unfold iso10126Pad; rw [if_neg (by omega)]; simp only [List.append_assoc]
    exact key _ (by simp [randomBytes_length]; omega)
  · rw [iso7816Pad_eq text bs h1]; exact key _ (by simp; omega)
  · unfold zeroPad; rw [if_neg (by omega)]; exact key _ (by simp)
  · rw [tbcPad_eq text bs h1]; exact key _ (by simp)

/-- The same for PKCS5, which always uses 8. -/
theorem C09_pkcs5_aligns (text : Bytes) (bs : Int) :
    text <+: pkcs5Pad text bs ∧ 8 ∣ (pkcs5Pad text bs).length ∧ 0 < (pkcs5Pad text bs).length := by
  have hp := padSize_pos text.length 8 (by omega)
  have hd := padSize_dvd text.length 8 (by omega)
  unfold pkcs5Pad
  exact ⟨⟨_, rfl⟩, by simpa using hd, by simp; omega⟩

/-- Block sizes below 1 (including negative ones) leave the text alone. -/
theorem C09_nonpositive_block_size (rnd : Nat → Nat) (bt : String) (text : Bytes) (bs : Int) (h : bs < 1) :
    ∀ out ∈ [pkcs7Pad text bs, x923Pad text bs, iso10126Pad rnd text bs, iso7816Pad text bs,
        zeroPad text bs, tbcPad text bs, pkcs1Pad rnd bt text bs], out = text := by
  intro out ho
  simp only [List.mem_cons, List.not_mem_nil, or_false] at ho
  rcases ho with rfl | rfl | rfl | rfl | rfl | rfl | rfl <;>
    simp [pkcs7Pad, x923Pad, iso10126Pad, iso7816Pad, zeroPad, tbcPad, pkcs1Pad, h]

example : tbcPad [1, 3, 5] 3 = [1, 3, 5, 0, 0, 0] := by decide
example : zeroPad [9] (-4) = [9] := by decide

end Verif.Padding
