import Verif.Pkcs.Bmp
/-
C138, passwords: /repo/tool/bmp_string.
-/
namespace Verif.Pkcs
open Verif.Utf8

/-- The big-endian 16-bit form of characters of the basic plane. -/
def ucs2 (cs : List Nat) : Bytes := cs.flatMap fun c => [BitVec.ofNat 8 (c / 256), BitVec.ofNat 8 (c % 256)]

/-- For every well-formed string: two bytes for every character, big-endian, and the terminator; an error exactly when a character is outside the basic plane. -/
theorem C138_bmp_encode (cs : List Nat) (h : ∀ c ∈ cs, Scalar c) :
    ((∀ c ∈ cs, c < 0x10000) → bmpString (cs.flatMap enc) = .ok (ucs2 cs) ∧ bmpZ (cs.flatMap enc) = .ok (ucs2 cs ++ [0, 0])) ∧
    ((∃ c ∈ cs, 0x10000 ≤ c) → bmpString (cs.flatMap enc) = .err ∧ bmpZ (cs.flatMap enc) = .err) := by
  constructor
  · intro hb
    have : bmpString (cs.flatMap enc) = .ok (ucs2 cs) := by
      rw [bmpString, runes_enc cs h, if_neg]
      · rfl
      · simp only [List.any_eq_true, decide_eq_true_eq, not_exists, not_and]
        intro c hc
        have := hb c hc
        omega
    exact ⟨this, by rw [bmpZ, this]; rfl⟩
  · rintro ⟨c, hc, hb⟩
    have : bmpString (cs.flatMap enc) = .err := by
      rw [bmpString, runes_enc cs h, if_pos]
      simp only [List.any_eq_true, decide_eq_true_eq]
      exact ⟨c, hc, hb⟩
    exact ⟨this, by rw [bmpZ, this]; rfl⟩

theorem units_ucs2 (cs : List Nat) (h : ∀ c ∈ cs, c < 0x10000) : units (ucs2 cs) = cs := by
  induction cs with
  | nil => rfl
  | cons c cs ih =>
    have hc := h c (by simp)
    have e : ucs2 (c :: cs) = BitVec.ofNat 8 (c / 256) :: BitVec.ofNat 8 (c % 256) :: ucs2 cs := rfl
    rw [e, units, ih fun c' h' => h c' (by simp [h'])]
    simp only [BitVec.toNat_ofNat, List.cons.injEq, and_true]
    omega

/-- Two well-formed strings never give the same bytes. -/
theorem C138_bmp_injective (cs ds : List Nat) (h : ∀ c ∈ cs, Scalar c ∧ c < 0x10000) (h' : ∀ c ∈ ds, Scalar c ∧ c < 0x10000)
    (he : bmpZ (cs.flatMap enc) = bmpZ (ds.flatMap enc)) : cs = ds := by
  have a := ((C138_bmp_encode cs fun c hc => (h c hc).1).1 fun c hc => (h c hc).2).2
  have b := ((C138_bmp_encode ds fun c hc => (h' c hc).1).1 fun c hc => (h' c hc).2).2
  rw [a, b] at he
  have := List.append_cancel_right (Res.ok.inj he)
  rw [← units_ucs2 cs fun c hc => (h c hc).2, ← units_ucs2 ds fun c hc => (h' c hc).2, this]

theorem utf16Dec_id (cs : List Nat) (h : ∀ c ∈ cs, Scalar c ∧ c < 0x10000) : utf16Dec cs = cs := by
  have key : ∀ c, Scalar c ∧ c < 0x10000 → ¬ (0xd800 ≤ c ∧ c < 0xe000) := by
    intro c hc
    obtain ⟨h1, h2⟩ := hc
    unfold Scalar at h1
    omega
  induction cs with
  | nil => rfl
  | cons c cs ih =>
    have hc := key c (h c (by simp))
    cases cs with
    | nil => simp only [utf16Dec]; rw [if_neg hc]
    | cons d ds =>
      rw [utf16Dec, if_neg (by omega), if_neg hc, ih fun c' h' => h c' (by simp at h' ⊢; exact .inr h')]

theorem ucs2_length (cs : List Nat) : (ucs2 cs).length = 2 * cs.length := by
  induction cs with
  | nil => rfl
  | cons c cs ih =>
    have e : ucs2 (c :: cs) = BitVec.ofNat 8 (c / 256) :: BitVec.ofNat 8 (c % 256) :: ucs2 cs := rfl
    rw [e]; simp [ih]; omega

/-- `DecodeBMPString` gives back the string that `BmpStringZeroTerminated` encoded. -/
theorem C138_bmp_roundtrip (cs : List Nat) (h : ∀ c ∈ cs, Scalar c ∧ c < 0x10000) :
    (bmpZ (cs.flatMap enc)).bind decodeBMP = .ok (cs.flatMap enc) := by
  rw [((C138_bmp_encode cs fun c hc => (h c hc).1).1 fun c hc => (h c hc).2).2]
  show decodeBMP (ucs2 cs ++ [0#8, 0#8]) = _
  have hl := ucs2_length cs
  have e1 : (ucs2 cs ++ [0#8, 0#8]).length = 2 * cs.length + 2 := by simp [hl]
  have g : ∀ i, (ucs2 cs ++ [0#8, 0#8]).getD (2 * cs.length + 2 - (i + 1)) 0 = [0#8, 0#8].getD (2 - (i + 1)) 0 ∨ 2 ≤ i := by
    intro i
    by_cases hi : 2 ≤ i
    · exact .inr hi
    · left
      rw [List.getD_eq_getElem?_getD, List.getD_eq_getElem?_getD, List.getElem?_append_right (by omega), hl]
      congr 2
      omega
  rw [decodeBMP, e1, if_neg (by omega)]
  have g0 := g 0
  have g1 := g 1
  simp only [Nat.zero_add] at g0 g1
  rw [if_pos ⟨by omega, g0.resolve_right (by omega), g1.resolve_right (by omega)⟩]
  have : (ucs2 cs ++ [0#8, 0#8]).take (2 * cs.length + 2 - 2) = ucs2 cs := by
    rw [show 2 * cs.length + 2 - 2 = (ucs2 cs).length by omega, List.take_left]
  show Res.ok ((utf16Dec (units ((ucs2 cs ++ [0#8, 0#8]).take (2 * cs.length + 2 - 2)))).flatMap enc) = _
  rw [this, units_ucs2 cs fun c hc => (h c hc).2, utf16Dec_id cs h]

/-- Without the terminator this fails: a final NUL is taken for one. -/
theorem C138_bmp_unterminated_violated : (bmpString [0x61, 0x00]).bind decodeBMP = .ok [0x61] := by decide +kernel

/-- Bytes that are not UTF-8 are not refused: each becomes U+FFFD, so that different passwords are the same password. -/
theorem C138_invalid_utf8_passwords_violated : bmpZ [0xff] = bmpZ [0xfe] ∧ bmpZ [0xff] = bmpZ [0xef, 0xbf, 0xbd] ∧ bmpZ [0xff] = .ok [0xff, 0xfd, 0, 0] := by decide +kernel

example : (∀ c ∈ [0x70, 0xe4, 0x4e2d], Scalar c ∧ c < 0x10000) ∧ bmpZ ([0x70, 0xe4, 0x4e2d].flatMap enc) = .ok [0, 0x70, 0, 0xe4, 0x4e, 0x2d, 0, 0] := by decide +kernel

end Verif.Pkcs
