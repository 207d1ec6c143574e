import Verif.Go.Basic
/-
Go strings as sequences of runes: `for _, r := range s` and `string(rune)` (unicode/utf8, written from its source).
-/
namespace Verif.Utf8

/-- `0x80 ≤ b ≤ 0xBF`. -/
def isCont (b : Nat) : Bool := 128 ≤ b && b ≤ 191

/-- `utf8.DecodeRune`: the rune and the number of bytes it takes; a byte that begins no well-formed sequence is U+FFFD. -/
def decodeRune : Bytes → Nat × Nat
  | [] => (0xfffd, 0)
  | b0 :: r =>
    let x := b0.toNat
    let g (i : Nat) := (r.getD i 0#8).toNat
    if x < 0x80 then (x, 1)
    else if x < 0xc2 then (0xfffd, 1)
    else if x < 0xe0 then
      if isCont (g 0) then ((x - 0xc0) * 64 + (g 0 - 128), 2) else (0xfffd, 1)
    else if x < 0xf0 then
      if (if x = 0xe0 then decide (0xa0 ≤ g 0 ∧ g 0 ≤ 0xbf) else if x = 0xed then decide (0x80 ≤ g 0 ∧ g 0 ≤ 0x9f) else isCont (g 0)) && isCont (g 1) then
        ((x - 0xe0) * 4096 + (g 0 - 128) * 64 + (g 1 - 128), 3)
      else (0xfffd, 1)
    else if x < 0xf5 then
      if (if x = 0xf0 then decide (0x90 ≤ g 0 ∧ g 0 ≤ 0xbf) else if x = 0xf4 then decide (0x80 ≤ g 0 ∧ g 0 ≤ 0x8f) else isCont (g 0)) && isCont (g 1) && isCont (g 2) then
        ((x - 0xf0) * 262144 + (g 0 - 128) * 4096 + (g 1 - 128) * 64 + (g 2 - 128), 4)
      else (0xfffd, 1)
    else (0xfffd, 1)

/-- The runes that `range s` visits; every step takes at least one byte. -/
def runesAux : Nat → Bytes → List Nat
  | 0, _ => []
  | n + 1, s => if s.isEmpty then [] else (decodeRune s).1 :: runesAux n (s.drop (decodeRune s).2)

def runes (s : Bytes) : List Nat := runesAux s.length s

/-- A Unicode scalar value: no surrogate, at most U+10FFFF. -/
def Scalar (c : Nat) : Prop := c < 0xd800 ∨ (0xe000 ≤ c ∧ c < 0x110000)

instance (c : Nat) : Decidable (Scalar c) := inferInstanceAs (Decidable (_ ∨ _))

/-- The UTF-8 form of a scalar value (RFC 3629, section 3). -/
def enc (c : Nat) : Bytes :=
  (if c < 0x80 then [c]
   else if c < 0x800 then [0xc0 + c / 64, 0x80 + c % 64]
   else if c < 0x10000 then [0xe0 + c / 4096, 0x80 + c / 64 % 64, 0x80 + c % 64]
   else [0xf0 + c / 262144, 0x80 + c / 4096 % 64, 0x80 + c / 64 % 64, 0x80 + c % 64]).map (BitVec.ofNat 8)

theorem decodeRune_enc (c : Nat) (h : Scalar c) (r : Bytes) : decodeRune (enc c ++ r) = (c, (enc c).length) ∧ 0 < (enc c).length := by
  unfold Scalar at h
  unfold enc
  split
  · rename_i h1
    have e : c % 256 = c := by omega
    simp [decodeRune, e, h1]
  · split
    · rename_i h1 h2
      have e1 : (192 + c / 64) % 256 = 192 + c / 64 := by omega
      have e2 : (128 + c % 64) % 256 = 128 + c % 64 := by omega
      simp [decodeRune, isCont, e1, e2]
      repeat (first | (rw [if_neg (by omega)]) | (rw [if_pos (by omega)]))
      simp; omega
    · split
      · rename_i h1 h2 h3
        have e1 : (224 + c / 4096) % 256 = 224 + c / 4096 := by omega
        have e2 : (128 + c / 64 % 64) % 256 = 128 + c / 64 % 64 := by omega
        have e3 : (128 + c % 64) % 256 = 128 + c % 64 := by omega
        simp [decodeRune, isCont, e1, e2, e3]
        rw [if_neg (by omega), if_neg (by omega), if_neg (by omega), if_pos (by omega)]
        rw [if_pos]
        · simp; omega
        · refine ⟨?_, by omega⟩
          split
          · omega
          · split <;> omega
      · rename_i h1 h2 h3
        have e1 : (240 + c / 262144) % 256 = 240 + c / 262144 := by omega
        have e2 : (128 + c / 4096 % 64) % 256 = 128 + c / 4096 % 64 := by omega
        have e3 : (128 + c / 64 % 64) % 256 = 128 + c / 64 % 64 := by omega
        have e4 : (128 + c % 64) % 256 = 128 + c % 64 := by omega
        simp [decodeRune, isCont, e1, e2, e3, e4]
        rw [if_neg (by omega), if_neg (by omega), if_neg (by omega), if_neg (by omega), if_pos (by omega)]
        rw [if_pos]
        · simp; omega
        · refine ⟨⟨?_, by omega⟩, by omega⟩
          split
          · omega
          · split <;> omega

theorem runesAux_enc (cs : List Nat) (h : ∀ c ∈ cs, Scalar c) (n : Nat) (hn : (cs.flatMap enc).length ≤ n) : runesAux n (cs.flatMap enc) = cs := by
  induction cs generalizing n with
  | nil => cases n <;> simp [runesAux]
  | cons c cs ih =>
    obtain ⟨hd, hp⟩ := decodeRune_enc c (h c (by simp)) (cs.flatMap enc)
    rw [List.flatMap_cons] at hn ⊢
    rw [List.length_append] at hn
    cases n with
    | zero => omega
    | succ n =>
      have hne : (enc c ++ cs.flatMap enc).isEmpty = false := by
        cases he : enc c with
        | nil => rw [he] at hp; simp at hp
        | cons _ _ => rfl
      rw [runesAux, hne, hd]
      simp only [Bool.false_eq_true, if_false, List.drop_left]
      rw [ih (fun c' hc' => h c' (by simp [hc'])) n (by omega)]

/-- Well-formed UTF-8 is read back. -/
theorem runes_enc (cs : List Nat) (h : ∀ c ∈ cs, Scalar c) : runes (cs.flatMap enc) = cs := runesAux_enc cs h _ (Nat.le_refl _)

end Verif.Utf8
