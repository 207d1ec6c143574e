import Verif.Zuc.ZucLoad
/-
ZUC: what `Encrypt` and the objects over it do, in terms of the key words.
-/
namespace Verif.Zuc
open Verif.Cipher

theorem putU32_getD (a : W) (i : Nat) (h : i < 4) : (putU32 a).getD i 0 = a.extractLsb' (24 - 8 * i) 8 := by
  unfold putU32
  have e : ∀ k, (a >>> k).setWidth 8 = a.extractLsb' k 8 := by
    intro k
    apply BitVec.eq_of_getLsbD_eq
    intro j hj
    simp [BitVec.getLsbD_setWidth, BitVec.getLsbD_extractLsb', hj]
  have e0 : a.setWidth 8 = a.extractLsb' 0 8 := by
    apply BitVec.eq_of_getLsbD_eq
    intro j hj
    simp [BitVec.getLsbD_setWidth, BitVec.getLsbD_extractLsb', hj]
  interval_cases i
  · exact e 24
  · exact e 16
  · exact e 8
  · exact e0

theorem putU32_length (a : W) : (putU32 a).length = 4 := rfl

/-- The key bytes from word `q` on. -/
abbrev ksFrom (z : Nat → W) (q n : Nat) : Bytes := Spec.keyBytes z q n

theorem ksFrom_length (z : Nat → W) (q n : Nat) : (ksFrom z q n).length = n := by simp [Spec.keyBytes]

theorem ksFrom_short (z : Nat → W) (q n : Nat) (h : n ≤ 4) : (putU32 (z q)).take n = ksFrom z q n := by
  apply List.ext_getElem
  · rw [List.length_take, putU32_length, ksFrom_length]; omega
  · intro i h1 h2
    have hi : i < n := by rwa [ksFrom_length] at h2
    have e := putU32_getD (z q) i (by omega)
    rw [List.getD_eq_getElem?_getD, List.getElem?_eq_getElem (by rw [putU32_length]; omega), Option.getD_some] at e
    rw [List.getElem_take, e]
    simp only [ksFrom, Spec.keyBytes, List.getElem_map, List.getElem_range, Spec.byteOf]
    rw [show (4 * q + i) / 4 = q by omega, show (4 * q + i) % 4 = i by omega]

theorem ksFrom_split (z : Nat → W) (q n : Nat) : ksFrom z q (4 + n) = putU32 (z q) ++ ksFrom z (q + 1) n := by
  have : putU32 (z q) = ksFrom z q 4 := by
    rw [← ksFrom_short z q 4 (by omega)]; rfl
  rw [this]
  unfold ksFrom Spec.keyBytes
  rw [List.range_add, List.map_append, List.map_map]
  congr 1
  apply List.map_congr_left
  intro i _
  simp only [Function.comp]
  congr 1
  omega

theorem keyword_at (s : St) (q : Nat) : keyword (Strm.iterate workRound q s) = (wordAt s q, Strm.iterate workRound (q + 1) s) := by
  rw [Strm.iterate_succ]; rfl

theorem encGo_spec (s : St) : ∀ (n q : Nat) (inp : Bytes) (outLen : Nat), inp.length / 4 = n →
    encGo n inp outLen (Strm.iterate workRound q s) =
      if inp.length ≤ outLen then
        some (xorb inp (ksFrom (wordAt s) q inp.length), Strm.iterate workRound (q + (inp.length + 3) / 4) s)
      else none := by
  intro n
  induction n with
  | zero =>
    intro q inp outLen h
    unfold encGo
    by_cases h0 : 0 < inp.length
    · rw [if_pos h0]
      by_cases h1 : outLen < inp.length
      · rw [if_pos h1, if_neg (by omega)]
      · rw [if_neg h1, if_pos (by omega), keyword_at]
        simp only []
        rw [ksFrom_short _ _ _ (by omega), show (inp.length + 3) / 4 = 1 by omega]
    · have : inp = [] := List.length_eq_zero_iff.1 (by omega)
      subst this
      simp [xorb]
  | succ n ih =>
    intro q inp outLen h
    unfold encGo
    by_cases h1 : outLen < 4
    · rw [if_pos h1, if_neg (by omega)]
    · rw [if_neg h1, keyword_at]
      simp only []
      rw [ih (q + 1) (inp.drop 4) (outLen - 4) (by rw [List.length_drop]; omega)]
      have hl : (inp.drop 4).length = inp.length - 4 := List.length_drop
      by_cases h2 : inp.length ≤ outLen
      · rw [if_pos (by omega), if_pos h2]
        simp only []
        have e1 : ksFrom (wordAt s) q inp.length = putU32 (wordAt s q) ++ ksFrom (wordAt s) (q + 1) (inp.length - 4) := by
          rw [← ksFrom_split, show 4 + (inp.length - 4) = inp.length by omega]
        have e2 : q + 1 + ((inp.drop 4).length + 3) / 4 = q + (inp.length + 3) / 4 := by omega
        rw [e2, hl, e1]
        have e3 : xorb inp (putU32 (wordAt s q) ++ ksFrom (wordAt s) (q + 1) (inp.length - 4)) =
            xorb (inp.take 4) (putU32 (wordAt s q)) ++ xorb (inp.drop 4) (ksFrom (wordAt s) (q + 1) (inp.length - 4)) := by
          rw [← xorb_append _ _ _ _ (by rw [List.length_take, putU32_length]; omega), List.take_append_drop]
        rw [e3]
      · rw [if_neg (by omega), if_neg h2]

/-- One `Encrypt` from the state `q` words in. -/
theorem encrypt_spec (s : St) (q : Nat) (out inp : Bytes) : encrypt (Strm.iterate workRound q s) out inp =
    if inp.length ≤ out.length then
      .ok (xorb inp (ksFrom (wordAt s) q inp.length) ++ out.drop inp.length, Strm.iterate workRound (q + (inp.length + 3) / 4) s)
    else .panic := by
  unfold encrypt
  rw [encGo_spec s _ q inp out.length rfl]
  by_cases h : inp.length ≤ out.length
  · rw [if_pos h, if_pos h]
    simp only []
    have : (xorb inp (ksFrom (wordAt s) q inp.length)).length = inp.length := by
      simp [ksFrom_length]
    rw [this]
  · rw [if_neg h, if_neg h]

theorem keywords_spec (s : St) : ∀ n q, keywords n (Strm.iterate workRound q s) =
    ((List.range n).map fun i => wordAt s (q + i), Strm.iterate workRound (q + n) s) := by
  intro n
  induction n with
  | zero => intro q; rfl
  | succ n ih =>
    intro q
    unfold keywords
    rw [keyword_at]
    simp only []
    rw [ih (q + 1), List.range_succ_eq_map, List.map_cons, List.map_map]
    have e1 : ((fun i => wordAt s (q + i)) ∘ Nat.succ) = fun i => wordAt s (q + 1 + i) := by
      funext i
      simp only [Function.comp, Nat.succ_eq_add_one]
      rw [show q + (i + 1) = q + 1 + i by omega]
    rw [e1, show q + (n + 1) = q + 1 + n by omega]
    rfl

end Verif.Zuc
