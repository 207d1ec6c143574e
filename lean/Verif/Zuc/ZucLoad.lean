import Verif.Zuc.ZucLemmas
/-
ZUC-256: the loaded register is the one of the standard.
-/
namespace Verif.Zuc
open Verif.Cipher

theorem six (a b c d e f : Nat) (ha : a < 256) (hb : b < 256) (hc : c < 256) (hd : d < 256) (he : e < 256) (hf : f < 256) :
    (((((a * 256 + b) * 256 + c) * 256 + d) * 256 + e) * 256 + f) / 4398046511104 % 64 = a / 4 ∧
    (((((a * 256 + b) * 256 + c) * 256 + d) * 256 + e) * 256 + f) / 68719476736 % 64 = a % 4 * 16 + b / 16 ∧
    (((((a * 256 + b) * 256 + c) * 256 + d) * 256 + e) * 256 + f) / 1073741824 % 64 = b % 16 * 4 + c / 64 ∧
    (((((a * 256 + b) * 256 + c) * 256 + d) * 256 + e) * 256 + f) / 16777216 % 64 = c % 64 ∧
    (((((a * 256 + b) * 256 + c) * 256 + d) * 256 + e) * 256 + f) / 262144 % 64 = d / 4 ∧
    (((((a * 256 + b) * 256 + c) * 256 + d) * 256 + e) * 256 + f) / 4096 % 64 = d % 4 * 16 + e / 16 ∧
    (((((a * 256 + b) * 256 + c) * 256 + d) * 256 + e) * 256 + f) / 64 % 64 = e % 16 * 4 + f / 64 ∧
    (((((a * 256 + b) * 256 + c) * 256 + d) * 256 + e) * 256 + f) / 1 % 64 = f % 64 := by
  refine ⟨?_, ?_, ?_, ?_, ?_, ?_, ?_, ?_⟩ <;> omega

theorem iv6_vals (iv : Bytes) (h : iv.length = 23) :
    Spec.iv6 iv 0 = (iv.getD 17 0).toNat / 4 ∧
    Spec.iv6 iv 1 = (iv.getD 17 0).toNat % 4 * 16 + (iv.getD 18 0).toNat / 16 ∧
    Spec.iv6 iv 2 = (iv.getD 18 0).toNat % 16 * 4 + (iv.getD 19 0).toNat / 64 ∧
    Spec.iv6 iv 3 = (iv.getD 19 0).toNat % 64 ∧
    Spec.iv6 iv 4 = (iv.getD 20 0).toNat / 4 ∧
    Spec.iv6 iv 5 = (iv.getD 20 0).toNat % 4 * 16 + (iv.getD 21 0).toNat / 16 ∧
    Spec.iv6 iv 6 = (iv.getD 21 0).toNat % 16 * 4 + (iv.getD 22 0).toNat / 64 ∧
    Spec.iv6 iv 7 = (iv.getD 22 0).toNat % 64 := by
  have s := six _ _ _ _ _ _ (iv.getD 17 0).isLt (iv.getD 18 0).isLt (iv.getD 19 0).isLt (iv.getD 20 0).isLt
    (iv.getD 21 0).isLt (iv.getD 22 0).isLt
  rw [iv6_eq iv h, iv6_eq iv h, iv6_eq iv h, iv6_eq iv h, iv6_eq iv h, iv6_eq iv h, iv6_eq iv h, iv6_eq iv h]
  exact s

theorem load256_rel {D : Bytes} {n : Nat} (hD : RowOK D n) (key iv : Bytes) (hv : iv.length = 23) :
    RelC (load256 D key iv) (Spec.load256 n key iv) := by
  obtain ⟨v0, v2, r1, rr⟩ := hD
  have d3 : ∀ i, D.getD (3 + i) 0 = ([0x2A#8, 0x6D#8, 0x40#8, 0x40#8, 0x40#8, 0x40#8, 0x40#8, 0x40#8, 0x40#8, 0x40#8, 0x52#8,
    0x10#8, 0x30#8] : Bytes).getD i 0 := by
    intro i; rw [getD_drop3, rr]
  have e1 : (Spec.d256 n).getD 1 0 = 47 := rfl
  have hb : ∀ i, (iv.getD i 0).toNat < 256 := fun i => (iv.getD i 0).isLt
  have hk : ∀ i, (key.getD i 0).toNat < 256 := fun i => (key.getD i 0).isLt
  have q := iv6_vals iv hv
  have m17 : (iv.getD 17 0 >>> 2).toNat = Spec.iv6 iv 0 := by rw [shr2, q.1]
  have m18 : (((iv.getD 17 0 &&& 0x3#8) <<< 4) ||| (iv.getD 18 0 >>> 4)).toNat = Spec.iv6 iv 1 := by rw [cut4, q.2.1]
  have m19 : (((iv.getD 18 0 &&& 0xf#8) <<< 2) ||| (iv.getD 19 0 >>> 6)).toNat = Spec.iv6 iv 2 := by rw [cut2, q.2.2.1]
  have m20 : (iv.getD 19 0 &&& 0x3f#8).toNat = Spec.iv6 iv 3 := by rw [low6, q.2.2.2.1]
  have m21 : (iv.getD 20 0 >>> 2).toNat = Spec.iv6 iv 4 := by rw [shr2, q.2.2.2.2.1]
  have m22 : (((iv.getD 20 0 &&& 0x3#8) <<< 4) ||| (iv.getD 21 0 >>> 4)).toNat = Spec.iv6 iv 5 := by rw [cut4, q.2.2.2.2.2.1]
  have m23 : (((iv.getD 21 0 &&& 0xf#8) <<< 2) ||| (iv.getD 22 0 >>> 6)).toNat = Spec.iv6 iv 6 := by rw [cut2, q.2.2.2.2.2.2.1]
  have m24 : (iv.getD 22 0 &&& 0x3f#8).toNat = Spec.iv6 iv 7 := by rw [low6, q.2.2.2.2.2.2.2]
  have lt6 : ∀ j, Spec.iv6 iv j < 64 := fun j => by unfold Spec.iv6; exact Nat.mod_lt _ (by omega)
  have k31 := hk 31
  have o : ∀ x : Byte, ∀ j, x.toNat = Spec.iv6 iv j → (0x40#8 ||| x).toNat = 64 + Spec.iv6 iv j := by
    intro x j h
    rw [or40 x (by rw [h]; exact lt6 j), h]
  unfold Spec.load256
  apply relC_of_list
  · rfl
  · unfold load256
    simp only [show D.getD 3 0 = 0x2A#8 from d3 0, show D.getD 4 0 = 0x6D#8 from d3 1, show D.getD 5 0 = 0x40#8 from d3 2,
      show D.getD 6 0 = 0x40#8 from d3 3, show D.getD 7 0 = 0x40#8 from d3 4, show D.getD 8 0 = 0x40#8 from d3 5,
      show D.getD 9 0 = 0x40#8 from d3 6, show D.getD 10 0 = 0x40#8 from d3 7, show D.getD 11 0 = 0x40#8 from d3 8,
      show D.getD 12 0 = 0x40#8 from d3 9, show D.getD 13 0 = 0x52#8 from d3 10, show D.getD 14 0 = 0x10#8 from d3 11,
      show D.getD 15 0 = 0x30#8 from d3 12, r1, List.map_cons, List.map_nil]
    have l6 := fun j => lt6 j
    rw [make256_toNat _ _ _ _ v0.2.2, make256_toNat _ _ _ _ v2.2.2, make256_toNat _ (0x2F#8) _ _ (by decide),
      make256_toNat _ (0x2A#8) _ _ (by decide), make256_toNat _ (0x6D#8) _ _ (by decide),
      make256_toNat _ (0x52#8) _ _ (by decide),
      make256_toNat (iv.getD 0 0) _ _ _ (by rw [o _ _ m17]; have := lt6 0; omega),
      make256_toNat (iv.getD 1 0) _ _ _ (by rw [o _ _ m18]; have := lt6 1; omega),
      make256_toNat (iv.getD 10 0) _ _ _ (by rw [o _ _ m19]; have := lt6 2; omega),
      make256_toNat (key.getD 8 0) _ _ _ (by rw [o _ _ m20]; have := lt6 3; omega),
      make256_toNat (key.getD 9 0) _ _ _ (by rw [o _ _ m21]; have := lt6 4; omega),
      make256_toNat (iv.getD 5 0) _ _ _ (by rw [o _ _ m22]; have := lt6 5; omega),
      make256_toNat (key.getD 11 0) _ _ _ (by rw [o _ _ m23]; have := lt6 6; omega),
      make256_toNat (key.getD 12 0) _ _ _ (by rw [o _ _ m24]; have := lt6 7; omega),
      make256_toNat (key.getD 14 0) _ _ _ (by rw [or10]; omega),
      make256_toNat (key.getD 15 0) _ _ _ (by rw [or30]; omega),
      o _ _ m17, o _ _ m18, o _ _ m19, o _ _ m20, o _ _ m21, o _ _ m22, o _ _ m23, o _ _ m24, or10, or30, v0.1, v2.1]
    rfl
  · intro v hv
    simp only [List.mem_cons, List.not_mem_nil, or_false] at hv
    have c0 := v0.1 ▸ v0.2
    have c2 := v2.1 ▸ v2.2
    rcases hv with h | h | h | h | h | h | h | h | h | h | h | h | h | h | h | h <;> rw [h]
    · exact make_ok _ _ _ _ (hk _) c0.2 (hk _) (hk _) c0.1
    · exact make_ok _ _ _ _ (hk _) (show (47 : Nat) < 128 by omega) (hk _) (hk _) (show 1 ≤ (47 : Nat) by omega)
    · exact make_ok _ _ _ _ (hk _) c2.2 (hk _) (hk _) c2.1
    · exact make_ok _ _ _ _ (hk _) (show (42 : Nat) < 128 by omega) (hk _) (hk _) (show 1 ≤ (42 : Nat) by omega)
    · exact make_ok _ _ _ _ (hk _) (show (109 : Nat) < 128 by omega) (hk _) (hk _) (show 1 ≤ (109 : Nat) by omega)
    · exact make_ok _ _ _ _ (hb _) (show 64 + Spec.iv6 iv 0 < 128 by have := lt6 0; omega) (hk _) (hk _) (show 1 ≤ 64 + Spec.iv6 iv 0 by omega)
    · exact make_ok _ _ _ _ (hb _) (show 64 + Spec.iv6 iv 1 < 128 by have := lt6 1; omega) (hk _) (hk _) (show 1 ≤ 64 + Spec.iv6 iv 1 by omega)
    · exact make_ok _ _ _ _ (hb _) (show 64 + Spec.iv6 iv 2 < 128 by have := lt6 2; omega) (hk _) (hb _) (show 1 ≤ 64 + Spec.iv6 iv 2 by omega)
    · exact make_ok _ _ _ _ (hk _) (show 64 + Spec.iv6 iv 3 < 128 by have := lt6 3; omega) (hb _) (hb _) (show 1 ≤ 64 + Spec.iv6 iv 3 by omega)
    · exact make_ok _ _ _ _ (hk _) (show 64 + Spec.iv6 iv 4 < 128 by have := lt6 4; omega) (hb _) (hb _) (show 1 ≤ 64 + Spec.iv6 iv 4 by omega)
    · exact make_ok _ _ _ _ (hb _) (show 64 + Spec.iv6 iv 5 < 128 by have := lt6 5; omega) (hk _) (hk _) (show 1 ≤ 64 + Spec.iv6 iv 5 by omega)
    · exact make_ok _ _ _ _ (hk _) (show 64 + Spec.iv6 iv 6 < 128 by have := lt6 6; omega) (hb _) (hb _) (show 1 ≤ 64 + Spec.iv6 iv 6 by omega)
    · exact make_ok _ _ _ _ (hk _) (show 64 + Spec.iv6 iv 7 < 128 by have := lt6 7; omega) (hb _) (hb _) (show 1 ≤ 64 + Spec.iv6 iv 7 by omega)
    · exact make_ok _ _ _ _ (hk _) (show (82 : Nat) < 128 by omega) (hb _) (hb _) (show 1 ≤ (82 : Nat) by omega)
    · exact make_ok _ _ _ _ (hk _) (show 16 + (key.getD 31 0).toNat / 16 < 128 by omega) (hb _) (hb _) (show 1 ≤ 16 + (key.getD 31 0).toNat / 16 by omega)
    · exact make_ok _ _ _ _ (hk _) (show 48 + (key.getD 31 0).toNat % 16 < 128 by omega) (hk _) (hk _) (show 1 ≤ 48 + (key.getD 31 0).toNat % 16 by omega)

end Verif.Zuc
