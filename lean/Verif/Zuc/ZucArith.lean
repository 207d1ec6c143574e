import Verif.Zuc.ZucTables
import Mathlib.Tactic.IntervalCases
import Mathlib.Tactic.Ring
import Mathlib.Data.Nat.ModEq
/-
ZUC: the code's word arithmetic is arithmetic modulo 2^31 - 1.
-/
namespace Verif.Zuc
open Verif.Cipher

/-! ### Residues -/

theorem rep_range (n : Nat) : 1 ≤ Spec.rep n ∧ Spec.rep n ≤ Spec.p := by
  unfold Spec.rep Spec.p
  split <;> omega

theorem rep_mod (n : Nat) : Spec.rep n % Spec.p = n % Spec.p := by
  unfold Spec.rep Spec.p
  split <;> omega

theorem rep_unique {v n : Nat} (h1 : 1 ≤ v) (h2 : v ≤ Spec.p) (h : v % Spec.p = n % Spec.p) : v = Spec.rep n := by
  unfold Spec.rep
  unfold Spec.p at *
  split <;> omega

theorem and31 (n : Nat) : n &&& 0x7fffffff = n % 2 ^ 31 := by
  rw [show 0x7fffffff = 2 ^ 31 - 1 by norm_num, Nat.and_two_pow_sub_one_eq_mod]

theorem add31_toNat (a b : W) (ha : a.toNat ≤ Spec.p) (hb : b.toNat ≤ Spec.p) :
    (add31 a b).toNat ≤ Spec.p ∧ (add31 a b).toNat % Spec.p = (a.toNat + b.toNat) % Spec.p ∧
      (1 ≤ a.toNat ∨ 1 ≤ b.toNat → 1 ≤ (add31 a b).toNat) := by
  unfold Spec.p at *
  have e : (add31 a b).toNat = ((a.toNat + b.toNat) % 2 ^ 31 + (a.toNat + b.toNat) / 2 ^ 31) % 2 ^ 32 := by
    unfold add31
    rw [BitVec.toNat_add, BitVec.toNat_and, BitVec.toNat_ushiftRight, BitVec.toNat_add, Nat.shiftRight_eq_div_pow,
      show BitVec.toNat (0x7fffffff#32) = 0x7fffffff from rfl, and31, Nat.mod_eq_of_lt (show a.toNat + b.toNat < 2 ^ 32 by omega)]
  rw [e]
  have hq : (a.toNat + b.toNat) / 2 ^ 31 = 0 ∨ (a.toNat + b.toNat) / 2 ^ 31 = 1 := by omega
  rcases hq with hq | hq
  · refine ⟨?_, ?_, ?_⟩ <;> omega
  · refine ⟨?_, ?_, ?_⟩ <;> omega

theorem fold_mod (n : Nat) : (n % 2 ^ 31 + n / 2 ^ 31) % Spec.p = n % Spec.p := by
  have e : n = (n % 2 ^ 31 + n / 2 ^ 31) + Spec.p * (n / 2 ^ 31) := by
    have := Nat.div_add_mod n (2 ^ 31)
    unfold Spec.p
    omega
  conv => rhs; rw [e]
  rw [Nat.add_mul_mod_self_left]

theorem fold_twice (n : Nat) (h1 : 1 ≤ n) (h2 : n < 2 ^ 53) :
    ((n % 2 ^ 31 + n / 2 ^ 31) % 2 ^ 31 + (n % 2 ^ 31 + n / 2 ^ 31) / 2 ^ 31) % 2 ^ 32 = Spec.rep n := by
  have b1 : n % 2 ^ 31 + n / 2 ^ 31 < 2 ^ 31 + 2 ^ 22 := by omega
  have b0 : 1 ≤ n % 2 ^ 31 + n / 2 ^ 31 := by omega
  have m1 := fold_mod n
  generalize n % 2 ^ 31 + n / 2 ^ 31 = M at *
  have m2 := fold_mod M
  have hq : M / 2 ^ 31 = 0 ∨ M / 2 ^ 31 = 1 := by omega
  have hb : M % 2 ^ 31 + M / 2 ^ 31 ≤ Spec.p := by unfold Spec.p; rcases hq with hq | hq <;> omega
  have hb0 : 1 ≤ M % 2 ^ 31 + M / 2 ^ 31 := by omega
  rw [Nat.mod_eq_of_lt (by unfold Spec.p at hb; omega)]
  exact rep_unique hb0 hb (m2.trans m1)

theorem rot31_toNat (a : W) (k : Nat) (hk : k < 31) (ha : a.toNat ≤ Spec.p) :
    (rot31 a k).toNat = (a.toNat % 2 ^ (31 - k)) * 2 ^ k + a.toNat / 2 ^ (31 - k) := by
  unfold Spec.p at ha
  have hlt : a.toNat < 2 ^ 31 := by omega
  have hd : a.toNat / 2 ^ (31 - k) < 2 ^ k := by
    rw [Nat.div_lt_iff_lt_mul (by positivity), ← Nat.pow_add]
    rwa [show k + (31 - k) = 31 by omega]
  unfold rot31
  rw [BitVec.toNat_and, BitVec.toNat_or, BitVec.toNat_shiftLeft, BitVec.toNat_ushiftRight, Nat.shiftRight_eq_div_pow,
    show BitVec.toNat (0x7fffffff#32) = 0x7fffffff from rfl, and31, Nat.or_mod_two_pow, Nat.shiftLeft_eq]
  have e1 : a.toNat * 2 ^ k % 2 ^ 32 % 2 ^ 31 = (a.toNat % 2 ^ (31 - k)) * 2 ^ k := by
    rw [Nat.mod_mod_of_dvd _ (by norm_num)]
    conv => lhs; rw [show 31 = (31 - k) + k by omega, Nat.pow_add]
    rw [Nat.mul_mod_mul_right]
  have e2 : a.toNat / 2 ^ (31 - k) % 2 ^ 31 = a.toNat / 2 ^ (31 - k) := by
    apply Nat.mod_eq_of_lt
    exact lt_of_le_of_lt (Nat.div_le_self _ _) hlt
  rw [e1, e2, ← Nat.shiftLeft_eq, Nat.shiftLeft_add_eq_or_of_lt hd]

theorem rot31_ok (a : W) (k : Nat) (hk : k < 31) (ha : a.toNat ≤ Spec.p) :
    (rot31 a k).toNat ≤ Spec.p ∧ (rot31 a k).toNat % Spec.p = (2 ^ k * a.toNat) % Spec.p := by
  rw [rot31_toNat a k hk ha]
  have hlt : a.toNat < 2 ^ 31 := by unfold Spec.p at ha; omega
  have hd : a.toNat / 2 ^ (31 - k) < 2 ^ k := by
    rw [Nat.div_lt_iff_lt_mul (by positivity), ← Nat.pow_add]
    rwa [show k + (31 - k) = 31 by omega]
  have hm : a.toNat % 2 ^ (31 - k) < 2 ^ (31 - k) := Nat.mod_lt _ (by positivity)
  have hp : 2 ^ (31 - k) * 2 ^ k = 2 ^ 31 := by rw [← Nat.pow_add]; congr 1; omega
  constructor
  · have : (a.toNat % 2 ^ (31 - k) + 1) * 2 ^ k ≤ 2 ^ (31 - k) * 2 ^ k := Nat.mul_le_mul_right _ hm
    rw [hp, Nat.add_mul] at this
    unfold Spec.p
    omega
  · have e : 2 ^ k * a.toNat = (a.toNat % 2 ^ (31 - k)) * 2 ^ k + a.toNat / 2 ^ (31 - k) +
        Spec.p * (a.toNat / 2 ^ (31 - k)) := by
      conv => lhs; rw [← Nat.div_add_mod a.toNat (2 ^ (31 - k))]
      have : Spec.p * (a.toNat / 2 ^ (31 - k)) + a.toNat / 2 ^ (31 - k) = 2 ^ (31 - k) * 2 ^ k * (a.toNat / 2 ^ (31 - k)) := by
        rw [hp]; unfold Spec.p; omega
      rw [Nat.add_assoc, Nat.add_comm (a.toNat / 2 ^ (31 - k)), this]
      ring
    rw [e, Nat.add_mul_mod_self_left]

/-- What the register cells are, as numbers. -/
structure RelC (l : List W) (s : Spec.Cells) : Prop where
  len : l.length = 16
  eq : ∀ i, i < 16 → (at' l i).toNat = s i
  lo : ∀ i, i < 16 → 1 ≤ s i
  hi : ∀ i, i < 16 → s i ≤ Spec.p

theorem at_shift (l : List W) (v : W) (h : l.length = 16) (i : Nat) (hi : i < 16) :
    at' (l.drop 1 ++ [v]) i = if i < 15 then at' l (i + 1) else v := by
  unfold at'
  split
  · rw [List.getD_eq_getElem?_getD, List.getElem?_append_left (by simp [h]; omega), List.getElem?_drop, Nat.add_comm,
      List.getD_eq_getElem?_getD]
  · rw [List.getD_eq_getElem?_getD, List.getElem?_append_right (by simp [h]; omega)]
    have : i - (l.drop 1).length = 0 := by simp [h]; omega
    rw [this]; rfl

theorem RelC.clock {l : List W} {s : Spec.Cells} (h : RelC l s) {u : Nat} {v : W} (hv : v.toNat = Spec.rep (Spec.fb s + u)) :
    RelC (l.drop 1 ++ [v]) (Spec.clock u s) where
  len := by simp [h.len]
  eq i hi := by
    rw [at_shift l v h.len i hi]
    unfold Spec.clock
    split
    · exact h.eq _ (by omega)
    · rw [if_pos (by omega), hv]
  lo i hi := by
    unfold Spec.clock
    split
    · exact h.lo _ (by omega)
    · rw [if_pos (by omega)]; exact (rep_range _).1
  hi i hi := by
    unfold Spec.clock
    split
    · exact h.hi _ (by omega)
    · rw [if_pos (by omega)]; exact (rep_range _).2

theorem RelC.le {l : List W} {s : Spec.Cells} (h : RelC l s) (i : Nat) (hi : i < 16) : (at' l i).toNat ≤ Spec.p := by
  rw [h.eq i hi]; exact h.hi i hi

theorem RelC.init {l : List W} {s : Spec.Cells} (h : RelC l s) (u : W) (hu : u.toNat ≤ Spec.p) :
    RelC (lfsrInit u l) (Spec.clock u.toNat s) := by
  apply h.clock
  have r0 := rot31_ok (at' l 0) 8 (by omega) (h.le 0 (by omega))
  have r4 := rot31_ok (at' l 4) 20 (by omega) (h.le 4 (by omega))
  have r10 := rot31_ok (at' l 10) 21 (by omega) (h.le 10 (by omega))
  have r13 := rot31_ok (at' l 13) 17 (by omega) (h.le 13 (by omega))
  have r15 := rot31_ok (at' l 15) 15 (by omega) (h.le 15 (by omega))
  have z0 := h.le 0 (by omega)
  have zp : 1 ≤ (at' l 0).toNat := by rw [h.eq 0 (by omega)]; exact h.lo 0 (by omega)
  rw [h.eq 0 (by omega)] at r0
  rw [h.eq 4 (by omega)] at r4
  rw [h.eq 10 (by omega)] at r10
  rw [h.eq 13 (by omega)] at r13
  rw [h.eq 15 (by omega)] at r15
  have ez := h.eq 0 (by omega)
  generalize rot31 (at' l 0) 8 = t0 at *
  generalize rot31 (at' l 4) 20 = t4 at *
  generalize rot31 (at' l 10) 21 = t10 at *
  generalize rot31 (at' l 13) 17 = t13 at *
  generalize rot31 (at' l 15) 15 = t15 at *
  have a1 := add31_toNat (at' l 0) t0 z0 r0.1
  have p1 := a1.2.2 (Or.inl zp)
  generalize add31 (at' l 0) t0 = v1 at *
  have a2 := add31_toNat v1 t4 a1.1 r4.1
  have p2 := a2.2.2 (Or.inl p1)
  generalize add31 v1 t4 = v2 at *
  have a3 := add31_toNat v2 t10 a2.1 r10.1
  have p3 := a3.2.2 (Or.inl p2)
  generalize add31 v2 t10 = v3 at *
  have a4 := add31_toNat v3 t13 a3.1 r13.1
  have p4 := a4.2.2 (Or.inl p3)
  generalize add31 v3 t13 = v4 at *
  have a5 := add31_toNat v4 t15 a4.1 r15.1
  have p5 := a5.2.2 (Or.inl p4)
  generalize add31 v4 t15 = v5 at *
  have a6 := add31_toNat v5 u a5.1 hu
  have p6 := a6.2.2 (Or.inl p5)
  generalize add31 v5 u = v6 at *
  apply rep_unique p6 a6.1
  have e1 := a1.2.1
  have e2 := a2.2.1
  have e3 := a3.2.1
  have e4 := a4.2.1
  have e5 := a5.2.1
  have e6 := a6.2.1
  have f0 := r0.2
  have f4 := r4.2
  have f10 := r10.2
  have f13 := r13.2
  have f15 := r15.2
  unfold Spec.fb
  rw [ez] at e1
  clear a1 a2 a3 a4 a5 a6 r0 r4 r10 r13 r15 p1 p2 p3 p4 p5 p6 z0 zp ez
  change _ ≡ _ [MOD Spec.p] at e1 e2 e3 e4 e5 e6 f0 f4 f10 f13 f15
  change _ ≡ _ [MOD Spec.p]
  have g := e6.trans ((e5.trans ((e4.trans ((e3.trans ((e2.trans ((e1.trans (f0.add_left _)).add f4)).add f10)).add f13)).add f15)).add_right _)
  refine g.trans (Eq.subst (motive := fun q => _ ≡ q [MOD Spec.p]) ?_ (Nat.ModEq.refl _))
  ring

theorem RelC.work {l : List W} {s : Spec.Cells} (h : RelC l s) : RelC (lfsrWork l) (Spec.clock 0 s) := by
  apply h.clock
  unfold workVal Spec.fb
  dsimp only
  have b : ∀ (a : W) (k : Nat) (c : Nat), a.toNat = c → c ≤ Spec.p → k ≤ 21 → (a.setWidth 64 <<< k).toNat = c * 2 ^ k := by
    intro a k c h1 h2 h3
    rw [BitVec.toNat_shiftLeft, BitVec.toNat_setWidth, h1, Nat.shiftLeft_eq]
    unfold Spec.p at h2
    rw [Nat.mod_eq_of_lt (show c < 2 ^ 64 by omega), Nat.mod_eq_of_lt]
    calc c * 2 ^ k ≤ 2 ^ 31 * 2 ^ 21 := Nat.mul_le_mul (by omega) (Nat.pow_le_pow_right (by norm_num) h3)
      _ < 2 ^ 64 := by norm_num
  have b0 := b _ 8 _ (h.eq 0 (by omega)) (h.hi 0 (by omega)) (by omega)
  have b4 := b _ 20 _ (h.eq 4 (by omega)) (h.hi 4 (by omega)) (by omega)
  have b10 := b _ 21 _ (h.eq 10 (by omega)) (h.hi 10 (by omega)) (by omega)
  have b13 := b _ 17 _ (h.eq 13 (by omega)) (h.hi 13 (by omega)) (by omega)
  have b15 := b _ 15 _ (h.eq 15 (by omega)) (h.hi 15 (by omega)) (by omega)
  have bz : ((at' l 0).setWidth 64).toNat = s 0 := by
    rw [BitVec.toNat_setWidth, h.eq 0 (by omega)]
    have := h.hi 0 (by omega); unfold Spec.p at this; omega
  have c0 := h.hi 0 (by omega)
  have c4 := h.hi 4 (by omega)
  have c10 := h.hi 10 (by omega)
  have c13 := h.hi 13 (by omega)
  have c15 := h.hi 15 (by omega)
  have l0 := h.lo 0 (by omega)
  unfold Spec.p at c0 c4 c10 c13 c15
  have hs : ((at' l 0).setWidth 64 + (at' l 0).setWidth 64 <<< 8 + (at' l 4).setWidth 64 <<< 20 + (at' l 10).setWidth 64 <<< 21 +
      (at' l 13).setWidth 64 <<< 17 + (at' l 15).setWidth 64 <<< 15).toNat =
      s 0 + s 0 * 2 ^ 8 + s 4 * 2 ^ 20 + s 10 * 2 ^ 21 + s 13 * 2 ^ 17 + s 15 * 2 ^ 15 := by
    simp only [BitVec.toNat_add, b0, b4, b10, b13, b15, bz]
    omega
  generalize (at' l 0).setWidth 64 + (at' l 0).setWidth 64 <<< 8 + (at' l 4).setWidth 64 <<< 20 + (at' l 10).setWidth 64 <<< 21 +
      (at' l 13).setWidth 64 <<< 17 + (at' l 15).setWidth 64 <<< 15 = A at *
  have fold : ∀ X : BitVec 64, ((X &&& 0x7fffffff#64) + (X >>> 31)).toNat = X.toNat % 2 ^ 31 + X.toNat / 2 ^ 31 := by
    intro X
    rw [BitVec.toNat_add, BitVec.toNat_and, BitVec.toNat_ushiftRight, Nat.shiftRight_eq_div_pow,
      show BitVec.toNat (0x7fffffff#64) = 0x7fffffff from rfl, and31]
    have := X.isLt
    omega
  rw [BitVec.toNat_setWidth, fold, fold, hs]
  have hn : s 0 + s 0 * 2 ^ 8 + s 4 * 2 ^ 20 + s 10 * 2 ^ 21 + s 13 * 2 ^ 17 + s 15 * 2 ^ 15 =
    2 ^ 15 * s 15 + 2 ^ 17 * s 13 + 2 ^ 21 * s 10 + 2 ^ 20 * s 4 + (1 + 2 ^ 8) * s 0 + 0 := by ring
  rw [hn]
  have hb : 2 ^ 15 * s 15 + 2 ^ 17 * s 13 + 2 ^ 21 * s 10 + 2 ^ 20 * s 4 + (1 + 2 ^ 8) * s 0 + 0 < 2 ^ 53 := by omega
  have hp : 1 ≤ 2 ^ 15 * s 15 + 2 ^ 17 * s 13 + 2 ^ 21 * s 10 + 2 ^ 20 * s 4 + (1 + 2 ^ 8) * s 0 + 0 := by omega
  generalize 2 ^ 15 * s 15 + 2 ^ 17 * s 13 + 2 ^ 21 * s 10 + 2 ^ 20 * s 4 + (1 + 2 ^ 8) * s 0 + 0 = N at *
  exact fold_twice N hp hb

end Verif.Zuc
