import Mathlib.Algebra.Polynomial.Div
import Mathlib.Algebra.Field.ZMod
import Mathlib.Algebra.CharP.Two
/-
Numbers as polynomials over the field with two elements: bit `i` is the coefficient of `x^i`.
-/
namespace Verif.Gf2
open Polynomial

/-- The polynomial whose coefficients are the bits of `n`. -/
noncomputable def poly (n : Nat) : (ZMod 2)[X] :=
  ∑ i ∈ Finset.range n, if n.testBit i then X ^ i else 0

theorem coeff_poly (n i : Nat) : (poly n).coeff i = if n.testBit i then 1 else 0 := by
  unfold poly
  rw [finsetSum_coeff]
  by_cases h : n.testBit i = true
  · have hi : i < n := lt_of_lt_of_le Nat.lt_two_pow_self (Nat.ge_two_pow_of_testBit h)
    rw [Finset.sum_eq_single_of_mem i (Finset.mem_range.mpr hi)]
    · simp [h]
    · intro b _ hb
      split
      · rw [coeff_X_pow, if_neg (Ne.symm hb)]
      · simp
  · rw [if_neg h]
    apply Finset.sum_eq_zero
    intro b _
    split
    · rw [coeff_X_pow]
      split
      · rename_i h1 h2; subst h2; exact absurd h1 h
      · rfl
    · simp

theorem poly_zero : poly 0 = 0 := by unfold poly; simp

theorem poly_injective {a b : Nat} (h : poly a = poly b) : a = b := by
  apply Nat.eq_of_testBit_eq
  intro i
  have := congrArg (fun p => coeff p i) h
  simp only [coeff_poly] at this
  cases ha : a.testBit i <;> cases hb : b.testBit i <;> simp_all

theorem poly_xor (a b : Nat) : poly (a ^^^ b) = poly a + poly b := by
  ext i
  rw [coeff_add, coeff_poly, coeff_poly, coeff_poly, Nat.testBit_xor]
  cases a.testBit i <;> cases b.testBit i <;> simp
  rfl

theorem poly_double (a : Nat) : poly (2 * a) = X * poly a := by
  ext i
  rw [coeff_poly]
  cases i with
  | zero => simp
  | succ i =>
    rw [coeff_X_mul, coeff_poly]
    have : (2 * a).testBit (i + 1) = a.testBit i := by
      rw [show i + 1 = Nat.succ i from rfl, Nat.testBit_succ]; congr 1; omega
    rw [this]

theorem poly_two_pow (k : Nat) : poly (2 ^ k) = X ^ k := by
  ext i
  rw [coeff_poly, coeff_X_pow, Nat.testBit_two_pow]
  by_cases h : k = i
  · subst h; simp
  · simp [h, Ne.symm h]

theorem poly_one : poly 1 = 1 := by simpa using poly_two_pow 0

theorem add_self (p : (ZMod 2)[X]) : p + p = 0 := CharTwo.add_self_eq_zero p

theorem degree_poly_lt {n k : Nat} (h : n < 2 ^ k) : (poly n).degree < k := by
  rw [Polynomial.degree_lt_iff_coeff_zero]
  intro m hm
  rw [coeff_poly, Nat.testBit_lt_two_pow (lt_of_lt_of_le h (Nat.pow_le_pow_right (by decide) hm))]
  simp

theorem poly_mul_bit (y : Nat) : poly y = (if y.testBit 0 then 1 else 0) + X * poly (y / 2) := by
  rw [← poly_double]
  ext i
  rw [coeff_add, coeff_poly, coeff_poly]
  cases i with
  | zero => cases h : y.testBit 0 <;> simp
  | succ i =>
    have : (2 * (y / 2)).testBit (i + 1) = y.testBit (i + 1) := by
      rw [Nat.testBit_succ, Nat.testBit_succ]; congr 1; omega
    rw [this]
    cases h : y.testBit 0 <;> simp [coeff_one]

/-- Every polynomial of degree below `k` is the polynomial of a number below `2^k`. -/
theorem exists_poly (k : Nat) (p : (ZMod 2)[X]) (h : p.degree < k) : ∃ n, n < 2 ^ k ∧ poly n = p := by
  induction k generalizing p with
  | zero =>
    refine ⟨0, by decide, ?_⟩
    rw [poly_zero]
    exact (Polynomial.degree_eq_bot.mp (by
      rcases hd : p.degree with _ | d
      · rfl
      · rw [hd] at h; exact absurd (WithBot.coe_lt_coe.mp h) (Nat.not_lt_zero _))).symm
  | succ k ih =>
    have hc : p.coeff k = 0 ∨ p.coeff k = 1 := by
      generalize p.coeff k = z
      revert z; decide
    obtain ⟨n, hn, hp⟩ := ih (p - C (p.coeff k) * X ^ k) (by
      rw [Polynomial.degree_lt_iff_coeff_zero] at h ⊢
      intro m hm
      rw [coeff_sub, coeff_C_mul, coeff_X_pow]
      by_cases hmk : m = k
      · subst hmk; simp
      · rw [if_neg hmk, h m (by omega)]; simp)
    rcases hc with hc | hc
    · refine ⟨n, by rw [Nat.pow_succ]; omega, ?_⟩
      rw [hp, hc]; simp
    · refine ⟨n ^^^ 2 ^ k, ?_, ?_⟩
      · exact Nat.xor_lt_two_pow (by rw [Nat.pow_succ]; omega) (Nat.pow_lt_pow_right (by decide) (Nat.lt_succ_self k))
      · rw [poly_xor, poly_two_pow, hp, hc]; simp

/-- The number below `2^k` whose bits are the first `k` coefficients of `p`. -/
noncomputable def ofPoly (k : Nat) (p : (ZMod 2)[X]) : Nat := ∑ i ∈ Finset.range k, if p.coeff i = 1 then 2 ^ i else 0

theorem ofPoly_poly (k n : Nat) : ofPoly k (poly n) = n % 2 ^ k := by
  unfold ofPoly
  induction k with
  | zero => simp [Nat.mod_one]
  | succ k ih =>
    rw [Finset.sum_range_succ, ih, Nat.mod_pow_succ, coeff_poly, Nat.testBit_eq_decide_div_mod_eq]
    rcases Nat.mod_two_eq_zero_or_one (n / 2 ^ k) with h | h <;> simp [h]

/-- `mulMod P x y z`: `z` is the product of `x` and `y` as polynomials, reduced modulo `P`. -/
def IsMulMod (P : (ZMod 2)[X]) (x y z : Nat) : Prop := poly z = (poly x * poly y) %ₘ P

/-- Reduction is determined by congruence and degree. -/
theorem modByMonic_of_dvd {P p r : (ZMod 2)[X]} (hP : P.Monic) (hd : P ∣ p - r) (hr : r.degree < P.degree) :
    p %ₘ P = r := by
  obtain ⟨q, hq⟩ := hd
  exact (Polynomial.div_modByMonic_unique q r hP ⟨by rw [← hq]; ring, hr⟩).2

end Verif.Gf2
