import Verif.Ell.Bin
import Verif.Alg.Gf2
import Mathlib.RingTheory.AdjoinRoot
import Mathlib.RingTheory.Coprime.Basic
/-
The arithmetic of elliptic/base_elliptic/int.go on numbers as polynomials over the field with two elements: lemmas for C113.
-/
namespace Verif.Ell
open Verif.Pub Verif.Gf2 Polynomial

theorem bitLen_zero_iff (n : Nat) : bitLen n = 0 ↔ n = 0 := by
  rw [bitLen]; by_cases h : n = 0 <;> simp [h]

theorem lt_bitLen (n : Nat) : n < 2 ^ bitLen n := lt_pow_bitLen n

theorem bitLen_le {n k : Nat} (h : n < 2 ^ k) : bitLen n ≤ k := by
  rw [bitLen]
  by_cases h0 : n = 0
  · simp [h0]
  · rw [if_neg h0]
    exact (Nat.log2_lt h0).mpr h

theorem testBit_top {n : Nat} (h : n ≠ 0) : n.testBit (bitLen n - 1) = true := by
  have h1 : 2 ^ Nat.log2 n ≤ n := Nat.log2_self_le h
  have h2 : n < 2 ^ (Nat.log2 n + 1) := Nat.lt_log2_self
  rw [bitLen, if_neg h, Nat.add_sub_cancel, Nat.testBit_eq_decide_div_mod_eq]
  have : n / 2 ^ Nat.log2 n = 1 := by
    apply Nat.div_eq_of_lt_le <;> rw [Nat.pow_succ] at * <;> omega
  rw [this]; rfl

theorem poly_ne_zero {n : Nat} (h : n ≠ 0) : poly n ≠ 0 := fun e => h (poly_injective (e.trans poly_zero.symm))

theorem natDegree_poly {n : Nat} (h : n ≠ 0) : (poly n).natDegree = bitLen n - 1 := by
  have h1 : 0 < bitLen n := Nat.pos_of_ne_zero fun e => h ((bitLen_zero_iff n).mp e)
  apply le_antisymm
  · have := degree_poly_lt (lt_bitLen n)
    rw [Polynomial.degree_eq_natDegree (poly_ne_zero h)] at this
    have : (poly n).natDegree < bitLen n := by exact_mod_cast this
    omega
  · apply Polynomial.le_natDegree_of_ne_zero
    rw [coeff_poly, testBit_top h]; simp

theorem poly_shift (a k : Nat) : poly (a <<< k) = poly a * X ^ k := by
  induction k with
  | zero => simp
  | succ k ih => rw [Nat.shiftLeft_succ, poly_double, ih]; ring

theorem mulLoop_poly (a : Nat) : ∀ n o shift acc, o < 2 ^ n → poly (mulLoop a n o shift acc) = poly acc + poly a * X ^ shift * poly o := by
  intro n
  induction n with
  | zero => intro o shift acc h; obtain rfl : o = 0 := by simpa using h
            simp [mulLoop, poly_zero]
  | succ n ih =>
    intro o shift acc h
    rw [mulLoop]
    by_cases h0 : o = 0
    · subst h0; simp [poly_zero]
    · rw [if_neg h0, ih _ _ _ (by rw [Nat.pow_succ] at h; omega), poly_mul_bit o]
      rcases Nat.mod_two_eq_zero_or_one o with h1 | h1
      · rw [if_neg (by simp [h1])]
        simp [Nat.testBit_zero, h1]; ring
      · rw [if_pos (by omega), poly_xor, poly_shift]
        simp [Nat.testBit_zero, h1]; ring

/-- `Mul` is the product of polynomials. -/
theorem mul_poly (a b : Nat) : poly (mul a b) = poly a * poly b := by
  rw [mul, mulLoop_poly a _ _ _ _ (lt_bitLen b), poly_zero]; simp

theorem sweep_eq {r : Nat} (h : r ≠ 0) : ∀ n, r < 2 ^ n → sweep r n = bitLen r := by
  intro n
  induction n with
  | zero => intro hn; simp at hn; exact absurd hn h
  | succ n ih =>
    intro hn
    rw [sweep]
    by_cases hb : r.testBit n = true
    · rw [if_pos hb]
      have h1 : 2 ^ n ≤ r := Nat.ge_two_pow_of_testBit hb
      have h2 := bitLen_le hn
      have h3 : ¬ bitLen r ≤ n := fun h4 => by
        have := Nat.lt_of_lt_of_le (lt_bitLen r) (Nat.pow_le_pow_right (by omega) h4); omega
      omega
    · rw [if_neg hb]
      refine ih (Nat.lt_of_not_le fun h4 => hb ?_)
      rw [Nat.testBit_eq_decide_div_mod_eq]
      have : r / 2 ^ n = 1 := by apply Nat.div_eq_of_lt_le <;> rw [Nat.pow_succ] at * <;> omega
      rw [this]; rfl

theorem xor_top_lt {r b : Nat} (hb : b ≠ 0) (hr : r ≠ 0) (h : bitLen b ≤ bitLen r) : r ^^^ (b <<< (bitLen r - bitLen b)) < 2 ^ (bitLen r - 1) := by
  have hb0 : 0 < bitLen b := Nat.pos_of_ne_zero fun e => hb ((bitLen_zero_iff b).mp e)
  have h1 : b <<< (bitLen r - bitLen b) < 2 ^ bitLen r := by
    rw [Nat.shiftLeft_eq]
    calc b * 2 ^ (bitLen r - bitLen b) < 2 ^ bitLen b * 2 ^ (bitLen r - bitLen b) := Nat.mul_lt_mul_of_pos_right (lt_bitLen b) (Nat.two_pow_pos _)
      _ = 2 ^ bitLen r := by rw [← pow_add]; congr 1; omega
  have h2 : r ^^^ (b <<< (bitLen r - bitLen b)) < 2 ^ bitLen r := Nat.xor_lt_two_pow (lt_bitLen r) h1
  refine Nat.lt_of_not_le fun h3 => ?_
  have h4 : (r ^^^ (b <<< (bitLen r - bitLen b))).testBit (bitLen r - 1) = true := by
    rw [Nat.testBit_eq_decide_div_mod_eq]
    have : (r ^^^ (b <<< (bitLen r - bitLen b))) / 2 ^ (bitLen r - 1) = 1 := by
      have e : 2 ^ bitLen r = 2 ^ (bitLen r - 1) * 2 := by rw [← Nat.pow_succ]; congr 1; omega
      apply Nat.div_eq_of_lt_le <;> omega
    rw [this]; rfl
  rw [Nat.testBit_xor, testBit_top hr, Nat.testBit_shiftLeft, show bitLen r - 1 - (bitLen r - bitLen b) = bitLen b - 1 by omega, testBit_top hb] at h4
  simp at h4
  omega

theorem poly_or_disjoint {q s : Nat} (h : q.testBit s = false) : poly (q ||| (1 <<< s)) = poly q + X ^ s := by
  have : q ||| (1 <<< s) = q ^^^ (1 <<< s) := by
    apply Nat.eq_of_testBit_eq
    intro i
    rw [Nat.testBit_or, Nat.testBit_xor, Nat.one_shiftLeft, Nat.testBit_two_pow]
    by_cases hi : s = i
    · subst hi; simp [h]
    · simp [hi]
  rw [this, poly_xor, Nat.one_shiftLeft, poly_two_pow]

theorem divLoop_spec {b : Nat} (hb : b ≠ 0) : ∀ fuel r q, r ≠ 0 → bitLen r < fuel → (∀ i, i + bitLen b ≤ bitLen r → q.testBit i = false) →
    ∃ q' r', divLoop b fuel r q (bitLen r) = .ok (q', r') ∧ poly q' * poly b + poly r' = poly q * poly b + poly r ∧ bitLen r' < bitLen b := by
  intro fuel
  induction fuel with
  | zero => intro r q _ h; omega
  | succ fuel ih =>
    intro r q hr hf hq
    have hb0 : 0 < bitLen b := Nat.pos_of_ne_zero fun e => hb ((bitLen_zero_iff b).mp e)
    rw [divLoop]
    by_cases h : bitLen r ≥ bitLen b
    · rw [if_pos h]
      simp only
      have hlt := xor_top_lt hb hr h
      have hpo := poly_or_disjoint (hq (bitLen r - bitLen b) (by omega))
      have hpr : poly (r ^^^ (b <<< (bitLen r - bitLen b))) = poly r + poly b * X ^ (bitLen r - bitLen b) := by rw [poly_xor, poly_shift]
      generalize hr' : r ^^^ (b <<< (bitLen r - bitLen b)) = r' at *
      generalize hq' : q ||| (1 <<< (bitLen r - bitLen b)) = q' at *
      have key : poly q' * poly b + poly r' = poly q * poly b + poly r := by
        rw [hpo, hpr]
        linear_combination add_self (poly b * X ^ (bitLen r - bitLen b))
      by_cases h0 : r' = 0
      · rw [if_pos h0]
        exact ⟨_, _, rfl, key, by rw [h0, (bitLen_zero_iff 0).mpr rfl]; exact hb0⟩
      · rw [if_neg h0, sweep_eq h0 _ (Nat.lt_of_lt_of_le hlt (Nat.pow_le_pow_right (by omega) (by omega)))]
        have hbl := bitLen_le hlt
        obtain ⟨q2, r2, e1, e2, e3⟩ := ih r' q' h0 (by omega) (by
          intro i hi
          rw [← hq', Nat.testBit_or, hq i (by omega), Nat.one_shiftLeft, Nat.testBit_two_pow]
          simp; omega)
        exact ⟨q2, r2, e1, e2.trans key, e3⟩
    · rw [if_neg h]
      exact ⟨_, _, rfl, rfl, by omega⟩

/-- `_bf_div` of a number that is not zero: quotient and remainder; of zero: panic. -/
theorem bfDiv_spec {a b : Nat} (ha : a ≠ 0) (hb : b ≠ 0) : ∃ q r, bfDiv a b = .ok (q, r) ∧ poly q * poly b + poly r = poly a ∧ bitLen r < bitLen b := by
  rw [bfDiv, if_neg (fun e => ha ((bitLen_zero_iff a).mp e))]
  obtain ⟨q, r, h1, h2, h3⟩ := divLoop_spec hb (bitLen a + 1) a 0 ha (by omega) (by simp)
  exact ⟨q, r, h1, by rw [h2, poly_zero]; simp, h3⟩

theorem bfDiv_zero (b : Nat) : bfDiv 0 b = .panic := rfl

/-! ### The field -/

/-- The numbers as elements of the field of polynomials modulo `F`. -/
noncomputable def ev (F : Nat) (n : Nat) : AdjoinRoot (poly F) := AdjoinRoot.mk (poly F) (poly n)

theorem ev_xor (F a b : Nat) : ev F (a ^^^ b) = ev F a + ev F b := by rw [ev, poly_xor, map_add]; rfl
theorem ev_mul (F a b : Nat) : ev F (mul a b) = ev F a * ev F b := by rw [ev, mul_poly, map_mul]; rfl
theorem ev_zero (F : Nat) : ev F 0 = 0 := by rw [ev, poly_zero, map_zero]
theorem ev_one (F : Nat) : ev F 1 = 1 := by rw [ev, poly_one, map_one]
theorem ev_self (F : Nat) : ev F F = 0 := AdjoinRoot.mk_self
theorem ev_add_self (F : Nat) (z : AdjoinRoot (poly F)) : z + z = 0 := by
  obtain ⟨p, rfl⟩ := AdjoinRoot.mk_surjective z
  rw [← map_add, add_self, map_zero]

theorem ev_inj {F a b : Nat} (ha : bitLen a < bitLen F) (hb : bitLen b < bitLen F) (h : ev F a = ev F b) : a = b := by
  have hF : F ≠ 0 := fun e => by rw [e, (bitLen_zero_iff 0).mpr rfl] at ha; omega
  have h1 : poly F ∣ poly (a ^^^ b) := by
    rw [← AdjoinRoot.mk_eq_zero]
    change ev F (a ^^^ b) = 0
    rw [ev_xor, h, ev_add_self]
  have h2 : a ^^^ b = 0 := by
    by_contra h0
    have := Polynomial.natDegree_le_of_dvd h1 (poly_ne_zero h0)
    rw [natDegree_poly hF, natDegree_poly h0] at this
    have hx : a ^^^ b < 2 ^ (bitLen F - 1) := Nat.xor_lt_two_pow
      (Nat.lt_of_lt_of_le (lt_bitLen a) (Nat.pow_le_pow_right (by omega) (by omega))) (Nat.lt_of_lt_of_le (lt_bitLen b) (Nat.pow_le_pow_right (by omega) (by omega)))
    have := bitLen_le hx
    have : 0 < bitLen (a ^^^ b) := Nat.pos_of_ne_zero fun e => h0 ((bitLen_zero_iff _).mp e)
    omega
  have := congrArg (fun t => a ^^^ t) h2
  simpa [← Nat.xor_assoc] using this.symm

/-- `Mod` of a number that is not zero. -/
theorem mod_spec {F a : Nat} (hF : F ≠ 0) (ha : a ≠ 0) : ∃ r, mod a F = .ok r ∧ ev F r = ev F a ∧ bitLen r < bitLen F := by
  obtain ⟨q, r, h1, h2, h3⟩ := bfDiv_spec ha hF
  refine ⟨r, by rw [mod, h1]; rfl, ?_, h3⟩
  rw [ev, ev, ← h2, map_add, map_mul, AdjoinRoot.mk_self, mul_zero, zero_add]

theorem mod_zero (F : Nat) : mod 0 F = .panic := rfl

theorem gcdLoop_spec (F d : Nat) : ∀ fuel a b x lx, bitLen b < fuel → a ≠ 0 → IsCoprime (poly a) (poly b) →
    ev F lx * ev F d = ev F a → ev F x * ev F d = ev F b → ∃ i, gcdLoop fuel a b x lx = .ok i ∧ ev F i * ev F d = 1 := by
  intro fuel
  induction fuel with
  | zero => intro a b x lx h; omega
  | succ fuel ih =>
    intro a b x lx hf ha hc h1 h2
    rw [gcdLoop]
    by_cases hb : b = 0
    · rw [if_pos hb]
      refine ⟨lx, rfl, ?_⟩
      subst hb
      rw [poly_zero, isCoprime_zero_right] at hc
      have hd := natDegree_eq_zero_of_isUnit hc
      rw [natDegree_poly ha] at hd
      have : a < 2 ^ 1 := Nat.lt_of_lt_of_le (lt_bitLen a) (Nat.pow_le_pow_right (by omega) (by omega))
      obtain rfl : a = 1 := by omega
      rw [h1, ev_one]
    · rw [if_neg hb]
      obtain ⟨q, r, e1, e2, e3⟩ := bfDiv_spec ha hb
      rw [e1]
      simp only [Res.bind_ok]
      refine ih b r (lx ^^^ mul x q) x (by omega) hb ?_ h2 ?_
      · rw [← e2] at hc
        exact ((IsCoprime.mul_add_left_left_iff (x := poly r) (y := poly b) (z := poly q)).mp (by rw [add_comm] at hc; rw [mul_comm] at hc; rw [add_comm]; exact hc)).symm
      · have e2' : ev F q * ev F b + ev F r = ev F a := by
          rw [ev, ev, ev, ev, ← map_mul, ← map_add, e2]
        rw [ev_xor, ev_mul, add_mul, h1, mul_right_comm, h2, ← e2', add_comm, ← add_assoc, mul_comm (ev F b), ev_add_self, zero_add]

/-- `DivMod`: division in the field, without reduction; panic for a denominator that is the number zero. -/
theorem divMod_spec {F : Nat} (hI : Irreducible (poly F)) (num : Nat) {den : Nat} (hd : ev F den ≠ 0) :
    ∃ s, divMod num den F = .ok s ∧ ev F s * ev F den = ev F num := by
  have hF : F ≠ 0 := fun e => hI.ne_zero (by rw [e, poly_zero])
  have hd0 : den ≠ 0 := fun e => hd (by rw [e, ev_zero])
  have hc : IsCoprime (poly den) (poly F) := by
    refine (hI.coprime_iff_not_dvd.mpr fun h => hd ?_).symm
    rw [ev, AdjoinRoot.mk_eq_zero]; exact h
  obtain ⟨i, h1, h2⟩ := gcdLoop_spec F den (bitLen F + 1) den F 0 1 (by omega) hd0 hc (by rw [ev_one, one_mul]) (by rw [ev_zero, ev_self, zero_mul])
  refine ⟨mul i num, by rw [divMod, h1]; rfl, ?_⟩
  rw [ev_mul, mul_right_comm, h2, one_mul]

theorem divMod_zero {F : Nat} (hF : F ≠ 0) (num : Nat) : divMod num 0 F = .panic := by
  rw [divMod, gcdLoop, if_neg hF, bfDiv_zero]
  rfl

end Verif.Ell
