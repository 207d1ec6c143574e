import Verif.Aead.MgmModel
import Verif.Aead.MgmSpec
import Verif.Aead.EaxLemmas
import Mathlib.Tactic.LinearCombination
/-
The MGM code computes the RFC 9058 values.
-/
namespace Verif.Aead
open Verif.Mode (chunks incBe)
open Verif.Mode.Spec (natBe beNat keyBytes streamOf)
open Polynomial

/-! Multiplication in GF(2^128). -/

theorem p128_poly : Spec.p128 = Gf2.poly (2 ^ 128) + Gf2.poly 0x87 := by
  have e : (0x87 : Nat) = 2 ^ 7 ^^^ 2 ^ 2 ^^^ 2 ^ 1 ^^^ 2 ^ 0 := by decide
  rw [e, Gf2.poly_xor, Gf2.poly_xor, Gf2.poly_xor, Gf2.poly_two_pow, Gf2.poly_two_pow, Gf2.poly_two_pow, Gf2.poly_two_pow,
    Gf2.poly_two_pow]
  unfold Spec.p128
  rw [pow_one, pow_zero]

theorem p128_monic : Spec.p128.Monic := by
  rw [p128_poly, Gf2.poly_two_pow]
  exact Polynomial.monic_X_pow_add (lt_of_lt_of_le (Gf2.degree_poly_lt (k := 8) (by decide)) (by norm_num))

theorem p128_degree : Spec.p128.degree = 128 := by
  rw [p128_poly, Gf2.poly_two_pow]
  rw [Polynomial.degree_add_eq_left_of_degree_lt]
  · rw [Polynomial.degree_X_pow]; rfl
  · rw [Polynomial.degree_X_pow]
    exact lt_of_lt_of_le (Gf2.degree_poly_lt (k := 8) (by decide)) (by norm_num)

theorem split_top (k x : Nat) (h1 : 2 ^ k ≤ x) (h2 : x < 2 ^ (k + 1)) : x = 2 ^ k ^^^ (x - 2 ^ k) := by
  have e1 : x = 2 ^ k * 1 + (x - 2 ^ k) := by omega
  rw [Nat.pow_succ] at h2
  conv_lhs => rw [e1]
  rw [Nat.two_pow_add_eq_or_of_lt (by omega)]
  apply Nat.eq_of_testBit_eq
  intro i
  rw [Nat.testBit_or, Nat.testBit_xor, Nat.mul_one, Nat.testBit_two_pow]
  by_cases hi : k = i
  · subst hi
    rw [Nat.testBit_lt_two_pow (by omega)]; simp
  · simp [hi]

theorem testBit_top (k x : Nat) (h2 : x < 2 ^ (k + 1)) : x.testBit k = decide (2 ^ k ≤ x) := by
  rw [Nat.pow_succ] at h2
  rw [Nat.testBit_eq_decide_div_mod_eq]
  rcases Nat.lt_or_ge x (2 ^ k) with h | h
  · rw [Nat.div_eq_of_lt h]; simp [h]
  · have : x / 2 ^ k = 1 := by
      rw [Nat.div_eq_iff (Nat.two_pow_pos k)]; omega
    rw [this]; simp [h]

/-- Multiplication by `x` modulo a polynomial `x^k + r`, generic form. -/
theorem dbl_gen (k r x : Nat) (hr : r < 2 ^ (k + 1)) (hx : x < 2 ^ (k + 1)) (P : (ZMod 2)[X])
    (hP : P = X ^ (k + 1) + Gf2.poly r) :
    (if x.testBit k then (2 * (x - 2 ^ k)) ^^^ r else 2 * x) < 2 ^ (k + 1) ∧
    P ∣ X * Gf2.poly x - Gf2.poly (if x.testBit k then (2 * (x - 2 ^ k)) ^^^ r else 2 * x) := by
  rw [testBit_top k x hx]
  by_cases h : 2 ^ k ≤ x
  · have e : decide (2 ^ k ≤ x) = true := by simpa using h
    rw [if_pos e]
    refine ⟨Nat.xor_lt_two_pow (by rw [Nat.pow_succ] at hx ⊢; omega) hr, ?_⟩
    have e2 : Gf2.poly x = X ^ k + Gf2.poly (x - 2 ^ k) := by
      conv_lhs => rw [split_top k x h hx]
      rw [Gf2.poly_xor, Gf2.poly_two_pow]
    rw [e2, Gf2.poly_xor, Gf2.poly_double, hP, pow_succ']
    refine ⟨1, ?_⟩
    have e3 : - Gf2.poly r = Gf2.poly r := CharTwo.neg_eq _
    linear_combination e3
  · have e : ¬ (decide (2 ^ k ≤ x) = true) := by simpa using h
    rw [if_neg e]
    refine ⟨by rw [Nat.pow_succ]; omega, ?_⟩
    rw [Gf2.poly_double, sub_self]
    exact dvd_zero _

/-- One doubling step: the polynomial is multiplied by `x` up to a multiple of the modulus. -/
theorem dbl_step (x : Nat) (hx : x < 2 ^ 128) :
    (if x.testBit 127 then (2 * (x - 2 ^ 127)) ^^^ 0x87 else 2 * x) < 2 ^ 128 ∧
    Spec.p128 ∣ X * Gf2.poly x - Gf2.poly (if x.testBit 127 then (2 * (x - 2 ^ 127)) ^^^ 0x87 else 2 * x) :=
  dbl_gen 127 0x87 x (by decide) hx _ (by rw [p128_poly, Gf2.poly_two_pow])

theorem mgmMulLoop_ok (fuel : Nat) (x y z : Nat) (hx : x < 2 ^ 128) (hy : y < 2 ^ fuel) (hz : z < 2 ^ 128) :
    mgmMulLoop fuel x y z < 2 ^ 128 ∧
    Spec.p128 ∣ (Gf2.poly z + Gf2.poly x * Gf2.poly y) - Gf2.poly (mgmMulLoop fuel x y z) := by
  induction fuel generalizing x y z with
  | zero =>
    have : y = 0 := by simpa using hy
    subst this
    refine ⟨hz, ?_⟩
    rw [mgmMulLoop, Gf2.poly_zero, mul_zero, add_zero, sub_self]
    exact dvd_zero _
  | succ fuel ih =>
    rw [mgmMulLoop]
    by_cases h0 : y = 0
    · subst h0
      rw [if_pos rfl]
      refine ⟨hz, ?_⟩
      rw [Gf2.poly_zero, mul_zero, add_zero, sub_self]
      exact dvd_zero _
    · rw [if_neg h0]
      simp only
      obtain ⟨d1, d2⟩ := dbl_step x hx
      generalize hX : (if x.testBit 127 then (2 * (x - 2 ^ 127)) ^^^ 0x87 else 2 * x) = x' at d1 d2 ⊢
      have hz' : (if y % 2 = 1 then z ^^^ x else z) < 2 ^ 128 := by
        split
        · exact Nat.xor_lt_two_pow hz hx
        · exact hz
      obtain ⟨i1, i2⟩ := ih x' (y / 2) (if y % 2 = 1 then z ^^^ x else z) d1 (by rw [Nat.pow_succ] at hy; omega) hz'
      refine ⟨i1, ?_⟩
      generalize mgmMulLoop fuel x' (y / 2) (if y % 2 = 1 then z ^^^ x else z) = r at i1 i2 ⊢
      rw [Gf2.poly_mul_bit y]
      have hb : y.testBit 0 = decide (y % 2 = 1) := by simp [Nat.testBit_zero]
      rw [hb]
      have e := dvd_add i2 (Dvd.dvd.mul_right d2 (Gf2.poly (y / 2)))
      rcases Nat.mod_two_eq_zero_or_one y with h | h
      · simp only [h] at e ⊢
        convert e using 1
        simp only [Nat.zero_ne_one, if_false, decide_false, Bool.false_eq_true]
        ring
      · simp only [h] at e ⊢
        convert e using 1
        simp only [if_true, decide_true]
        rw [Gf2.poly_xor]
        ring

theorem gfMul_of {x y : Bytes} {z : Nat} (hz : z < 2 ^ 128)
    (hd : Spec.p128 ∣ Gf2.poly (beNat x) * Gf2.poly (beNat y) - Gf2.poly z) : Spec.gfMul x y = natBe 16 z := by
  unfold Spec.gfMul
  rw [Gf2.modByMonic_of_dvd p128_monic hd (by rw [p128_degree]; exact Gf2.degree_poly_lt hz), Gf2.ofPoly_poly,
    Nat.mod_eq_of_lt hz]

theorem mgmMul_eq (x y : Bytes) (hx : x.length = 16) : mgmMul x y = Spec.gfMul x y := by
  have h1 : beNat x < 2 ^ 128 := by have := beNat_lt x; rw [hx] at this; exact lt_of_lt_of_eq this (by norm_num)
  have h2 : beNat y < 2 ^ (8 * y.length) := by
    have := beNat_lt y
    rw [pow_mul]; exact this
  obtain ⟨a, b⟩ := mgmMulLoop_ok (8 * y.length) (beNat x) (beNat y) 0 h1 h2 (by norm_num)
  rw [Gf2.poly_zero, zero_add] at b
  rw [gfMul_of a b]
  rfl

theorem gfMul_length (x y : Bytes) : (Spec.gfMul x y).length = 16 := Mode.natBe_len _ _

/-! Counters. -/

theorem incrL_zero (Z : Bytes) (h : Z.length = 16) : Spec.incrL Z 0 = Z := by
  unfold Spec.incrL
  have : (Z.take 8).length = 8 := by rw [List.length_take]; omega
  rw [Nat.add_zero]
  have e := Mode.natBe_beNat (Z.take 8)
  rw [this] at e
  rw [e, List.take_append_drop]

theorem incrR_zero (Z : Bytes) (h : Z.length = 16) : Spec.incrR Z 0 = Z := by
  unfold Spec.incrR
  have : (Z.drop 8).length = 8 := by rw [List.length_drop]; omega
  rw [Nat.add_zero]
  have e := Mode.natBe_beNat (Z.drop 8)
  rw [this] at e
  rw [e, List.take_append_drop]

theorem incrL_length (Z : Bytes) (h : Z.length = 16) (i : Nat) : (Spec.incrL Z i).length = 16 := by
  unfold Spec.incrL; rw [List.length_append, Mode.natBe_len, List.length_drop]; omega

theorem incrR_length (Z : Bytes) (h : Z.length = 16) (i : Nat) : (Spec.incrR Z i).length = 16 := by
  unfold Spec.incrR; rw [List.length_append, Mode.natBe_len, List.length_take]; omega

theorem incrL_succ (Z : Bytes) (_h : Z.length = 16) (i : Nat) :
    incBe ((Spec.incrL Z i).take 8) ++ (Spec.incrL Z i).drop 8 = Spec.incrL Z (i + 1) := by
  unfold Spec.incrL
  rw [List.take_left' (Mode.natBe_len _ _), List.drop_left' (Mode.natBe_len _ _), Mode.incBe_natBe]
  rfl

theorem incrR_succ (Z : Bytes) (h : Z.length = 16) (i : Nat) :
    (Spec.incrR Z i).take 8 ++ incBe ((Spec.incrR Z i).drop 8) = Spec.incrR Z (i + 1) := by
  have h8 : (Z.take 8).length = 8 := by rw [List.length_take]; omega
  unfold Spec.incrR
  rw [List.take_left' h8, List.drop_left' h8, Mode.incBe_natBe]
  rfl

theorem setTop (N : Bytes) (hN : N.length = 16) :
    N.set 0 (N.getD 0 0 ||| 0x80) = Spec.mgmIcn 1 N ∧ N.set 0 (N.getD 0 0 &&& 0x7F) = Spec.mgmIcn 0 N := by
  match N, hN with
  | a :: t, hN =>
    have ht : t.length = 15 := by simpa using hN
    have hlt := beNat_lt t
    rw [ht] at hlt
    unfold Spec.mgmIcn
    rw [natBe_cons 15, natBe_cons 15, beNat_cons, ht]
    have e : natBe 15 (beNat t) = t := by have := Mode.natBe_beNat t; rwa [ht] at this
    have hd : ∀ b : Nat, natBe 15 (b * 2 ^ 127 + (a.toNat * 256 ^ 15 + beNat t) % 2 ^ 127) = t := by
      intro b
      conv_rhs => rw [← e]
      apply natBe_congr
      have : (2 : Nat) ^ 127 = 128 * 256 ^ 15 := by norm_num
      rw [this]
      have h2 : (256 : Nat) ^ 15 = 1329227995784915872903807060280344576 := by norm_num
      rw [h2] at hlt ⊢
      omega
    have hh : ∀ b : Nat, b < 2 → (b * 2 ^ 127 + (a.toNat * 256 ^ 15 + beNat t) % 2 ^ 127) / 256 ^ 15 =
        b * 128 + a.toNat % 128 := by
      intro b hb
      have : (2 : Nat) ^ 127 = 128 * 256 ^ 15 := by norm_num
      rw [this]
      have h2 : (256 : Nat) ^ 15 = 1329227995784915872903807060280344576 := by norm_num
      rw [h2] at hlt ⊢
      omega
    rw [hd 1, hd 0, hh 1 (by decide), hh 0 (by decide)]
    simp only [List.set_cons_zero, List.getD_cons_zero, List.cons.injEq, and_true]
    constructor
    · clear hd hh hN; revert a; decide
    · clear hd hh hN; revert a; decide

/-! Key stream. -/

theorem keyBytes_block (blk : Nat → Bytes) (k n : Nat) (hk : 0 < k) (h0 : (blk 0).length = k) :
    keyBytes (streamOf k blk) 0 (k + n) = blk 0 ++ keyBytes (streamOf k (fun j => blk (j + 1))) 0 n := by
  unfold keyBytes
  rw [List.range_add, List.map_append, List.map_map]
  congr 1
  · apply List.ext_getElem
    · simp [h0]
    · intro i h1 h2
      simp only [List.getElem_map, List.getElem_range, Nat.zero_add, streamOf]
      have hi : i < k := by simpa using h1
      rw [Nat.div_eq_of_lt hi, Nat.mod_eq_of_lt hi]
      simp [h2]
  · apply List.map_congr_left
    intro i _
    simp only [Function.comp, Nat.zero_add, streamOf]
    rw [Nat.add_div_left _ hk, Nat.add_mod_left]

theorem keyBytes_short (blk : Nat → Bytes) (k n : Nat) (hn : n ≤ k) (h0 : (blk 0).length = k) :
    keyBytes (streamOf k blk) 0 n = (blk 0).take n := by
  unfold keyBytes
  apply List.ext_getElem
  · simp [h0, hn]
  · intro i h1 h2
    have hi : i < n := by simpa using h1
    simp only [List.getElem_map, List.getElem_range, Nat.zero_add, streamOf, List.getElem_take]
    rw [Nat.div_eq_of_lt (by omega), Nat.mod_eq_of_lt (by omega)]
    simp [h0, show i < k by omega]

/-- Two buffers are equal or disjoint. -/
def SameOrApart (out inp n : Nat) : Prop := n = 0 ∨ out = inp ∨ out + n ≤ inp ∨ inp + n ≤ out

theorem mgmCryptLoop_eq (c : BlockCipher) (h16 : c.bs = 16) (Y : Bytes) (hY : Y.length = 16) (fuel : Nat) (i : Nat) (m : Mem)
    (out inp n : Nat) (hf : n < fuel) (ho : SameOrApart out inp n) :
    mgmCryptLoop c.E fuel m out inp n (Spec.incrR Y i) =
      m.write out (xorb (m.read inp n) (keyBytes (streamOf 16 (fun j => c.E (Spec.incrR Y (i + j)))) 0 n)) := by
  have hEl : ∀ j, (c.E (Spec.incrR Y j)).length = 16 := fun j => by
    rw [c.lenE _ (by rw [incrR_length Y hY, h16]), h16]
  induction fuel generalizing i m out inp n with
  | zero => omega
  | succ fuel ih =>
    rw [mgmCryptLoop]
    by_cases c1 : 16 ≤ n
    · rw [if_pos c1, incrR_succ Y hY, ih (i + 1) _ (out + 16) (inp + 16) (n - 16) (by omega) (by
        unfold SameOrApart at ho ⊢; omega)]
      have e : n = 16 + (n - 16) := by omega
      have hx : (xorb (c.E (Spec.incrR Y i)) (m.read inp 16)).length = 16 := by
        rw [xorb_length, hEl, Mem.read_length]; omega
      conv_rhs => rw [e]
      rw [keyBytes_block _ _ _ (by decide) (hEl _), Mem.read_append, xorb_append _ _ _ _ (by
        rw [Mem.read_length, hEl]), Mem.write_append, xorb_length, Mem.read_length, hEl, Nat.min_self, Nat.add_zero,
        xorb_comm (c.E (Spec.incrR Y i))]
      have e2 : (fun j => c.E (Spec.incrR Y (i + (j + 1)))) = (fun j => c.E (Spec.incrR Y (i + 1 + j))) := by
        funext j; congr 2; omega
      rw [e2]
      congr 2
      rw [xorb_comm] at hx
      rcases ho with h0 | h0 | h0 | h0
      · omega
      · subst h0
        exact Mem.read_write_disjoint _ _ _ _ _ (Or.inr (by rw [hx]))
      · exact Mem.read_write_disjoint _ _ _ _ _ (Or.inr (by rw [hx]; omega))
      · exact Mem.read_write_disjoint _ _ _ _ _ (Or.inl (by omega))
    · rw [if_neg c1]
      by_cases c2 : 0 < n
      · rw [if_pos c2, keyBytes_short _ 16 n (by omega) (hEl _), Nat.add_zero]
        congr 1
        rw [xorb_comm (m.read inp n) (List.take _ _)]
        have : xorb (List.take n (c.E (Spec.incrR Y i))) (m.read inp n) = (xorb (c.E (Spec.incrR Y i)) (m.read inp n)).take n := by
          rw [xorb_take, List.take_of_length_le (l := m.read inp n) (by rw [Mem.read_length])]
        rw [this, List.take_of_length_le (by rw [xorb_length, Mem.read_length]; omega), xorb_comm]
      · have : n = 0 := by omega
        subst this
        rw [if_neg c2]
        simp [keyBytes, Mem.write_nil]

theorem mgmIcn_length (b : Nat) (N : Bytes) : (Spec.mgmIcn b N).length = 16 := Mode.natBe_len _ _

theorem mgmCryptM_eq (c : BlockCipher) (h16 : c.bs = 16) (m : Mem) (out inp n : Nat) (icn : Bytes) (hi : icn.length = 16)
    (ho : SameOrApart out inp n) :
    mgmCryptM c.E m out inp n icn = m.write out (Spec.mgmCrypt c.E icn (m.read inp n)) := by
  have hY : (c.E (Spec.mgmIcn 0 icn)).length = 16 := by rw [c.lenE _ (by rw [mgmIcn_length, h16]), h16]
  unfold mgmCryptM Spec.mgmCrypt
  rw [(setTop icn hi).2]
  have := mgmCryptLoop_eq c h16 _ hY (n + 1) 0 m out inp n (by omega) ho
  rw [incrR_zero _ hY] at this
  rw [this, Mem.read_length]
  simp only [Nat.zero_add]

/-! The authentication sum. -/

theorem mgmSum_length (E : Bytes → Bytes) (Z : Bytes) (i : Nat) (l : List Bytes) : (Spec.mgmSum E Z i l).length = 16 := by
  induction l generalizing i with
  | nil => simp [Spec.mgmSum]
  | cons b l ih => rw [Spec.mgmSum, xorb_length, gfMul_length, ih]; rfl

theorem mgmSum_append (E : Bytes → Bytes) (Z : Bytes) (i : Nat) (l l' : List Bytes) :
    Spec.mgmSum E Z i (l ++ l') = xorb (Spec.mgmSum E Z i l) (Spec.mgmSum E Z (i + l.length) l') := by
  induction l generalizing i with
  | nil =>
    rw [List.nil_append, Spec.mgmSum, xorb_zeros_left _ _ (by rw [mgmSum_length])]; rfl
  | cons b l ih =>
    rw [List.cons_append, Spec.mgmSum, Spec.mgmSum, ih, xorb_assoc, List.length_cons]
    congr 3
    omega

theorem mgmAbsorb_eq (c : BlockCipher) (h16 : c.bs = 16) (Z : Bytes) (hZ : Z.length = 16) (fuel i : Nat) (sum data : Bytes)
    (hs : sum.length = 16) (hf : data.length < fuel) :
    mgmAbsorb c.E fuel sum (Spec.incrL Z i) data =
      (xorb sum (Spec.mgmSum c.E Z i (chunks 16 (Spec.padZero 16 data))),
       Spec.incrL Z (i + (chunks 16 (Spec.padZero 16 data)).length)) := by
  have hEl : ∀ j, (c.E (Spec.incrL Z j)).length = 16 := fun j => by
    rw [c.lenE _ (by rw [incrL_length Z hZ, h16]), h16]
  induction fuel generalizing i sum data with
  | zero => omega
  | succ fuel ih =>
    rw [mgmAbsorb]
    by_cases c1 : 16 ≤ data.length
    · rw [if_pos c1, incrL_succ Z hZ, ih (i + 1) _ _ (by rw [xorb_length, mgmMul_eq _ _ (hEl i), gfMul_length, hs]; rfl) (by
        rw [List.length_drop]; omega)]
      have hne : data ≠ [] := by intro h; subst h; simp at c1
      have e : chunks 16 (Spec.padZero 16 data) = data.take 16 :: chunks 16 (Spec.padZero 16 (data.drop 16)) := by
        have h1 : Spec.padZero 16 data = data.take 16 ++ Spec.padZero 16 (data.drop 16) := by
          unfold Spec.padZero
          rw [← List.append_assoc, List.take_append_drop, List.length_drop]
          congr 2
          omega
        have h2 : (data.take 16).length = 16 := by rw [List.length_take]; omega
        rw [h1, Mode.chunks_append _ (by decide) _ _ (by rw [h2]), Mode.chunks_cons _ (by decide) _ (by
          intro h; rw [h] at h2; simp at h2), List.take_of_length_le (by omega), List.drop_eq_nil_of_le (by omega),
          Mode.chunks_nil]
        rfl
      rw [e, Spec.mgmSum, mgmMul_eq _ _ (hEl i), xorb_assoc, List.length_cons]
      congr 2
      omega
    · rw [if_neg c1]
      by_cases c2 : 0 < data.length
      · rw [if_pos c2, incrL_succ Z hZ]
        have e : chunks 16 (Spec.padZero 16 data) = [data ++ List.replicate (16 - data.length) 0] := by
          have h1 : Spec.padZero 16 data = data ++ List.replicate (16 - data.length) 0 := by
            unfold Spec.padZero
            congr 2
            omega
          have h2 : (data ++ List.replicate (16 - data.length) (0 : Byte)).length = 16 := by
            rw [List.length_append, List.length_replicate]; omega
          rw [h1, Mode.chunks_cons _ (by decide) _ (by intro h; rw [h] at h2; simp at h2), List.take_of_length_le (by omega),
            List.drop_eq_nil_of_le (by omega), Mode.chunks_nil]
        rw [e, Spec.mgmSum, Spec.mgmSum, xorb_zeros_right _ _ (by rw [gfMul_length]), mgmMul_eq _ _ (hEl i)]
        rfl
      · have : data = [] := List.eq_nil_of_length_eq_zero (by omega)
        subst this
        rw [if_neg c2]
        have e : chunks 16 (Spec.padZero 16 []) = [] := rfl
        rw [e, Spec.mgmSum, xorb_zeros_right _ _ (by omega)]
        rfl

theorem mgmAuth_eq (c : BlockCipher) (h16 : c.bs = 16) (text ad icn : Bytes) (hi : icn.length = 16) :
    mgmAuth c.E text ad icn = Spec.mgmTag c.E icn ad text := by
  have hZ : (c.E (Spec.mgmIcn 1 icn)).length = 16 := by rw [c.lenE _ (by rw [mgmIcn_length, h16]), h16]
  have hEl : ∀ j, (c.E (Spec.incrL (c.E (Spec.mgmIcn 1 icn)) j)).length = 16 := fun j => by
    rw [c.lenE _ (by rw [incrL_length _ hZ, h16]), h16]
  unfold mgmAuth Spec.mgmTag
  simp only
  rw [(setTop icn hi).1]
  have a := mgmAbsorb_eq c h16 _ hZ (ad.length + 1) 0 (List.replicate 16 0) ad (by simp) (by omega)
  rw [incrL_zero _ hZ] at a
  rw [a, mgmAbsorb_eq c h16 _ hZ (text.length + 1) _ _ text (by rw [xorb_length, mgmSum_length]; simp) (by omega)]
  simp only
  rw [mgmMul_eq _ _ (hEl _), mgmSum_append, mgmSum_append, Spec.mgmSum, Spec.mgmSum, xorb_zeros_right _ _ (by rw [gfMul_length]),
    xorb_zeros_left _ _ (by rw [mgmSum_length]), List.length_append, ← Nat.add_assoc, Nat.mul_comm 8, Nat.mul_comm 8]

theorem mgmTag_length (c : BlockCipher) (h16 : c.bs = 16) (N A C : Bytes) : (Spec.mgmTag c.E N A C).length = 16 := by
  unfold Spec.mgmTag
  rw [c.lenE _ (by rw [mgmSum_length, h16]), h16]

theorem mgmCrypt_length (E : Bytes → Bytes) (N P : Bytes) : (Spec.mgmCrypt E N P).length = P.length := by
  unfold Spec.mgmCrypt; rw [xorb_length]; simp [keyBytes]

theorem mgmCrypt_invol (E : Bytes → Bytes) (N P : Bytes) : Spec.mgmCrypt E N (Spec.mgmCrypt E N P) = P := by
  have := mgmCrypt_length E N P
  unfold Spec.mgmCrypt at this ⊢
  rw [this]
  exact xorb_xorb_cancel_right _ _ (by simp [keyBytes])

/-- Setting or clearing the unused first bit of the nonce changes nothing. -/
theorem mgmIcn_set (N : Bytes) (hN : N.length = 16) (b : Nat) :
    Spec.mgmIcn b (N.set 0 (N.getD 0 0 &&& 0x7F)) = Spec.mgmIcn b N ∧
    Spec.mgmIcn b (N.set 0 (N.getD 0 0 ||| 0x80)) = Spec.mgmIcn b N := by
  rw [(setTop N hN).1, (setTop N hN).2]
  have h : ∀ d : Nat, d < 2 → beNat (Spec.mgmIcn d N) % 2 ^ 127 = beNat N % 2 ^ 127 := by
    intro d hd
    have := beNat_natBe_append [] 16 (d * 2 ^ 127 + beNat N % 2 ^ 127) (by
      have : beNat N % 2 ^ 127 < 2 ^ 127 := Nat.mod_lt _ (by norm_num)
      have h2 : (256 : Nat) ^ 16 = 2 * 2 ^ 127 := by norm_num
      rw [h2]
      omega)
    unfold Spec.mgmIcn
    rw [List.nil_append] at this
    rw [this, show beNat [] = 0 from rfl]
    omega
  constructor
  · have := h 0 (by decide)
    unfold Spec.mgmIcn at this ⊢
    rw [this]
  · have := h 1 (by decide)
    unfold Spec.mgmIcn at this ⊢
    rw [this]

end Verif.Aead
