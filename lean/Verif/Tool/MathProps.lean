import Verif.Tool.Math
import Mathlib.Analysis.SpecialFunctions.Exponential
import Mathlib.Analysis.SpecialFunctions.Sqrt
import Mathlib.Analysis.Complex.Exponential
import Mathlib.NumberTheory.Real.GoldenRatio
/-
C168: the rational and integer helpers of tool/math.  The specification is Mathlib's: `⌈·⌉`, `⌊·⌋`, `BitVec.rotateLeft`,
`Real.exp`, `Real.sqrt`, the golden ratio.
-/
namespace Verif.Tool.Math

theorem floor_eq (n : ℚ) : floor n = ⌊n⌋ := by rw [floor, Rat.floor_def']

theorem ushift_all {w : Nat} (x : BitVec w) : x >>> w = 0#w := by
  apply BitVec.eq_of_toNat_eq
  rw [BitVec.toNat_ushiftRight, Nat.shiftRight_eq_div_pow, Nat.div_eq_of_lt x.isLt]
  simp

theorem mod_shift (x w : Nat) : (x % 2 ^ w) >>> w = 0 := by
  rw [Nat.shiftRight_eq_div_pow, Nat.div_eq_of_lt (Nat.mod_lt _ (by positivity))]

/-- C168. `Floor` and `Ceil` round down and up. -/
theorem C168_ceil_floor (n : ℚ) : floor n = ⌊n⌋ ∧ ceil n = ⌈n⌉ := by
  refine ⟨floor_eq n, ?_⟩
  rw [ceil]
  split
  · next h =>
    have : n = (n.num : ℚ) := (Rat.coe_int_num_of_den_eq_one h).symm
    conv_rhs => rw [this]
    rw [Int.ceil_intCast]
  · next h =>
    have hf : n.num / n.den = ⌊n⌋ := floor_eq n
    rw [hf, eq_comm, Int.ceil_eq_iff]
    have h1 := Int.floor_le n
    have h2 := Int.lt_floor_add_one n
    have hne : (⌊n⌋ : ℚ) ≠ n := by
      intro e
      apply h
      rw [← e]
      exact Rat.den_intCast _
    push_cast
    refine ⟨?_, h2.le⟩
    have := lt_of_le_of_ne h1 hne
    linarith

/-- C168. `Round` of a negative number is a nearest integer.  Missing from the full claim: numbers that are not negative, for
which it is false (`C168_round_violated`). -/
theorem C168_round_partial (n : ℚ) (h : n < 0) : |(round n : ℚ) - n| ≤ 1 / 2 := by
  rw [round, if_pos h, (C168_ceil_floor _).2]
  have h1 := Int.le_ceil (n - 1 / 2)
  have h2 := Int.ceil_lt_add_one (n - 1 / 2)
  rw [abs_le]
  constructor <;> linarith

/-- C168. `Round` of a number that is not negative is a nearest integer only if the number is a half; of an integer it is the
next integer. -/
theorem C168_round_violated (n : ℚ) (h : 0 ≤ n) :
    (|(round n : ℚ) - n| ≤ 1 / 2 ↔ ∃ z : Int, n = z + 1 / 2) ∧ ∀ z : Int, n = z → round n = z + 1 := by
  rw [round, if_neg (by linarith), (C168_ceil_floor _).2]
  have h1 := Int.le_ceil (n + 1 / 2)
  have h2 := Int.ceil_lt_add_one (n + 1 / 2)
  constructor
  · rw [abs_le]
    constructor
    · intro h3
      refine ⟨⌈n + 1 / 2⌉ - 1, ?_⟩
      push_cast
      linarith [h3.2]
    · rintro ⟨z, hz⟩
      have : ⌈n + 1 / 2⌉ = z + 1 := by
        rw [hz, Int.ceil_eq_iff]
        push_cast
        constructor <;> linarith
      rw [this]
      push_cast
      constructor <;> linarith
  · intro z hz
    rw [Int.ceil_eq_iff, hz]
    push_cast
    constructor <;> linarith

example : round 3 = 4 ∧ round (6 / 5) = 2 ∧ round (-6 / 5) = -1 := by decide +kernel
example : ceil (7 / 2) = 4 ∧ floor (-7 / 2) = -4 ∧ ceil (-7 / 2) = -3 ∧ ceil 5 = 5 := by decide +kernel

/-- C168. `Odd` returns the least odd number that is not smaller. -/
theorem C168_odd (n : Int) : (odd n).1 % 2 = 1 ∧ n ≤ (odd n).1 ∧ ∀ m, m % 2 = 1 → n ≤ m → (odd n).1 ≤ m := by
  rw [odd]
  split
  · refine ⟨by simp; omega, by simp, fun m h1 h2 => by simp; omega⟩
  · refine ⟨by simp; omega, by simp, fun m h1 h2 => by simpa using h2⟩

/-- C168. `Odd` changes its argument, when that is even. -/
theorem C168_odd_argument_violated (n : Int) : (odd n).2 = n ↔ n % 2 = 1 := by
  rw [odd]
  split <;> simp <;> omega

theorem mask_eq (s : Nat) : mask s = 2 ^ s - 1 := by rw [mask, Nat.one_shiftLeft]

/-- C168. `RotateLeft` and `RotateRight` with `Mask(s)` rotate words of `s` bits, for rotations of at most `s`. -/
theorem C168_rotate (x r s : Nat) (hr : r ≤ s) (hs : s < 2 ^ 64) :
    rotateLeft x r s (mask s) = ((BitVec.ofNat s x).rotateLeft r).toNat ∧
    rotateRight x r s (mask s) = ((BitVec.ofNat s x).rotateRight r).toNat := by
  have key (r : Nat) (hr : r ≤ s) : rotateLeft x r s (mask s) = ((BitVec.ofNat s x).rotateLeft r).toNat := by
    have hsub : (((s : Int) - r) % 2 ^ 64).toNat = s - r := by omega
    rw [rotateLeft, hsub, mask_eq]
    simp only [Nat.and_two_pow_sub_one_eq_mod]
    rcases Nat.eq_or_lt_of_le hr with h | h
    · subst h
      rw [Nat.shiftLeft_eq, Nat.mul_mod_left, Nat.sub_self, Nat.zero_or, Nat.shiftRight_zero, BitVec.rotateLeft_def, Nat.mod_self]
      simp [mod_shift]
    · rw [BitVec.rotateLeft_def, Nat.mod_eq_of_lt h, BitVec.toNat_or, BitVec.toNat_shiftLeft, BitVec.toNat_ushiftRight, BitVec.toNat_ofNat]
  refine ⟨key r hr, ?_⟩
  have hsub : (((s : Int) - r) % 2 ^ 64).toNat = s - r := by omega
  rw [rotateRight, hsub, key (s - r) (by omega)]
  congr 1
  rcases Nat.eq_or_lt_of_le hr with h | h
  · subst h
    rw [Nat.sub_self, BitVec.rotateLeft_def, BitVec.rotateRight_def, Nat.mod_self, Nat.zero_mod]
    simp [ushift_all]
  · rcases Nat.eq_zero_or_pos r with h0 | h0
    · subst h0
      rw [BitVec.rotateLeft_def, BitVec.rotateRight_def, Nat.sub_zero, Nat.mod_self, Nat.zero_mod]
      simp [ushift_all]
    · rw [BitVec.rotateLeft_def, BitVec.rotateRight_def, Nat.mod_eq_of_lt (a := s - r) (by omega), Nat.mod_eq_of_lt h,
        Nat.sub_sub_self (by omega), BitVec.or_comm]

example : rotateLeft 0b1011 1 4 (mask 4) = 0b0111 ∧ rotateRight 0b1011 1 4 (mask 4) = 0b1101 := by decide

/-- C168. A rotation by more than the word size gives 0, whatever the word. -/
theorem C168_rotate_violated (x r s : Nat) (h : s < r) (hr : r < 2 ^ 63) : rotateLeft x r s (mask s) = 0 := by
  rw [rotateLeft, mask_eq]
  simp only [Nat.and_two_pow_sub_one_eq_mod]
  have h1 : (x % 2 ^ s) <<< r % 2 ^ s = 0 := by
    rw [Nat.shiftLeft_eq]
    exact Nat.mod_eq_zero_of_dvd (Dvd.dvd.mul_left (pow_dvd_pow 2 h.le) _)
  have h2 : (x % 2 ^ s) >>> (((s : Int) - r) % 2 ^ 64).toNat = 0 := by
    rw [Nat.shiftRight_eq_div_pow]
    apply Nat.div_eq_of_lt
    have hx : x % 2 ^ s < 2 ^ s := Nat.mod_lt _ (by positivity)
    have : s ≤ (((s : Int) - r) % 2 ^ 64).toNat := by omega
    exact lt_of_lt_of_le hx (Nat.pow_le_pow_right (by decide) this)
  rw [h1, h2]
  rfl

theorem eLoop_eq : ∀ todo i : Nat, eLoop todo (i + 1) (1 / (i.factorial : ℚ)) (∑ j ∈ Finset.range (i + 1), 1 / (j.factorial : ℚ)) =
    ∑ j ∈ Finset.range (i + 1 + todo), 1 / (j.factorial : ℚ)
  | 0, i => rfl
  | todo + 1, i => by
    have hf : (1 / (i.factorial : ℚ)) * (1 / ((i + 1 : Nat) : ℚ)) = 1 / ((i + 1).factorial : ℚ) := by
      rw [Nat.factorial_succ]
      push_cast
      rw [one_div_mul_one_div, mul_comm]
    rw [eLoop, hf, ← Finset.sum_range_succ, eLoop_eq todo (i + 1)]
    congr 2
    omega

/-- C168. `E(rounds)`, for at least two rounds, is the sum of the first `rounds` terms of the series of Euler's number, and not
further than `(rounds + 1) / (rounds! · rounds)` from it. -/
theorem C168_e (rounds : Nat) (h : 2 ≤ rounds) :
    e rounds = ∑ i ∈ Finset.range rounds, 1 / (i.factorial : ℚ) ∧
    |Real.exp 1 - (e rounds : ℝ)| ≤ (rounds + 1) / (rounds.factorial * rounds) := by
  have h1 : e rounds = ∑ i ∈ Finset.range rounds, 1 / (i.factorial : ℚ) := by
    have := eLoop_eq (rounds - 2) 1
    rw [show 1 + 1 + (rounds - 2) = rounds by omega] at this
    rw [← this, e]
    norm_num [Finset.sum_range_succ]
  refine ⟨h1, ?_⟩
  have hb := Real.exp_bound (x := 1) (by norm_num) (n := rounds) (by omega)
  have hc : (e rounds : ℝ) = ∑ m ∈ Finset.range rounds, (1 : ℝ) ^ m / m.factorial := by
    rw [h1]
    push_cast
    simp
  rw [hc]
  simpa using hb

example : e 4 = 8 / 3 := by decide +kernel

/-- The loop in the reals: `(x − √n)/(x + √n)` is squared by each turn. -/
theorem newton_real (s : ℝ) (hs : 0 < s) (n : ℚ) (hn : (n : ℝ) = s ^ 2) : ∀ (k : Nat) (x : ℚ), 0 < x →
    0 < newton n k x ∧ ((newton n k x : ℝ) - s) / (newton n k x + s) = (((x : ℝ) - s) / (x + s)) ^ 2 ^ k
  | 0, x, hx => ⟨hx, by simp [newton]⟩
  | k + 1, x, hx => by
    have hn0 : 0 < n := by
      have : (0 : ℝ) < n := by rw [hn]; positivity
      exact_mod_cast this
    have hx' : 0 < 1 / 2 * (x + n / x) := by positivity
    obtain ⟨h1, h2⟩ := newton_real s hs n hn k _ hx'
    refine ⟨h1, ?_⟩
    rw [newton, h2, pow_succ, Nat.mul_comm, pow_mul]
    congr 1
    push_cast
    rw [hn]
    have hxr : (0 : ℝ) < x := by exact_mod_cast hx
    have a1 : (x : ℝ) + s ≠ 0 := by positivity
    have a2 : (1 : ℝ) / 2 * (x + s ^ 2 / x) + s ≠ 0 := by positivity
    rw [div_pow, div_eq_div_iff a2 (by positivity)]
    field_simp
    ring

/-- C168. `Sqrt(n, p)` for `n > 0`, `p > 0`: never below the root, and how near it comes: after `⌊log₂ p⌋ + 1` turns,
`(x − √n)/(x + √n)` is the `2^turns`-th power of its value at the initial estimate 1. -/
theorem C168_sqrt (n p : Nat) (hn : 0 < n) :
    ((sqrt n p : ℝ) - √n) / (sqrt n p + √n) = ((1 - √n) / (1 + √n)) ^ 2 ^ (p.log2 + 1) ∧ √n ≤ (sqrt n p : ℝ) := by
  have hn' : (0 : ℝ) < n := by exact_mod_cast hn
  have hs : 0 < √(n : ℝ) := Real.sqrt_pos.mpr hn'
  have hsq : (((n : ℚ) : ℝ)) = √(n : ℝ) ^ 2 := by rw [Real.sq_sqrt hn'.le]; norm_cast
  obtain ⟨h1, h2⟩ := newton_real _ hs n hsq (p.log2 + 1) 1 (by norm_num)
  rw [sqrt, if_neg (by omega)]
  have h1' : (0 : ℝ) < (newton n (p.log2 + 1) 1 : ℚ) := by exact_mod_cast h1
  refine ⟨by rw [h2]; norm_num, ?_⟩
  have hnn : 0 ≤ ((newton n (p.log2 + 1) 1 : ℚ) - √(n : ℝ)) / ((newton n (p.log2 + 1) 1 : ℚ) + √(n : ℝ)) := by
    rw [h2, pow_succ, Nat.mul_comm, pow_mul]
    positivity
  rw [div_nonneg_iff] at hnn
  rcases hnn with ⟨ha, _⟩ | ⟨_, hb⟩
  · linarith
  · exfalso; linarith

theorem newton_le (n : ℚ) (hn : 1 ≤ n) : ∀ (k : Nat) (x : ℚ), 1 ≤ x → x ≤ n → 1 ≤ newton n k x ∧ newton n k x ≤ n
  | 0, x, h1, h2 => ⟨h1, h2⟩
  | k + 1, x, h1, h2 => by
    have hx : 0 < x := by linarith
    rw [newton]
    refine newton_le n hn k _ ?_ ?_
    · have : 1 ≤ n / x := by rw [le_div_iff₀ hx]; linarith
      linarith
    · have : n / x ≤ n + 1 - x := by
        rw [div_le_iff₀ hx]
        nlinarith
      have : n / x + x ≤ 2 * n := by linarith
      linarith

/-- C168. `Phi(p)` is an upper approximation of the golden ratio with an error below `4 · 2^(−p)`. -/
theorem C168_phi (p : Nat) (hp : 0 < p) : 0 ≤ (phi p : ℝ) - Real.goldenRatio ∧ (phi p : ℝ) - Real.goldenRatio ≤ 4 / 2 ^ p := by
  obtain ⟨h1, h2⟩ := C168_sqrt 5 p (by decide)
  have hle : (sqrt 5 p : ℝ) ≤ 5 := by
    rw [sqrt, if_neg (by decide)]
    have := (newton_le 5 (by norm_num) (p.log2 + 1) 1 (by norm_num) (by norm_num)).2
    exact_mod_cast this
  have hphi : (phi p : ℝ) - Real.goldenRatio = ((sqrt 5 p : ℝ) - √5) / 2 := by
    rw [phi, Real.goldenRatio]
    push_cast
    ring
  push_cast at h1 h2
  have hs2 : √(5 : ℝ) ^ 2 = 5 := Real.sq_sqrt (by norm_num)
  have hs0 : 0 < √(5 : ℝ) := Real.sqrt_pos.mpr (by norm_num)
  have hs3 : √(5 : ℝ) ≤ 3 := by nlinarith
  have hs1 : 2 ≤ √(5 : ℝ) := by nlinarith
  rw [hphi]
  refine ⟨by linarith, ?_⟩
  generalize hq : (1 - √(5 : ℝ)) / (1 + √5) = q at h1
  have hqa : |q| ≤ 1 / 2 := by
    rw [← hq, abs_le]
    constructor
    · rw [le_div_iff₀ (by linarith)]; linarith
    · rw [div_le_iff₀ (by linarith)]; linarith
  have hpow : q ^ 2 ^ (p.log2 + 1) ≤ (1 / 2) ^ p := by
    have hlog : p ≤ 2 ^ (p.log2 + 1) := (Nat.lt_log2_self).le
    calc q ^ 2 ^ (p.log2 + 1) ≤ |q ^ 2 ^ (p.log2 + 1)| := le_abs_self _
      _ = |q| ^ 2 ^ (p.log2 + 1) := abs_pow _ _
      _ ≤ (1 / 2) ^ 2 ^ (p.log2 + 1) := pow_le_pow_left₀ (abs_nonneg _) hqa _
      _ ≤ (1 / 2) ^ p := pow_le_pow_of_le_one (by norm_num) (by norm_num) hlog
  have hpos : 0 < (sqrt 5 p : ℝ) + √5 := by linarith
  rw [div_eq_iff hpos.ne'] at h1
  rw [h1]
  have hp2 : (0 : ℝ) < (1 / 2) ^ p := by positivity
  have : q ^ 2 ^ (p.log2 + 1) * ((sqrt 5 p : ℝ) + √5) ≤ (1 / 2) ^ p * 8 :=
    mul_le_mul hpow (by linarith) hpos.le hp2.le
  have e8 : (4 : ℝ) / 2 ^ p = (1 / 2) ^ p * 8 / 2 := by
    rw [one_div, inv_pow]; field_simp; norm_num
  rw [e8]
  linarith

theorem newton_ge (n : ℚ) (hn : 0 < n) : ∀ (k : Nat) (x : ℚ), 0 < x → x / 2 ^ k ≤ newton n k x
  | 0, x, _ => by simp [newton]
  | k + 1, x, hx => by
    rw [newton]
    have hx' : 0 < 1 / 2 * (x + n / x) := by positivity
    refine le_trans ?_ (newton_ge n hn k _ hx')
    rw [pow_succ, div_le_div_iff₀ (by positivity) (by positivity)]
    have h1 : 0 < n / x := by positivity
    have h2 : (0 : ℚ) < 2 ^ k := by positivity
    nlinarith [mul_pos h1 h2]

/-- C168. `Sqrt` does not deliver the precision it is asked for, nor any other: for `p = 64` the result for `2^20` is more than
eight times `1024`. -/
theorem C168_sqrt_violated : 8 * 1024 < sqrt (2 ^ 20) 64 := by
  have h : sqrt (2 ^ 20) 64 = newton (2 ^ 20 : Nat) 6 (1 / 2 * (1 + (2 ^ 20 : Nat) / 1)) := by
    rw [sqrt, if_neg (by norm_num), show Nat.log2 64 + 1 = 6 + 1 by decide +kernel, newton]
  rw [h]
  refine lt_of_lt_of_le ?_ (newton_ge _ (by norm_num) 6 _ (by norm_num))
  norm_num

end Verif.Tool.Math
