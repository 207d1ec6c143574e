import Verif.Ell.BinField
import Mathlib.AlgebraicGeometry.EllipticCurve.Affine.Point
import Mathlib.Algebra.Polynomial.SpecificDegree
import Mathlib.Tactic.LinearCombination
import Mathlib.Tactic.FieldSimp
/-
C113: the arithmetic of elliptic/base_elliptic is that of the elliptic curve `y² + xy = x³ + Ax² + B` over the field of polynomials modulo
`F`, as Mathlib defines its group of points (`WeierstrassCurve.Affine.Point`); and where it panics.  The model is in Bin.lean.
-/
namespace Verif.Ell
open Verif.Pub Verif.Gf2 WeierstrassCurve Polynomial

noncomputable instance (F : Nat) : DecidableEq (AdjoinRoot (poly F)) := Classical.decEq _

namespace Spec

/-- The curve `y² + xy = x³ + Ax² + B` over the polynomials modulo `F`. -/
noncomputable def W (c : BCurve) : Affine (AdjoinRoot (poly c.F)) := ⟨1, ev c.F c.A, 0, 0, ev c.F c.B⟩

/-- What makes it an elliptic curve over a field: `F` is irreducible, and `B` is not zero. -/
def Good (c : BCurve) : Prop := Irreducible (poly c.F) ∧ ev c.F c.B ≠ 0

end Spec

section
variable (c : BCurve) [hI : Fact (Irreducible (poly c.F))]

/-- The group of points, with the point at infinity. -/
noncomputable abbrev Spec.Pt := (Spec.W c).Point

/-- The pair `(x, y)` represents the point `P`: `(0, 0)` the point at infinity, reduced coordinates every other point. -/
def Spec.Is (x y : Nat) (P : Spec.Pt c) : Prop :=
  (x = 0 ∧ y = 0 ∧ P = 0) ∨
  (bitLen x < bitLen c.F ∧ bitLen y < bitLen c.F ∧ ∃ h : (Spec.W c).Nonsingular (ev c.F x) (ev c.F y), P = .some _ _ h)

/-- A point that is not at infinity and has no coordinate zero. -/
def Spec.Generic (P : Spec.Pt c) : Prop := ∃ X Y, ∃ h : (Spec.W c).Nonsingular X Y, P = .some X Y h ∧ X ≠ 0 ∧ Y ≠ 0

/-- The result represents the point, or it is a panic, and then the point is at infinity or has a coordinate zero. -/
def Spec.Right (P : Spec.Pt c) (R : Res (Nat × Nat)) : Prop :=
  (∃ x y, R = .ok (x, y) ∧ Spec.Is c x y P) ∨ (R = .panic ∧ ¬ Spec.Generic c P)

theorem F_ne_zero : c.F ≠ 0 := fun e => hI.out.ne_zero (by rw [e, poly_zero])

theorem two_eq_zero : (2 : AdjoinRoot (poly c.F)) = 0 := by
  have := ev_add_self c.F 1
  rwa [one_add_one_eq_two] at this

theorem neg_eq (z : AdjoinRoot (poly c.F)) : -z = z := by
  have := ev_add_self c.F z
  linear_combination -this

theorem not_generic_zero : ¬ Spec.Generic c 0 := by
  rintro ⟨X, Y, h, e, _⟩
  cases e

theorem equation_iff (X Y : AdjoinRoot (poly c.F)) : (Spec.W c).Equation X Y ↔ Y ^ 2 + X * Y = X ^ 3 + ev c.F c.A * X ^ 2 + ev c.F c.B := by
  rw [Affine.equation_iff]
  simp only [Spec.W]
  constructor <;> intro h <;> linear_combination h

theorem zero_not_on (hB : ev c.F c.B ≠ 0) : ¬ (Spec.W c).Equation 0 0 := by
  rw [equation_iff]
  intro h
  exact hB (by linear_combination -h)

/-- Every point of the curve is nonsingular. -/
theorem nonsingular (hB : ev c.F c.B ≠ 0) {X Y : AdjoinRoot (poly c.F)} (h : (Spec.W c).Equation X Y) : (Spec.W c).Nonsingular X Y := by
  rw [Affine.nonsingular_iff]
  refine ⟨h, ?_⟩
  by_contra hn
  rw [not_or, not_not, not_not] at hn
  simp only [Spec.W] at hn
  obtain ⟨h1, h2⟩ := hn
  have h2' : X = 0 := by linear_combination -h2 + Y * two_eq_zero c + X * two_eq_zero c
  subst h2'
  have h1' : Y = 0 := by linear_combination h1
  subst h1'
  exact zero_not_on c hB h

omit hI in
theorem is_zero : Spec.Is c 0 0 0 := .inl ⟨rfl, rfl, rfl⟩

/-- Mod of a number whose value is known. -/
theorem mod_cases (a : Nat) (Z : AdjoinRoot (poly c.F)) (ha : ev c.F a = Z) :
    (∃ r, mod a c.F = .ok r ∧ ev c.F r = Z ∧ bitLen r < bitLen c.F) ∨ (mod a c.F = .panic ∧ Z = 0) := by
  by_cases h0 : a = 0
  · right
    subst h0
    exact ⟨rfl, by rw [← ha, ev_zero]⟩
  · left
    obtain ⟨r, h1, h2, h3⟩ := mod_spec (F_ne_zero c) h0
    exact ⟨r, h1, h2.trans ha, h3⟩

theorem ev_eq_zero {x : Nat} (h : bitLen x < bitLen c.F) (h0 : ev c.F x = 0) : x = 0 :=
  ev_inj h (by rw [(bitLen_zero_iff 0).mpr rfl]; omega) (h0.trans (ev_zero _).symm)

theorem double_spec {x y : Nat} {P : Spec.Pt c} (hP : Spec.Is c x y P) (h0 : P ≠ 0) : Spec.Right c (P + P) (double c x y) := by
  rcases hP with ⟨_, _, rfl⟩ | ⟨hx, hy, hn, rfl⟩
  · exact absurd rfl h0
  have h2 := two_eq_zero c
  by_cases hz : ev c.F x = 0
  · -- a point of order two
    right
    have hx0 := ev_eq_zero c hx hz
    subst hx0
    constructor
    · rw [double, divMod_zero (F_ne_zero c)]; rfl
    · rw [Affine.Point.add_of_Y_eq rfl (by simp only [Affine.negY, Spec.W, ev_zero]; linear_combination (ev c.F y) * h2)]
      exact not_generic_zero c
  · have hno : ¬ (ev c.F x = ev c.F x ∧ ev c.F y = (Spec.W c).negY (ev c.F x) (ev c.F y)) := by
      rintro ⟨_, e⟩
      simp only [Affine.negY, Spec.W] at e
      exact hz (by linear_combination -e + (ev c.F y) * h2 + (ev c.F x) * h2)
    obtain ⟨s, hs1, hs2⟩ := divMod_spec hI.out y hz
    have hsl : (Spec.W c).slope (ev c.F x) (ev c.F x) (ev c.F y) (ev c.F y) = ev c.F (x ^^^ s) := by
      rw [Affine.slope_of_Y_ne rfl (fun e => hno ⟨rfl, e⟩), ev_xor, div_eq_iff]
      · simp only [Affine.negY, Spec.W]
        linear_combination -hs2 + ((ev c.F x) ^ 2 - ev c.F y + (ev c.F c.A) * (ev c.F x) - (ev c.F x) * (ev c.F y) - ev c.F s * ev c.F y) * h2
      · intro e
        simp only [Affine.negY, Spec.W] at e
        exact hz (by linear_combination e - (ev c.F y) * h2)
    have hX : ev c.F ((mul (x ^^^ s) (x ^^^ s) ^^^ (x ^^^ s)) ^^^ c.A) = (Spec.W c).addX (ev c.F x) (ev c.F x) ((Spec.W c).slope (ev c.F x) (ev c.F x) (ev c.F y) (ev c.F y)) := by
      rw [hsl, ev_xor, ev_xor, ev_mul]
      simp only [Affine.addX, Spec.W]
      linear_combination (ev c.F c.A + ev c.F x) * h2
    have hsum := Affine.Point.add_some hno (h₁ := hn) (h₂ := hn)
    rw [double, hs1]
    simp only [Res.bind_ok]
    rcases mod_cases c _ _ hX with ⟨x3, e1, e2, e3⟩ | ⟨e1, e2⟩
    · rw [e1]
      simp only [Res.bind_ok]
      have hY : ev c.F (mul x x ^^^ mul ((x ^^^ s) ^^^ 1) x3) = (Spec.W c).addY (ev c.F x) (ev c.F x) (ev c.F y) ((Spec.W c).slope (ev c.F x) (ev c.F x) (ev c.F y) (ev c.F y)) := by
        have hyy : ev c.F (x ^^^ s) * ev c.F x = ev c.F x ^ 2 + ev c.F y := by rw [ev_xor]; linear_combination hs2
        rw [ev_xor, ev_mul, ev_mul, ev_xor, ev_one]
        simp only [Affine.addY, Affine.negAddY, Affine.negY, ← e2]
        rw [hsl]
        generalize ev c.F (x ^^^ s) = S at *
        simp only [Spec.W]
        linear_combination -hyy + (S * ev c.F x3 + ev c.F x3) * h2 + 0 * h2
      rcases mod_cases c _ _ hY with ⟨y3, f1, f2, f3⟩ | ⟨f1, f2⟩
      · rw [f1]
        refine .inl ⟨x3, y3, rfl, .inr ⟨e3, f3, ?_⟩⟩
        rw [hsum, e2, f2]
        exact ⟨_, rfl⟩
      · rw [f1]
        refine .inr ⟨rfl, ?_⟩
        rw [hsum]
        rintro ⟨X, Y, h, e, _, g⟩
        injection e with _ e
        exact g (e ▸ f2)
    · rw [e1]
      refine .inr ⟨rfl, ?_⟩
      rw [hsum]
      rintro ⟨X, Y, h, e, g, _⟩
      injection e with e _
      exact g (e ▸ e2)

theorem is_some_ne {x y : Nat} {P : Spec.Pt c} (hB : ev c.F c.B ≠ 0) (h : Spec.Is c x y P) : (x = 0 ∧ y = 0) ↔ P = 0 := by
  rcases h with ⟨h1, h2, h3⟩ | ⟨_, _, hn, rfl⟩
  · exact ⟨fun _ => h3, fun _ => ⟨h1, h2⟩⟩
  · refine ⟨?_, fun e => by cases e⟩
    rintro ⟨rfl, rfl⟩
    exact absurd (by simpa only [ev_zero] using hn.1) (zero_not_on c hB)

theorem is_unique {x y x' y' : Nat} {P : Spec.Pt c} (hB : ev c.F c.B ≠ 0) (h : Spec.Is c x y P) (h' : Spec.Is c x' y' P) : x = x' ∧ y = y' := by
  rcases h with ⟨h1, h2, h3⟩ | ⟨h1, h2, hn, rfl⟩
  · subst h1 h2 h3
    obtain ⟨rfl, rfl⟩ := (is_some_ne c hB h').mpr rfl
    exact ⟨rfl, rfl⟩
  · rcases h' with ⟨_, _, h3⟩ | ⟨h1', h2', hn', e⟩
    · cases h3
    · injection e with e1 e2
      exact ⟨ev_inj h1 h1' e1, ev_inj h2 h2' e2⟩

theorem addDiff_spec {px py qx qy : Nat} {P Q : Spec.Pt c} (hP : Spec.Is c px py P) (hQ : Spec.Is c qx qy Q) (hP0 : P ≠ 0) (hQ0 : Q ≠ 0) (hne : P ≠ Q) :
    Spec.Right c (P + Q) (addDiff c px py qx qy) := by
  rcases hP with ⟨_, _, rfl⟩ | ⟨hx1, hy1, hn1, rfl⟩
  · exact absurd rfl hP0
  rcases hQ with ⟨_, _, rfl⟩ | ⟨hx2, hy2, hn2, rfl⟩
  · exact absurd rfl hQ0
  have h2 := two_eq_zero c
  by_cases hz : ev c.F px = ev c.F qx
  · right
    have hpq : px = qx := ev_inj hx1 hx2 hz
    constructor
    · rw [addDiff, hpq, Nat.xor_self, divMod_zero (F_ne_zero c)]; rfl
    · rcases Affine.Point.X_eq_iff (h₁ := hn1) (h₂ := hn2) |>.mp hz with h | h
      · exact absurd h hne
      · rw [h, neg_add_cancel]; exact not_generic_zero c
  · have hno : ¬ (ev c.F px = ev c.F qx ∧ ev c.F py = (Spec.W c).negY (ev c.F qx) (ev c.F qy)) := fun h => hz h.1
    have hd : ev c.F (px ^^^ qx) ≠ 0 := by
      rw [ev_xor]
      intro e
      exact hz (by linear_combination e - ev c.F qx * h2)
    obtain ⟨s, hs1, hs2⟩ := divMod_spec hI.out (py ^^^ qy) hd
    rw [ev_xor, ev_xor] at hs2
    have hsl : (Spec.W c).slope (ev c.F px) (ev c.F qx) (ev c.F py) (ev c.F qy) = ev c.F s := by
      rw [Affine.slope_of_X_ne hz, div_eq_iff (sub_ne_zero.mpr hz)]
      linear_combination -hs2 + (ev c.F s * ev c.F qx - ev c.F qy) * h2
    have hX : ev c.F ((((mul s s ^^^ s) ^^^ px) ^^^ qx) ^^^ c.A) = (Spec.W c).addX (ev c.F px) (ev c.F qx) ((Spec.W c).slope (ev c.F px) (ev c.F qx) (ev c.F py) (ev c.F qy)) := by
      rw [hsl, ev_xor, ev_xor, ev_xor, ev_xor, ev_mul]
      simp only [Affine.addX, Spec.W]
      linear_combination (ev c.F c.A + ev c.F px + ev c.F qx) * h2
    have hsum := Affine.Point.add_some hno (h₁ := hn1) (h₂ := hn2)
    rw [addDiff, hs1]
    simp only [Res.bind_ok]
    rcases mod_cases c _ _ hX with ⟨x3, e1, e2, e3⟩ | ⟨e1, e2⟩
    · rw [e1]
      simp only [Res.bind_ok]
      have hY : ev c.F ((mul s (px ^^^ x3) ^^^ x3) ^^^ py) = (Spec.W c).addY (ev c.F px) (ev c.F qx) (ev c.F py) ((Spec.W c).slope (ev c.F px) (ev c.F qx) (ev c.F py) (ev c.F qy)) := by
        rw [ev_xor, ev_xor, ev_mul, ev_xor]
        simp only [Affine.addY, Affine.negAddY, Affine.negY, ← e2]
        rw [hsl]
        simp only [Spec.W]
        linear_combination (ev c.F s * ev c.F x3 + ev c.F x3 + ev c.F py) * h2
      rcases mod_cases c _ _ hY with ⟨y3, f1, f2, f3⟩ | ⟨f1, f2⟩
      · rw [f1]
        refine .inl ⟨x3, y3, rfl, .inr ⟨e3, f3, ?_⟩⟩
        rw [hsum, e2, f2]
        exact ⟨_, rfl⟩
      · rw [f1]
        refine .inr ⟨rfl, ?_⟩
        rw [hsum]
        rintro ⟨X, Y, h, e, _, g⟩
        injection e with _ e
        exact g (e ▸ f2)
    · rw [e1]
      refine .inr ⟨rfl, ?_⟩
      rw [hsum]
      rintro ⟨X, Y, h, e, g, _⟩
      injection e with e _
      exact g (e ▸ e2)

/-- C113. `Add` on the representations of any two points of the curve: the representation of their sum, and nothing else; it panics only if
the sum is the point at infinity or has a coordinate zero. -/
theorem C113_add_partial (hB : ev c.F c.B ≠ 0) {px py qx qy : Nat} {P Q : Spec.Pt c} (hP : Spec.Is c px py P) (hQ : Spec.Is c qx qy Q) :
    Spec.Right c (P + Q) (add c px py qx qy) := by
  rw [add]
  by_cases h1 : px = 0 ∧ py = 0
  · rw [if_pos h1, (is_some_ne c hB hP).mp h1, zero_add]
    exact .inl ⟨_, _, rfl, hQ⟩
  rw [if_neg h1]
  have hP0 : P ≠ 0 := fun e => h1 ((is_some_ne c hB hP).mpr e)
  by_cases h2 : qx = 0 ∧ qy = 0
  · rw [if_pos h2, (is_some_ne c hB hQ).mp h2, add_zero]
    exact .inl ⟨_, _, rfl, hP⟩
  rw [if_neg h2]
  have hQ0 : Q ≠ 0 := fun e => h2 ((is_some_ne c hB hQ).mpr e)
  by_cases h3 : px = qx ∧ py = qy
  · rw [if_pos h3]
    obtain ⟨rfl, rfl⟩ := h3
    have : P = Q := by
      rcases hP with ⟨_, _, rfl⟩ | ⟨_, _, _, rfl⟩
      · exact absurd rfl hP0
      rcases hQ with ⟨_, _, rfl⟩ | ⟨_, _, _, rfl⟩
      · exact absurd rfl hQ0
      rfl
    subst this
    exact double_spec c hP hP0
  · rw [if_neg h3]
    refine addDiff_spec c hP hQ hP0 hQ0 fun e => h3 ?_
    subst e
    exact is_unique c hB hP hQ

/-- C113. `Double` likewise, for points that are not at infinity. -/
theorem C113_double_partial {x y : Nat} {P : Spec.Pt c} (hP : Spec.Is c x y P) (h0 : P ≠ 0) : Spec.Right c (P + P) (double c x y) :=
  double_spec c hP h0

/-- C113, violation: the sum of a point and its opposite is a panic, not the representation `(0, 0)` of the point at infinity. -/
theorem C113_add_opposite_violated (hB : ev c.F c.B ≠ 0) {px py qx qy : Nat} {P : Spec.Pt c} (h0 : P ≠ 0) (hP : Spec.Is c px py P) (hQ : Spec.Is c qx qy (-P)) :
    add c px py qx qy = .panic := by
  rcases C113_add_partial c hB hP hQ with ⟨x, y, h1, h2⟩ | ⟨h1, _⟩
  · rw [add_neg_cancel] at h2
    obtain ⟨rfl, rfl⟩ := (is_some_ne c hB h2).mpr rfl
    exfalso
    rw [add, if_neg (fun e => h0 ((is_some_ne c hB hP).mp e)), if_neg (fun e => h0 (neg_eq_zero.mp ((is_some_ne c hB hQ).mp e)))] at h1
    rcases hP with ⟨_, _, rfl⟩ | ⟨hx1, hy1, hn1, rfl⟩
    · exact absurd rfl h0
    rcases hQ with ⟨_, _, hq⟩ | ⟨hx2, hy2, hn2, hq⟩
    · exact absurd (neg_eq_zero.mp hq) h0
    rw [Affine.Point.neg_some] at hq
    injection hq with q1 q2
    obtain rfl := ev_inj hx1 hx2 q1
    by_cases h3 : px = px ∧ py = qy
    · obtain ⟨_, rfl⟩ := h3
      rw [if_pos ⟨rfl, rfl⟩] at h1
      simp only [Affine.negY, Spec.W] at q2
      have hz : ev c.F px = 0 := by linear_combination -q2 - ev c.F py * two_eq_zero c
      obtain rfl := ev_eq_zero c hx1 hz
      rw [double, divMod_zero (F_ne_zero c)] at h1
      cases h1
    · rw [if_neg h3, addDiff, Nat.xor_self, divMod_zero (F_ne_zero c)] at h1
      cases h1
  · exact h1

/-! ### Multiplication -/

theorem multLoop_sound (hB : ev c.F c.B ≠ 0) : ∀ n num (acc d : Nat × Nat) (A D : Spec.Pt c), num < 2 ^ n → Spec.Is c acc.1 acc.2 A → Spec.Is c d.1 d.2 D → D ≠ 0 →
    (∃ x y, multLoop c n num acc d = .ok (x, y) ∧ Spec.Is c x y (A + num • D)) ∨
    (multLoop c n num acc d = .panic ∧ ∃ i < n, 2 ^ i ≤ num ∧ (¬ Spec.Generic c (2 ^ (i + 1) • D) ∨ (A + (num % 2 ^ i) • D ≠ 0 ∧ ¬ Spec.Generic c (A + (num % 2 ^ (i + 1)) • D)))) := by
  intro n
  induction n with
  | zero =>
    intro num acc d A D h hA hD h0
    obtain rfl : num = 0 := by simpa using h
    exact .inl ⟨acc.1, acc.2, rfl, by simpa using hA⟩
  | succ n ih =>
    intro num acc d A D h hA hD h0
    rw [multLoop]
    by_cases hz : num = 0
    · rw [if_pos hz]
      subst hz
      exact .inl ⟨acc.1, acc.2, rfl, by simpa using hA⟩
    rw [if_neg hz]
    have step (acc' : Nat × Nat) (A' : Spec.Pt c) (hA' : Spec.Is c acc'.1 acc'.2 A') (hAA : A' = A + (num % 2) • D) :
        (∃ x y, (do let d ← double c d.1 d.2; multLoop c n (num / 2) acc' d) = .ok (x, y) ∧ Spec.Is c x y (A + num • D)) ∨
        ((do let d ← double c d.1 d.2; multLoop c n (num / 2) acc' d) = .panic ∧ ∃ i < n + 1, 2 ^ i ≤ num ∧ (¬ Spec.Generic c (2 ^ (i + 1) • D) ∨ (A + (num % 2 ^ i) • D ≠ 0 ∧ ¬ Spec.Generic c (A + (num % 2 ^ (i + 1)) • D)))) := by
      rcases double_spec c hD h0 with ⟨x, y, e1, e2⟩ | ⟨e1, e2⟩
      · rw [e1]
        simp only [Res.bind_ok]
        rw [← two_nsmul] at e2
        by_cases hD2 : 2 • D = 0
        · -- cannot be: doubling would have panicked
          exfalso
          rw [hD2] at e2
          obtain ⟨rfl, rfl⟩ := (is_some_ne c hB e2).mpr rfl
          rcases hD with ⟨_, _, rfl⟩ | ⟨hx1, hy1, hn1, rfl⟩
          · exact absurd rfl h0
          have hneg : Affine.Point.some _ _ hn1 = -Affine.Point.some _ _ hn1 := by rw [two_nsmul] at hD2; exact eq_neg_of_add_eq_zero_left hD2
          rw [Affine.Point.neg_some] at hneg
          injection hneg with _ q2
          simp only [Affine.negY, Spec.W] at q2
          have hz : ev c.F d.1 = 0 := by linear_combination -q2 + ev c.F d.2 * two_eq_zero c + ev c.F d.1 * two_eq_zero c
          rw [ev_eq_zero c hx1 hz, double, divMod_zero (F_ne_zero c)] at e1
          cases e1
        have hnum : A + num • D = A' + (num / 2) • 2 • D := by
          rw [hAA, add_assoc, ← mul_smul, ← add_smul]; congr 2; omega
        rcases ih (num / 2) acc' (x, y) A' (2 • D) (by rw [Nat.pow_succ] at h; omega) hA' e2 hD2 with ⟨x', y', f1, f2⟩ | ⟨f1, i, hi, hi2, f2⟩
        · exact .inl ⟨x', y', f1, hnum ▸ f2⟩
        · refine .inr ⟨f1, i + 1, by omega, by rw [Nat.pow_succ]; omega, ?_⟩
          have key (j : Nat) : A' + ((num / 2) % 2 ^ j) • 2 • D = A + (num % 2 ^ (j + 1)) • D := by
            rw [hAA, add_assoc, ← mul_smul, ← add_smul]; congr 2
            rw [Nat.pow_succ', Nat.mod_mul]; ring
          rw [key, key] at f2
          rcases f2 with f2 | f2
          · left
            rwa [← mul_smul, ← Nat.pow_succ] at f2
          · exact .inr f2
      · rw [e1]
        refine .inr ⟨rfl, 0, by omega, by rw [pow_zero]; exact Nat.pos_of_ne_zero hz, .inl ?_⟩
        rw [zero_add, pow_one, two_nsmul]; exact e2
    by_cases hodd : num % 2 ≠ 0
    · rw [if_pos hodd]
      have h1 : num % 2 = 1 := by omega
      by_cases hA0 : A = 0
      · subst hA0
        obtain ⟨g1, g2⟩ := (is_some_ne c hB hA).mpr rfl
        have : add c acc.1 acc.2 d.1 d.2 = .ok d := by rw [add, if_pos ⟨g1, g2⟩]
        rw [this]
        simp only [Res.bind_ok]
        exact step d D hD (by rw [h1]; simp)
      · rcases C113_add_partial c hB hA hD with ⟨x, y, e1, e2⟩ | ⟨e1, e2⟩
        · rw [e1]
          simp only [Res.bind_ok]
          exact step (x, y) _ e2 (by rw [h1, one_smul])
        · rw [e1]
          refine .inr ⟨rfl, 0, by omega, by rw [pow_zero]; exact Nat.pos_of_ne_zero hz, .inr ⟨?_, ?_⟩⟩
          · rw [pow_zero, Nat.mod_one, zero_nsmul, add_zero]; exact hA0
          · rw [zero_add, pow_one, h1, one_smul]; exact e2
    · rw [if_neg hodd]
      exact step acc A hA (by rw [show num % 2 = 0 by omega, zero_nsmul, add_zero])

/-- C113. `ScalarMult` never gives a wrong point: for every point of the curve that is not at infinity and every scalar, the result represents the
multiple, or it is a panic. -/
theorem C113_scalarMult_sound (hB : ev c.F c.B ≠ 0) {x y : Nat} {S : Spec.Pt c} (hS : Spec.Is c x y S) (h0 : S ≠ 0) (k : Bytes) :
    (∃ x' y', scalarMult c x y k = .ok (x', y') ∧ Spec.Is c x' y' (setBytes k • S)) ∨ scalarMult c x y k = .panic := by
  rcases multLoop_sound c hB (bitLen (setBytes k)) (setBytes k) (0, 0) (x, y) 0 S (lt_bitLen _) (is_zero c) hS h0 with ⟨x', y', h1, h2⟩ | ⟨h1, _⟩
  · exact .inl ⟨x', y', h1, by rwa [zero_add] at h2⟩
  · exact .inr h1

theorem order_dvd {q : Nat} (hq : q.Prime) {S : Spec.Pt c} (hS : S ≠ 0) (h0 : q • S = 0) (k : Nat) : k • S = 0 ↔ q ∣ k := by
  refine ⟨fun h => ?_, fun ⟨m, hm⟩ => by rw [hm, mul_comm, mul_smul, h0, nsmul_zero]⟩
  by_contra hd
  have h1 := addOrderOf_dvd_of_nsmul_eq_zero h
  have h2 := addOrderOf_dvd_of_nsmul_eq_zero h0
  rcases (Nat.dvd_prime hq).mp h2 with h3 | h3
  · exact hS (AddMonoid.addOrderOf_eq_one_iff.mp h3)
  · exact hd (h3 ▸ h1)

/-- C113. For a point of odd prime order `q` with no multiple that has a coordinate zero, `ScalarMult` gives the multiple for every scalar below `q`. -/
theorem C113_scalarMult_partial (hB : ev c.F c.B ≠ 0) {q : Nat} (hq : q.Prime) (hq2 : q ≠ 2) {x y : Nat} {S : Spec.Pt c} (hS : Spec.Is c x y S) (h0 : S ≠ 0)
    (hgen : ∀ j, ¬ q ∣ j → Spec.Generic c (j • S)) (k : Bytes) (hk : setBytes k < q) :
    ∃ x' y', scalarMult c x y k = .ok (x', y') ∧ Spec.Is c x' y' (setBytes k • S) := by
  rcases multLoop_sound c hB (bitLen (setBytes k)) (setBytes k) (0, 0) (x, y) 0 S (lt_bitLen _) (is_zero c) hS h0 with ⟨x', y', h1, h2⟩ | ⟨_, i, _, hi, h | ⟨h1, h2⟩⟩
  · exact ⟨x', y', h1, by rwa [zero_add] at h2⟩
  · exfalso
    refine h (hgen _ fun hd => hq2 ?_)
    exact (Nat.prime_dvd_prime_iff_eq hq Nat.prime_two).mp (hq.dvd_of_dvd_pow hd)
  · exfalso
    rw [zero_add] at h1 h2
    refine h2 (hgen _ fun hd => h1 ?_)
    have hle : setBytes k % 2 ^ (i + 1) ≤ setBytes k := Nat.mod_le _ _
    have hz : setBytes k % 2 ^ (i + 1) = 0 := Nat.eq_zero_of_dvd_of_lt hd (by omega)
    have : setBytes k % 2 ^ i = 0 := by
      have := Nat.mod_mod_of_dvd (setBytes k) (show 2 ^ i ∣ 2 ^ (i + 1) from ⟨2, by rw [Nat.pow_succ]⟩)
      rw [hz, Nat.zero_mod] at this
      exact this.symm
    rw [this, zero_nsmul]

/-- C113, violation: multiplication of a point with its order panics; the result should be `(0, 0)`. -/
theorem C113_order_violated (hB : ev c.F c.B ≠ 0) {q : Nat} (hq : q.Prime) (hq2 : q ≠ 2) {x y : Nat} {S : Spec.Pt c} (hS : Spec.Is c x y S) (h0 : S ≠ 0) (hqS : q • S = 0) (k : Bytes)
    (hk : setBytes k = q) : scalarMult c x y k = .panic := by
  have gen : ∀ n num (acc d : Nat × Nat) (A D : Spec.Pt c), num < 2 ^ n → 0 < num → Spec.Is c acc.1 acc.2 A → Spec.Is c d.1 d.2 D → D ≠ 0 → A + num • D = 0 →
      (∀ i, 2 ^ i ≤ num → 2 ^ i • D ≠ 0) → multLoop c n num acc d = .panic := by
    intro n
    induction n with
    | zero => intro num acc d A D h h1; simp at h; omega
    | succ n ih =>
      intro num acc d A D h hpos hA hD hD0 hsum hpow
      rw [multLoop, if_neg (by omega)]
      by_cases hlast : num = 1
      · subst hlast
        rw [if_pos (by decide)]
        have hA' : -D = A := by rw [one_smul] at hsum; exact (eq_neg_of_add_eq_zero_left hsum).symm
        have : add c acc.1 acc.2 d.1 d.2 = .panic := by
          refine C113_add_opposite_violated c hB (P := A) (fun e => hD0 ?_) hA ?_
          · rw [e] at hA'; exact neg_eq_zero.mp hA'
          · rw [← hA', neg_neg]; exact hD
        rw [this]; rfl
      · have step (acc' : Nat × Nat) (A' : Spec.Pt c) (hA' : Spec.Is c acc'.1 acc'.2 A') (hAA : A' = A + (num % 2) • D) :
            (do let d ← double c d.1 d.2; multLoop c n (num / 2) acc' d) = .panic := by
          rcases double_spec c hD hD0 with ⟨x, y, e1, e2⟩ | ⟨e1, _⟩
          · rw [e1]
            simp only [Res.bind_ok]
            rw [← two_nsmul] at e2
            refine ih (num / 2) acc' (x, y) A' (2 • D) (by rw [Nat.pow_succ] at h; omega) (by omega) hA' e2 ?_ ?_ ?_
            · have := hpow 1 (by omega); rwa [pow_one] at this
            · rw [← hsum, hAA, add_assoc, ← mul_smul, ← add_smul]; congr 2; omega
            · intro i hi
              rw [← mul_smul, ← Nat.pow_succ]
              exact hpow (i + 1) (by rw [Nat.pow_succ]; omega)
          · rw [e1]; rfl
        by_cases hodd : num % 2 ≠ 0
        · rw [if_pos hodd]
          rcases C113_add_partial c hB hA hD with ⟨x, y, e1, e2⟩ | ⟨e1, _⟩
          · rw [e1]
            simp only [Res.bind_ok]
            exact step (x, y) _ e2 (by rw [show num % 2 = 1 by omega, one_smul])
          · rw [e1]; rfl
        · rw [if_neg hodd]
          exact step acc A hA (by rw [show num % 2 = 0 by omega, zero_nsmul, add_zero])
  rw [scalarMult]
  refine gen _ _ _ _ 0 S (lt_bitLen _) (hk ▸ hq.pos) (is_zero c) hS h0 (by rw [hk, hqS, add_zero]) fun i hi h => ?_
  have := (order_dvd c hq h0 hqS _).mp h
  exact hq2 ((Nat.prime_dvd_prime_iff_eq hq Nat.prime_two).mp (hq.dvd_of_dvd_pow this))

/-! ### Points of the curve -/

/-- C113. When `IsOnCurve` gives an answer it is right, for all numbers, reduced or not. -/
theorem C113_isOnCurve_partial (x y : Nat) :
    (∃ b, isOnCurve c x y = .ok b ∧ (b = true ↔ (Spec.W c).Equation (ev c.F x) (ev c.F y))) ∨
    (isOnCurve c x y = .panic ∧ (ev c.F y * (ev c.F y + ev c.F x) = 0 ∨ ev c.F x ^ 3 + ev c.F c.A * ev c.F x ^ 2 + ev c.F c.B = 0)) := by
  have hL : ev c.F (mul y y ^^^ mul x y) = ev c.F y ^ 2 + ev c.F x * ev c.F y := by rw [ev_xor, ev_mul, ev_mul]; ring
  have hR : ev c.F ((mul x (mul x x) ^^^ mul c.A (mul x x)) ^^^ c.B) = ev c.F x ^ 3 + ev c.F c.A * ev c.F x ^ 2 + ev c.F c.B := by
    simp only [ev_xor, ev_mul]; ring
  rw [isOnCurve]
  rcases mod_cases c _ _ hL with ⟨l, e1, e2, e3⟩ | ⟨e1, e2⟩
  · rcases mod_cases c _ _ hR with ⟨r, f1, f2, f3⟩ | ⟨f1, f2⟩
    · left
      rw [e1]
      simp only [Res.bind_ok]
      rw [f1]
      refine ⟨_, rfl, ?_⟩
      rw [decide_eq_true_iff, equation_iff, ← e2, ← f2]
      exact ⟨fun h => by rw [h], fun h => ev_inj e3 f3 h⟩
    · right
      rw [e1]
      simp only [Res.bind_ok]
      rw [f1]
      exact ⟨rfl, .inr f2⟩
  · right
    rw [e1]
    exact ⟨rfl, .inl (by rw [← e2]; ring)⟩

omit hI in
theorem mul_zero' (x : Nat) : mul x 0 = 0 := by
  apply poly_injective; rw [mul_poly, poly_zero, mul_zero]

omit hI in
/-- C113, violation: `IsOnCurve` panics for every `x` when `y` is zero or is `x`, whether the point is on the curve (as `(1, 0)` is on
`y² + xy = x³ + 1`) or not. -/
theorem C113_isOnCurve_violated (x : Nat) : isOnCurve c x 0 = .panic ∧ isOnCurve c x x = .panic := by
  constructor
  · rw [isOnCurve, mul_zero', mul_zero', Nat.xor_self, mod_zero]; rfl
  · rw [isOnCurve, Nat.xor_self, mod_zero]; rfl

/-- C113, violation: coordinates that are not reduced are accepted: with `(x, y)` also `(x + F, y)` is "on the curve", so that a point has many
representations (which `Add` then does not recognise as equal). -/
theorem C113_unreduced_violated {x y : Nat} (h : isOnCurve c x y = .ok true) (h2 : isOnCurve c (x ^^^ c.F) y ≠ .panic) : isOnCurve c (x ^^^ c.F) y = .ok true := by
  have hx : ev c.F (x ^^^ c.F) = ev c.F x := by rw [ev_xor, ev_self, add_zero]
  rcases C113_isOnCurve_partial c x y with ⟨b, e1, e2⟩ | ⟨e1, _⟩
  · rcases C113_isOnCurve_partial c (x ^^^ c.F) y with ⟨b', f1, f2⟩ | ⟨f1, _⟩
    · rw [hx] at f2
      rw [e1] at h
      rw [f1, f2.mpr (e2.mp (Res.ok.inj h))]
    · exact absurd f1 h2
  · rw [e1] at h; cases h

end

/-! ### A case: a curve with ten points over the field of eight elements; the base point has order five -/

/-- `x³ + x + 1`, `y² + xy = x³ + x² + x`; the point `(1, x²)`. -/
def toyB : BCurve := ⟨11, 1, 2, 1, 4, 5⟩

theorem toyB_irreducible : Irreducible (poly 11) := by
  have hp : poly 11 = X ^ 3 + X + 1 := by
    ext i
    rw [coeff_poly]
    simp only [coeff_add, coeff_X_pow, coeff_X, coeff_one]
    match i with
    | 0 => decide
    | 1 => decide
    | 2 => decide
    | 3 => decide
    | i + 4 =>
      have : Nat.testBit 11 (i + 4) = false := Nat.testBit_lt_two_pow (lt_of_lt_of_le (by decide : 11 < 2 ^ 4) (Nat.pow_le_pow_right (by decide) (by omega)))
      simp [this]
  have hd : (poly 11).natDegree = 3 := by rw [natDegree_poly (by decide)]; decide
  rw [Polynomial.irreducible_iff_roots_eq_zero_of_degree_le_three (by omega) (by omega)]
  rw [Multiset.eq_zero_iff_forall_notMem]
  intro a ha
  have := (mem_roots'.mp ha).2
  rw [IsRoot, hp] at this
  simp only [eval_add, eval_pow, eval_X, eval_one] at this
  have key : ∀ a : ZMod 2, a ^ 3 + a + 1 ≠ 0 := by decide
  exact key a this

instance : Fact (Irreducible (poly toyB.F)) := ⟨toyB_irreducible⟩

theorem toyB_B : ev toyB.F toyB.B ≠ 0 := fun h => absurd (ev_inj (F := 11) (a := 2) (b := 0) (by decide) (by decide) (h.trans (ev_zero _).symm)) (by decide)

theorem toyB_is {x y : Nat} (h : isOnCurve toyB x y = .ok true) (h1 : bitLen x < bitLen toyB.F) (h2 : bitLen y < bitLen toyB.F) :
    ∃ P : Spec.Pt toyB, Spec.Is toyB x y P ∧ P ≠ 0 := by
  rcases C113_isOnCurve_partial toyB x y with ⟨b, e1, e2⟩ | ⟨e1, _⟩
  · rw [h] at e1
    refine ⟨_, .inr ⟨h1, h2, nonsingular toyB toyB_B (e2.mp (Res.ok.inj e1).symm), rfl⟩, fun e => by cases e⟩
  · rw [h] at e1; cases e1

theorem right_ok {c : BCurve} [Fact (Irreducible (poly c.F))] {P : Spec.Pt c} {R : Res (Nat × Nat)} {x y : Nat} (h : Spec.Right c P R) (hR : R = .ok (x, y)) : Spec.Is c x y P := by
  rcases h with ⟨x', y', h1, h2⟩ | ⟨h1, _⟩
  · rw [hR] at h1
    cases Res.ok.inj h1
    exact h2
  · rw [hR] at h1; cases h1

/-- The base point of the toy curve and all that the theorems ask of it. -/
theorem toyB_base : ∃ S : Spec.Pt toyB, Spec.Is toyB 1 4 S ∧ S ≠ 0 ∧ 5 • S = 0 ∧ (∀ j, ¬ 5 ∣ j → Spec.Generic toyB (j • S)) ∧ Spec.Is toyB 1 5 (-S) := by
  obtain ⟨S, h1, h0⟩ := toyB_is (x := 1) (y := 4) (by decide +kernel) (by decide) (by decide)
  have h2 : Spec.Is toyB 3 6 (S + S) := right_ok (double_spec toyB h1 h0) (by decide +kernel)
  have h3 : Spec.Is toyB 3 5 (S + S + S) := right_ok (C113_add_partial toyB toyB_B h2 h1) (by decide +kernel)
  have h4 : Spec.Is toyB 1 5 (S + S + S + S) := right_ok (C113_add_partial toyB toyB_B h3 h1) (by decide +kernel)
  have hneg : Spec.Is toyB 1 5 (-S) := by
    rcases h1 with ⟨h, _⟩ | ⟨_, _, hn, rfl⟩
    · cases h
    rw [Affine.Point.neg_some]
    have e : (Spec.W toyB).negY (ev toyB.F 1) (ev toyB.F 4) = ev toyB.F 5 := by
      rw [show (5 : Nat) = 1 ^^^ 4 by decide, ev_xor]
      simp only [Affine.negY, Spec.W]
      linear_combination (-(ev toyB.F 1) - ev toyB.F 4) * two_eq_zero toyB
    refine .inr ⟨by decide, by decide, ?_⟩
    rw [← e]
    exact ⟨_, rfl⟩
  have hS5 : 5 • S = 0 := by
    have h5 : S + S + S + S = -S := by
      rcases h4 with ⟨h, _⟩ | ⟨_, _, hn, e⟩
      · cases h
      rcases hneg with ⟨h, _⟩ | ⟨_, _, hn', e'⟩
      · cases h
      rw [e, e']
    have : 5 • S = S + S + S + S + S := by simp only [succ_nsmul, zero_nsmul, zero_add]
    rw [this, h5, neg_add_cancel]
  have gen {x y : Nat} {P : Spec.Pt toyB} (h : Spec.Is toyB x y P) (hx : x ≠ 0) (hy : y ≠ 0) : Spec.Generic toyB P := by
    rcases h with ⟨e, _⟩ | ⟨b1, b2, hn, rfl⟩
    · exact absurd e hx
    exact ⟨_, _, hn, rfl, fun e => hx (ev_eq_zero toyB b1 e), fun e => hy (ev_eq_zero toyB b2 e)⟩
  refine ⟨S, h1, h0, hS5, fun j hj => ?_, hneg⟩
  have hj' : j • S = (j % 5) • S := by
    conv_lhs => rw [← Nat.div_add_mod j 5, add_smul, mul_comm, mul_smul, hS5, nsmul_zero, zero_add]
  rw [hj']
  have : j % 5 = 1 ∨ j % 5 = 2 ∨ j % 5 = 3 ∨ j % 5 = 4 := by omega
  rcases this with e | e | e | e <;> rw [e]
  · rw [one_nsmul]; exact gen h1 (by decide) (by decide)
  · rw [two_nsmul]; exact gen h2 (by decide) (by decide)
  · have : 3 • S = S + S + S := by simp only [succ_nsmul, zero_nsmul, zero_add]
    rw [this]; exact gen h3 (by decide) (by decide)
  · have : 4 • S = S + S + S + S := by simp only [succ_nsmul, zero_nsmul, zero_add]
    rw [this]; exact gen h4 (by decide) (by decide)

/-- The hypotheses of all the theorems above hold of the toy curve; some values. -/
example : ∃ S : Spec.Pt toyB, S ≠ 0 ∧
    (∃ x' y', scalarMult toyB 1 4 [3#8] = .ok (x', y') ∧ Spec.Is toyB x' y' (setBytes [3#8] • S)) ∧
    scalarMult toyB 1 4 [5#8] = .panic ∧ add toyB 1 4 1 5 = .panic := by
  obtain ⟨S, h1, h0, h5, hg, hn⟩ := toyB_base
  exact ⟨S, h0, C113_scalarMult_partial toyB toyB_B (by decide) (by decide) h1 h0 hg _ (by decide),
    C113_order_violated toyB toyB_B (by decide) (by decide) h1 h0 h5 _ (by decide), C113_add_opposite_violated toyB toyB_B h0 h1 hn⟩
example : scalarMult toyB 1 4 [3#8] = .ok (3, 5) ∧ scalarMult toyB 1 4 [2#8] = .ok (3, 6) := by decide +kernel
example : isOnCurve toyB 1 4 = .ok true ∧ isOnCurve toyB 1 3 = .ok false ∧ isOnCurve toyB (1 ^^^ 11) 4 = .ok true := by decide +kernel

end Verif.Ell
