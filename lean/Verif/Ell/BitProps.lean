import Verif.Ell.Bit
import Verif.Pub.GostCurveProps
/-
C114: the arithmetic of elliptic/bitcurves is that of the elliptic curve `y² = x³ + B` over the integers modulo `P`, as Mathlib defines its group
of points (`WeierstrassCurve.Affine.Point`); and where it panics.  The model is in Bit.lean.
-/
namespace Verif.Ell.Bit
open Verif.Pub WeierstrassCurve
open Verif.Pub.Gost (cast_emod mod_range smul_eq_zero_iff cast_inj)

namespace Spec

/-- The curve `y² = x³ + B` over the integers modulo `P`. -/
def W (c : KCurve) : Affine (ZMod c.P) := ⟨0, 0, 0, 0, c.B⟩

/-- Its group of points, with the point at infinity. -/
abbrev Pt (c : KCurve) := (W c).Point

/-- The numbers are coordinates of the point, modulo `P`. -/
def On (c : KCurve) (x y : Int) (A : Pt c) : Prop := ∃ h : (W c).Nonsingular (x : ZMod c.P) (y : ZMod c.P), A = .some _ _ h

/-- The numbers are the reduced coordinates of the point. -/
def Is (c : KCurve) (x y : Int) (A : Pt c) : Prop := 0 ≤ x ∧ x < c.P ∧ 0 ≤ y ∧ y < c.P ∧ On c x y A

end Spec

section
variable (c : KCurve) [hp : Fact c.P.Prime]

instance : NeZero c.P := ⟨hp.out.ne_zero⟩

/-- The triple is in Jacobian coordinates the point. -/
def Rep (p : Int × Int × Int) (A : Spec.Pt c) : Prop :=
  (p.2.2 : ZMod c.P) ≠ 0 ∧ ∃ h : (Spec.W c).Nonsingular ((p.1 : ZMod c.P) / (p.2.2 : ZMod c.P) ^ 2) ((p.2.1 : ZMod c.P) / (p.2.2 : ZMod c.P) ^ 3), A = .some _ _ h

theorem fix_cast (v : Int) : (fix c v : ZMod c.P) = v := by
  rw [fix]; split <;> simp

theorem emod_zero_iff (v : Int) : v % c.P = 0 ↔ (v : ZMod c.P) = 0 := by
  rw [ZMod.intCast_zmod_eq_zero_iff_dvd]
  exact ⟨Int.dvd_of_emod_eq_zero, Int.emod_eq_zero_of_dvd⟩

theorem addJ_x (p q : Int × Int × Int) : ((addJ c p q).1 : ZMod c.P) =
    (2 * (q.2.1 * p.2.2 ^ 3 - p.2.1 * q.2.2 ^ 3)) ^ 2 - 4 * (q.1 * p.2.2 ^ 2 - p.1 * q.2.2 ^ 2) ^ 3 - 8 * p.1 * q.2.2 ^ 2 * (q.1 * p.2.2 ^ 2 - p.1 * q.2.2 ^ 2) ^ 2 := by
  simp only [addJ, fix_cast, ZMod.intCast_mod, Int.cast_mul, Int.cast_sub, Int.cast_add, Int.cast_ofNat]
  ring

theorem addJ_y (p q : Int × Int × Int) : ((addJ c p q).2.1 : ZMod c.P) =
    2 * (q.2.1 * p.2.2 ^ 3 - p.2.1 * q.2.2 ^ 3) * (4 * p.1 * q.2.2 ^ 2 * (q.1 * p.2.2 ^ 2 - p.1 * q.2.2 ^ 2) ^ 2 - ((addJ c p q).1 : ZMod c.P))
      - 8 * p.2.1 * q.2.2 ^ 3 * (q.1 * p.2.2 ^ 2 - p.1 * q.2.2 ^ 2) ^ 3 := by
  rw [addJ_x]
  simp only [addJ, fix_cast, ZMod.intCast_mod, Int.cast_mul, Int.cast_sub, Int.cast_add, Int.cast_ofNat]
  ring

theorem addJ_z (p q : Int × Int × Int) : ((addJ c p q).2.2 : ZMod c.P) = 2 * p.2.2 * q.2.2 * (q.1 * p.2.2 ^ 2 - p.1 * q.2.2 ^ 2) := by
  simp only [addJ, fix_cast, ZMod.intCast_mod, Int.cast_mul, Int.cast_sub, Int.cast_add, Int.cast_ofNat]
  ring

theorem addJ_z_zero (p q : Int × Int × Int) : (addJ c p q).2.2 = 0 ↔ ((addJ c p q).2.2 : ZMod c.P) = 0 := by
  rw [← emod_zero_iff]
  simp only [addJ, Int.emod_emod]

theorem doubleJ_x (p : Int × Int × Int) : ((doubleJ c p).1 : ZMod c.P) = 9 * p.1 ^ 4 - 8 * p.1 * p.2.1 ^ 2 := by
  simp only [doubleJ, fix_cast, ZMod.intCast_mod, Int.cast_mul, Int.cast_sub, Int.cast_add, Int.cast_ofNat]
  ring

theorem doubleJ_y (p : Int × Int × Int) : ((doubleJ c p).2.1 : ZMod c.P) = 3 * p.1 ^ 2 * (4 * p.1 * p.2.1 ^ 2 - ((doubleJ c p).1 : ZMod c.P)) - 8 * p.2.1 ^ 4 := by
  rw [doubleJ_x]
  simp only [doubleJ, fix_cast, ZMod.intCast_mod, Int.cast_mul, Int.cast_sub, Int.cast_add, Int.cast_ofNat]
  ring

theorem doubleJ_z (p : Int × Int × Int) : ((doubleJ c p).2.2 : ZMod c.P) = 2 * p.2.1 * p.2.2 := by
  simp only [doubleJ, fix_cast, ZMod.intCast_mod, Int.cast_mul, Int.cast_sub, Int.cast_add, Int.cast_ofNat]
  ring

theorem doubleJ_z_zero (p : Int × Int × Int) : (doubleJ c p).2.2 = 0 ↔ ((doubleJ c p).2.2 : ZMod c.P) = 0 := by
  rw [← emod_zero_iff]
  simp only [doubleJ, Int.emod_emod]

theorem two_ne (h2 : c.P ≠ 2) : (2 : ZMod c.P) ≠ 0 := by
  intro h
  have : ((2 : Nat) : ZMod c.P) = 0 := by exact_mod_cast h
  rw [ZMod.natCast_eq_zero_iff] at this
  exact h2 ((Nat.prime_dvd_prime_iff_eq hp.out Nat.prime_two).mp this)

theorem rep_ne_zero {p : Int × Int × Int} {A : Spec.Pt c} (h : Rep c p A) : A ≠ 0 := by
  obtain ⟨_, _, rfl⟩ := h; exact Affine.Point.some_ne_zero _

omit hp in
theorem fieldX {K : Type*} [Field K] {x1 y1 z1 x2 y2 z2 H : K} (h1 : z1 ≠ 0) (h2 : z2 ≠ 0) (hH : H ≠ 0) (t : (2 : K) ≠ 0) (e : x2 * z1 ^ 2 - x1 * z2 ^ 2 = H) :
    ((2 * (y2 * z1 ^ 3 - y1 * z2 ^ 3)) ^ 2 - 4 * H ^ 3 - 8 * x1 * z2 ^ 2 * H ^ 2) / (2 * z1 * z2 * H) ^ 2
      = ((y2 * z1 ^ 3 - y1 * z2 ^ 3) / (z1 * z2 * H)) ^ 2 - x1 / z1 ^ 2 - x2 / z2 ^ 2 := by
  obtain rfl : x2 = (H + x1 * z2 ^ 2) / z1 ^ 2 := by rw [eq_div_iff (pow_ne_zero _ h1)]; linear_combination e
  clear e
  field_simp
  ring

omit hp in
theorem fieldY {K : Type*} [Field K] {x1 y1 z1 y2 z2 H X3 : K} (h1 : z1 ≠ 0) (h2 : z2 ≠ 0) (hH : H ≠ 0) (t : (2 : K) ≠ 0) :
    (2 * (y2 * z1 ^ 3 - y1 * z2 ^ 3) * (4 * x1 * z2 ^ 2 * H ^ 2 - X3) - 8 * y1 * z2 ^ 3 * H ^ 3) / (2 * z1 * z2 * H) ^ 3
      = -((y2 * z1 ^ 3 - y1 * z2 ^ 3) / (z1 * z2 * H) * (X3 / (2 * z1 * z2 * H) ^ 2 - x1 / z1 ^ 2) + y1 / z1 ^ 3) := by
  field_simp
  ring

omit hp in
theorem fieldDX {K : Type*} [Field K] {x y z : K} (hy : y ≠ 0) (hz : z ≠ 0) (t : (2 : K) ≠ 0) :
    (9 * x ^ 4 - 8 * x * y ^ 2) / (2 * y * z) ^ 2 = (3 * x ^ 2 / (2 * y * z)) ^ 2 - x / z ^ 2 - x / z ^ 2 := by
  field_simp
  ring

omit hp in
theorem fieldDY {K : Type*} [Field K] {x y z X3 : K} (hy : y ≠ 0) (hz : z ≠ 0) (t : (2 : K) ≠ 0) :
    (3 * x ^ 2 * (4 * x * y ^ 2 - X3) - 8 * y ^ 4) / (2 * y * z) ^ 3 = -(3 * x ^ 2 / (2 * y * z) * (X3 / (2 * y * z) ^ 2 - x / z ^ 2) + y / z ^ 3) := by
  field_simp
  ring

/-- Addition of two points that are neither equal nor opposite. -/
theorem addJ_rep (h2 : c.P ≠ 2) {p q : Int × Int × Int} {A D : Spec.Pt c} (hp' : Rep c p A) (hq : Rep c q D) (h1 : A ≠ D) (h3 : A + D ≠ 0) : Rep c (addJ c p q) (A + D) := by
  obtain ⟨z1, n1, rfl⟩ := hp'
  obtain ⟨z2, n2, rfl⟩ := hq
  have hX : (p.1 : ZMod c.P) / (p.2.2 : ZMod c.P) ^ 2 ≠ (q.1 : ZMod c.P) / (q.2.2 : ZMod c.P) ^ 2 := by
    intro e
    rcases Affine.Point.X_eq_iff (h₁ := n1) (h₂ := n2) |>.mp e with h | h
    · exact h1 h
    · exact h3 (by rw [h, neg_add_cancel])
  have hH : (q.1 : ZMod c.P) * p.2.2 ^ 2 - p.1 * q.2.2 ^ 2 ≠ 0 := by
    intro e
    apply hX
    rw [div_eq_div_iff (pow_ne_zero _ z1) (pow_ne_zero _ z2)]
    linear_combination -e
  have t := two_ne c h2
  have hZ : ((addJ c p q).2.2 : ZMod c.P) ≠ 0 := by
    rw [addJ_z]
    exact mul_ne_zero (mul_ne_zero (mul_ne_zero t z1) z2) hH
  have hno : ¬ ((p.1 : ZMod c.P) / (p.2.2 : ZMod c.P) ^ 2 = (q.1 : ZMod c.P) / (q.2.2 : ZMod c.P) ^ 2 ∧ (p.2.1 : ZMod c.P) / (p.2.2 : ZMod c.P) ^ 3 = (Spec.W c).negY ((q.1 : ZMod c.P) / (q.2.2 : ZMod c.P) ^ 2) ((q.2.1 : ZMod c.P) / (q.2.2 : ZMod c.P) ^ 3)) := fun h => hX h.1
  have hs : (Spec.W c).slope ((p.1 : ZMod c.P) / (p.2.2 : ZMod c.P) ^ 2) ((q.1 : ZMod c.P) / (q.2.2 : ZMod c.P) ^ 2) ((p.2.1 : ZMod c.P) / (p.2.2 : ZMod c.P) ^ 3) ((q.2.1 : ZMod c.P) / (q.2.2 : ZMod c.P) ^ 3)
      = (q.2.1 * p.2.2 ^ 3 - p.2.1 * q.2.2 ^ 3) / (p.2.2 * q.2.2 * ((q.1 : ZMod c.P) * p.2.2 ^ 2 - p.1 * q.2.2 ^ 2)) := by
    rw [Affine.slope_of_X_ne hX, div_eq_div_iff (sub_ne_zero.mpr hX) (mul_ne_zero (mul_ne_zero z1 z2) hH)]
    field_simp
    ring
  have hx : ((addJ c p q).1 : ZMod c.P) / ((addJ c p q).2.2 : ZMod c.P) ^ 2 = (Spec.W c).addX ((p.1 : ZMod c.P) / (p.2.2 : ZMod c.P) ^ 2) ((q.1 : ZMod c.P) / (q.2.2 : ZMod c.P) ^ 2)
      ((Spec.W c).slope ((p.1 : ZMod c.P) / (p.2.2 : ZMod c.P) ^ 2) ((q.1 : ZMod c.P) / (q.2.2 : ZMod c.P) ^ 2) ((p.2.1 : ZMod c.P) / (p.2.2 : ZMod c.P) ^ 3) ((q.2.1 : ZMod c.P) / (q.2.2 : ZMod c.P) ^ 3)) := by
    rw [hs, addJ_x, addJ_z, fieldX z1 z2 hH t rfl]
    simp only [Affine.addX, Spec.W]
    ring
  have hy : ((addJ c p q).2.1 : ZMod c.P) / ((addJ c p q).2.2 : ZMod c.P) ^ 3 = (Spec.W c).addY ((p.1 : ZMod c.P) / (p.2.2 : ZMod c.P) ^ 2) ((q.1 : ZMod c.P) / (q.2.2 : ZMod c.P) ^ 2) ((p.2.1 : ZMod c.P) / (p.2.2 : ZMod c.P) ^ 3)
      ((Spec.W c).slope ((p.1 : ZMod c.P) / (p.2.2 : ZMod c.P) ^ 2) ((q.1 : ZMod c.P) / (q.2.2 : ZMod c.P) ^ 2) ((p.2.1 : ZMod c.P) / (p.2.2 : ZMod c.P) ^ 3) ((q.2.1 : ZMod c.P) / (q.2.2 : ZMod c.P) ^ 3)) := by
    simp only [Affine.addY, Affine.negAddY, Affine.negY]
    rw [← hx, hs, addJ_y, addJ_z, fieldY z1 z2 hH t]
    simp only [Spec.W]
    ring
  refine ⟨hZ, ?_⟩
  rw [Affine.Point.add_some hno, hx, hy]
  exact ⟨_, rfl⟩

/-- Addition of equal or opposite points gives the third coordinate zero. -/
theorem addJ_degenerate {p q : Int × Int × Int} {A D : Spec.Pt c} (hp' : Rep c p A) (hq : Rep c q D) (h : A = D ∨ A = -D) : (addJ c p q).2.2 = 0 := by
  obtain ⟨z1, n1, rfl⟩ := hp'
  obtain ⟨z2, n2, rfl⟩ := hq
  rw [addJ_z_zero, addJ_z]
  have e := Affine.Point.X_eq_iff (h₁ := n1) (h₂ := n2) |>.mpr h
  rw [div_eq_div_iff (pow_ne_zero _ z1) (pow_ne_zero _ z2)] at e
  rw [mul_eq_zero]; right
  linear_combination -e

/-- Doubling. -/
theorem doubleJ_rep (h2 : c.P ≠ 2) {p : Int × Int × Int} {A : Spec.Pt c} (hp' : Rep c p A) (h3 : A + A ≠ 0) : Rep c (doubleJ c p) (A + A) := by
  obtain ⟨z1, n1, rfl⟩ := hp'
  have t := two_ne c h2
  have hno : ¬ ((p.1 : ZMod c.P) / (p.2.2 : ZMod c.P) ^ 2 = (p.1 : ZMod c.P) / (p.2.2 : ZMod c.P) ^ 2 ∧ (p.2.1 : ZMod c.P) / (p.2.2 : ZMod c.P) ^ 3 = (Spec.W c).negY ((p.1 : ZMod c.P) / (p.2.2 : ZMod c.P) ^ 2) ((p.2.1 : ZMod c.P) / (p.2.2 : ZMod c.P) ^ 3)) :=
    fun h => h3 (Affine.Point.add_of_Y_eq h.1 h.2)
  have hY : (p.2.1 : ZMod c.P) ≠ 0 := by
    intro e
    apply hno
    refine ⟨rfl, ?_⟩
    simp [Affine.negY, Spec.W, e]
  have hZ : ((doubleJ c p).2.2 : ZMod c.P) ≠ 0 := by
    rw [doubleJ_z]
    exact mul_ne_zero (mul_ne_zero t hY) z1
  have hs : (Spec.W c).slope ((p.1 : ZMod c.P) / (p.2.2 : ZMod c.P) ^ 2) ((p.1 : ZMod c.P) / (p.2.2 : ZMod c.P) ^ 2) ((p.2.1 : ZMod c.P) / (p.2.2 : ZMod c.P) ^ 3) ((p.2.1 : ZMod c.P) / (p.2.2 : ZMod c.P) ^ 3)
      = 3 * p.1 ^ 2 / (2 * p.2.1 * p.2.2) := by
    rw [Affine.slope_of_Y_ne rfl (fun h => hno ⟨rfl, h⟩)]
    simp only [Affine.negY, Spec.W]
    have : (p.2.1 : ZMod c.P) / (p.2.2 : ZMod c.P) ^ 3 - (-((p.2.1 : ZMod c.P) / (p.2.2 : ZMod c.P) ^ 3) - 0 * ((p.1 : ZMod c.P) / (p.2.2 : ZMod c.P) ^ 2) - 0) = 2 * p.2.1 / p.2.2 ^ 3 := by ring
    rw [this]
    field_simp
    ring
  have hx : ((doubleJ c p).1 : ZMod c.P) / ((doubleJ c p).2.2 : ZMod c.P) ^ 2 = (Spec.W c).addX ((p.1 : ZMod c.P) / (p.2.2 : ZMod c.P) ^ 2) ((p.1 : ZMod c.P) / (p.2.2 : ZMod c.P) ^ 2)
      ((Spec.W c).slope ((p.1 : ZMod c.P) / (p.2.2 : ZMod c.P) ^ 2) ((p.1 : ZMod c.P) / (p.2.2 : ZMod c.P) ^ 2) ((p.2.1 : ZMod c.P) / (p.2.2 : ZMod c.P) ^ 3) ((p.2.1 : ZMod c.P) / (p.2.2 : ZMod c.P) ^ 3)) := by
    rw [hs, doubleJ_x, doubleJ_z, fieldDX hY z1 t]
    simp only [Affine.addX, Spec.W]
    ring
  have hy : ((doubleJ c p).2.1 : ZMod c.P) / ((doubleJ c p).2.2 : ZMod c.P) ^ 3 = (Spec.W c).addY ((p.1 : ZMod c.P) / (p.2.2 : ZMod c.P) ^ 2) ((p.1 : ZMod c.P) / (p.2.2 : ZMod c.P) ^ 2) ((p.2.1 : ZMod c.P) / (p.2.2 : ZMod c.P) ^ 3)
      ((Spec.W c).slope ((p.1 : ZMod c.P) / (p.2.2 : ZMod c.P) ^ 2) ((p.1 : ZMod c.P) / (p.2.2 : ZMod c.P) ^ 2) ((p.2.1 : ZMod c.P) / (p.2.2 : ZMod c.P) ^ 3) ((p.2.1 : ZMod c.P) / (p.2.2 : ZMod c.P) ^ 3)) := by
    simp only [Affine.addY, Affine.negAddY, Affine.negY]
    rw [← hx, hs, doubleJ_y, doubleJ_z, fieldDY hY z1 t]
    simp only [Spec.W]
    ring
  refine ⟨hZ, ?_⟩
  rw [Affine.Point.add_some hno, hx, hy]
  exact ⟨_, rfl⟩

theorem doubleJ_degenerate {p : Int × Int × Int} {A : Spec.Pt c} (hp' : Rep c p A) (h2 : c.P ≠ 2) (h : A + A = 0) : (doubleJ c p).2.2 = 0 := by
  obtain ⟨z1, n1, rfl⟩ := hp'
  rw [doubleJ_z_zero, doubleJ_z]
  have hn := eq_neg_of_add_eq_zero_left h
  rw [Affine.Point.neg_some] at hn
  injection hn with _ e
  simp only [Affine.negY, Spec.W] at e
  have t := two_ne c h2
  have : 2 * ((p.2.1 : ZMod c.P) / (p.2.2 : ZMod c.P) ^ 3) = 0 := by linear_combination e
  rcases mul_eq_zero.mp this with h | h
  · exact absurd h t
  · rw [div_eq_zero_iff] at h
    rcases h with h | h
    · rw [h]; ring
    · exact absurd (pow_eq_zero_iff (by decide) |>.mp h) z1

theorem affine_rep {p : Int × Int × Int} {A : Spec.Pt c} (h : Rep c p A) : ∃ x y, affine c p = .ok (x, y) ∧ Spec.Is c x y A := by
  obtain ⟨z1, n1, rfl⟩ := h
  have hz0 : p.2.2 ≠ 0 := by rintro e; rw [e] at z1; simp at z1
  have hg : (((p.2.2 % c.P).toNat : Nat) : ZMod c.P) = p.2.2 := by
    rw [← cast_emod c.P p.2.2]
    have : 0 ≤ p.2.2 % c.P := Int.emod_nonneg _ (by exact_mod_cast hp.out.ne_zero)
    conv_rhs => rw [← Int.toNat_of_nonneg this]
    rw [Int.cast_natCast]
  obtain ⟨i, e1, e2, e3⟩ := modInv_prime (a := (p.2.2 % c.P).toNat) hp.out (by rw [← ZMod.natCast_eq_zero_iff, hg]; exact z1)
  rw [hg] at e3
  have hi : (i : ZMod c.P) = (p.2.2 : ZMod c.P)⁻¹ := by rw [← one_div, eq_div_iff z1, mul_comm]; exact e3
  rw [affine, if_neg hz0, e1]
  have hP := hp.out.pos
  refine ⟨_, _, rfl, (mod_range hP _).1, (mod_range hP _).2, (mod_range hP _).1, (mod_range hP _).2, ?_⟩
  have ex : ((p.1 * ((i : Int) * i) % c.P : Int) : ZMod c.P) = (p.1 : ZMod c.P) / (p.2.2 : ZMod c.P) ^ 2 := by
    rw [cast_emod]; push_cast; rw [hi]; field_simp
  have ey : ((p.2.1 * ((i : Int) * i * i) % c.P : Int) : ZMod c.P) = (p.2.1 : ZMod c.P) / (p.2.2 : ZMod c.P) ^ 3 := by
    rw [cast_emod]; push_cast; rw [hi]; field_simp
  rw [Spec.On, ex, ey]
  exact ⟨n1, rfl⟩

omit hp in
theorem affine_zero {p : Int × Int × Int} (h : p.2.2 = 0) : affine c p = .panic := by rw [affine, if_pos h]

theorem on_rep {x y : Int} {A : Spec.Pt c} (h : Spec.On c x y A) : Rep c (x, y, 1) A := by
  obtain ⟨n, rfl⟩ := h
  refine ⟨by simp, ?_⟩
  simp only [Int.cast_one, one_pow, div_one]
  exact ⟨n, trivial⟩

/-! ### The operations on affine coordinates -/

/-- C114. `Add` of two points of the curve that are neither equal nor opposite is their sum, for every prime field and all points. -/
theorem C114_add_partial (h2 : c.P ≠ 2) {x1 y1 x2 y2 : Int} {A D : Spec.Pt c} (hA : Spec.On c x1 y1 A) (hD : Spec.On c x2 y2 D) (h1 : A ≠ D) (h3 : A + D ≠ 0) :
    ∃ x y, add c x1 y1 x2 y2 = .ok (x, y) ∧ Spec.Is c x y (A + D) :=
  affine_rep c (addJ_rep c h2 (on_rep c hA) (on_rep c hD) h1 h3)

/-- C114, violation: `Add` of a point and itself, or its opposite, panics; the results should be the double and the point at infinity `(0, 0)`. -/
theorem C114_add_violated {x1 y1 x2 y2 : Int} {A D : Spec.Pt c} (hA : Spec.On c x1 y1 A) (hD : Spec.On c x2 y2 D) (h : A = D ∨ A = -D) : add c x1 y1 x2 y2 = .panic :=
  affine_zero c (addJ_degenerate c (on_rep c hA) (on_rep c hD) h)

/-- C114. `Double` of a point that is not its own opposite. -/
theorem C114_double_partial (h2 : c.P ≠ 2) {x y : Int} {A : Spec.Pt c} (hA : Spec.On c x y A) (h : 2 • A ≠ 0) :
    ∃ x' y', double c x y = .ok (x', y') ∧ Spec.Is c x' y' (2 • A) := by
  rw [two_nsmul] at h ⊢
  exact affine_rep c (doubleJ_rep c h2 (on_rep c hA) h)

/-- C114. `IsOnCurve` is the equation, for all integers. -/
theorem C114_isOnCurve (x y : Int) : isOnCurve c x y = true ↔ (Spec.W c).Equation (x : ZMod c.P) y := by
  rw [isOnCurve, beq_iff_eq, Affine.equation_iff, ← ZMod.intCast_eq_intCast_iff']
  simp only [Spec.W]
  push_cast
  constructor
  · intro h; linear_combination -h
  · intro h; linear_combination -h

/-! ### Multiplication -/

/-- The number with these bits after the bits of `m`. -/
def val (m : Nat) (bs : List Bool) : Nat := bs.foldl (fun a b => 2 * a + b.toNat) m

omit hp in
theorem val_byte (b : Byte) (m : Nat) : val m ((List.range 8).map fun i => b.getLsbD (7 - i)) = 256 * m + b.toNat := by
  have hb : ∀ b : Byte, val 0 ((List.range 8).map fun i => b.getLsbD (7 - i)) = b.toNat := by decide +kernel
  have := hb b
  simp only [val, List.range, List.range.loop, List.map, List.foldl] at this ⊢
  omega

omit hp in
theorem val_bits (k : Bytes) : ∀ m, val m (bits k) = m * 256 ^ k.length + setBytes k := by
  induction k with
  | nil => intro m; simp [val, bits, setBytes, Kdf.Kb.beN, Cipher.leN]
  | cons b k ih =>
    intro m
    have : val m (bits (b :: k)) = val (val m ((List.range 8).map fun i => b.getLsbD (7 - i))) (bits k) := by
      simp only [val, bits, List.flatMap_cons, List.foldl_append]
    have e : setBytes (b :: k) = b.toNat * 256 ^ k.length + setBytes k := by
      have := setBytes_append [b] k
      simpa [setBytes, Kdf.Kb.beN, Cipher.leN] using this
    rw [this, val_byte, ih, e, List.length_cons, Nat.pow_succ]
    ring

omit hp in
theorem le_val (bs : List Bool) : ∀ m, m ≤ val m bs := by
  induction bs with
  | nil => intro m; exact le_refl _
  | cons b bs ih =>
    intro m
    have := ih (2 * m + b.toNat)
    simp only [val, List.foldl] at this ⊢
    omega

/-- What the loop keeps: nothing seen and the number so far zero; or a triple that represents the multiple or has third coordinate zero. -/
def Inv (S : Spec.Pt c) (m : Nat) (s : Option (Int × Int × Int)) : Prop :=
  (m = 0 ∧ s = none) ∨ (m ≠ 0 ∧ ∃ p, s = some p ∧ (p.2.2 = 0 ∨ Rep c p (m • S)))

theorem double_inv (h2 : c.P ≠ 2) {S : Spec.Pt c} {m : Nat} {s : Option (Int × Int × Int)} (h : Inv c S m s) : Inv c S (2 * m) (s.map (doubleJ c)) := by
  rcases h with ⟨rfl, rfl⟩ | ⟨hm, p, rfl, h⟩
  · exact .inl ⟨rfl, rfl⟩
  · refine .inr ⟨by omega, _, rfl, ?_⟩
    rcases h with h | h
    · left
      rw [doubleJ_z_zero, doubleJ_z, h]; simp
    · by_cases h0 : m • S + m • S = 0
      · exact .inl (doubleJ_degenerate c h h2 h0)
      · right
        rw [two_mul, add_smul]
        exact doubleJ_rep c h2 h h0

theorem add_inv (h2 : c.P ≠ 2) {S : Spec.Pt c} {B p : Int × Int × Int} {m : Nat} (hB : Rep c B S) (h : p.2.2 = 0 ∨ Rep c p (m • S)) :
    (addJ c B p).2.2 = 0 ∨ Rep c (addJ c B p) ((m + 1) • S) := by
  rcases h with h | h
  · left
    rw [addJ_z_zero, addJ_z, h]; simp
  · by_cases h0 : S = m • S
    · exact .inl (addJ_degenerate c hB h (.inl h0))
    by_cases h1 : S + m • S = 0
    · exact .inl (addJ_degenerate c hB h (.inr (eq_neg_of_add_eq_zero_left h1)))
    right
    rw [add_smul, one_smul, add_comm]
    exact addJ_rep c h2 hB h h0 h1

theorem multLoop_inv (h2 : c.P ≠ 2) {S : Spec.Pt c} {B : Int × Int × Int} (hB : Rep c B S) : ∀ bs m s, Inv c S m s → Inv c S (val m bs) (multLoop c B bs s) := by
  intro bs
  induction bs with
  | nil => intro m s h; exact h
  | cons b bs ih =>
    intro m s h
    rw [multLoop]
    have hv : val m (b :: bs) = val (2 * m + b.toNat) bs := rfl
    rw [hv]
    apply ih
    have hd := double_inv c h2 h
    cases b with
    | false => simpa using hd
    | true =>
      rcases hd with ⟨e1, e2⟩ | ⟨hm, p, e2, h⟩
      · rw [e2, e1]
        exact .inr ⟨by decide, B, rfl, .inr (by simpa using hB)⟩
      · rw [e2]
        exact .inr ⟨by omega, _, rfl, add_inv c h2 hB h⟩

omit hp in
theorem multLoop_append (B : Int × Int × Int) (bs cs : List Bool) : ∀ s, multLoop c B (bs ++ cs) s = multLoop c B cs (multLoop c B bs s) := by
  induction bs with
  | nil => intro s; rfl
  | cons b bs ih => intro s; rw [List.cons_append, multLoop, multLoop, ih]

/-- C114. `ScalarMult` never gives a wrong point: for every point and every byte string, the result is the multiple, or nil for the scalar zero, or a
panic. -/
theorem C114_scalarMult_sound (h2 : c.P ≠ 2) {x y : Int} {S : Spec.Pt c} (hS : Spec.On c x y S) (k : Bytes) :
    (setBytes k = 0 ∧ scalarMult c x y k = .ok none) ∨
    (setBytes k ≠ 0 ∧ (scalarMult c x y k = .panic ∨ ∃ u v, scalarMult c x y k = .ok (some (u, v)) ∧ Spec.Is c u v (setBytes k • S))) := by
  have := multLoop_inv c h2 (on_rep c hS) (bits k) 0 none (.inl ⟨rfl, rfl⟩)
  rw [val_bits, zero_mul, zero_add] at this
  rw [scalarMult]
  rcases this with ⟨h1, h3⟩ | ⟨h1, p, h3, h4⟩
  · rw [h3]; exact .inl ⟨h1, rfl⟩
  · rw [h3]
    refine .inr ⟨h1, ?_⟩
    rcases h4 with h4 | h4
    · left; simp only [affine_zero c h4]; rfl
    · right
      obtain ⟨u, v, e, i⟩ := affine_rep c h4
      exact ⟨u, v, by simp only [e, Res.bind_ok], i⟩

/-- C114, violation: for every scalar that is a multiple of the order of the point, other than zero, `ScalarMult` panics. -/
theorem C114_order_violated (h2 : c.P ≠ 2) {x y : Int} {S : Spec.Pt c} (hS : Spec.On c x y S) (k : Bytes) (hk : setBytes k ≠ 0) (h0 : setBytes k • S = 0) : scalarMult c x y k = .panic := by
  rcases C114_scalarMult_sound c h2 hS k with ⟨h, _⟩ | ⟨_, h | ⟨u, v, _, _, _, _, _, n, e⟩⟩
  · exact absurd h hk
  · exact h
  · rw [h0] at e; cases e

theorem loop_complete (h2 : c.P ≠ 2) {q : Nat} (hq : q.Prime) {S : Spec.Pt c} (h0 : q • S = 0) {B : Int × Int × Int} (hB : Rep c B S) :
    ∀ bs m p, m ≠ 0 → val m bs < q → Rep c p (m • S) → ∃ p', multLoop c B bs (some p) = some p' ∧ Rep c p' (val m bs • S) := by
  have hS := rep_ne_zero c hB
  intro bs
  induction bs with
  | nil => intro m p hm hlt h; exact ⟨p, rfl, h⟩
  | cons b bs ih =>
    intro m p hm hlt h
    have hv : val m (b :: bs) = val (2 * m + b.toNat) bs := rfl
    rw [hv] at hlt ⊢
    have hle := le_val bs (2 * m + b.toNat)
    have hd : Rep c (doubleJ c p) ((2 * m) • S) := by
      rw [two_mul, add_smul]
      refine doubleJ_rep c h2 h fun e => ?_
      rw [← add_smul, ← two_mul, smul_eq_zero_iff hq hS h0] at e
      have := Nat.le_of_dvd (by omega) e
      omega
    rw [multLoop]
    cases b with
    | false => exact ih (2 * m) (doubleJ c p) (by omega) (by simpa using hlt) hd
    | true =>
      simp only [Bool.toNat_true] at hlt hle ⊢
      refine ih (2 * m + 1) _ (by omega) hlt ?_
      rw [add_smul, one_smul, add_comm]
      refine addJ_rep c h2 hB hd (fun e => ?_) (fun e => ?_)
      · have : (2 * m - 1) • S = 0 := by
          have e2 : (2 * m) • S = (2 * m - 1) • S + S := by conv_lhs => rw [show 2 * m = (2 * m - 1) + 1 by omega, add_smul, one_smul]
          rw [e2] at e
          exact left_eq_add.mp (by rw [add_comm]; exact e)
        rw [smul_eq_zero_iff hq hS h0] at this
        have := Nat.le_of_dvd (by omega) this
        omega
      · have : (2 * m + 1) • S = 0 := by rw [add_smul, one_smul, add_comm]; exact e
        rw [smul_eq_zero_iff hq hS h0] at this
        have := Nat.le_of_dvd (by omega) this
        omega

/-- C114. For a point of prime order `q`, `ScalarMult` gives the multiple for every byte string whose number is from 1 to `q − 1`. -/
theorem C114_scalarMult_partial (h2 : c.P ≠ 2) {q : Nat} (hq : q.Prime) {x y : Int} {S : Spec.Pt c} (hS : Spec.On c x y S) (h0 : q • S = 0) (k : Bytes)
    (hk : setBytes k ≠ 0) (hk' : setBytes k < q) : ∃ u v, scalarMult c x y k = .ok (some (u, v)) ∧ Spec.Is c u v (setBytes k • S) := by
  have hB := on_rep c hS
  have gen : ∀ bs, val 0 bs ≠ 0 → val 0 bs < q → ∃ p', multLoop c (x, y, 1) bs none = some p' ∧ Rep c p' (val 0 bs • S) := by
    intro bs
    induction bs with
    | nil => intro h; exact absurd rfl h
    | cons b bs ih =>
      intro h1 h3
      cases b with
      | false => exact ih h1 h3
      | true =>
        have e : val 0 (true :: bs) = val 1 bs := rfl
        rw [e] at h3 ⊢
        exact loop_complete c h2 hq h0 hB bs 1 _ (by decide) h3 (by simpa using hB)
  have e : val 0 (bits k) = setBytes k := by rw [val_bits, zero_mul, zero_add]
  obtain ⟨p, e1, e2⟩ := gen (bits k) (e ▸ hk) (e ▸ hk')
  obtain ⟨u, v, f1, f2⟩ := affine_rep c e2
  rw [scalarMult, e1]
  exact ⟨u, v, by simp only [f1, Res.bind_ok], e ▸ f2⟩

/-- C114, violation: it also panics where the multiple is a point like any other.  For every odd scalar other than one whose number is one more than
`j` with `j • S = S` — `q + 2` for a point of order `q` — the last addition is that of the point to itself. -/
theorem C114_wraps_violated (h2 : c.P ≠ 2) {x y : Int} {S : Spec.Pt c} (hS : Spec.On c x y S) (k : Bytes) (bs : List Bool) (hbs : bits k = bs ++ [true]) (h1 : setBytes k ≠ 1)
    (h3 : (setBytes k - 1) • S = S) : scalarMult c x y k = .panic := by
  have hB := on_rep c hS
  have h := multLoop_inv c h2 hB bs 0 none (.inl ⟨rfl, rfl⟩)
  have hv : setBytes k = 2 * val 0 bs + 1 := by
    have := val_bits k 0
    rw [zero_mul, zero_add, hbs] at this
    rw [← this]; simp [val, List.foldl_append]
  rcases h with ⟨e, _⟩ | ⟨hm, p, e, _⟩
  · omega
  have hd := double_inv c h2 (multLoop_inv c h2 hB bs 0 none (.inl ⟨rfl, rfl⟩))
  rw [scalarMult, hbs, multLoop_append, e]
  rw [e] at hd
  rcases hd with ⟨_, h⟩ | ⟨_, p', e', h⟩
  · cases h
  cases e'
  have : (addJ c (x, y, 1) (doubleJ c p)).2.2 = 0 := by
    rcases h with h | h
    · rw [addJ_z_zero, addJ_z, h]; simp
    · rw [show 2 * val 0 bs = setBytes k - 1 by omega, h3] at h
      exact addJ_degenerate c hB h (.inl rfl)
  simp only [multLoop, Option.map, if_true, affine_zero c this]
  rfl

/-! ### Keys and encodings -/

/-- C114. What `GenerateKey` returns is a key pair: the public key is the multiple of the base point by the private key, which is not zero. -/
theorem C114_generateKey_partial (h2 : c.P ≠ 2) {S : Spec.Pt c} (hS : Spec.On c c.Gx c.Gy S) (rand : Bytes) (priv : Bytes) (x y : Int) (h : generateKey c rand = .ok (priv, x, y)) :
    priv.length = byteLen c ∧ setBytes priv ≠ 0 ∧ Spec.Is c x y (setBytes priv • S) := by
  rw [generateKey] at h
  generalize rand.length + 1 = f at h
  induction f generalizing rand with
  | zero => cases h
  | succ f ih =>
    rw [genLoop] at h
    split at h
    · cases h
    rename_i hl
    simp only at h
    rcases C114_scalarMult_sound c h2 hS (candidate c (rand.take (byteLen c))) with ⟨_, e⟩ | ⟨hne, e | ⟨u, v, e, i⟩⟩
    · rw [scalarBaseMult, e] at h
      exact ih _ h
    · rw [scalarBaseMult, e] at h; cases h
    · rw [scalarBaseMult, e] at h
      simp only [Res.ok.injEq, Prod.mk.injEq] at h
      obtain ⟨rfl, rfl, rfl⟩ := h
      refine ⟨?_, hne, i⟩
      simp [candidate]
      omega

/-- C114, violation: keys are not compared with the order of the base point: random bytes that make the private key a multiple of the order make
`GenerateKey` panic (and larger ones a key that is not reduced). -/
theorem C114_generateKey_violated (h2 : c.P ≠ 2) {S : Spec.Pt c} (hS : Spec.On c c.Gx c.Gy S) (rand : Bytes) (hl : byteLen c ≤ rand.length)
    (h1 : setBytes (candidate c (rand.take (byteLen c))) ≠ 0) (h0 : setBytes (candidate c (rand.take (byteLen c))) • S = 0) : generateKey c rand = .panic := by
  rw [generateKey, genLoop, if_neg (by omega)]
  simp only [scalarBaseMult]
  rw [C114_order_violated c h2 hS _ h1 h0]

end

theorem setBytes_zeros (n : Nat) : setBytes (List.replicate n 0#8) = 0 := by
  induction n with
  | zero => rfl
  | succ n ih =>
    rw [List.replicate_succ', setBytes_append, ih]; rfl

theorem pad_natBytes {n v : Nat} (h : v < 256 ^ n) : List.replicate (n - Pub.byteLen v) 0#8 ++ natBytes v = Cipher.hx n v := by
  have hl := byteLen_le.mpr h
  have e := hx_setBytes (List.replicate (n - Pub.byteLen v) 0#8 ++ natBytes v)
  rw [setBytes_append, setBytes_zeros, setBytes_natBytes, zero_mul, zero_add] at e
  rw [← e]
  congr 1
  simp [natBytes]
  omega

/-- C114. `Marshal` is the byte 4 and both coordinates with leading zeros, and `Unmarshal` inverts it, for all coordinates that fit. -/
theorem C114_marshal (c : KCurve) (x y : Nat) (hx : x < 256 ^ byteLen c) (hy : y < 256 ^ byteLen c) :
    marshal c x y = .ok (4#8 :: (Cipher.hx (byteLen c) x ++ Cipher.hx (byteLen c) y)) ∧
    unmarshal c (4#8 :: (Cipher.hx (byteLen c) x ++ Cipher.hx (byteLen c) y)) = some (x, y) := by
  have lx : (natBytes x).length ≤ byteLen c := by rw [natBytes, hx_length]; exact byteLen_le.mpr hx
  have ly : (natBytes y).length ≤ byteLen c := by rw [natBytes, hx_length]; exact byteLen_le.mpr hy
  have ex := pad_natBytes hx
  have ey := pad_natBytes hy
  have lx' : (natBytes x).length = Pub.byteLen x := by rw [natBytes, hx_length]
  have ly' : (natBytes y).length = Pub.byteLen y := by rw [natBytes, hx_length]
  constructor
  · rw [marshal]
    simp only
    rw [if_neg (by omega), if_neg (by omega)]
    generalize hn : byteLen c = n at *
    have h1 : copyAt (4#8 :: List.replicate (2 * n) 0#8) (1 + n - (natBytes x).length) (natBytes x) = 4#8 :: (Cipher.hx n x ++ List.replicate n 0#8) := by
      rw [copyAt, show 1 + n - (natBytes x).length = (n - Pub.byteLen x) + 1 by omega, List.take_succ_cons, List.drop_succ_cons, List.take_replicate, List.drop_replicate, ← ex,
        copyInto, List.take_of_length_le (by simp; omega), List.drop_replicate]
      simp only [List.cons_append, List.append_assoc]
      congr 3
      · congr 1; omega
      · congr 1; congr 1; omega
    refine congrArg Res.ok ?_
    refine (congrArg (fun r => copyAt r (1 + 2 * n - (natBytes y).length) (natBytes y)) h1).trans ?_
    simp only [copyAt]
    rw [show 1 + 2 * n - (natBytes y).length = (n + (n - Pub.byteLen y)) + 1 by omega, List.take_succ_cons, List.drop_succ_cons]
    rw [List.take_append, List.drop_append]
    simp only [hx_length]
    rw [List.take_of_length_le (by simp), List.drop_of_length_le (by simp), Nat.add_sub_cancel_left, List.take_replicate, List.drop_replicate, ← ey, List.nil_append, copyInto,
      List.take_of_length_le (by simp; omega), List.drop_of_length_le (by simp; omega)]
    simp only [List.cons_append, List.append_assoc, List.append_nil]
    congr 4
    omega
  · rw [unmarshal, if_neg (by simp; omega), if_neg (by simp)]
    rw [show 1 + byteLen c = byteLen c + 1 by omega, List.drop_succ_cons, List.drop_succ_cons, List.drop_zero, List.take_left' (by simp), List.drop_left' (by simp),
      setBytes_hx _ _ hx, setBytes_hx _ _ hy]

/-- C114, violation: `Unmarshal` does not ask whether the point is on the curve; it takes every pair of coordinates, reduced or not. -/
theorem C114_unmarshal_violated (c : KCurve) (data : Bytes) (h : data.length = 1 + 2 * byteLen c) (h4 : data.head? = some 4#8) : ∃ x y, unmarshal c data = some (x, y) := by
  cases data with
  | nil => cases h4
  | cons b d =>
    simp only [List.head?_cons, Option.some.injEq] at h4
    subst h4
    rw [unmarshal, if_neg (by omega), if_neg (by simp)]
    exact ⟨_, _, rfl⟩

/-! ### A case: `y² = x³ + 3` over the integers modulo 7, with 13 points -/

def toyK : KCurve := ⟨7, 13, 3, 1, 2, 16⟩

instance : Fact toyK.P.Prime := ⟨by decide⟩

theorem toyK_ns : (Spec.W toyK).Nonsingular ((1 : Int) : ZMod toyK.P) ((2 : Int) : ZMod toyK.P) := by
  rw [Affine.nonsingular_iff, Affine.equation_iff]
  decide

/-- Its base point. -/
def toyKG : Spec.Pt toyK := .some _ _ toyK_ns

theorem toyKG_on : Spec.On toyK 1 2 toyKG := ⟨toyK_ns, rfl⟩

theorem toyKG_order : 13 • toyKG = 0 := by
  rcases C114_scalarMult_sound toyK (by decide) toyKG_on [12#8] with ⟨h, _⟩ | ⟨_, h | ⟨u, v, h, i⟩⟩
  · exact absurd h (by decide)
  · exact absurd h (by decide +kernel)
  · have e : scalarMult toyK 1 2 [12#8] = .ok (some (1, 5)) := by decide +kernel
    rw [e] at h
    simp only [Res.ok.injEq, Option.some.injEq, Prod.mk.injEq] at h
    obtain ⟨rfl, rfl⟩ := h
    obtain ⟨_, _, _, _, n, e⟩ := i
    have e12 : 12 • toyKG = -toyKG := by
      rw [toyKG, Affine.Point.neg_some, ← toyKG]
      refine e.trans ?_
      congr 1
    rw [show 13 • toyKG = 12 • toyKG + toyKG from succ_nsmul _ _, e12, neg_add_cancel]

/-- The theorems on the toy curve. -/
example : ∃ u v, scalarMult toyK 1 2 [5#8] = .ok (some (u, v)) ∧ Spec.Is toyK u v (setBytes [5#8] • toyKG) :=
  C114_scalarMult_partial toyK (by decide) (q := 13) (by decide) toyKG_on toyKG_order [5#8] (by decide) (by decide)
example : scalarMult toyK 1 2 [0#8, 13#8] = .panic := C114_order_violated toyK (by decide) toyKG_on _ (by decide) toyKG_order
example : scalarMult toyK 1 2 [15#8] = .panic := by
  refine C114_wraps_violated toyK (by decide) toyKG_on [15#8] [false, false, false, false, true, true, true] (by decide) (by decide) ?_
  rw [show setBytes [15#8] - 1 = 13 + 1 by decide, add_smul, toyKG_order, zero_add, one_smul]
example : add toyK 1 2 1 2 = .panic := C114_add_violated toyK toyKG_on toyKG_on (.inl rfl)
example : generateKey toyK [0x00#8, 0x4f#8] = .panic := C114_generateKey_violated toyK (by decide) toyKG_on _ (by decide) (by decide) toyKG_order
example : generateKey toyK [0x00#8, 0x42#8, 0x00#8, 0x47#8] = .ok ([0#8, 5#8], 3, 3) := by decide +kernel
example : isOnCurve secp256k1 secp256k1.Gx secp256k1.Gy = true ∧ isOnCurve secp160k1 secp160k1.Gx secp160k1.Gy = true := by decide +kernel
example : marshal secp256k1 1 2 = .ok (4#8 :: (Cipher.hx 32 1 ++ Cipher.hx 32 2)) := (C114_marshal secp256k1 1 2 (by decide) (by decide)).1

/-! ### The named curves -/

/-- A number is evaluated before it is used (the kernel would build up unevaluated terms). -/
def forceI {α : Type} (v : Int) (f : Int → α) : α :=
  match v with
  | .ofNat 0 => f 0
  | .ofNat (n + 1) => f (.ofNat (n + 1))
  | .negSucc n => f (.negSucc n)

theorem forceI_eq {α : Type} (v : Int) (f : Int → α) : forceI v f = f v := by
  unfold forceI; split <;> rfl

def forceP {α : Type} (p : Int × Int × Int) (f : Int × Int × Int → α) : α :=
  forceI p.1 fun x => forceI p.2.1 fun y => forceI p.2.2 fun z => f (x, y, z)

theorem forceP_eq {α : Type} (p : Int × Int × Int) (f : Int × Int × Int → α) : forceP p f = f p := by
  simp only [forceP, forceI_eq]

/-- `multLoop` from the first bit on, with evaluation of each point. -/
def multLoopF (c : KCurve) (B : Int × Int × Int) : List Bool → Int × Int × Int → Int × Int × Int
  | [], p => p
  | b :: bs, p => forceP (doubleJ c p) fun d => if b then forceP (addJ c B d) fun a => multLoopF c B bs a else multLoopF c B bs d

theorem multLoopF_eq (c : KCurve) (B : Int × Int × Int) : ∀ bs p, multLoop c B bs (some p) = some (multLoopF c B bs p) := by
  intro bs
  induction bs with
  | nil => intro p; rfl
  | cons b bs ih =>
    intro p
    rw [multLoop, multLoopF, forceP_eq]
    cases b with
    | true => simp only [Option.map, if_true, forceP_eq, ih]
    | false => simp only [Option.map, Bool.false_eq_true, if_false, ih]

/-- After the loop on the number one less than the order, the point is the opposite of the base point. -/
def orderCheck (c : KCurve) (bs : List Bool) : Bool :=
  let p := multLoopF c (c.Gx, c.Gy, 1) bs (c.Gx, c.Gy, 1)
  forceP p fun p => val 1 bs + 1 == c.N && p.2.2 % c.P != 0 && (p.1 - c.Gx * (p.2.2 * p.2.2)) % c.P == 0 && (p.2.1 + c.Gy * (p.2.2 * p.2.2 * p.2.2)) % c.P == 0

theorem orderCheck_spec (c : KCurve) [hp : Fact c.P.Prime] (h2 : c.P ≠ 2) {S : Spec.Pt c} (hS : Spec.On c c.Gx c.Gy S) (bs : List Bool) (h : orderCheck c bs = true) : c.N • S = 0 := by
  have hi := multLoop_inv c h2 (on_rep c hS) bs 1 (some (c.Gx, c.Gy, 1)) (.inr ⟨by decide, _, rfl, .inr (by simpa using on_rep c hS)⟩)
  rw [multLoopF_eq] at hi
  rw [orderCheck, forceP_eq] at h
  rcases hi with ⟨_, e⟩ | ⟨_, p, e, hr⟩
  · cases e
  rw [Option.some.inj e] at h
  simp only [Bool.and_eq_true, bne_iff_ne, beq_iff_eq] at h
  obtain ⟨⟨⟨hN, hz⟩, hx⟩, hy⟩ := h
  have hz0 : p.2.2 ≠ 0 := by rintro e; rw [e] at hz; exact hz rfl
  have hrep := hr.resolve_left hz0
  obtain ⟨z1, n, e1⟩ := hrep
  obtain ⟨n0, rfl⟩ := hS
  have hneg : val 1 bs • Affine.Point.some _ _ n0 = -Affine.Point.some _ _ n0 := by
    rw [e1, Affine.Point.neg_some]
    rw [emod_zero_iff] at hx hy
    push_cast at hx hy
    congr 1
    · rw [div_eq_iff (pow_ne_zero _ z1)]; push_cast; linear_combination hx
    · rw [div_eq_iff (pow_ne_zero _ z1)]; simp only [Affine.negY, Spec.W]; push_cast; linear_combination hy
  rw [← hN, succ_nsmul, hneg, neg_add_cancel]

/-- The bits of a number after the first. -/
def tailBits (n : Nat) : List Bool := ((List.range (bitLen n - 1)).reverse).map n.testBit

/-- The four curves of the package. -/
def named : List KCurve := [secp160k1, secp192k1, secp224k1, secp256k1]

/-- C114. For each of the four curves (whose `P` and `N` are prime, which is assumed) `ScalarBaseMult` is the multiple of the base point for every
scalar from 1 to `N − 1`, and the base point has order `N`. -/
theorem C114_named (c : KCurve) (hc : c ∈ named) [hp : Fact c.P.Prime] (hN : c.N.Prime) :
    ∃ S : Spec.Pt c, Spec.On c c.Gx c.Gy S ∧ c.N • S = 0 ∧ c.P < 2 ^ c.bitSize ∧
      ∀ k : Bytes, setBytes k ≠ 0 → setBytes k < c.N → ∃ u v, scalarBaseMult c k = .ok (some (u, v)) ∧ Spec.Is c u v (setBytes k • S) := by
  have hall : ∀ c ∈ named, isOnCurve c c.Gx c.Gy = true ∧ c.P ≠ 2 ∧ c.Gy ≠ 0 ∧ c.Gy < c.P ∧ c.P < 2 ^ c.bitSize ∧ orderCheck c (tailBits (c.N - 1)) = true := by decide +kernel
  obtain ⟨h1, h2, h3, h4, h5, h6⟩ := hall c hc
  have heq := (C114_isOnCurve c _ _).mp h1
  have hns : (Spec.W c).Nonsingular ((c.Gx : Int) : ZMod c.P) ((c.Gy : Int) : ZMod c.P) := by
    rw [Affine.nonsingular_iff]
    refine ⟨heq, .inr ?_⟩
    simp only [Spec.W]
    intro e
    have t := two_ne c h2
    have : (2 : ZMod c.P) * ((c.Gy : Int) : ZMod c.P) = 0 := by linear_combination e
    rcases mul_eq_zero.mp this with h | h
    · exact t h
    · rw [Int.cast_natCast, ZMod.natCast_eq_zero_iff] at h
      exact absurd (Nat.le_of_dvd (by omega) h) (by omega)
  have hon : Spec.On c c.Gx c.Gy (.some _ _ hns) := ⟨hns, rfl⟩
  have ho := orderCheck_spec c h2 hon _ h6
  exact ⟨_, hon, ho, h5, fun k hk hk' => C114_scalarMult_partial c h2 hN hon ho k hk hk'⟩

/-- C114, violation: `(0, 0)` is not the point at infinity: `Add` of `(0, 0)` and a point is another point, not on the curve. -/
theorem C114_infinity_violated : Spec.On toyK 1 2 toyKG ∧ ∃ x y, add toyK 0 0 1 2 = .ok (x, y) ∧ isOnCurve toyK x y = false :=
  ⟨toyKG_on, 3, 1, by decide +kernel, by decide +kernel⟩

/-- C114, violation: `Marshal` of a second coordinate that is too long overwrites the first, without an error or a panic. -/
theorem C114_marshal_violated : ∃ y, marshal toyK 258 y = .ok [4, 1, 3, 4, 5] := ⟨0x030405, by decide +kernel⟩

end Verif.Ell.Bit
