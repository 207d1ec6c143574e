import Verif.Ell.Bit
import Verif.Ell.BitProps
/-
Multiples of a point of a curve `y² = x³ + Ax + B` over a prime field in Jacobian coordinates, for the check of the constants of named curves in
NamedProps.lean; the sums are those of Mathlib's group (`WeierstrassCurve.Affine.Point`).  Not a model of code of the library.
-/
namespace Verif.Ell.Jac
open Verif.Pub WeierstrassCurve
open Verif.Pub.Gost (cast_emod mod_range smul_eq_zero_iff cast_inj)
open Verif.Ell.Bit (val forceP forceP_eq)

/-- A curve `y² = x³ + Ax + B` over the integers modulo `P`. -/
structure SW where
  P : Nat
  A : Int
  B : Int

namespace Spec

/-- The curve. -/
def W (c : SW) : Affine (ZMod c.P) := ⟨0, 0, 0, c.A, c.B⟩

/-- Its group of points, with the point at infinity. -/
abbrev Pt (c : SW) := (W c).Point

/-- The numbers are coordinates of the point, modulo `P`. -/
def On (c : SW) (x y : Int) (A : Pt c) : Prop := ∃ h : (W c).Nonsingular (x : ZMod c.P) (y : ZMod c.P), A = .some _ _ h

end Spec

/-- add-2007-bl -/
def addJ (c : SW) (p q : Int × Int × Int) : Int × Int × Int :=
  let z1z1 := p.2.2 * p.2.2 % c.P
  let z2z2 := q.2.2 * q.2.2 % c.P
  let u1 := p.1 * z2z2 % c.P
  let h := (q.1 * z1z1 - u1) % c.P
  let s1 := p.2.1 * q.2.2 % c.P * z2z2 % c.P
  let r := (q.2.1 * p.2.2 % c.P * z1z1 - s1) % c.P
  let hh := h * h % c.P
  let v := u1 * hh % c.P
  let j := h * hh % c.P
  let x3 := (4 * r * r - 4 * j - 8 * v) % c.P
  (x3, (2 * r * (4 * v - x3) - 8 * s1 * j) % c.P, 2 * p.2.2 * q.2.2 % c.P * h % c.P)

/-- Doubling. -/
def doubleJ (c : SW) (p : Int × Int × Int) : Int × Int × Int :=
  let b := p.2.1 * p.2.1 % c.P
  let zz := p.2.2 * p.2.2 % c.P
  let d := 4 * p.1 * b % c.P
  let e := (3 * p.1 * p.1 + c.A * zz * zz) % c.P
  let x3 := (e * e - 2 * d) % c.P
  (x3, (e * (d - x3) - 8 * b * b) % c.P, 2 * p.2.1 * p.2.2 % c.P)

/-- Double and add, from a first bit on. -/
def multLoop (c : SW) (B : Int × Int × Int) : List Bool → Int × Int × Int → Int × Int × Int
  | [], p => p
  | b :: bs, p => forceP (doubleJ c p) fun d => if b then forceP (addJ c B d) fun a => multLoop c B bs a else multLoop c B bs d

section
variable (c : SW) [hp : Fact c.P.Prime]

instance : NeZero c.P := ⟨hp.out.ne_zero⟩

/-- The triple is in Jacobian coordinates the point. -/
def Rep (p : Int × Int × Int) (A : Spec.Pt c) : Prop :=
  (p.2.2 : ZMod c.P) ≠ 0 ∧ ∃ h : (Spec.W c).Nonsingular ((p.1 : ZMod c.P) / (p.2.2 : ZMod c.P) ^ 2) ((p.2.1 : ZMod c.P) / (p.2.2 : ZMod c.P) ^ 3), A = .some _ _ h

theorem emod_zero_iff (v : Int) : v % c.P = 0 ↔ (v : ZMod c.P) = 0 := by
  rw [ZMod.intCast_zmod_eq_zero_iff_dvd]
  exact ⟨Int.dvd_of_emod_eq_zero, Int.emod_eq_zero_of_dvd⟩

theorem addJ_x (p q : Int × Int × Int) : ((addJ c p q).1 : ZMod c.P) =
    (2 * (q.2.1 * p.2.2 ^ 3 - p.2.1 * q.2.2 ^ 3)) ^ 2 - 4 * (q.1 * p.2.2 ^ 2 - p.1 * q.2.2 ^ 2) ^ 3 - 8 * p.1 * q.2.2 ^ 2 * (q.1 * p.2.2 ^ 2 - p.1 * q.2.2 ^ 2) ^ 2 := by
  simp only [addJ, ZMod.intCast_mod, Int.cast_mul, Int.cast_sub, Int.cast_add, Int.cast_ofNat]
  ring

theorem addJ_y (p q : Int × Int × Int) : ((addJ c p q).2.1 : ZMod c.P) =
    2 * (q.2.1 * p.2.2 ^ 3 - p.2.1 * q.2.2 ^ 3) * (4 * p.1 * q.2.2 ^ 2 * (q.1 * p.2.2 ^ 2 - p.1 * q.2.2 ^ 2) ^ 2 - ((addJ c p q).1 : ZMod c.P))
      - 8 * p.2.1 * q.2.2 ^ 3 * (q.1 * p.2.2 ^ 2 - p.1 * q.2.2 ^ 2) ^ 3 := by
  rw [addJ_x]
  simp only [addJ, ZMod.intCast_mod, Int.cast_mul, Int.cast_sub, Int.cast_add, Int.cast_ofNat]
  ring

theorem addJ_z (p q : Int × Int × Int) : ((addJ c p q).2.2 : ZMod c.P) = 2 * p.2.2 * q.2.2 * (q.1 * p.2.2 ^ 2 - p.1 * q.2.2 ^ 2) := by
  simp only [addJ, ZMod.intCast_mod, Int.cast_mul, Int.cast_sub, Int.cast_add, Int.cast_ofNat]
  ring

theorem addJ_z_zero (p q : Int × Int × Int) : (addJ c p q).2.2 = 0 ↔ ((addJ c p q).2.2 : ZMod c.P) = 0 := by
  rw [← emod_zero_iff]
  simp only [addJ, Int.emod_emod]

theorem doubleJ_x (p : Int × Int × Int) : ((doubleJ c p).1 : ZMod c.P) = (3 * p.1 ^ 2 + c.A * p.2.2 ^ 4) ^ 2 - 8 * p.1 * p.2.1 ^ 2 := by
  simp only [doubleJ, ZMod.intCast_mod, Int.cast_mul, Int.cast_sub, Int.cast_add, Int.cast_ofNat]
  ring

theorem doubleJ_y (p : Int × Int × Int) : ((doubleJ c p).2.1 : ZMod c.P) = (3 * p.1 ^ 2 + c.A * p.2.2 ^ 4) * (4 * p.1 * p.2.1 ^ 2 - ((doubleJ c p).1 : ZMod c.P)) - 8 * p.2.1 ^ 4 := by
  rw [doubleJ_x]
  simp only [doubleJ, ZMod.intCast_mod, Int.cast_mul, Int.cast_sub, Int.cast_add, Int.cast_ofNat]
  ring

theorem doubleJ_z (p : Int × Int × Int) : ((doubleJ c p).2.2 : ZMod c.P) = 2 * p.2.1 * p.2.2 := by
  simp only [doubleJ, ZMod.intCast_mod, Int.cast_mul, Int.cast_sub, Int.cast_add, Int.cast_ofNat]

theorem doubleJ_z_zero (p : Int × Int × Int) : (doubleJ c p).2.2 = 0 ↔ ((doubleJ c p).2.2 : ZMod c.P) = 0 := by
  rw [← emod_zero_iff]
  simp only [doubleJ, Int.emod_emod]

theorem two_ne (h2 : c.P ≠ 2) : (2 : ZMod c.P) ≠ 0 := by
  intro h
  have : ((2 : Nat) : ZMod c.P) = 0 := by exact_mod_cast h
  rw [ZMod.natCast_eq_zero_iff] at this
  exact h2 ((Nat.prime_dvd_prime_iff_eq hp.out Nat.prime_two).mp this)

theorem rep_ne_zero {p : Int × Int × Int} {A : Spec.Pt c} (h : Rep c p A) : A ≠ 0 := by
  obtain ⟨_, _, rfl⟩ := h; exact Affine.Point.some_ne_zero _

omit hp in
theorem fieldDXa {K : Type*} [Field K] {a x y z : K} (hy : y ≠ 0) (hz : z ≠ 0) (t : (2 : K) ≠ 0) :
    ((3 * x ^ 2 + a * z ^ 4) ^ 2 - 8 * x * y ^ 2) / (2 * y * z) ^ 2 = ((3 * x ^ 2 + a * z ^ 4) / (2 * y * z)) ^ 2 - x / z ^ 2 - x / z ^ 2 := by
  field_simp
  ring

omit hp in
theorem fieldDYa {K : Type*} [Field K] {e x y z X3 : K} (hy : y ≠ 0) (hz : z ≠ 0) (t : (2 : K) ≠ 0) :
    (e * (4 * x * y ^ 2 - X3) - 8 * y ^ 4) / (2 * y * z) ^ 3 = -(e / (2 * y * z) * (X3 / (2 * y * z) ^ 2 - x / z ^ 2) + y / z ^ 3) := by
  field_simp
  ring

/-- Addition of two points that are neither equal nor opposite. -/
theorem addJ_rep (h2 : c.P ≠ 2) {p q : Int × Int × Int} {A D : Spec.Pt c} (hp' : Rep c p A) (hq : Rep c q D) (h1 : A ≠ D) (h3 : A + D ≠ 0) : Rep c (addJ c p q) (A + D) := by
  obtain ⟨z1, n1, rfl⟩ := hp'
  obtain ⟨z2, n2, rfl⟩ := hq
  have hX : (p.1 : ZMod c.P) / (p.2.2 : ZMod c.P) ^ 2 ≠ (q.1 : ZMod c.P) / (q.2.2 : ZMod c.P) ^ 2 := by
    intro e
    rcases Affine.Point.X_eq_iff (h₁ := n1) (h₂ := n2) |>.mp e with h | h
    · exact h1 h
    · exact h3 (by rw [h, neg_add_cancel])
  have hH : (q.1 : ZMod c.P) * p.2.2 ^ 2 - p.1 * q.2.2 ^ 2 ≠ 0 := by
    intro e
    apply hX
    rw [div_eq_div_iff (pow_ne_zero _ z1) (pow_ne_zero _ z2)]
    linear_combination -e
  have t := two_ne c h2
  have hZ : ((addJ c p q).2.2 : ZMod c.P) ≠ 0 := by
    rw [addJ_z]
    exact mul_ne_zero (mul_ne_zero (mul_ne_zero t z1) z2) hH
  have hno : ¬ ((p.1 : ZMod c.P) / (p.2.2 : ZMod c.P) ^ 2 = (q.1 : ZMod c.P) / (q.2.2 : ZMod c.P) ^ 2 ∧ (p.2.1 : ZMod c.P) / (p.2.2 : ZMod c.P) ^ 3 = (Spec.W c).negY ((q.1 : ZMod c.P) / (q.2.2 : ZMod c.P) ^ 2) ((q.2.1 : ZMod c.P) / (q.2.2 : ZMod c.P) ^ 3)) := fun h => hX h.1
  have hs : (Spec.W c).slope ((p.1 : ZMod c.P) / (p.2.2 : ZMod c.P) ^ 2) ((q.1 : ZMod c.P) / (q.2.2 : ZMod c.P) ^ 2) ((p.2.1 : ZMod c.P) / (p.2.2 : ZMod c.P) ^ 3) ((q.2.1 : ZMod c.P) / (q.2.2 : ZMod c.P) ^ 3)
      = (q.2.1 * p.2.2 ^ 3 - p.2.1 * q.2.2 ^ 3) / (p.2.2 * q.2.2 * ((q.1 : ZMod c.P) * p.2.2 ^ 2 - p.1 * q.2.2 ^ 2)) := by
    rw [Affine.slope_of_X_ne hX, div_eq_div_iff (sub_ne_zero.mpr hX) (mul_ne_zero (mul_ne_zero z1 z2) hH)]
    field_simp
    ring
  have hx : ((addJ c p q).1 : ZMod c.P) / ((addJ c p q).2.2 : ZMod c.P) ^ 2 = (Spec.W c).addX ((p.1 : ZMod c.P) / (p.2.2 : ZMod c.P) ^ 2) ((q.1 : ZMod c.P) / (q.2.2 : ZMod c.P) ^ 2)
      ((Spec.W c).slope ((p.1 : ZMod c.P) / (p.2.2 : ZMod c.P) ^ 2) ((q.1 : ZMod c.P) / (q.2.2 : ZMod c.P) ^ 2) ((p.2.1 : ZMod c.P) / (p.2.2 : ZMod c.P) ^ 3) ((q.2.1 : ZMod c.P) / (q.2.2 : ZMod c.P) ^ 3)) := by
    rw [hs, addJ_x, addJ_z, Bit.fieldX z1 z2 hH t rfl]
    simp only [Affine.addX, Spec.W]
    ring
  have hy : ((addJ c p q).2.1 : ZMod c.P) / ((addJ c p q).2.2 : ZMod c.P) ^ 3 = (Spec.W c).addY ((p.1 : ZMod c.P) / (p.2.2 : ZMod c.P) ^ 2) ((q.1 : ZMod c.P) / (q.2.2 : ZMod c.P) ^ 2) ((p.2.1 : ZMod c.P) / (p.2.2 : ZMod c.P) ^ 3)
      ((Spec.W c).slope ((p.1 : ZMod c.P) / (p.2.2 : ZMod c.P) ^ 2) ((q.1 : ZMod c.P) / (q.2.2 : ZMod c.P) ^ 2) ((p.2.1 : ZMod c.P) / (p.2.2 : ZMod c.P) ^ 3) ((q.2.1 : ZMod c.P) / (q.2.2 : ZMod c.P) ^ 3)) := by
    simp only [Affine.addY, Affine.negAddY, Affine.negY]
    rw [← hx, hs, addJ_y, addJ_z, Bit.fieldY z1 z2 hH t]
    simp only [Spec.W]
    ring
  refine ⟨hZ, ?_⟩
  rw [Affine.Point.add_some hno, hx, hy]
  exact ⟨_, rfl⟩

/-- Addition of equal or opposite points gives the third coordinate zero. -/
theorem addJ_degenerate {p q : Int × Int × Int} {A D : Spec.Pt c} (hp' : Rep c p A) (hq : Rep c q D) (h : A = D ∨ A = -D) : (addJ c p q).2.2 = 0 := by
  obtain ⟨z1, n1, rfl⟩ := hp'
  obtain ⟨z2, n2, rfl⟩ := hq
  rw [addJ_z_zero, addJ_z]
  have e := Affine.Point.X_eq_iff (h₁ := n1) (h₂ := n2) |>.mpr h
  rw [div_eq_div_iff (pow_ne_zero _ z1) (pow_ne_zero _ z2)] at e
  rw [mul_eq_zero]; right
  linear_combination -e

/-- Doubling. -/
theorem doubleJ_rep (h2 : c.P ≠ 2) {p : Int × Int × Int} {A : Spec.Pt c} (hp' : Rep c p A) (h3 : A + A ≠ 0) : Rep c (doubleJ c p) (A + A) := by
  obtain ⟨z1, n1, rfl⟩ := hp'
  have t := two_ne c h2
  have hno : ¬ ((p.1 : ZMod c.P) / (p.2.2 : ZMod c.P) ^ 2 = (p.1 : ZMod c.P) / (p.2.2 : ZMod c.P) ^ 2 ∧ (p.2.1 : ZMod c.P) / (p.2.2 : ZMod c.P) ^ 3 = (Spec.W c).negY ((p.1 : ZMod c.P) / (p.2.2 : ZMod c.P) ^ 2) ((p.2.1 : ZMod c.P) / (p.2.2 : ZMod c.P) ^ 3)) :=
    fun h => h3 (Affine.Point.add_of_Y_eq h.1 h.2)
  have hY : (p.2.1 : ZMod c.P) ≠ 0 := by
    intro e
    apply hno
    refine ⟨rfl, ?_⟩
    simp [Affine.negY, Spec.W, e]
  have hZ : ((doubleJ c p).2.2 : ZMod c.P) ≠ 0 := by
    rw [doubleJ_z]
    exact mul_ne_zero (mul_ne_zero t hY) z1
  have hs : (Spec.W c).slope ((p.1 : ZMod c.P) / (p.2.2 : ZMod c.P) ^ 2) ((p.1 : ZMod c.P) / (p.2.2 : ZMod c.P) ^ 2) ((p.2.1 : ZMod c.P) / (p.2.2 : ZMod c.P) ^ 3) ((p.2.1 : ZMod c.P) / (p.2.2 : ZMod c.P) ^ 3)
      = (3 * p.1 ^ 2 + c.A * p.2.2 ^ 4) / (2 * p.2.1 * p.2.2) := by
    rw [Affine.slope_of_Y_ne rfl (fun h => hno ⟨rfl, h⟩)]
    simp only [Affine.negY, Spec.W]
    have : (p.2.1 : ZMod c.P) / (p.2.2 : ZMod c.P) ^ 3 - (-((p.2.1 : ZMod c.P) / (p.2.2 : ZMod c.P) ^ 3) - 0 * ((p.1 : ZMod c.P) / (p.2.2 : ZMod c.P) ^ 2) - 0) = 2 * p.2.1 / p.2.2 ^ 3 := by ring
    rw [this]
    field_simp
    ring
  have hx : ((doubleJ c p).1 : ZMod c.P) / ((doubleJ c p).2.2 : ZMod c.P) ^ 2 = (Spec.W c).addX ((p.1 : ZMod c.P) / (p.2.2 : ZMod c.P) ^ 2) ((p.1 : ZMod c.P) / (p.2.2 : ZMod c.P) ^ 2)
      ((Spec.W c).slope ((p.1 : ZMod c.P) / (p.2.2 : ZMod c.P) ^ 2) ((p.1 : ZMod c.P) / (p.2.2 : ZMod c.P) ^ 2) ((p.2.1 : ZMod c.P) / (p.2.2 : ZMod c.P) ^ 3) ((p.2.1 : ZMod c.P) / (p.2.2 : ZMod c.P) ^ 3)) := by
    rw [hs, doubleJ_x, doubleJ_z, fieldDXa hY z1 t]
    simp only [Affine.addX, Spec.W]
    ring
  have hy : ((doubleJ c p).2.1 : ZMod c.P) / ((doubleJ c p).2.2 : ZMod c.P) ^ 3 = (Spec.W c).addY ((p.1 : ZMod c.P) / (p.2.2 : ZMod c.P) ^ 2) ((p.1 : ZMod c.P) / (p.2.2 : ZMod c.P) ^ 2) ((p.2.1 : ZMod c.P) / (p.2.2 : ZMod c.P) ^ 3)
      ((Spec.W c).slope ((p.1 : ZMod c.P) / (p.2.2 : ZMod c.P) ^ 2) ((p.1 : ZMod c.P) / (p.2.2 : ZMod c.P) ^ 2) ((p.2.1 : ZMod c.P) / (p.2.2 : ZMod c.P) ^ 3) ((p.2.1 : ZMod c.P) / (p.2.2 : ZMod c.P) ^ 3)) := by
    simp only [Affine.addY, Affine.negAddY, Affine.negY]
    rw [← hx, hs, doubleJ_y, doubleJ_z, fieldDYa hY z1 t]
    simp only [Spec.W]
    ring
  refine ⟨hZ, ?_⟩
  rw [Affine.Point.add_some hno, hx, hy]
  exact ⟨_, rfl⟩

theorem doubleJ_degenerate {p : Int × Int × Int} {A : Spec.Pt c} (hp' : Rep c p A) (h2 : c.P ≠ 2) (h : A + A = 0) : (doubleJ c p).2.2 = 0 := by
  obtain ⟨z1, n1, rfl⟩ := hp'
  rw [doubleJ_z_zero, doubleJ_z]
  have hn := eq_neg_of_add_eq_zero_left h
  rw [Affine.Point.neg_some] at hn
  injection hn with _ e
  simp only [Affine.negY, Spec.W] at e
  have t := two_ne c h2
  have : 2 * ((p.2.1 : ZMod c.P) / (p.2.2 : ZMod c.P) ^ 3) = 0 := by linear_combination e
  rcases mul_eq_zero.mp this with h | h
  · exact absurd h t
  · rw [div_eq_zero_iff] at h
    rcases h with h | h
    · rw [h]; ring
    · exact absurd (pow_eq_zero_iff (by decide) |>.mp h) z1


theorem on_rep {x y : Int} {A : Spec.Pt c} (h : Spec.On c x y A) : Rep c (x, y, 1) A := by
  obtain ⟨n, rfl⟩ := h
  refine ⟨by simp, ?_⟩
  simp only [Int.cast_one, one_pow, div_one]
  exact ⟨n, trivial⟩
/-- The triple represents the multiple or has third coordinate zero. -/
theorem multLoop_inv (h2 : c.P ≠ 2) {S : Spec.Pt c} {B : Int × Int × Int} (hB : Rep c B S) : ∀ bs m p, (p.2.2 = 0 ∨ Rep c p (m • S)) →
    (multLoop c B bs p).2.2 = 0 ∨ Rep c (multLoop c B bs p) (val m bs • S) := by
  intro bs
  induction bs with
  | nil => intro m p h; exact h
  | cons b bs ih =>
    intro m p h
    rw [multLoop, forceP_eq]
    have hv : val m (b :: bs) = val (2 * m + b.toNat) bs := rfl
    rw [hv]
    have hd : (doubleJ c p).2.2 = 0 ∨ Rep c (doubleJ c p) ((2 * m) • S) := by
      rcases h with h | h
      · left
        rw [doubleJ_z_zero, doubleJ_z, h]; simp
      · by_cases h0 : m • S + m • S = 0
        · exact .inl (doubleJ_degenerate c h h2 h0)
        · right
          rw [two_mul, add_smul]
          exact doubleJ_rep c h2 h h0
    cases b with
    | false => exact ih _ _ (by simpa using hd)
    | true =>
      simp only [if_true, forceP_eq]
      refine ih _ _ ?_
      rcases hd with h | h
      · left
        rw [addJ_z_zero, addJ_z, h]; simp
      · by_cases h0 : S = (2 * m) • S
        · exact .inl (addJ_degenerate c hB h (.inl h0))
        by_cases h1 : S + (2 * m) • S = 0
        · exact .inl (addJ_degenerate c hB h (.inr (eq_neg_of_add_eq_zero_left h1)))
        right
        rw [Bool.toNat_true, add_smul, one_smul, add_comm]
        exact addJ_rep c h2 hB h h0 h1


/-- A multiple of the point is its opposite. -/
def orderCheck (c : SW) (x y : Int) (bs : List Bool) : Bool :=
  forceP (multLoop c (x, y, 1) bs (x, y, 1)) fun p =>
    p.2.2 % c.P != 0 && (p.1 - x * (p.2.2 * p.2.2)) % c.P == 0 && (p.2.1 + y * (p.2.2 * p.2.2 * p.2.2)) % c.P == 0

theorem orderCheck_spec (h2 : c.P ≠ 2) {x y : Int} {S : Spec.Pt c} (hS : Spec.On c x y S) (bs : List Bool) (h : orderCheck c x y bs = true) : (val 1 bs + 1) • S = 0 := by
  have hr := multLoop_inv c h2 (on_rep c hS) bs 1 (x, y, 1) (.inr (by simpa using on_rep c hS))
  rw [orderCheck, forceP_eq] at h
  generalize multLoop c (x, y, 1) bs (x, y, 1) = p at h hr
  simp only [Bool.and_eq_true, bne_iff_ne, beq_iff_eq] at h
  obtain ⟨⟨hz, hx⟩, hy⟩ := h
  have hz0 : p.2.2 ≠ 0 := by rintro e; rw [e] at hz; exact hz rfl
  obtain ⟨z1, n, e1⟩ := hr.resolve_left hz0
  obtain ⟨n0, rfl⟩ := hS
  have hneg : val 1 bs • Affine.Point.some _ _ n0 = -Affine.Point.some _ _ n0 := by
    rw [e1, Affine.Point.neg_some]
    rw [emod_zero_iff] at hx hy
    push_cast at hx hy
    congr 1
    · rw [div_eq_iff (pow_ne_zero _ z1)]; linear_combination hx
    · rw [div_eq_iff (pow_ne_zero _ z1)]; simp only [Affine.negY, Spec.W]; linear_combination hy
  rw [succ_nsmul, hneg, neg_add_cancel]

/-- The equation of the curve. -/
def onCurve (c : SW) (x y : Int) : Bool := (x * x * x + c.A * x + c.B - y * y) % c.P == 0

theorem onCurve_iff (x y : Int) : onCurve c x y = true ↔ (Spec.W c).Equation (x : ZMod c.P) y := by
  rw [onCurve, beq_iff_eq, emod_zero_iff, Affine.equation_iff]
  simp only [Spec.W]
  push_cast
  constructor
  · intro h; linear_combination -h
  · intro h; linear_combination -h

/-- A point of the curve with second coordinate other than zero. -/
theorem exists_on (h2 : c.P ≠ 2) {x y : Int} (h : onCurve c x y = true) (hy : y % c.P ≠ 0) : ∃ S : Spec.Pt c, Spec.On c x y S ∧ S ≠ 0 := by
  have hns : (Spec.W c).Nonsingular (x : ZMod c.P) (y : ZMod c.P) := by
    rw [Affine.nonsingular_iff]
    refine ⟨(onCurve_iff c x y).mp h, .inr ?_⟩
    simp only [Spec.W]
    intro e
    have : (2 : ZMod c.P) * (y : ZMod c.P) = 0 := by linear_combination e
    rcases mul_eq_zero.mp this with h | h
    · exact two_ne c h2 h
    · exact hy ((emod_zero_iff c y).mpr h)
  exact ⟨_, ⟨hns, rfl⟩, Affine.Point.some_ne_zero _⟩

end
end Verif.Ell.Jac
