import Verif.Pub.Gost
import Mathlib.AlgebraicGeometry.EllipticCurve.Affine.Point
import Mathlib.Tactic.LinearCombination
import Mathlib.Tactic.FieldSimp
/-
C95: the curve arithmetic of pubkey/gost computes the group law of the elliptic curve `y² = x³ + Ax + B` over the
integers modulo `P`, as Mathlib defines it (`WeierstrassCurve.Affine.Point`).
-/
namespace Verif.Pub.Gost
open Verif.Cipher Verif.Kdf WeierstrassCurve

namespace Spec

/-- The curve `y² = x³ + Ax + B` over the field of integers modulo `P`. -/
def W (c : GCurve) : Affine (ZMod c.P) := ⟨0, 0, 0, c.A, c.B⟩

/-- Its group of points, with the point at infinity. -/
abbrev Pt (c : GCurve) := (W c).Point

/-- The numbers `x` and `y`, reduced modulo `P`, are the coordinates of the point `a`. -/
def Is (c : GCurve) (x y : Int) (a : Pt c) : Prop :=
  0 ≤ x ∧ x < c.P ∧ 0 ≤ y ∧ y < c.P ∧ ∃ h : (W c).Nonsingular (x : ZMod c.P) (y : ZMod c.P), a = .some _ _ h

end Spec

instance (c : GCurve) [h : Fact c.P.Prime] : NeZero c.P := ⟨h.out.ne_zero⟩

theorem cast_emod (n : Nat) (a : Int) : ((a % n : Int) : ZMod n) = a := by simp

theorem modInverse_cast {n : Nat} (hn : n.Prime) (z g : Int) (h : (g : ZMod n) ≠ 0) :
    (g : ZMod n) * (modInverse z g n : ZMod n) = 1 := by
  have hg : (((g % n).toNat : Nat) : ZMod n) = g := by
    rw [← cast_emod n g]
    have : 0 ≤ g % n := Int.emod_nonneg _ (by exact_mod_cast hn.ne_zero)
    conv_rhs => rw [← Int.toNat_of_nonneg this]
    rw [Int.cast_natCast]
  have hd : ¬ n ∣ (g % n).toNat := by
    rw [← ZMod.natCast_eq_zero_iff, hg]; exact h
  obtain ⟨x, hx, _, h1⟩ := modInv_prime hn hd
  have : modInverse z g n = (x : Int) := by rw [modInverse, hx]
  rw [this, ← hg, Int.cast_natCast]
  exact h1

theorem modInverse_inv {n : Nat} [Fact n.Prime] (z g : Int) (h : (g : ZMod n) ≠ 0) :
    (modInverse z g n : ZMod n) = (g : ZMod n)⁻¹ := by
  have := modInverse_cast (Fact.out : n.Prime) z g h
  rw [← one_div, eq_div_iff h, mul_comm]; exact this

theorem modInverse_none {n : Nat} [NeZero n] (hn : n.Prime) (z g : Int) (h : (g : ZMod n) = 0) : modInverse z g n = z := by
  have hg : (g % n).toNat = 0 := by
    rw [ZMod.intCast_zmod_eq_zero_iff_dvd] at h
    rw [Int.emod_eq_zero_of_dvd h]; rfl
  rw [modInverse, modInv_none hn.one_lt (by rw [hg]; exact dvd_zero _)]

theorem pos_mod (c : GCurve) (hP : 0 < c.P) (v : Int) : pos c (v % c.P) = v % c.P := by
  have : 0 ≤ v % c.P := Int.emod_nonneg _ (by omega)
  rw [pos, if_neg (by omega)]

theorem mod_range {n : Nat} (hn : 0 < n) (v : Int) : 0 ≤ v % n ∧ v % n < n :=
  ⟨Int.emod_nonneg _ (by omega), Int.emod_lt_of_pos _ (by omega)⟩

theorem cast_inj {n : Nat} {a b : Int} (ha : 0 ≤ a) (ha' : a < n) (hb : 0 ≤ b) (hb' : b < n) (h : (a : ZMod n) = b) : a = b := by
  have := (ZMod.intCast_eq_intCast_iff' a b n).mp h
  rwa [Int.emod_eq_of_lt ha ha', Int.emod_eq_of_lt hb hb'] at this

variable (c : GCurve) [Fact c.P.Prime]

/-- The slope of the code is that of the group law, except for opposite points. -/
theorem slope_eq {x1 y1 x2 y2 : Int} {a b : Spec.Pt c} (ha : Spec.Is c x1 y1 a) (hb : Spec.Is c x2 y2 b) (hab : a + b ≠ 0) :
    ¬ ((x1 : ZMod c.P) = x2 ∧ (y1 : ZMod c.P) = (Spec.W c).negY x2 y2) ∧
    (slopeOf c x1 y1 x2 y2 : ZMod c.P) = (Spec.W c).slope (x1 : ZMod c.P) x2 y1 y2 := by
  obtain ⟨hx1, hx1', hy1, hy1', h1, rfl⟩ := ha
  obtain ⟨hx2, hx2', hy2, hy2', h2, rfl⟩ := hb
  have hno : ¬ ((x1 : ZMod c.P) = x2 ∧ (y1 : ZMod c.P) = (Spec.W c).negY x2 y2) :=
    fun h => hab (Affine.Point.add_of_Y_eq h.1 h.2)
  refine ⟨hno, ?_⟩
  rw [slopeOf]
  by_cases he : x1 = x2 ∧ y1 = y2
  · obtain ⟨rfl, rfl⟩ := he
    rw [if_pos ⟨rfl, rfl⟩]
    have hy : (y1 : ZMod c.P) ≠ (Spec.W c).negY x1 y1 := fun h => hno ⟨rfl, h⟩
    rw [Affine.slope_of_Y_ne rfl hy]
    have hd : ((2 * y1 : Int) : ZMod c.P) ≠ 0 := by
      intro h0
      apply hy
      simp only [Affine.negY, Spec.W]
      push_cast at h0
      linear_combination h0
    simp only [cast_emod, Int.cast_mul, Int.cast_add, modInverse_inv _ _ hd]
    simp only [Affine.negY, Spec.W]
    push_cast
    rw [← div_eq_mul_inv]
    congr 1 <;> ring
  · rw [if_neg he]
    have hx : (x1 : ZMod c.P) ≠ x2 := by
      intro hx
      rcases Affine.Point.X_eq_iff (h₁ := h1) (h₂ := h2) |>.mp hx with h | h
      · apply he
        injection h with e1 e2
        exact ⟨cast_inj hx1 hx1' hx2 hx2' e1, cast_inj hy1 hy1' hy2 hy2' e2⟩
      · exact hab (by rw [h, neg_add_cancel])
    rw [Affine.slope_of_X_ne hx]
    have hP : 0 < c.P := Nat.pos_of_ne_zero (NeZero.ne _)
    simp only [pos_mod c hP, cast_emod, Int.cast_mul]
    have hd : (((x2 - x1) % c.P : Int) : ZMod c.P) ≠ 0 := by
      rw [cast_emod]; push_cast
      exact sub_ne_zero.mpr (Ne.symm hx)
    rw [modInverse_inv _ _ hd, cast_emod]
    push_cast
    have h1 : (x2 : ZMod c.P) - x1 ≠ 0 := sub_ne_zero.mpr (Ne.symm hx)
    have h2 : (x1 : ZMod c.P) - x2 ≠ 0 := sub_ne_zero.mpr hx
    field_simp
    ring

/-- `add` is addition in the group, except for opposite points. -/
theorem add_is {x1 y1 x2 y2 : Int} {a b : Spec.Pt c} (ha : Spec.Is c x1 y1 a) (hb : Spec.Is c x2 y2 b) (hab : a + b ≠ 0) :
    Spec.Is c (add c x1 y1 x2 y2).1 (add c x1 y1 x2 y2).2 (a + b) := by
  obtain ⟨hno, hs⟩ := slope_eq c ha hb hab
  obtain ⟨hx1, hx1', hy1, hy1', h1, rfl⟩ := ha
  obtain ⟨hx2, hx2', hy2, hy2', h2, rfl⟩ := hb
  have hP : 0 < c.P := Nat.pos_of_ne_zero (NeZero.ne _)
  rw [Affine.Point.add_some hno]
  simp only [add, pos_mod c hP]
  have r1 := mod_range hP (slopeOf c x1 y1 x2 y2 * slopeOf c x1 y1 x2 y2 - x1 - x2)
  have r2 := mod_range hP ((x1 - (slopeOf c x1 y1 x2 y2 * slopeOf c x1 y1 x2 y2 - x1 - x2) % c.P) * slopeOf c x1 y1 x2 y2 - y1)
  have ex : (((slopeOf c x1 y1 x2 y2 * slopeOf c x1 y1 x2 y2 - x1 - x2) % c.P : Int) : ZMod c.P)
      = (Spec.W c).addX x1 x2 ((Spec.W c).slope (x1 : ZMod c.P) x2 y1 y2) := by
    rw [cast_emod, ← hs]; push_cast; simp only [Affine.addX, Spec.W]; ring
  have ey : (((x1 - (slopeOf c x1 y1 x2 y2 * slopeOf c x1 y1 x2 y2 - x1 - x2) % c.P) * slopeOf c x1 y1 x2 y2 - y1) % c.P : Int)
      = (Spec.W c).addY x1 x2 y1 ((Spec.W c).slope (x1 : ZMod c.P) x2 y1 y2) := by
    rw [cast_emod]; push_cast [cast_emod]; rw [← hs]; simp only [Affine.addX, Affine.addY, Affine.negAddY, Affine.negY, Spec.W]; ring
  refine ⟨r1.1, r1.2, r2.1, r2.2, ?_⟩
  simp only [ex, ey]
  exact ⟨Affine.nonsingular_add h1 h2 hno, trivial⟩

theorem Spec.Is.ne_zero {c : GCurve} {x y : Int} {a : Spec.Pt c} (h : Spec.Is c x y a) : a ≠ 0 := by
  obtain ⟨_, _, _, _, hn, rfl⟩ := h
  exact Affine.Point.some_ne_zero hn

/-- In a group, the multiples of an element of prime order. -/
theorem smul_eq_zero_iff {G : Type*} [AddCommGroup G] {q : Nat} (hq : q.Prime) {S : G} (hS : S ≠ 0) (h0 : q • S = 0) (k : Nat) :
    k • S = 0 ↔ q ∣ k := by
  have ho : addOrderOf S = q := by
    rcases (Nat.dvd_prime hq).mp (addOrderOf_dvd_of_nsmul_eq_zero h0) with h | h
    · exact absurd (AddMonoid.addOrderOf_eq_one_iff.mp h) hS
    · exact h
  rw [← ho, addOrderOf_dvd_iff_nsmul_eq_zero]

theorem expLoop_is (hq : c.Q.Prime) (hq2 : c.Q ≠ 2) {S : Spec.Pt c} (hS : S ≠ 0) (h0 : c.Q • S = 0) :
    ∀ (fuel dg m w : Nat) (t s : Int × Int), dg ≤ fuel → 1 ≤ m → m + dg * w < c.Q → ¬ c.Q ∣ w →
      Spec.Is c t.1 t.2 (m • S) → Spec.Is c s.1 s.2 (w • S) →
      Spec.Is c (expLoop c fuel dg t s).1 (expLoop c fuel dg t s).2 ((m + dg * w) • S)
  | 0, dg, m, w, t, s, hf, hm, hlt, hw, ht, hs => by
    obtain rfl : dg = 0 := by omega
    simpa [expLoop] using ht
  | fuel + 1, dg, m, w, t, s, hf, hm, hlt, hw, ht, hs => by
    rw [expLoop]
    by_cases hd : dg = 0
    · rw [if_pos hd, hd]; simpa using ht
    rw [if_neg hd]
    have hw2 : ¬ c.Q ∣ 2 * w := by
      rw [hq.dvd_mul]
      rintro (h | h)
      · rcases (Nat.dvd_prime Nat.prime_two).mp h with h | h
        · exact hq.one_lt.ne' h
        · exact hq2 h
      · exact hw h
    have hs2 : Spec.Is c (add c s.1 s.2 s.1 s.2).1 (add c s.1 s.2 s.1 s.2).2 ((2 * w) • S) := by
      have e : (2 * w) • S = w • S + w • S := by rw [two_mul, add_smul]
      rw [e]
      refine add_is c hs hs ?_
      rw [← e]
      exact fun h => hw2 ((smul_eq_zero_iff hq hS h0 _).mp h)
    have hstep (m' : Nat) (t' : Int × Int) (hm' : 1 ≤ m') (he : m' + dg / 2 * (2 * w) = m + dg * w) (ht' : Spec.Is c t'.1 t'.2 (m' • S)) :
        Spec.Is c (expLoop c fuel (dg / 2) t' (add c s.1 s.2 s.1 s.2)).1 (expLoop c fuel (dg / 2) t' (add c s.1 s.2 s.1 s.2)).2 ((m + dg * w) • S) := by
      rw [← he]
      exact expLoop_is hq hq2 hS h0 fuel (dg / 2) m' (2 * w) t' _ (by omega) hm' (by omega) hw2 ht' hs2
    have hdiv := Nat.div_add_mod dg 2
    by_cases ho : dg % 2 = 1
    · rw [if_pos ho]
      have hdw : (2 * (dg / 2) + 1) * w = dg * w := by rw [← ho, hdiv]
      have hdw' : (2 * (dg / 2) + 1) * w = dg / 2 * (2 * w) + w := by ring
      refine hstep (m + w) _ (by omega) (by omega) ?_
      have e : (m + w) • S = m • S + w • S := add_smul _ _ _
      rw [e]
      refine add_is c ht hs ?_
      rw [← e]
      intro h
      have := Nat.le_of_dvd (by omega) ((smul_eq_zero_iff hq hS h0 _).mp h)
      have : w ≤ dg * w := Nat.le_mul_of_pos_left _ (by omega)
      omega
    · rw [if_neg ho]
      have ho : dg % 2 = 0 := by omega
      have hdw : (2 * (dg / 2)) * w = dg * w := by conv_rhs => rw [← hdiv, ho, add_zero]
      have hdw' : (2 * (dg / 2)) * w = dg / 2 * (2 * w) := by ring
      exact hstep m t hm (by omega) ht

/-- The curve and the subgroup used: `P` is prime, `Q` is an odd prime. -/
structure GoodCurve (c : GCurve) : Prop where
  Q_prime : c.Q.Prime
  Q_odd : c.Q ≠ 2

theorem exp_is (hc : GoodCurve c) {x y : Int} {S : Spec.Pt c} (hS : Spec.Is c x y S) (h0 : c.Q • S = 0) (k : Nat) (hk : 1 ≤ k) (hk' : k < c.Q) :
    ∃ u v, exp c k x y = .ok (u, v) ∧ Spec.Is c u v (k • S) := by
  refine ⟨_, _, by rw [exp, if_neg (by omega)], ?_⟩
  have hw : ¬ c.Q ∣ 1 := fun h => hc.Q_prime.one_lt.ne' (Nat.dvd_one.mp h)
  have := expLoop_is c hc.Q_prime hc.Q_odd hS.ne_zero h0 (k - 1) (k - 1) 1 1 (x, y) (x, y) (by omega) (by omega) (by omega) hw (by simpa using hS) (by simpa using hS)
  rwa [show 1 + (k - 1) * 1 = k by omega] at this

/-- `IsOnCurve` is the equation of the curve. -/
theorem isOnCurve_iff (x y : Int) : isOnCurve c x y = true ↔ (Spec.W c).Equation (x : ZMod c.P) y := by
  have hP : 0 < c.P := Nat.pos_of_ne_zero (NeZero.ne _)
  rw [isOnCurve, polynomial, pos_mod c hP, beq_iff_eq, Affine.equation_iff, ← ZMod.intCast_eq_intCast_iff']
  simp only [Spec.W]
  push_cast
  constructor
  · intro h; linear_combination -h
  · intro h; linear_combination -h

theorem Spec.Is.onCurve {c : GCurve} [Fact c.P.Prime] {x y : Int} {a : Spec.Pt c} (h : Spec.Is c x y a) : offCurve c x y = false := by
  obtain ⟨_, _, _, _, hn, rfl⟩ := h
  have := (isOnCurve_iff c x y).mpr hn.1
  simp [offCurve, this]

theorem mod_smul {q : Nat} {G : Type*} [AddCommGroup G] {S : G} (h0 : q • S = 0) (k : Nat) : (k % q) • S = k • S := by
  conv_rhs => rw [← Nat.mod_add_div k q, add_smul, mul_comm, mul_smul, h0, smul_zero, add_zero]

/-- C95. `Add` of two points of the curve whose sum is not the point at infinity is their sum: for every curve over a
prime field and all points (equal ones included).  Missing from the full claim: opposite points, whose sum should be the
point at infinity (`C95_add_opposite_violated`), and the point at infinity itself (`C95_add_infinity_violated`). -/
theorem C95_add_partial {x1 y1 x2 y2 : Int} {a b : Spec.Pt c} (ha : Spec.Is c x1 y1 a) (hb : Spec.Is c x2 y2 b) (hab : a + b ≠ 0) :
    ∃ x y, Add c x1 y1 x2 y2 = .ok (x, y) ∧ Spec.Is c x y (a + b) := by
  rw [Add, ha.onCurve, hb.onCurve]
  exact ⟨_, _, rfl, add_is c ha hb hab⟩

/-- C95. `Double` of a point that is not its own opposite. -/
theorem C95_double_partial {x1 y1 : Int} {a : Spec.Pt c} (ha : Spec.Is c x1 y1 a) (haa : 2 • a ≠ 0) :
    ∃ x y, Double c x1 y1 = .ok (x, y) ∧ Spec.Is c x y (2 • a) := by
  rw [two_nsmul] at haa ⊢
  rw [Double, ha.onCurve]
  exact C95_add_partial c ha ha haa

/-- C95. `ScalarMult` of a point of the prime-order subgroup by any number that is not a multiple of the order is that
multiple of the point; no addition of opposite points or doubling of a point of order two happens on the way.  For the
multiples of the order, where the result is the point at infinity, it panics. -/
theorem C95_scalarMult (hc : GoodCurve c) {x y : Int} {S : Spec.Pt c} (hS : Spec.Is c x y S) (h0 : c.Q • S = 0) (k : Nat) :
    (¬ c.Q ∣ k → ∃ u v, scalarMult c x y k = .ok (u, v) ∧ Spec.Is c u v (k • S)) ∧
    (c.Q ∣ k → scalarMult c x y k = .panic ∧ k • S = 0) := by
  rw [scalarMult, hS.onCurve, setBytes_natBytes]
  have hQ := hc.Q_prime.pos
  constructor
  · intro hk
    have hk0 : k ≠ 0 := by rintro rfl; exact hk (dvd_zero _)
    have hm : k % c.Q ≠ 0 := fun h => hk (Nat.dvd_of_mod_eq_zero h)
    obtain ⟨u, v, he, hi⟩ := exp_is c hc hS h0 (k % c.Q) (by omega) (Nat.mod_lt _ hQ)
    rw [mod_smul h0] at hi
    refine ⟨u, v, ?_, hi⟩
    simp only [Bool.false_eq_true, if_false, hk0, he]
  · intro hk
    refine ⟨?_, (smul_eq_zero_iff hc.Q_prime hS.ne_zero h0 _).mpr hk⟩
    simp only [Bool.false_eq_true, if_false, Nat.mod_eq_zero_of_dvd hk, exp, if_true]
    split <;> rfl

/-- C95. Two pairs of coordinates of the same point are equal: the results above are determined. -/
theorem Spec.Is.unique {c : GCurve} {x y x' y' : Int} {a : Spec.Pt c} (h : Spec.Is c x y a) (h' : Spec.Is c x' y' a) : x = x' ∧ y = y' := by
  obtain ⟨h1, h2, h3, h4, hn, rfl⟩ := h
  obtain ⟨g1, g2, g3, g4, hm, e⟩ := h'
  injection e with e1 e2
  exact ⟨cast_inj h1 h2 g1 g2 e1, cast_inj h3 h4 g3 g4 e2⟩

omit [Fact c.P.Prime] in
theorem marshal_ok {x y : Int} (h1 : 0 ≤ x) (h2 : x < c.P) (h3 : 0 ≤ y) (h4 : y < c.P) (ho : offCurve c x y = false) (hP : c.P ≤ 256 ^ pointSize c) :
    marshal c x y = .ok ((hx (pointSize c) x.toNat).reverse ++ (hx (pointSize c) y.toNat).reverse) := by
  have e1 : x.natAbs = x.toNat := by omega
  have e2 : y.natAbs = y.toNat := by omega
  have f1 := fillBytes_ok (show y.toNat < 256 ^ pointSize c by omega)
  have f2 := fillBytes_ok (show x.toNat < 256 ^ pointSize c by omega)
  rw [marshal, ho, e1, e2]
  simp [f1, f2]

/-- C95. `Marshal` of a point is its x- and y-coordinate, least significant byte first, in `PointSize` bytes each, and
`Unmarshal` takes it back, for every point of every curve of up to 512 bits. -/
theorem C95_marshal {x y : Int} {a : Spec.Pt c} (h : Spec.Is c x y a) (hP : c.P ≤ 256 ^ pointSize c) :
    marshal c x y = .ok ((hx (pointSize c) x.toNat).reverse ++ (hx (pointSize c) y.toNat).reverse) ∧
    unmarshal c ((hx (pointSize c) x.toNat).reverse ++ (hx (pointSize c) y.toNat).reverse) = some (x, y) := by
  have ho := h.onCurve
  obtain ⟨h1, h2, h3, h4, hn, rfl⟩ := h
  refine ⟨marshal_ok c h1 h2 h3 h4 ho hP, ?_⟩
  have hon := (isOnCurve_iff c x y).mpr hn.1
  rw [unmarshal, if_neg (by simp; omega)]
  simp only [List.reverse_append, List.reverse_reverse]
  rw [List.take_left' (by simp), List.drop_left' (by simp), setBytes_hx _ _ (by omega), setBytes_hx _ _ (by omega), if_neg (by omega),
    Int.toNat_of_nonneg h1, Int.toNat_of_nonneg h3, hon]
  rfl

/-- C95. What `Unmarshal` accepts are coordinates in range that satisfy the equation of the curve, and `Marshal` gives
back the same bytes: an encoding is never accepted for two points, nor a point from two encodings. -/
theorem C95_unmarshal (hP : c.P ≤ 256 ^ pointSize c) (data : Bytes) (x y : Int) (h : unmarshal c data = some (x, y)) :
    0 ≤ x ∧ x < c.P ∧ 0 ≤ y ∧ y < c.P ∧ (Spec.W c).Equation (x : ZMod c.P) y ∧ marshal c x y = .ok data := by
  rw [unmarshal] at h
  simp only at h
  split at h
  · cases h
  rename_i hl
  split at h
  · cases h
  rename_i hr
  split at h
  · cases h
  rename_i ho
  simp only [Bool.not_eq_true', Bool.not_eq_false] at ho
  simp only [Option.some.injEq, Prod.mk.injEq] at h
  obtain ⟨rfl, rfl⟩ := h
  have hoff : offCurve c (setBytes (data.reverse.drop (pointSize c))) (setBytes (data.reverse.take (pointSize c))) = false := by
    simp [offCurve, ho]
  refine ⟨by omega, by omega, by omega, by omega, (isOnCurve_iff c _ _).mp ho, ?_⟩
  rw [marshal_ok c (by omega) (by omega) (by omega) (by omega) hoff hP]
  have l1 : (data.reverse.drop (pointSize c)).length = pointSize c := by simp; omega
  have l2 : (data.reverse.take (pointSize c)).length = pointSize c := by simp; omega
  have e1 := hx_setBytes (data.reverse.drop (pointSize c))
  have e2 := hx_setBytes (data.reverse.take (pointSize c))
  rw [l1] at e1
  rw [l2] at e2
  rw [Int.toNat_natCast, Int.toNat_natCast, e1, e2, ← List.reverse_append, List.take_append_drop, List.reverse_reverse]

/-- C95, against the group law for opposite points: `Add` of a point and its opposite is not the point at infinity
`(0, 0)`, for any point of any curve that is not its own opposite. -/
theorem C95_add_opposite_violated {x y : Int} {a : Spec.Pt c} (h : Spec.Is c x y a) (hy : y ≠ 0) (hP2 : c.P ≠ 2) :
    Spec.Is c x (c.P - y) (-a) ∧ ∃ u v, Add c x y x (c.P - y) = .ok (u, v) ∧ (u, v) ≠ (0, 0) := by
  have hp : c.P.Prime := Fact.out
  have hodd : c.P % 2 = 1 := (hp.eq_two_or_odd).resolve_left hP2
  have hneg : Spec.Is c x (c.P - y) (-a) := by
    obtain ⟨h1, h2, h3, h4, hn, rfl⟩ := h
    have e : (((c.P : Int) - y : Int) : ZMod c.P) = (Spec.W c).negY x y := by
      push_cast; simp [Affine.negY, Spec.W]
    refine ⟨h1, h2, by omega, by omega, ?_⟩
    simp only [e, Affine.Point.neg_some]
    exact ⟨(Affine.nonsingular_neg ..).mpr hn, trivial⟩
  refine ⟨hneg, ?_⟩
  rw [Add, h.onCurve, hneg.onCurve]
  refine ⟨_, _, rfl, ?_⟩
  obtain ⟨h1, h2, h3, h4, -⟩ := h
  have hs : slopeOf c x y x (c.P - y) = 0 := by
    rw [slopeOf, if_neg (by rintro ⟨-, h⟩; omega)]
    simp only [sub_self, Int.zero_emod]
    rw [show pos c 0 = 0 by simp [pos], modInverse_none hp 0 0 (by simp)]
    simp
  intro he
  have he := congrArg Prod.snd he
  simp only [hs, mul_zero, zero_sub, pos_mod c hp.pos] at he
  have := Int.dvd_of_emod_eq_zero he
  rw [dvd_neg] at this
  exact absurd (Int.le_of_dvd (by omega) this) (by omega)

/-- The curve `y² = x³ + x + 6` over the integers modulo 11: 13 points, base point `(2, 4)`. -/
def toyC : GCurve := { P := 11, Q := 13, A := 1, B := 6, X := 2, Y := 4, Co := 1 }

instance : Fact toyC.P.Prime := ⟨by decide⟩

theorem toyC_good : GoodCurve toyC := ⟨by decide, by decide⟩

theorem toy_ns : (Spec.W toyC).Nonsingular ((2 : Int) : ZMod toyC.P) ((4 : Int) : ZMod toyC.P) := by
  rw [Affine.nonsingular_iff, Affine.equation_iff]
  decide

/-- Its base point. -/
def toyG : Spec.Pt toyC := .some _ _ toy_ns

theorem toyG_is : Spec.Is toyC 2 4 toyG := ⟨by decide, by decide, by decide, by decide, toy_ns, rfl⟩

theorem sum_ne_zero {x1 y1 x2 y2 : Int} {a b : Spec.Pt c} (ha : Spec.Is c x1 y1 a) (hb : Spec.Is c x2 y2 b)
    (h : x1 = x2 → (y1 + y2) % c.P ≠ 0) : a + b ≠ 0 := by
  intro h0
  have hab : a = -b := eq_neg_of_add_eq_zero_left h0
  obtain ⟨h1, h2, h3, h4, hn, rfl⟩ := ha
  obtain ⟨g1, g2, g3, g4, hm, rfl⟩ := hb
  rw [Affine.Point.neg_some] at hab
  injection hab with e1 e2
  refine h (cast_inj h1 h2 g1 g2 e1) ?_
  have : ((y1 + y2 : Int) : ZMod c.P) = 0 := by
    push_cast; rw [e2]; simp [Affine.negY, Spec.W]
  rw [ZMod.intCast_zmod_eq_zero_iff_dvd] at this
  exact Int.emod_eq_zero_of_dvd this

theorem toyG_order : toyC.Q • toyG = 0 := by
  have h1 := toyG_is
  have h2 := add_is toyC h1 h1 (sum_ne_zero toyC h1 h1 (by decide))
  have h3 := add_is toyC h2 h1 (sum_ne_zero toyC h2 h1 (by decide))
  have h6 := add_is toyC h3 h3 (sum_ne_zero toyC h3 h3 (by decide))
  have h12 := add_is toyC h6 h6 (sum_ne_zero toyC h6 h6 (by decide))
  have e : toyG + toyG + toyG + (toyG + toyG + toyG) + (toyG + toyG + toyG + (toyG + toyG + toyG)) = -toyG := by
    obtain ⟨_, _, _, _, hn, e⟩ := h12
    refine e.trans (Eq.trans ?_ (Affine.Point.neg_some toy_ns).symm)
    congr 1
  rw [show toyC.Q • toyG = (13 : Nat) • toyG from rfl]
  have : (13 : Nat) • toyG = toyG + toyG + toyG + (toyG + toyG + toyG) + (toyG + toyG + toyG + (toyG + toyG + toyG)) + toyG := by abel
  rw [this, e, neg_add_cancel]

/-- The point at infinity `(0, 0)`, which `Add` accepts, is not neutral. -/
theorem C95_add_infinity_violated : Spec.Is toyC 2 4 toyG ∧ ∃ x y, Add toyC 0 0 2 4 = .ok (x, y) ∧ (x, y) ≠ (2, 4) :=
  ⟨toyG_is, 2, 7, by decide, by decide⟩

example : scalarBaseMult toyC 5 = .ok (3, 5) ∧ scalarBaseMult toyC 18 = .ok (3, 5) ∧ scalarBaseMult toyC 26 = .panic := by decide
example : Add toyC 2 4 3 5 = .ok (7, 2) ∧ unmarshal toyC ((hx 32 2).reverse ++ (hx 32 4).reverse) = some (2, 4) := by decide +kernel

end Verif.Pub.Gost
