import Verif.Ell.NamedData
import Verif.Ell.Jac
import Verif.Ell.BinProps
/-
C115: the constants of the named curves are what they are used as: the base point is a point of the curve, of the order that is given.  And the
maps between the curves of elliptic/brainpool and elliptic/nums that are used by way of another one.
-/
namespace Verif.Ell.Named
open Verif.Pub
open Verif.Ell.Bit (val tailBits)

/-- The curve `y² = x³ − 3x + B` over the integers modulo `P`. -/
def sw (c : PCurve) : Jac.SW := ⟨c.P, -3, c.B⟩

/-- C115. For 24 named curves over prime fields: the numbers are reduced, the size is that of the field, and the base point is a point of the curve
that, multiplied with the order given, is the point at infinity.  (That the modulus is prime is a hypothesis.) -/
theorem C115_prime_partial (c : PCurve) (hc : c ∈ prime) [hp : Fact (sw c).P.Prime] :
    c.B < c.P ∧ c.Gx < c.P ∧ c.Gy < c.P ∧ bitLen c.P = c.bitSize ∧ ∃ G : Jac.Spec.Pt (sw c), Jac.Spec.On (sw c) c.Gx c.Gy G ∧ G ≠ 0 ∧ c.N • G = 0 := by
  have hall : ∀ c ∈ prime, c.B < c.P ∧ c.Gx < c.P ∧ c.Gy < c.P ∧ bitLen c.P = c.bitSize ∧ (sw c).P ≠ 2 ∧ Jac.onCurve (sw c) c.Gx c.Gy = true ∧ (c.Gy : Int) % (sw c).P ≠ 0 ∧
      val 1 (tailBits (c.N - 1)) + 1 = c.N ∧ Jac.orderCheck (sw c) c.Gx c.Gy (tailBits (c.N - 1)) = true := by decide +kernel
  obtain ⟨h1, h2, h3, h4, h5, h6, h7, h8, h9⟩ := hall c hc
  obtain ⟨G, g1, g2⟩ := Jac.exists_on (sw c) h5 h6 h7
  refine ⟨h1, h2, h3, h4, G, g1, g2, ?_⟩
  have := Jac.orderCheck_spec (sw c) h5 g1 _ h9
  rwa [h8] at this

/-- C115, violation: the base points of `secp112r2`, `secp128r2` (whose `A` is not `−3`, but `elliptic.CurveParams` has no other) and Tom-521 are not
points of the curve. -/
theorem C115_prime_violated : ∀ c ∈ badPrime, (c.Gy * c.Gy : Int) % c.P ≠ ((c.Gx : Int) * c.Gx * c.Gx - 3 * c.Gx + c.B) % c.P := by decide +kernel

/-- C115, violation: the modulus of Tom-521 has 522 bits, one more than the size given. -/
theorem C115_tom521_violated : bitLen tomP521.P = 522 ∧ tomP521.bitSize = 521 := by decide +kernel

/-! ### Curves that are used by way of another one -/

/-- elliptic/brainpool/rcurve.go:27-38, 40-47, elliptic/nums/rcurve.go:26-48 (`newRcurve`, `toTwisted`). -/
def toTwisted (c : RCurve) (x y : Int) : Int × Int :=
  let P := c.twisted.P
  (x * ((c.z : Int) ^ 2 % P) % P, y * ((c.z : Int) ^ 3 % P) % P)

/-- elliptic/brainpool/rcurve.go:27-38, 49-56, elliptic/nums/rcurve.go:26-38, 50-57 (`newRcurve`, `fromTwisted`); `zinv` is the inverse of `z`. -/
def fromTwisted (c : RCurve) (zinv : Int) (x y : Int) : Int × Int :=
  let P := c.twisted.P
  (x * (zinv ^ 2 % P) % P, y * (zinv ^ 3 % P) % P)

/-- C115. `fromTwisted` and `toTwisted` are inverse to each other, for all reduced coordinates. -/
theorem C115_twist (c : RCurve) (zinv : Int) (hz : (c.z * zinv) % c.twisted.P = 1 % c.twisted.P) (x y : Int) (hx : 0 ≤ x ∧ x < c.twisted.P) (hy : 0 ≤ y ∧ y < c.twisted.P) :
    fromTwisted c zinv (toTwisted c x y).1 (toTwisted c x y).2 = (x, y) ∧ toTwisted c (fromTwisted c zinv x y).1 (fromTwisted c zinv x y).2 = (x, y) := by
  have key (n : Nat) (v a b : Int) (hv : 0 ≤ v ∧ v < c.twisted.P) (hab : (a * b) % c.twisted.P = 1 % c.twisted.P) : v * (a ^ n % c.twisted.P) % c.twisted.P * (b ^ n % c.twisted.P) % c.twisted.P = v := by
    have h1 : v * (a ^ n % c.twisted.P) % c.twisted.P * (b ^ n % c.twisted.P) ≡ v * (a ^ n) * (b ^ n) [ZMOD c.twisted.P] :=
      ((Int.mod_modEq _ _).trans ((Int.ModEq.refl v).mul (Int.mod_modEq _ _))).mul (Int.mod_modEq _ _)
    have h2 : v * a ^ n * b ^ n ≡ v [ZMOD c.twisted.P] := by
      rw [mul_assoc, ← mul_pow]
      have : (a * b) ≡ 1 [ZMOD c.twisted.P] := hab
      have := (Int.ModEq.refl v).mul (this.pow n)
      rwa [one_pow, mul_one] at this
    have := h1.trans h2
    rw [Int.ModEq, Int.emod_eq_of_lt hv.1 hv.2] at this
    exact this
  constructor
  · simp only [fromTwisted, toTwisted]
    rw [key 2 x _ _ hx hz, key 3 y _ _ hy hz]
  · simp only [fromTwisted, toTwisted]
    rw [key 2 x _ _ hx (by rw [mul_comm]; exact hz), key 3 y _ _ hy (by rw [mul_comm]; exact hz)]

/-- C115. `toTwisted` is an isomorphism of curves: a point of `y² = x³ + ax + b` becomes one of `y² = x³ + a z⁴ x + b z⁶`, and only those do. -/
theorem C115_twist_curve (c : RCurve) [hp : Fact c.twisted.P.Prime] (hz : (c.z : ZMod c.twisted.P) ≠ 0) (a b x y : Int) :
    (y : ZMod c.twisted.P) ^ 2 = x ^ 3 + a * x + b ↔
    ((toTwisted c x y).2 : ZMod c.twisted.P) ^ 2 = ((toTwisted c x y).1 : ZMod c.twisted.P) ^ 3 + (a * c.z ^ 4) * ((toTwisted c x y).1 : ZMod c.twisted.P) + b * c.z ^ 6 := by
  simp only [toTwisted, ZMod.intCast_mod, Int.cast_mul, Int.cast_pow, Int.cast_natCast]
  constructor
  · intro h; linear_combination c.z ^ 6 * h
  · intro h
    have h6 : (c.z : ZMod c.twisted.P) ^ 6 ≠ 0 := pow_ne_zero _ hz
    apply mul_left_cancel₀ h6
    linear_combination h

/-- C115. For the seven curves brainpoolP…r1 the base point corresponds to the base point of the other curve, so that `ScalarBaseMult` gives the
multiples of the base point of `Params`. -/
theorem C115_brainpool : ∀ c ∈ brainpoolR, toTwisted c c.Gx c.Gy = ((c.twisted.Gx : Int), (c.twisted.Gy : Int)) ∧ c.twisted ∈ prime := by
  intro c hc
  constructor
  · revert c; decide +kernel
  · simp only [brainpoolR, List.mem_cons, List.not_mem_nil, or_false] at hc
    rcases hc with rfl | rfl | rfl | rfl | rfl | rfl | rfl <;> simp [prime, brainpoolP160r1, brainpoolP192r1, brainpoolP224r1, brainpoolP256r1, brainpoolP320r1, brainpoolP384r1, brainpoolP512r1]

/-- C115, violation: for the curves numsp256t1, numsp384t1 and numsp512t1 the base point does not become the base point of the other curve, and not even
a point of it: `IsOnCurve` is false for the base point in `Params`, and `ScalarBaseMult` of one is another point. -/
theorem C115_nums_violated : ∀ c ∈ numsT, toTwisted c c.Gx c.Gy ≠ ((c.twisted.Gx : Int), (c.twisted.Gy : Int)) ∧
    Jac.onCurve (sw c.twisted) (toTwisted c c.Gx c.Gy).1 (toTwisted c c.Gx c.Gy).2 = false := by decide +kernel

/-! ### Curves over binary fields -/

/-- C115. For 64 named curves over binary fields the base point is on the curve according to `IsOnCurve`, the numbers are reduced and the size is that
of the field. -/
theorem C115_binary_partial : ∀ c ∈ binary, isOnCurve c.1 c.1.Gx c.1.Gy = .ok true ∧ bitLen c.1.F = c.2 + 1 ∧ bitLen c.1.Gx < bitLen c.1.F ∧ bitLen c.1.Gy < bitLen c.1.F ∧
    bitLen c.1.A < bitLen c.1.F ∧ bitLen c.1.B < bitLen c.1.F ∧ c.1.B ≠ 0 := by decide +kernel

/-- C115, violation: four curves of elliptic/x962 have a base point with second coordinate zero and a first one that is too long (a compressed point was
taken for it); `IsOnCurve` panics for it. -/
theorem C115_binary_violated : ∀ c ∈ badBinary, c.Gy = 0 ∧ bitLen c.F ≤ bitLen c.Gx ∧ isOnCurve c c.Gx c.Gy = .panic := by decide +kernel


/-- The hypotheses of `C115_twist` and `C115_twist_curve` on a small curve with the same maps. -/
def toyR : RCurve := ⟨⟨11, 13, 6, 2, 4, 4⟩, 2, 4, 3⟩

instance : Fact toyR.twisted.P.Prime := ⟨by decide⟩

example : toTwisted toyR 2 4 = (7, 9) ∧ fromTwisted toyR 4 7 9 = (2, 4) := by decide
example : fromTwisted toyR 4 (toTwisted toyR 2 4).1 (toTwisted toyR 2 4).2 = (2, 4) := (C115_twist toyR 4 (by decide) 2 4 (by decide) (by decide)).1
example : (toyR.z : ZMod toyR.twisted.P) ≠ 0 := by decide
example : secpSecp112r1 ∈ prime ∧ bignP512v1 ∈ prime ∧ brainpoolP384r1 ∈ brainpoolR := by simp [prime, brainpoolR]

end Verif.Ell.Named
