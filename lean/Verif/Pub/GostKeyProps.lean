import Verif.Pub.GostProps
/-
C97: GOST keys and the VKO key agreement (pubkey/gost/gost.go, vko.go).  C98: the Edwards form of the curves
(pubkey/gost/edwards.go).
-/
namespace Verif.Pub.Gost
open Verif.Cipher Verif.Kdf WeierstrassCurve

variable {c : GCurve} [Fact c.P.Prime]

/-- C97. `NewPrivateKey` reads the number of the bytes, least significant first: an error for zero, a panic for the other
multiples of `q`, and otherwise that number with the public key `d·G`. -/
theorem C97_newPrivateKey_partial {G : Spec.Pt c} (hb : Base c G) (raw : Bytes) (d : Nat) (hd : d = setBytes raw.reverse) :
    (d = 0 → newPrivateKey c raw = .err) ∧
    (d ≠ 0 → c.Q ∣ d → newPrivateKey c raw = .panic) ∧
    (¬ c.Q ∣ d → ∃ x y, newPrivateKey c raw = .ok ⟨d, x, y⟩ ∧ Spec.Is c x y (d • G)) := by
  subst hd
  generalize hk : setBytes raw.reverse = k
  have hm := C95_scalarMult c hb.toGoodCurve hb.is hb.order k
  refine ⟨fun h => ?_, fun h0 h => ?_, fun h => ?_⟩
  · simp [newPrivateKey, newPriv, hk, h]
  · simp only [newPrivateKey, newPriv, hk, if_neg h0, scalarBaseMult, (hm.2 h).1]; rfl
  · have h0 : k ≠ 0 := fun e => h (e ▸ dvd_zero _)
    obtain ⟨x, y, he, hi⟩ := hm.1 h
    exact ⟨x, y, by simp [newPrivateKey, newPriv, hk, if_neg h0, scalarBaseMult, he], hi⟩

/-- C97, against the claim that every byte string gives a key or an error: the bytes of `q` make `NewPrivateKey` panic,
for every curve. -/
theorem C97_newPrivateKey_violated {G : Spec.Pt c} (hb : Base c G) : newPrivateKey c (natBytes c.Q).reverse = .panic := by
  refine (C97_newPrivateKey_partial hb _ c.Q ?_).2.1 hb.Q_prime.ne_zero (dvd_refl _)
  rw [List.reverse_reverse, setBytes_natBytes]

omit [Fact c.P.Prime] in
/-- C97. `PrivateKeyTo` gives back the bytes `NewPrivateKey` was given, for all `PointSize` bytes it
accepts. -/
theorem C97_keyRoundTrip (raw : Bytes) (hl : raw.length = pointSize c) (k : GKey) (h : newPrivateKey c raw = .ok k) :
    privateKeyTo c k = .ok raw := by
  have hk : k.d = setBytes raw.reverse := by
    rw [newPrivateKey, newPriv] at h
    simp only at h
    split at h
    · cases h
    revert h
    cases scalarBaseMult c (setBytes raw.reverse) <;> intro h <;> cases h
    rfl
  have hlt := setBytes_lt raw.reverse
  rw [List.length_reverse, hl] at hlt
  rw [privateKeyTo, hk, fillBytes_ok hlt]
  simp only [Res.bind_ok]
  have := hx_setBytes raw.reverse
  rw [List.length_reverse, hl] at this
  rw [this, List.reverse_reverse]

/-- C97. `NewPrivateKey` gives back every key of at most `PointSize` bytes that `PrivateKeyTo` wrote; `PrivateKeyTo` panics for
longer ones. -/
theorem C97_keyRoundTrip' {G : Spec.Pt c} (hb : Base c G) (k : GKey) (hq : ¬ c.Q ∣ k.d) (hk : Spec.Is c k.X k.Y (k.d • G)) :
    (k.d < 256 ^ pointSize c → ∃ raw, privateKeyTo c k = .ok raw ∧ raw.length = pointSize c ∧ newPrivateKey c raw = .ok k) ∧
    (256 ^ pointSize c ≤ k.d → privateKeyTo c k = .panic) := by
  constructor
  · intro h
    refine ⟨(hx (pointSize c) k.d).reverse, by rw [privateKeyTo, fillBytes_ok h]; rfl, by simp, ?_⟩
    obtain ⟨x, y, he, hi⟩ := (C97_newPrivateKey_partial hb (hx (pointSize c) k.d).reverse k.d
      (by rw [List.reverse_reverse, setBytes_hx _ _ h])).2.2 hq
    obtain ⟨e1, e2⟩ := hi.unique hk
    rw [he, e1, e2]
  · intro h
    rw [privateKeyTo, fillBytes_panic (by omega)]; rfl

/-- C97. `GenerateKey` needs `PointSize` bytes of the random source; unless their number is a multiple of `q`, it is the
private key. -/
theorem C97_generateKey {G : Spec.Pt c} (hb : Base c G) (rd : Bytes) :
    (rd.length < pointSize c → generateKey c rd = .err) ∧
    (pointSize c ≤ rd.length → ¬ c.Q ∣ setBytes (rd.take (pointSize c)) →
      ∃ x y, generateKey c rd = .ok ⟨setBytes (rd.take (pointSize c)), x, y⟩ ∧ Spec.Is c x y (setBytes (rd.take (pointSize c)) • G)) := by
  refine ⟨fun h => by rw [generateKey, if_pos h], fun h hq => ?_⟩
  rw [generateKey, if_neg (by omega)]
  have := (C97_newPrivateKey_partial hb (rd.take (pointSize c)).reverse _ (by rw [List.reverse_reverse])).2.2 hq
  rwa [newPrivateKey, List.reverse_reverse] at this

theorem kekPoint_is {G : Spec.Pt c} (hb : Base c G) (d1 d2 ukm : Nat) {x2 y2 : Int} (h2 : Spec.Is c x2 y2 (d2 • G)) (hd1 : ¬ c.Q ∣ d1)
    (hu : ¬ c.Q ∣ ukm * c.Co) :
    ∃ x y, kekPoint c d1 x2 y2 ukm = .ok (x, y) ∧ Spec.Is c x y ((ukm * c.Co * d1 * d2) • G) := by
  have h20 : c.Q • d2 • G = 0 := by rw [← mul_smul, mul_comm, mul_smul, hb.order, nsmul_zero]
  obtain ⟨x, y, he, hi⟩ := (C95_scalarMult c hb.toGoodCurve h2 h20 d1).1 hd1
  rw [kekPoint, he]
  simp only [Res.bind_ok]
  by_cases h1 : ukm * c.Co = 1
  · rw [if_neg (by simp [h1])]
    exact ⟨x, y, rfl, by rw [h1, one_mul, mul_smul]; exact hi⟩
  · rw [if_pos h1]
    have hi0 : c.Q • d1 • d2 • G = 0 := by rw [← mul_smul, mul_comm, mul_smul, h20, nsmul_zero]
    obtain ⟨u, v, hm, hj⟩ := (C95_scalarMult c hb.toGoodCurve hi hi0 (ukm * c.Co)).1 hu
    exact ⟨u, v, hm, by rw [mul_smul, mul_smul]; exact hj⟩

/-- C97. The key agreement: two parties with keys `d₁`, `d₂` that are not multiples of `q` obtain the same bytes from
`KEK` with the other's public key, for every curve and every user keying material that is not a multiple of `q`: the
coordinates of `ukm·cofactor·d₁·d₂·G`.  The same holds for `KEK2001`, `KEK2012256` and `KEK2012512`, which hash them. -/
theorem C97_agree {G : Spec.Pt c} (hb : Base c G) (hP : c.P ≤ 256 ^ pointSize c) (d1 d2 ukm : Nat) {x1 y1 x2 y2 : Int}
    (h1 : Spec.Is c x1 y1 (d1 • G)) (h2 : Spec.Is c x2 y2 (d2 • G)) (hu : ¬ c.Q ∣ ukm * c.Co) :
    ∃ x y, Spec.Is c x y ((ukm * c.Co * d1 * d2) • G) ∧
      kek c d1 x2 y2 ukm = .ok ((hx (pointSize c) x.toNat).reverse ++ (hx (pointSize c) y.toNat).reverse) ∧
      kek c d2 x1 y1 ukm = kek c d1 x2 y2 ukm ∧
      ∀ h b, kekHash c h b d2 x1 y1 ukm = kekHash c h b d1 x2 y2 ukm ∧
        (¬ (b = true ∧ pointSize c ≠ 32) →
          kekHash c h b d1 x2 y2 ukm = .ok (h ((hx (pointSize c) x.toNat).reverse ++ (hx (pointSize c) y.toNat).reverse))) := by
  have nd {d : Nat} {x y : Int} (h : Spec.Is c x y (d • G)) : ¬ c.Q ∣ d := fun hd => h.ne_zero
    ((smul_eq_zero_iff hb.Q_prime hb.is.ne_zero hb.order d).mpr hd)
  obtain ⟨x, y, hk, hi⟩ := kekPoint_is hb d1 d2 ukm h2 (nd h1) hu
  obtain ⟨x', y', hk', hi'⟩ := kekPoint_is hb d2 d1 ukm h1 (nd h2) hu
  rw [show ukm * c.Co * d2 * d1 = ukm * c.Co * d1 * d2 by ring] at hi'
  obtain ⟨rfl, rfl⟩ := hi'.unique hi
  have e1 : kek c d1 x2 y2 ukm = .ok ((hx (pointSize c) x'.toNat).reverse ++ (hx (pointSize c) y'.toNat).reverse) := by
    rw [kek, hk]; exact (C95_marshal c hi hP).1
  have e2 : kek c d2 x1 y1 ukm = kek c d1 x2 y2 ukm := by rw [kek, hk', kek, hk]
  refine ⟨x', y', hi, e1, e2, fun h b => ⟨?_, fun hb => ?_⟩⟩
  · rw [kekHash, kekHash, e2]
  · rw [kekHash, if_neg (by simpa using hb), e1]; rfl

/-- C97, against the claim that the key agreement has a result or an error for all inputs: user keying material that is
zero modulo `q` makes it panic. -/
theorem C97_ukm_violated {G : Spec.Pt c} (hb : Base c G) (d1 d2 ukm : Nat) {x2 y2 : Int} (h2 : Spec.Is c x2 y2 (d2 • G)) (hd1 : ¬ c.Q ∣ d1)
    (hu : c.Q ∣ ukm * c.Co) : kek c d1 x2 y2 ukm = .panic := by
  have h20 : c.Q • d2 • G = 0 := by rw [← mul_smul, mul_comm, mul_smul, hb.order, nsmul_zero]
  obtain ⟨x, y, he, hi⟩ := (C95_scalarMult c hb.toGoodCurve h2 h20 d1).1 hd1
  have hi0 : c.Q • d1 • d2 • G = 0 := by rw [← mul_smul, mul_comm, mul_smul, h20, nsmul_zero]
  have hm := ((C95_scalarMult c hb.toGoodCurve hi hi0 (ukm * c.Co)).2 hu).1
  have h1 : ukm * c.Co ≠ 1 := fun h => by rw [h] at hu; exact hb.Q_prime.one_lt.ne' (Nat.dvd_one.mp hu)
  rw [kek, kekPoint, he]
  simp only [Res.bind_ok, if_pos h1, hm]
  rfl

example : newPrivateKey toyC ([3] : Bytes) = .ok ⟨3, 8, 8⟩ ∧ newPrivateKey toyC ([16] : Bytes) = .ok ⟨16, 8, 8⟩ ∧ newPrivateKey toyC ([13] : Bytes) = .panic ∧
    newPrivateKey toyC ([0] : Bytes) = .err := by decide +kernel
example : kek toyC 3 10 9 2 = kek toyC 4 8 8 2 ∧ kek toyC 3 10 9 2 = .ok ((hx 32 5).reverse ++ (hx 32 2).reverse) ∧ kek toyC 3 10 9 13 = .panic := by
  decide +kernel
example : ¬ toyC.Q ∣ 2 * toyC.Co ∧ toyC.P ≤ 256 ^ pointSize toyC := by decide +kernel

/-! ### C98 -/

namespace Spec
/-- `s = (e − d)/4` and `t = (e + d)/6`, the parameters of the change of coordinates (RFC 7836). -/
def S (c : GCurve) [Fact c.P.Prime] (e d : Int) : ZMod c.P := (e - d) / 4
def T (c : GCurve) [Fact c.P.Prime] (e d : Int) : ZMod c.P := (e + d) / 6
end Spec

theorem small_ne_zero (h3 : 3 < c.P) : ((4 : Int) : ZMod c.P) ≠ 0 ∧ ((6 : Int) : ZMod c.P) ≠ 0 := by
  have hp : c.P.Prime := Fact.out
  constructor
  · rw [Ne, ZMod.intCast_zmod_eq_zero_iff_dvd]
    intro h
    have : c.P ∣ 2 ^ 2 := by exact_mod_cast h
    have := Nat.le_of_dvd (by decide) (hp.dvd_of_dvd_pow this)
    omega
  · rw [Ne, ZMod.intCast_zmod_eq_zero_iff_dvd]
    intro h
    have : c.P ∣ 2 * 3 := by exact_mod_cast h
    rcases hp.dvd_mul.mp this with h | h <;> have := Nat.le_of_dvd (by decide) h <;> omega

theorem edwardsST_cast (h3 : 3 < c.P) (e d : Int) :
    ((edwardsST c e d).1 : ZMod c.P) = Spec.S c e d ∧ ((edwardsST c e d).2 : ZMod c.P) = Spec.T c e d := by
  obtain ⟨h4, h6⟩ := small_ne_zero h3
  have hp : c.P.Prime := Fact.out
  have hpos (z : Int) : (pos c z : ZMod c.P) = z := by rw [pos]; split <;> simp
  simp only [edwardsST]
  rw [cast_emod, cast_emod, Int.cast_mul, Int.cast_mul, modInverse_inv _ _ h4, modInverse_inv _ _ h6, hpos]
  push_cast
  exact ⟨(div_eq_mul_inv _ _).symm, (div_eq_mul_inv _ _).symm⟩

theorem pos_cast (z : Int) : (pos c z : ZMod c.P) = z := by rw [pos]; split <;> simp

/-- C98. `XY2UV` computes `u = (x − t)/y` and `v = (x − t − s)/(x − t + s)` modulo `p`. -/
theorem C98_xy2uv (h3 : 3 < c.P) (e d x y : Int) (hy : (y : ZMod c.P) ≠ 0) (hx : (x : ZMod c.P) - Spec.T c e d + Spec.S c e d ≠ 0) :
    ∃ u v, xy2uv c e d x y = (u, v) ∧ 0 ≤ u ∧ u < c.P ∧ 0 ≤ v ∧ v < c.P ∧ (u : ZMod c.P) = (x - Spec.T c e d) / y ∧
      (v : ZMod c.P) = (x - Spec.T c e d - Spec.S c e d) / (x - Spec.T c e d + Spec.S c e d) := by
  have hp : c.P.Prime := Fact.out
  obtain ⟨hS, hT⟩ := edwardsST_cast h3 e d
  rcases hst : edwardsST c e d with ⟨S0, T0⟩
  simp only [hst] at hS hT
  simp only [xy2uv, hst]
  refine ⟨_, _, rfl, (mod_range hp.pos _).1, (mod_range hp.pos _).2, (mod_range hp.pos _).1, (mod_range hp.pos _).2, ?_, ?_⟩
  · rw [cast_emod, Int.cast_mul, modInverse_inv _ _ hy, pos_cast]
    push_cast
    rw [hT]; ring
  · have hc : ((pos c (x - T0) + S0 : Int) : ZMod c.P) = x - Spec.T c e d + Spec.S c e d := by
      rw [Int.cast_add, pos_cast]; push_cast; rw [hS, hT]
    rw [cast_emod, Int.cast_mul, modInverse_inv _ _ (by rw [hc]; exact hx), hc, pos_cast, Int.cast_sub, pos_cast]
    push_cast
    rw [hS, hT]; ring

/-- C98. `UV2XY` computes `x = s(1 + v)/(1 − v) + t` and `y = s(1 + v)/(u(1 − v))` modulo `p`. -/
theorem C98_uv2xy (h3 : 3 < c.P) (e d u v : Int) (hu : (u : ZMod c.P) ≠ 0) (hv : (v : ZMod c.P) ≠ 1) :
    ∃ x y, uv2xy c e d u v = (x, y) ∧ 0 ≤ x ∧ x < c.P ∧ 0 ≤ y ∧ y < c.P ∧ (x : ZMod c.P) = Spec.S c e d * (1 + v) / (1 - v) + Spec.T c e d ∧
      (y : ZMod c.P) = Spec.S c e d * (1 + v) / (u * (1 - v)) := by
  have hp : c.P.Prime := Fact.out
  obtain ⟨hS, hT⟩ := edwardsST_cast h3 e d
  rcases hst : edwardsST c e d with ⟨S0, T0⟩
  simp only [hst] at hS hT
  simp only [uv2xy, hst]
  have h1 : ((pos c (1 - v) : Int) : ZMod c.P) = 1 - v := by rw [pos_cast]; push_cast; rfl
  have hv1 : (1 : ZMod c.P) - v ≠ 0 := sub_ne_zero.mpr (Ne.symm hv)
  refine ⟨_, _, rfl, (mod_range hp.pos _).1, (mod_range hp.pos _).2, (mod_range hp.pos _).1, (mod_range hp.pos _).2, ?_, ?_⟩
  · rw [cast_emod, Int.cast_add, Int.cast_mul, modInverse_inv _ _ (by rw [h1]; exact hv1), h1, cast_emod]
    push_cast
    rw [hS, hT]; ring
  · have hc : ((u * pos c (1 - v) : Int) : ZMod c.P) = u * (1 - v) := by rw [Int.cast_mul, h1]
    rw [cast_emod, Int.cast_mul, modInverse_inv _ _ (by rw [hc]; exact mul_ne_zero hu hv1), hc, cast_emod]
    push_cast
    rw [hS]; ring

theorem two_ne' (h3 : 3 < c.P) : (2 : ZMod c.P) ≠ 0 := by
  obtain ⟨h4, _⟩ := small_ne_zero h3
  intro h
  apply h4
  push_cast
  rw [show (4 : ZMod c.P) = 2 * 2 by norm_num, h, zero_mul]

/-- C98. The conversions are inverse to each other.  From `x`, `y` to `u`, `v` and back, for coordinates in range with
`y ≠ 0`, `x ≠ t`, `x ≠ t − s`. -/
theorem C98_xy_uv_xy (h3 : 3 < c.P) (e d x y : Int) (hx0 : 0 ≤ x) (hx1 : x < c.P) (hy0 : 0 < y) (hy1 : y < c.P) (hS : Spec.S c e d ≠ 0)
    (hxt : (x : ZMod c.P) ≠ Spec.T c e d) (hxs : (x : ZMod c.P) - Spec.T c e d + Spec.S c e d ≠ 0) :
    uv2xy c e d (xy2uv c e d x y).1 (xy2uv c e d x y).2 = (x, y) := by
  have h2 := two_ne' h3
  have hy : (y : ZMod c.P) ≠ 0 := by
    rw [Ne, ZMod.intCast_zmod_eq_zero_iff_dvd]
    intro h; have := Int.le_of_dvd hy0 h; omega
  have hw : (x : ZMod c.P) - Spec.T c e d ≠ 0 := sub_ne_zero.mpr hxt
  obtain ⟨u, v, he, -, -, -, -, hu, hv⟩ := C98_xy2uv h3 e d x y hy hxs
  rw [he]
  have h1v : (1 : ZMod c.P) - v = 2 * Spec.S c e d / (x - Spec.T c e d + Spec.S c e d) := by
    rw [hv]; field_simp; ring
  have h1v' : (1 : ZMod c.P) + v = 2 * (x - Spec.T c e d) / (x - Spec.T c e d + Spec.S c e d) := by
    rw [hv]; field_simp; ring
  have hv1 : (v : ZMod c.P) ≠ 1 := by
    intro h
    rw [h, sub_self] at h1v
    exact div_ne_zero (mul_ne_zero h2 hS) hxs h1v.symm
  obtain ⟨x', y', he', g1, g2, g3, g4, ex, ey⟩ := C98_uv2xy h3 e d u v (by rw [hu]; exact div_ne_zero hw hy) hv1
  rw [he']
  rw [h1v, h1v'] at ex ey
  rw [hu] at ey
  have ex' : (x' : ZMod c.P) = x := by rw [ex]; field_simp; ring
  have ey' : (y' : ZMod c.P) = y := by rw [ey]; field_simp
  rw [cast_inj g1 g2 hx0 hx1 ex', cast_inj g3 g4 (by omega) hy1 ey']

/-- C98. From `u`, `v` to `x`, `y` and back, for coordinates in range with `u ≠ 0`, `v ≠ 1`, `v ≠ −1`. -/
theorem C98_uv_xy_uv (h3 : 3 < c.P) (e d u v : Int) (hu0 : 0 < u) (hu1 : u < c.P) (hv0 : 0 ≤ v) (hv1 : v < c.P) (hS : Spec.S c e d ≠ 0)
    (hv : (v : ZMod c.P) ≠ 1) (hv' : (v : ZMod c.P) ≠ -1) :
    xy2uv c e d (uv2xy c e d u v).1 (uv2xy c e d u v).2 = (u, v) := by
  have h2 := two_ne' h3
  have hu : (u : ZMod c.P) ≠ 0 := by
    rw [Ne, ZMod.intCast_zmod_eq_zero_iff_dvd]
    intro h; have := Int.le_of_dvd hu0 h; omega
  have ha : (1 : ZMod c.P) - v ≠ 0 := sub_ne_zero.mpr (Ne.symm hv)
  have hb : (1 : ZMod c.P) + v ≠ 0 := fun h => hv' (eq_neg_of_add_eq_zero_right h)
  obtain ⟨x, y, he, -, -, -, -, hx, hy⟩ := C98_uv2xy h3 e d u v hu hv
  rw [he]
  have hw : (x : ZMod c.P) - Spec.T c e d + Spec.S c e d = 2 * Spec.S c e d / (1 - v) := by rw [hx]; field_simp; ring
  have hw' : (x : ZMod c.P) - Spec.T c e d - Spec.S c e d = 2 * Spec.S c e d * v / (1 - v) := by rw [hx]; field_simp; ring
  obtain ⟨u', v', he', g1, g2, g3, g4, eu, ev⟩ := C98_xy2uv h3 e d x y (by rw [hy]; exact div_ne_zero (mul_ne_zero hS hb) (mul_ne_zero hu ha))
    (by rw [hw]; exact div_ne_zero (mul_ne_zero h2 hS) ha)
  rw [he']
  rw [hw, hw'] at ev
  rw [hx, hy] at eu
  have eu' : (u' : ZMod c.P) = u := by rw [eu]; field_simp; ring
  have ev' : (v' : ZMod c.P) = v := by rw [ev]; field_simp
  rw [cast_inj g1 g2 (by omega) hu1 eu', cast_inj g3 g4 hv0 hv1 ev']

/-- C98. The conversion takes the Weierstrass curve to the Edwards curve: for a curve whose coefficients are
`a = s² − 3t²` and `b = 2t³ − ts²`, the point `(x, y)` satisfies `y² = x³ + ax + b` if and only if the converted
`(u, v)` satisfies `e·u² + v² = 1 + d·u²v²`. -/
theorem C98_equation (h3 : 3 < c.P) (e d x y : Int) (hy : (y : ZMod c.P) ≠ 0) (hS : Spec.S c e d ≠ 0)
    (hxt : (x : ZMod c.P) ≠ Spec.T c e d) (hxs : (x : ZMod c.P) - Spec.T c e d + Spec.S c e d ≠ 0)
    (hA : (c.A : ZMod c.P) = Spec.S c e d ^ 2 - 3 * Spec.T c e d ^ 2) (hB : (c.B : ZMod c.P) = 2 * Spec.T c e d ^ 3 - Spec.T c e d * Spec.S c e d ^ 2)
    (u v : Int) (huv : xy2uv c e d x y = (u, v)) :
    (y : ZMod c.P) ^ 2 = x ^ 3 + c.A * x + c.B ↔ (e : ZMod c.P) * u ^ 2 + v ^ 2 = 1 + d * u ^ 2 * v ^ 2 := by
  obtain ⟨h4, h6⟩ := small_ne_zero h3
  push_cast at h4 h6
  have hw : (x : ZMod c.P) - Spec.T c e d ≠ 0 := sub_ne_zero.mpr hxt
  obtain ⟨u', v', he, -, -, -, -, hu, hv⟩ := C98_xy2uv h3 e d x y hy hxs
  rw [huv] at he
  obtain ⟨rfl, rfl⟩ := he
  have hed : (e : ZMod c.P) - d = 4 * Spec.S c e d := by rw [Spec.S]; field_simp
  have hed' : (e : ZMod c.P) + d = 6 * Spec.T c e d := by rw [Spec.T]; field_simp
  rw [hA, hB, hu, hv]
  generalize hs : Spec.S c e d = s at *
  generalize ht : Spec.T c e d = t at *
  obtain ⟨w, hw'⟩ : ∃ w, (x : ZMod c.P) - t = w := ⟨_, rfl⟩
  have hx : (x : ZMod c.P) = w + t := by rw [← hw']; ring
  rw [hw'] at hw hxs ⊢
  rw [hx]
  generalize (y : ZMod c.P) = y at *
  generalize (e : ZMod c.P) = e at *
  generalize (d : ZMod c.P) = d at *
  have k1 : (w + t) ^ 3 + (s ^ 2 - 3 * t ^ 2) * (w + t) + (2 * t ^ 3 - t * s ^ 2) = w * (w ^ 2 + 3 * t * w + s ^ 2) := by ring
  rw [k1]
  have k2 : (e * (w / y) ^ 2 + ((w - s) / (w + s)) ^ 2) - (1 + d * (w / y) ^ 2 * ((w - s) / (w + s)) ^ 2) =
      4 * s * w * (w * (w ^ 2 + 3 * t * w + s ^ 2) - y ^ 2) / (y ^ 2 * (w + s) ^ 2) := by
    rw [eq_div_iff (mul_ne_zero (pow_ne_zero 2 hy) (pow_ne_zero 2 hxs))]
    field_simp
    linear_combination (w ^ 2 + s ^ 2) * w ^ 2 * hed + 2 * w * s * w ^ 2 * hed'
  constructor
  · intro h
    rw [← sub_eq_zero, k2, h, sub_self, mul_zero, zero_div]
  · intro h
    rw [← sub_eq_zero, k2, div_eq_zero_iff] at h
    rcases h with h | h
    · have := (mul_eq_zero.mp h).resolve_left (mul_ne_zero (mul_ne_zero h4 hS) hw)
      rw [← sub_eq_zero, ← neg_eq_zero, neg_sub]; exact this
    · exact absurd h (mul_ne_zero (pow_ne_zero 2 hy) (pow_ne_zero 2 hxs))

/-- The curve `y² = x³ + 7x + 5` over the integers modulo 11, the Edwards curve with `e = 1`, `d = 7`. -/
def toyEd : GCurve := { P := 11, Q := 0, A := 7, B := 5, X := 0, Y := 4, Co := 4 }

instance : Fact toyEd.P.Prime := ⟨by decide⟩

theorem toyEd_ST : Spec.S toyEd 1 7 = 4 ∧ Spec.T toyEd 1 7 = 5 :=
  ⟨by rw [Spec.S, div_eq_iff (by decide)]; decide, by rw [Spec.T, div_eq_iff (by decide)]; decide⟩

example : xy2uv toyEd 1 7 3 3 = (3, 8) ∧ uv2xy toyEd 1 7 3 8 = (3, 3) ∧ Spec.S toyEd 1 7 ≠ 0 ∧ ((3 : Int) : ZMod toyEd.P) ≠ Spec.T toyEd 1 7 ∧
    ((3 : Int) : ZMod toyEd.P) - Spec.T toyEd 1 7 + Spec.S toyEd 1 7 ≠ 0 ∧
    (toyEd.A : ZMod toyEd.P) = Spec.S toyEd 1 7 ^ 2 - 3 * Spec.T toyEd 1 7 ^ 2 ∧
    (toyEd.B : ZMod toyEd.P) = 2 * Spec.T toyEd 1 7 ^ 3 - Spec.T toyEd 1 7 * Spec.S toyEd 1 7 ^ 2 := by
  rw [toyEd_ST.1, toyEd_ST.2]; decide +kernel

end Verif.Pub.Gost
