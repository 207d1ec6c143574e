import Verif.Pub.GostCurveProps
/-
C96: GOST R 34.10 signatures (pubkey/gost/gost.go).  The specification is RFC 7091, stated with the group of points of the
curve (Mathlib) and the field of integers modulo the order `Q`.
-/
namespace Verif.Pub.Gost
open Verif.Cipher Verif.Kdf WeierstrassCurve

/-- The base point: the coordinates `X`, `Y` of the curve are those of a point `G` of order `Q`, an odd prime. -/
structure Base (c : GCurve) [Fact c.P.Prime] (G : Spec.Pt c) : Prop extends GoodCurve c where
  is : Spec.Is c c.X c.Y G
  order : c.Q • G = 0

namespace Spec

/-- The number of the digest (its first byte is the least significant), with 1 for 0. -/
def e (c : GCurve) (digest : Bytes) : ZMod c.Q :=
  let h : ZMod c.Q := (setBytes digest.reverse : Nat)
  if h = 0 then 1 else h

/-- A valid signature: `0 < r < q`, `0 < s < q`, and `r` is the x-coordinate modulo `q` of the point
`(s/e)·G − (r/e)·Q`, which is not the point at infinity. -/
def Valid (c : GCurve) [Fact c.P.Prime] [Fact c.Q.Prime] (G K : Pt c) (digest : Bytes) (r s : Int) : Prop :=
  0 < r ∧ r < c.Q ∧ 0 < s ∧ s < c.Q ∧
  ∃ u v : Nat, (u : ZMod c.Q) = s / e c digest ∧ (v : ZMod c.Q) = -r / e c digest ∧
    ∃ x y, Is c x y (u • G + v • K) ∧ r = x % c.Q

end Spec

variable {c : GCurve} [Fact c.P.Prime] [hQ : Fact c.Q.Prime]

theorem smul_congr' {G : Spec.Pt c} (hG : c.Q • G = 0) {a b : Nat} (h : (a : ZMod c.Q) = b) : a • G = b • G := by
  have h := (ZMod.natCast_eq_natCast_iff' a b c.Q).mp h
  rw [← mod_smul hG a, h, mod_smul hG b]

theorem smul_inj' {G : Spec.Pt c} (hb : Base c G) {a b : Nat} (h : a • G = b • G) : (a : ZMod c.Q) = b := by
  wlog hab : a ≤ b
  · exact (this hb h.symm (by omega)).symm
  obtain ⟨d, rfl⟩ := Nat.exists_eq_add_of_le hab
  rw [add_smul] at h
  have h0 : d • G = 0 := left_eq_add.mp h
  have := (smul_eq_zero_iff hb.Q_prime hb.is.ne_zero hb.order d).mp h0
  rw [← ZMod.natCast_eq_zero_iff] at this
  rw [Nat.cast_add, this, add_zero]

omit [Fact c.P.Prime] in
theorem e_ne_zero' (digest : Bytes) : Spec.e c digest ≠ 0 := by
  have : (1 : ZMod c.Q) ≠ 0 := one_ne_zero
  rw [Spec.e]
  generalize (setBytes digest.reverse : ZMod c.Q) = h
  by_cases h0 : h = 0
  · simp [h0]
  · simp [h0]

omit [Fact c.P.Prime] in
theorem digestInt_cast (digest : Bytes) : (digestInt c digest : ZMod c.Q) = Spec.e c digest := by
  rw [digestInt, Spec.e]
  generalize setBytes digest.reverse = b
  by_cases h : b % c.Q = 0
  · have : ((b : Nat) : ZMod c.Q) = 0 := by rw [ZMod.natCast_eq_zero_iff]; exact Nat.dvd_of_mod_eq_zero h
    simp [h, this]
  · have : ¬ ((b : Nat) : ZMod c.Q) = 0 := by
      rw [ZMod.natCast_eq_zero_iff]; exact fun hd => h (Nat.mod_eq_zero_of_dvd hd)
    simp [h, this, ZMod.natCast_mod]

omit hQ in
/-- The x-coordinate that `VerifyWithRS` computes is that of the sum, unless the two points are equal or opposite. -/
theorem lmOf_is {p1x p1y q1x q1y : Int} {a b : Spec.Pt c} (ha : Spec.Is c p1x p1y a) (hb : Spec.Is c q1x q1y b) (h1 : a ≠ b) (h2 : a ≠ -b) :
    ∃ x y, Spec.Is c x y (a + b) ∧ lmOf c p1x p1y q1x q1y = x % c.Q := by
  have hab : a + b ≠ 0 := fun h => h2 (eq_neg_of_add_eq_zero_left h)
  have hsum := add_is c ha hb hab
  refine ⟨_, _, hsum, ?_⟩
  have hp : c.P.Prime := Fact.out
  obtain ⟨hx1, hx1', hy1, hy1', g1, rfl⟩ := ha
  obtain ⟨hx2, hx2', hy2, hy2', g2, rfl⟩ := hb
  have hx : (p1x : ZMod c.P) ≠ q1x := by
    intro hx
    rcases Affine.Point.X_eq_iff (h₁ := g1) (h₂ := g2) |>.mp hx with h | h
    · exact h1 h
    · exact h2 h
  have hne : ¬ (p1x = q1x ∧ p1y = q1y) := fun h => hx (by rw [h.1])
  have hd : (q1x : ZMod c.P) - p1x ≠ 0 := sub_ne_zero.mpr (Ne.symm hx)
  simp only [lmOf, add, slopeOf, if_neg hne, pos_mod c hp.pos]
  have hl0 : (((if q1x - p1x < 0 then q1x - p1x + c.P else q1x - p1x : Int)) : ZMod c.P) = (q1x : ZMod c.P) - p1x := by
    split <;> push_cast <;> simp
  generalize (if q1x - p1x < 0 then q1x - p1x + (c.P : Int) else q1x - p1x) = l0 at hl0 ⊢
  have hl : (modInverse l0 l0 c.P : ZMod c.P) = ((q1x : ZMod c.P) - p1x)⁻¹ := by
    rw [modInverse_inv _ _ (by rw [hl0]; exact hd), hl0]
  have ht : (modInverse 0 ((q1x - p1x) % c.P) c.P : ZMod c.P) = ((q1x : ZMod c.P) - p1x)⁻¹ := by
    rw [modInverse_inv _ _ (by rw [cast_emod]; push_cast; exact hd), cast_emod]; push_cast; rfl
  congr 1
  generalize modInverse l0 l0 c.P = m1 at hl
  generalize modInverse 0 ((q1x - p1x) % c.P) c.P = m2 at ht
  rw [if_neg (by have := mod_range hp.pos (m1 * (q1y - p1y) % c.P * (m1 * (q1y - p1y) % c.P) % c.P - p1x - q1x); omega)]
  rw [← ZMod.intCast_eq_intCast_iff']
  push_cast [cast_emod]
  rw [hl, ht]

omit hQ in
/-- For equal or opposite points it is `−2x` instead. -/
theorem lmOf_same {p1x p1y q1x q1y : Int} {a b : Spec.Pt c} (ha : Spec.Is c p1x p1y a) (hb : Spec.Is c q1x q1y b) (h : a = b ∨ a = -b) :
    lmOf c p1x p1y q1x q1y = (-2 * p1x) % c.P % c.Q := by
  have hp : c.P.Prime := Fact.out
  obtain ⟨hx1, hx1', hy1, hy1', g1, rfl⟩ := ha
  obtain ⟨hx2, hx2', hy2, hy2', g2, rfl⟩ := hb
  have hx : (p1x : ZMod c.P) = q1x := (Affine.Point.X_eq_iff (h₁ := g1) (h₂ := g2)).mpr h
  obtain rfl := cast_inj hx1 hx1' hx2 hx2' hx
  simp only [lmOf, sub_self, lt_irrefl, if_false]
  rw [modInverse_none hp 0 0 (by simp)]
  simp only [zero_mul, Int.zero_emod, zero_sub]
  rw [if_neg (by have := mod_range hp.pos (-p1x - p1x); omega)]
  congr 2
  ring

omit [Fact c.P.Prime] in
/-- The scalars of `VerifyWithRS`. -/
theorem verify_scalars (digest : Bytes) {r s : Int} (hr0 : 0 < r) (hr : r < c.Q) (hs0 : 0 < s) (hs : s < c.Q) :
    let v := modInverse 0 (digestInt c digest) c.Q
    ((s * v % c.Q).natAbs : ZMod c.Q) = s / Spec.e c digest ∧ ((c.Q - r * v % c.Q : Int).natAbs : ZMod c.Q) = -r / Spec.e c digest ∧
    ¬ c.Q ∣ (s * v % c.Q).natAbs ∧ ¬ c.Q ∣ (c.Q - r * v % c.Q : Int).natAbs := by
  have hq := hQ.out
  have he := e_ne_zero' (c := c) digest
  have hne : ((digestInt c digest : Int) : ZMod c.Q) ≠ 0 := by rw [Int.cast_natCast, digestInt_cast]; exact he
  have hv := modInverse_inv (n := c.Q) 0 (digestInt c digest) hne
  rw [Int.cast_natCast, digestInt_cast] at hv
  intro v
  have hnz {z : Int} (h0 : 0 < z) (h1 : z < c.Q) : (z : ZMod c.Q) ≠ 0 := by
    rw [Ne, ZMod.intCast_zmod_eq_zero_iff_dvd]
    intro h
    have := Int.le_of_dvd h0 h
    omega
  have hcast {z : Int} (h : 0 ≤ z) : ((z.natAbs : Nat) : ZMod c.Q) = z := by
    conv_rhs => rw [← Int.natAbs_of_nonneg h]
    rw [Int.cast_natCast]
  have e1 : ((s * v % c.Q).natAbs : ZMod c.Q) = s / Spec.e c digest := by
    rw [hcast (mod_range hq.pos _).1, cast_emod, Int.cast_mul, hv, div_eq_mul_inv]
  have e2 : ((c.Q - r * v % c.Q : Int).natAbs : ZMod c.Q) = -r / Spec.e c digest := by
    have := mod_range hq.pos (r * v)
    rw [hcast (by omega), Int.cast_sub, cast_emod, Int.cast_mul, hv]
    rw [Int.cast_natCast, ZMod.natCast_self, zero_sub, neg_div, div_eq_mul_inv]
  refine ⟨e1, e2, ?_, ?_⟩
  · rw [← ZMod.natCast_eq_zero_iff, e1]; exact div_ne_zero (hnz hs0 hs) he
  · rw [← ZMod.natCast_eq_zero_iff, e2]; exact div_ne_zero (neg_ne_zero.mpr (hnz hr0 hr)) he

/-- `VerifyWithRS` in range: the x-coordinate computed from `u·G` and `v·K`. -/
theorem verify_points {G : Spec.Pt c} (hb : Base c G) {K : Spec.Pt c} {X Y : Int} (hK : Spec.Is c X Y K) (hK0 : c.Q • K = 0) (digest : Bytes)
    {r s : Int} (hr0 : 0 < r) (hr : r < c.Q) (hs0 : 0 < s) (hs : s < c.Q) (u v : Nat)
    (hu : (u : ZMod c.Q) = s / Spec.e c digest) (hv : (v : ZMod c.Q) = -r / Spec.e c digest) :
    ∃ p1x p1y q1x q1y, Spec.Is c p1x p1y (u • G) ∧ Spec.Is c q1x q1y (v • K) ∧
      verifyWithRS c X Y digest r s = .ok (lmOf c p1x p1y q1x q1y == r) := by
  obtain ⟨e1, e2, n1, n2⟩ := verify_scalars digest hr0 hr hs0 hs
  obtain ⟨p1x, p1y, hp, hpi⟩ := (C95_scalarMult c hb.toGoodCurve hb.is hb.order _).1 n1
  obtain ⟨q1x, q1y, hq, hqi⟩ := (C95_scalarMult c hb.toGoodCurve hK hK0 _).1 n2
  rw [smul_congr' hb.order (e1.trans hu.symm)] at hpi
  rw [smul_congr' hK0 (e2.trans hv.symm)] at hqi
  refine ⟨p1x, p1y, q1x, q1y, hpi, hqi, ?_⟩
  rw [verifyWithRS, if_neg (by omega)]
  simp only [scalarBaseMult, hp, hq, Res.bind_ok]

/-- The two points added by verification are equal or opposite. -/
def Exceptional (c : GCurve) [Fact c.P.Prime] [Fact c.Q.Prime] (G K : Spec.Pt c) (digest : Bytes) (r s : Int) : Prop :=
  ∃ u v : Nat, (u : ZMod c.Q) = s / Spec.e c digest ∧ (v : ZMod c.Q) = -r / Spec.e c digest ∧ (u • G = v • K ∨ u • G = -(v • K))

/-- C96. `VerifyWithRS` has a verdict on all integers, public keys of the subgroup and digests, and it accepts exactly the
valid signatures as long as the two points it adds are neither equal nor opposite.  Missing from the full claim: these
two cases (`C96_double_violated`, `C96_infinity_violated`). -/
theorem C96_verify_partial {G : Spec.Pt c} (hb : Base c G) {K : Spec.Pt c} {X Y : Int} (hK : Spec.Is c X Y K) (hK0 : c.Q • K = 0) (digest : Bytes)
    (r s : Int) : ∃ b, verifyWithRS c X Y digest r s = .ok b ∧
      (¬ Exceptional c G K digest r s → (b = true ↔ Spec.Valid c G K digest r s)) := by
  by_cases hin : 0 < r ∧ r < c.Q ∧ 0 < s ∧ s < c.Q
  swap
  · rw [verifyWithRS, if_pos (by omega)]
    refine ⟨false, rfl, fun _ => ⟨fun h => by (cases h), ?_⟩⟩
    rintro ⟨h1, h2, h3, h4, _⟩; omega
  obtain ⟨hr0, hr, hs0, hs⟩ := hin
  obtain ⟨e1, e2, _, _⟩ := verify_scalars digest hr0 hr hs0 hs
  obtain ⟨p1x, p1y, q1x, q1y, hpi, hqi, hv⟩ := verify_points hb hK hK0 digest hr0 hr hs0 hs _ _ e1 e2
  refine ⟨_, hv, fun hex => ?_⟩
  obtain ⟨x, y, hxy, hl⟩ := lmOf_is hpi hqi (fun h => hex ⟨_, _, e1, e2, .inl h⟩) (fun h => hex ⟨_, _, e1, e2, .inr h⟩)
  rw [hl, beq_iff_eq]
  constructor
  · intro h
    exact ⟨hr0, hr, hs0, hs, _, _, e1, e2, x, y, hxy, h.symm⟩
  · rintro ⟨_, _, _, _, u', v', hu', hv', x', y', hxy', h⟩
    rw [smul_congr' hb.order (hu'.trans e1.symm), smul_congr' hK0 (hv'.trans e2.symm)] at hxy'
    rw [(hxy.unique hxy').1, h]

theorem signLoop_spec {G : Spec.Pt c} (hb : Base c G) (d e : Nat) : ∀ fuel rd, rd.length < fuel →
    signLoop c d e fuel rd = .err ∨ ∃ (k r s : Nat) (x y : Int), signLoop c d e fuel rd = .ok (r, s) ∧ Spec.Is c x y (k • G) ∧
      ¬ c.Q ∣ k ∧ (r : Int) = x % c.Q ∧ r ≠ 0 ∧ s ≠ 0 ∧ s < c.Q ∧ (s : ZMod c.Q) = d * r + k * e
  | 0, rd, h => by omega
  | fuel + 1, rd, h => by
    have hps : 0 < pointSize c := by rw [pointSize]; split <;> decide
    rw [signLoop]
    by_cases hl : rd.length < pointSize c
    · left; rw [if_pos hl]
    rw [if_neg hl]
    simp only
    have ih := signLoop_spec hb d e fuel (rd.drop (pointSize c)) (by simp; omega)
    generalize hk : setBytes (rd.take (pointSize c)) % c.Q = k
    have hkl : k < c.Q := by rw [← hk]; exact Nat.mod_lt _ hQ.out.pos
    by_cases h0 : k = 0
    · rw [if_pos h0]; exact ih
    rw [if_neg h0]
    have hd : ¬ c.Q ∣ k := Nat.not_dvd_of_pos_of_lt (by omega) hkl
    obtain ⟨x, y, hm, hi⟩ := (C95_scalarMult c hb.toGoodCurve hb.is hb.order k).1 hd
    rw [scalarBaseMult, hm]
    simp only
    split
    · exact ih
    rename_i hr0
    split
    · exact ih
    rename_i hs0
    refine .inr ⟨k, _, _, x, y, rfl, hi, hd, ?_, hr0, hs0, Nat.mod_lt _ hQ.out.pos, ?_⟩
    · exact Int.toNat_of_nonneg (mod_range hQ.out.pos x).1
    · rw [ZMod.natCast_mod]; push_cast; rfl

/-- C96. `SignToRS`, for every key, digest and random source: the error of the random source, or a valid signature; and
`VerifyWithRS` accepts it when `s + dr ≠ 0` modulo `q`.  Missing from the full claim: the one value of `k` for
which `s + dr = 0` (`C96_double_violated`). -/
theorem C96_sign_verifies_partial {G : Spec.Pt c} (hb : Base c G) (key : GKey) (hK : Spec.Is c key.X key.Y (key.d • G)) (rd digest : Bytes) :
    signToRS c rd key digest = .err ∨ ∃ r s : Nat, signToRS c rd key digest = .ok (r, s) ∧ Spec.Valid c G (key.d • G) digest r s ∧
      ((s + key.d * r : ZMod c.Q) ≠ 0 → verifyWithRS c key.X key.Y digest r s = .ok true) := by
  have he := e_ne_zero' (c := c) digest
  have hK0 : c.Q • key.d • G = 0 := by rw [← mul_smul, mul_comm, mul_smul, hb.order, nsmul_zero]
  rcases signLoop_spec hb key.d (digestInt c digest) (rd.length + 1) rd (by omega) with h | ⟨k, r, s, x, y, h, hi, hk, hr, hr0, hs0, hs, hsz⟩
  · exact .inl h
  right
  rw [digestInt_cast] at hsz
  have hrl : (r : Int) < c.Q := by rw [hr]; exact (mod_range hQ.out.pos x).2
  obtain ⟨u, hu⟩ : ∃ u : Nat, (u : ZMod c.Q) = ((s : Int) : ZMod c.Q) / Spec.e c digest := ⟨_, ZMod.natCast_zmod_val _⟩
  obtain ⟨v, hv⟩ : ∃ v : Nat, (v : ZMod c.Q) = -((r : Int) : ZMod c.Q) / Spec.e c digest := ⟨_, ZMod.natCast_zmod_val _⟩
  have hpt : u • G + v • key.d • G = k • G := by
    rw [← mul_smul, ← add_smul]
    refine smul_congr' hb.order ?_
    rw [Nat.cast_add, Nat.cast_mul, hu, hv]
    push_cast
    rw [hsz]
    field_simp
    ring
  have hval : Spec.Valid c G (key.d • G) digest r s :=
    ⟨by omega, hrl, by omega, by exact_mod_cast hs, u, v, hu, hv, x, y, by rw [hpt]; exact hi, hr⟩
  refine ⟨r, s, h, hval, fun hne => ?_⟩
  obtain ⟨b, hb', hiff⟩ := C96_verify_partial hb hK hK0 digest r s
  rw [hb', (hiff ?_).mpr hval]
  rintro ⟨u', v', hu', hv', hex⟩
  rw [smul_congr' hb.order (hu'.trans hu.symm), smul_congr' hK0 (hv'.trans hv.symm)] at hex
  rcases hex with hex | hex
  · apply hne
    rw [← mul_smul] at hex
    have := smul_inj' hb hex
    rw [Nat.cast_mul, hu, hv] at this
    push_cast at this
    field_simp at this
    rw [this]; ring
  · exact hk ((smul_eq_zero_iff hb.Q_prime hb.is.ne_zero hb.order k).mp (by rw [← hpt, hex, neg_add_cancel]))

/-- C96. `Verify` on bytes: an error exactly for a wrong length; otherwise the verdict of `VerifyWithRS` on the two halves,
`s` first.  Missing: as in `C96_verify_partial`. -/
theorem C96_verify_bytes_partial {G : Spec.Pt c} (hb : Base c G) {K : Spec.Pt c} {X Y : Int} (hK : Spec.Is c X Y K) (hK0 : c.Q • K = 0) (digest sig : Bytes) :
    (sig.length ≠ 2 * pointSize c → verify c X Y digest sig = .err) ∧
    (sig.length = 2 * pointSize c → ∃ b, verify c X Y digest sig = .ok b ∧ ∀ r s : Nat, sig = hx (pointSize c) s ++ hx (pointSize c) r →
      r < 256 ^ pointSize c → s < 256 ^ pointSize c → ¬ Exceptional c G K digest r s → (b = true ↔ Spec.Valid c G K digest r s)) := by
  refine ⟨fun h => by rw [verify, if_pos h], fun h => ?_⟩
  rw [verify, if_neg (by omega)]
  obtain ⟨b, hv, hiff⟩ := C96_verify_partial hb hK hK0 digest (setBytes (sig.drop (pointSize c))) (setBytes (sig.take (pointSize c)))
  refine ⟨b, hv, ?_⟩
  rintro r s rfl hr hs hex
  rw [List.take_left' (by simp), List.drop_left' (by simp), setBytes_hx _ _ hr, setBytes_hx _ _ hs] at hiff
  exact hiff hex

/-- C96. `Sign` gives `s` and `r` in `PointSize` bytes each, most significant byte first: a valid signature, which `Verify`
accepts unless `s + dr = 0`.  Missing: as in `C96_sign_verifies_partial`. -/
theorem C96_sign_bytes_partial {G : Spec.Pt c} (hb : Base c G) (hs : c.Q ≤ 256 ^ pointSize c) (key : GKey)
    (hK : Spec.Is c key.X key.Y (key.d • G)) (rd digest : Bytes) :
    sign c rd key digest = .err ∨ ∃ r s : Nat, sign c rd key digest = .ok (hx (pointSize c) s ++ hx (pointSize c) r) ∧
      Spec.Valid c G (key.d • G) digest r s ∧
      ((s + key.d * r : ZMod c.Q) ≠ 0 → verify c key.X key.Y digest (hx (pointSize c) s ++ hx (pointSize c) r) = .ok true) := by
  rcases C96_sign_verifies_partial hb key hK rd digest with h | ⟨r, s, h, hv, hver⟩
  · left; rw [sign, h]; rfl
  right
  have h1 := hv.2.1
  have h2 := hv.2.2.2.1
  refine ⟨r, s, ?_, hv, fun hne => ?_⟩
  · rw [sign, h]
    simp [fillBytes_ok (show r < 256 ^ pointSize c by omega), fillBytes_ok (show s < 256 ^ pointSize c by omega)]
  · rw [verify, if_neg (by simp; omega), List.take_left' (by simp), List.drop_left' (by simp), setBytes_hx _ _ (by omega), setBytes_hx _ _ (by omega)]
    exact hver hne

/-- C96. Which signature it is: if the random source delivers `PointSize` bytes whose number is `k` modulo `q`, and `k`, `r` and `s` are not zero, then these are
the signature, whatever follows in the source. -/
theorem C96_sign_first {G : Spec.Pt c} (hb : Base c G) (key : GKey) (kb rest digest : Bytes) (hl : kb.length = pointSize c)
    (hk : ¬ c.Q ∣ setBytes kb) {x y : Int} (hx : Spec.Is c x y (setBytes kb • G)) (hr : x % c.Q ≠ 0)
    {s : Nat} (hs : (s : ZMod c.Q) = key.d * ((x % c.Q : Int) : ZMod c.Q) + setBytes kb * Spec.e c digest) (hs0 : s ≠ 0) (hsl : s < c.Q) :
    signToRS c (kb ++ rest) key digest = .ok ((x % c.Q).toNat, s) := by
  have hq := hQ.out.pos
  rw [signToRS, signLoop, if_neg (by simp; omega)]
  simp only [List.take_left' hl]
  rw [if_neg (fun h => hk (Nat.dvd_of_mod_eq_zero h))]
  obtain ⟨u, v, hm, hi⟩ := (C95_scalarMult c hb.toGoodCurve hb.is hb.order (setBytes kb % c.Q)).1
    (fun h => hk ((Nat.dvd_mod_iff (dvd_refl _)).mp h))
  rw [mod_smul hb.order] at hi
  obtain ⟨rfl, rfl⟩ := hi.unique hx
  rw [scalarBaseMult, hm]
  have hu := mod_range hq u
  simp only
  rw [if_neg (by omega)]
  have : (key.d * (u % c.Q).toNat + setBytes kb % c.Q * digestInt c digest) % c.Q = s := by
    refine Eq.trans ?_ (Nat.mod_eq_of_lt hsl)
    rw [← Nat.ModEq, ← ZMod.natCast_eq_natCast_iff, hs]
    push_cast [ZMod.natCast_mod]
    rw [digestInt_cast]
    congr 2
    rw [← Int.cast_natCast, Int.toNat_of_nonneg hu.1, cast_emod]
  rw [this, if_neg hs0]

theorem toyC_base : Base toyC toyG := { toyC_good with is := toyG_is, order := toyG_order }

instance : Fact toyC.Q.Prime := ⟨by decide⟩

theorem toy_mult (k : Nat) (x y : Int) (hk : ¬ 13 ∣ k) (h : scalarBaseMult toyC k = .ok (x, y)) : Spec.Is toyC x y (k • toyG) := by
  obtain ⟨u, v, hm, hi⟩ := (C95_scalarMult toyC toyC_good toyG_is toyG_order k).1 hk
  rw [show scalarBaseMult toyC k = scalarMult toyC 2 4 k from rfl, hm] at h
  obtain ⟨rfl, rfl⟩ := h
  exact hi

/-- C96, against the claim that a signature just made is accepted: with key 3, digest 2 and `k = 9` the signature `(10, 9)`
is valid, but verification adds two equal points and rejects it. -/
theorem C96_double_violated : Base toyC toyG ∧ Spec.Is toyC 8 8 ((3 : Nat) • toyG) ∧
    signToRS toyC (hx 32 9) ⟨3, 8, 8⟩ [2] = .ok (10, 9) ∧ Spec.Valid toyC toyG ((3 : Nat) • toyG) [2] 10 9 ∧
    verifyWithRS toyC 8 8 [2] 10 9 = .ok false := by
  have hK := toy_mult 3 8 8 (by decide) (by decide)
  have hs : signToRS toyC (hx 32 9) ⟨3, 8, 8⟩ [2] = .ok (10, 9) := by decide +kernel
  refine ⟨toyC_base, hK, hs, ?_, by decide +kernel⟩
  rcases C96_sign_verifies_partial toyC_base ⟨3, 8, 8⟩ hK (hx 32 9) [2] with h | ⟨r, s, h, hv, -⟩
  · rw [hs] at h; cases h
  · rw [hs] at h
    cases h
    exact hv

/-- C96. If `s = dr` modulo `q` the point of the specification is
the point at infinity and the signature is not valid. -/
theorem C96_infinity_invalid {G : Spec.Pt c} (hb : Base c G) (d : Nat) (digest : Bytes) (r s : Int) (h : (s : ZMod c.Q) = d * r) :
    ¬ Spec.Valid c G (d • G) digest r s := by
  rintro ⟨_, _, _, _, u, v, hu, hv, x, y, hi, _⟩
  refine hi.ne_zero ?_
  rw [← mul_smul, ← add_smul, smul_eq_zero_iff hb.Q_prime hb.is.ne_zero hb.order, ← ZMod.natCast_eq_zero_iff]
  push_cast
  rw [hu, hv, h]
  ring

/-- C96, against the claim that only valid signatures are accepted: key 4, digest 2. -/
theorem C96_infinity_violated : Base toyC toyG ∧ Spec.Is toyC 10 9 ((4 : Nat) • toyG) ∧
    ¬ Spec.Valid toyC toyG ((4 : Nat) • toyG) [2] 7 2 ∧ verifyWithRS toyC 10 9 [2] 7 2 = .ok true :=
  ⟨toyC_base, toy_mult 4 10 9 (by decide) (by decide), C96_infinity_invalid toyC_base 4 [2] 7 2 (by decide), by decide +kernel⟩

example : signToRS toyC (hx 32 6) ⟨3, 8, 8⟩ [2] = .ok (7, 7) ∧ verifyWithRS toyC 8 8 [2] 7 7 = .ok true ∧ ((7 : ZMod 13) + 3 * 7 ≠ 0) ∧
    verifyWithRS toyC 8 8 [3] 7 7 = .ok false := by decide +kernel
example : signToRS toyC (hx 32 13 ++ hx 32 6) ⟨3, 8, 8⟩ [2] = .ok (7, 7) ∧ toyC.Q ≤ 256 ^ pointSize toyC := by decide +kernel

end Verif.Pub.Gost
