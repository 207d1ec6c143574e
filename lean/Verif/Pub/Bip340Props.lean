import Verif.Pub.Bip340
/-
C94: BIP-340 Schnorr signatures (pubkey/bip0340).  The specification is BIP-340, stated with octet strings, the group of
the curve and numbers modulo its order.
-/
namespace Verif.Pub.Bip340
open Verif.Cipher Verif.Kdf

/-- Opposite points have the same x-coordinate and y-coordinates that add up to the (odd) field prime, and the neutral
element has coordinates `(0, 0)`.  True of every curve in short Weierstrass form whose group has odd order, in the
representation of `crypto/elliptic`. -/
structure Symm (c : Curve) : Prop where
  odd : c.P % 2 = 1
  zero : c.x 0 = 0 ∧ c.y 0 = 0
  x_neg : ∀ a : c.α, c.x (-a) = c.x a
  y_neg : ∀ a : c.α, a ≠ 0 → c.y (-a) + c.y a = c.P

namespace Spec

/-- The octets of an ASCII string. -/
def ascii (s : String) : Bytes := s.toList.map fun ch => BitVec.ofNat 8 ch.toNat

/-- `hash_tag(x) = SHA256(SHA256(tag) ‖ SHA256(tag) ‖ x)`. -/
def tagged (H : HashFn) (tag : String) (x : Bytes) : Bytes := H.f (H.f (ascii tag) ++ H.f (ascii tag) ++ x)

/-- `bytes(x)` for a coordinate. -/
def fe (c : Curve) (v : Nat) : Bytes := hx (byteLen c.P) v

/-- Of a point and its opposite, the one with even y-coordinate: `lift_x` of their x-coordinate. -/
def lift (c : Curve) (Q : c.α) : c.α := if c.y Q % 2 = 0 then Q else -Q

/-- The number of which this point is the multiple of the base point. -/
def even (c : Curve) (k : Nat) : Nat := if c.y (k • c.G) % 2 = 0 then k else c.N - k

/-- The challenge `e`. -/
def challenge (c : Curve) (H : HashFn) (px r : Nat) (msg : Bytes) : Nat :=
  setBytes (tagged H "BIP0340/challenge" (fe c r ++ fe c px ++ msg)) % c.N

/-- A valid signature: `R = sG − eP` is not infinite, has even y-coordinate and x-coordinate `r`. -/
def Valid (c : Curve) (H : HashFn) (Q : c.α) (msg : Bytes) (r s : Int) : Prop :=
  0 ≤ r ∧ 0 ≤ s ∧ s < c.N ∧
  let R := s.toNat • c.G - challenge c H (c.x Q) r.toNat msg • lift c Q
  R ≠ 0 ∧ c.y R % 2 = 0 ∧ r = c.x R

/-- "Default signing" with the secret key `d'` and the auxiliary random data `a`; `none` is its only failure. -/
def sign (c : Curve) (H : HashFn) (d' : Nat) (a msg : Bytes) : Option (Nat × Nat) :=
  let px := c.x (d' • c.G)
  let d := even c d'
  let t := xorb (hx c.plen d) (tagged H "BIP0340/aux" a)
  let k' := setBytes (tagged H "BIP0340/nonce" (t ++ fe c px ++ msg)) % c.N
  if k' = 0 then none else
  let r := c.x (k' • c.G)
  some (r, (even c k' + challenge c H px r msg * d) % c.N)

end Spec

theorem tags : tagAux = Spec.ascii "BIP0340/aux" ∧ tagNonce = Spec.ascii "BIP0340/nonce" ∧ tagChallenge = Spec.ascii "BIP0340/challenge" := by
  decide

theorem hash_eq (H : HashFn) (tag : String) (x y : Bytes) :
    H.f (bipHash H (Spec.ascii tag) x ++ y) = Spec.tagged H tag (x ++ y) := by
  simp [bipHash, Spec.tagged]

theorem isOdd_iff (a : Nat) : isOdd a = true ↔ ¬ a % 2 = 0 := by simp [isOdd]

theorem neg_smul_G (c : Curve) {k : Nat} (hk : k ≤ c.N) : (c.N - k) • c.G = -(k • c.G) := by
  rw [eq_neg_iff_add_eq_zero, ← add_smul, Nat.sub_add_cancel hk]
  exact (c.order _).mpr (dvd_refl _)

theorem even_smul (c : Curve) {k : Nat} (hk : k ≤ c.N) : Spec.even c k • c.G = Spec.lift c (k • c.G) := by
  rw [Spec.even, Spec.lift]
  split
  · rfl
  · exact neg_smul_G c hk

theorem lift_ne_zero (c : Curve) {Q : c.α} (h : Q ≠ 0) : Spec.lift c Q ≠ 0 := by
  rw [Spec.lift]; split
  · exact h
  · exact neg_ne_zero.mpr h

theorem lift_even {c : Curve} (hc : Symm c) {Q : c.α} (h : Q ≠ 0) : c.y (Spec.lift c Q) % 2 = 0 := by
  rw [Spec.lift]; split
  · assumption
  · have := hc.y_neg Q h; have := hc.odd; omega

theorem lift_x {c : Curve} (hc : Symm c) (Q : c.α) : c.x (Spec.lift c Q) = c.x Q := by
  rw [Spec.lift]; split
  · rfl
  · exact hc.x_neg Q

theorem y_ne_zero {c : Curve} (hc : Symm c) {Q : c.α} (h : Q ≠ 0) : c.y Q ≠ 0 := by
  intro h0
  have := hc.y_neg Q h
  have := c.y_lt (-Q)
  omega

theorem lift_neg {c : Curve} (hc : Symm c) {Q : c.α} (h : Q ≠ 0) : Spec.lift c (-Q) = Spec.lift c Q := by
  have := hc.y_neg Q h
  have := hc.odd
  rw [Spec.lift, Spec.lift]
  by_cases h0 : c.y Q % 2 = 0
  · rw [if_neg (by omega), if_pos h0, neg_neg]
  · rw [if_pos (by omega), if_neg h0]

theorem setScalar_eq (c : Curve) {k : Nat} (h1 : 1 ≤ k) (h2 : k < c.N) : setScalar k c.N (c.y (k • c.G)) = Spec.even c k := by
  rw [setScalar, Spec.even]
  by_cases h : c.y (k • c.G) % 2 = 0
  · rw [if_neg (by rw [isOdd_iff]; omega), if_pos h]
  · rw [if_pos ((isOdd_iff _).mpr h), if_neg h, negMod, Nat.mod_eq_of_lt h2, Nat.mod_eq_of_lt (by omega)]

theorem even_lt (c : Curve) {k : Nat} (h1 : 1 ≤ k) (h2 : k < c.N) : Spec.even c k < c.N := by
  rw [Spec.even]; split <;> omega

theorem coord_lt (c : Curve) (Q : c.α) : c.x Q < 256 ^ byteLen c.P := by
  have := c.x_lt Q; have := lt_pow_byteLen c.P; omega

/-- `VerifyWithRS` on numbers in range. -/
theorem verify_eq (c : Curve) (H : HashFn) (Q : c.α) (hQ : Q ≠ 0) (hG : ∃ k : Nat, Q = k • c.G) (msg : Bytes) (r s : Nat)
    (hr0 : 0 < r) (hr : r < 256 ^ byteLen c.P) (hs0 : 0 < s) (hs : s < c.N) :
    verifyWithRS c Q H msg r s =
      let W := s • c.G - Spec.challenge c H (c.x Q) r msg • Spec.lift c Q
      .ok (!(decide (c.x W = 0 ∨ c.y W = 0)) && !isOdd (c.y W) && (r == c.x W)) := by
  rw [verifyWithRS, if_neg (by simp [Curve.onCurve, hQ]), if_neg (by omega)]
  simp only [Int.toNat_natCast]
  rw [if_neg (by omega), fillBytes_ok hr, fillBytes_ok (coord_lt c Q)]
  simp only [Res.bind_ok, Curve.mult_eq, Curve.baseMult_eq]
  rw [List.append_assoc, tags.2.2, hash_eq, ← List.append_assoc, show (if isOdd (c.y Q) = true then -Q else Q) = Spec.lift c Q by
    rw [Spec.lift]
    by_cases h : c.y Q % 2 = 0
    · rw [if_neg (by rw [isOdd_iff]; omega), if_pos h]
    · rw [if_pos ((isOdd_iff _).mpr h), if_neg h]]
  rw [show setBytes (Spec.tagged H "BIP0340/challenge" (hx (byteLen c.P) r ++ hx (byteLen c.P) (c.x Q) ++ msg)) % c.N
    = Spec.challenge c H (c.x Q) r msg from rfl]
  generalize Spec.challenge c H (c.x Q) r msg = e
  have hW : negMod e c.N • Spec.lift c Q + s • c.G = s • c.G - e • Spec.lift c Q := by
    have hL : ∃ k : Nat, Spec.lift c Q = k • c.G := by
      obtain ⟨k, rfl⟩ := hG
      rw [Spec.lift]; split
      · exact ⟨k, rfl⟩
      · refine ⟨c.N - k % c.N, ?_⟩
        rw [neg_smul_G c (Nat.mod_lt _ c.N_pos).le]
        congr 1
        exact c.smul_congr (by rw [ZMod.natCast_mod])
    obtain ⟨k, hk⟩ := hL
    rw [hk, eq_sub_iff_add_eq, add_right_comm]
    conv_rhs => rw [← zero_add (s • c.G)]
    congr 1
    rw [← mul_smul, ← mul_smul, ← add_smul, c.order, ← ZMod.natCast_eq_zero_iff]
    rw [Nat.cast_add, Nat.cast_mul, Nat.cast_mul, cast_negMod _ _ c.N_pos]; ring
  rw [hW]
  generalize s • c.G - e • Spec.lift c Q = W
  by_cases h1 : c.x W = 0 ∨ c.y W = 0
  · rw [if_pos h1]; simp [h1]
  · rw [if_neg h1]
    by_cases h2 : isOdd (c.y W) = true
    · rw [if_pos h2]; simp [h2]
    · rw [if_neg h2]; simp [h1, h2]

/-- C94. `VerifyWithRS` on numbers `r` no longer than a coordinate, for every public key, hash and message: it accepts
exactly the valid signatures in which neither number is 0.  Missing from the full claim: `r = 0` and `s = 0`, which BIP-340
allows (`C94_zero_s_violated`), and longer `r`, on which there is no verdict (`C94_verify_panics_violated`). -/
theorem C94_verify_partial (c : Curve) (hc : Symm c) (H : HashFn) (Q : c.α) (hQ : Q ≠ 0) (hG : ∃ k : Nat, Q = k • c.G) (msg : Bytes) (r s : Int)
    (hr : r < 256 ^ byteLen c.P) :
    ∃ b, verifyWithRS c Q H msg r s = .ok b ∧ (b = true ↔ r ≠ 0 ∧ s ≠ 0 ∧ Spec.Valid c H Q msg r s) := by
  by_cases hneg : r ≤ 0 ∨ s ≤ 0
  · rw [verifyWithRS, if_neg (by simp [Curve.onCurve, hQ]), if_pos hneg]
    refine ⟨false, rfl, ⟨fun h => by (cases h), ?_⟩⟩
    rintro ⟨h1, h2, h3, h4, _⟩; omega
  obtain ⟨r, rfl⟩ := Int.eq_ofNat_of_zero_le (show 0 ≤ r by omega)
  obtain ⟨s, rfl⟩ := Int.eq_ofNat_of_zero_le (show 0 ≤ s by omega)
  by_cases hbig : s ≥ c.N
  · rw [verifyWithRS, if_neg (by simp [Curve.onCurve, hQ]), if_neg hneg]
    simp only [Int.toNat_natCast]
    rw [if_pos hbig]
    refine ⟨false, rfl, ⟨fun h => by (cases h), ?_⟩⟩
    rintro ⟨_, _, h1, h2, h3, _⟩; omega
  refine ⟨_, verify_eq c H Q hQ hG msg r s (by omega) (by exact_mod_cast hr) (by omega) (by omega), ?_⟩
  simp only [Spec.Valid, Int.toNat_natCast]
  generalize s • c.G - Spec.challenge c H (c.x Q) r msg • Spec.lift c Q = W
  simp only [Bool.and_eq_true, Bool.not_eq_true', decide_eq_false_iff_not, beq_iff_eq, ne_eq, isOdd, bne_eq_false_iff_eq]
  constructor
  · rintro ⟨⟨h1, h2⟩, h3⟩
    refine ⟨by omega, by omega, by omega, by omega, by omega, ?_, h2, by exact_mod_cast h3⟩
    rintro rfl
    exact h1 (.inl hc.zero.1)
  · rintro ⟨_, _, _, _, _, h1, h2, h3⟩
    have h3 : r = c.x W := by exact_mod_cast h3
    refine ⟨⟨?_, h2⟩, h3⟩
    have := y_ne_zero hc h1
    omega

/-- C94, against a verdict on every input: an `r` longer than a coordinate makes `VerifyWithRS` panic, for every key and
message. -/
theorem C94_verify_panics_violated (c : Curve) (H : HashFn) (Q : c.α) (hQ : Q ≠ 0) (msg : Bytes) (r s : Nat)
    (hs0 : 0 < s) (hs : s < c.N) (hr : 256 ^ byteLen c.P ≤ r) : verifyWithRS c Q H msg r s = .panic := by
  have : 0 < 256 ^ byteLen c.P := Nat.pow_pos (by decide)
  rw [verifyWithRS, if_neg (by simp [Curve.onCurve, hQ]), if_neg (by omega)]
  simp only [Int.toNat_natCast]
  rw [if_neg (by omega), fillBytes_panic (by omega)]
  rfl

/-- C94. Only the x-coordinate of a public key matters: the verdict for a point and for its opposite is the same. -/
theorem C94_xonly (c : Curve) (hc : Symm c) (H : HashFn) (Q : c.α) (hQ : Q ≠ 0) (hG : ∃ k : Nat, Q = k • c.G) (msg : Bytes) (r s : Int)
    (hr : r < 256 ^ byteLen c.P) : verifyWithRS c (-Q) H msg r s = verifyWithRS c Q H msg r s := by
  have hG' : ∃ k : Nat, -Q = k • c.G := by
    obtain ⟨k, rfl⟩ := hG
    refine ⟨c.N - k % c.N, ?_⟩
    rw [neg_smul_G c (Nat.mod_lt _ c.N_pos).le]
    congr 1
    exact c.smul_congr (by rw [ZMod.natCast_mod])
  obtain ⟨b, hb, h⟩ := C94_verify_partial c hc H Q hQ hG msg r s hr
  obtain ⟨b', hb', h'⟩ := C94_verify_partial c hc H (-Q) (neg_ne_zero.mpr hQ) hG' msg r s hr
  rw [hb, hb']
  have : Spec.Valid c H (-Q) msg r s = Spec.Valid c H Q msg r s := by
    rw [Spec.Valid, Spec.Valid, lift_neg hc hQ, hc.x_neg]
  rw [this, ← h] at h'
  congr 1
  cases b <;> cases b' <;> simp_all

theorem mask_length (a b : Bytes) : (mask a b).length = max a.length b.length := by
  rw [mask]; split <;> simp [xorb] <;> omega

/-- Signing with any nonce derivation gives a valid signature. -/
theorem signed_valid (c : Curve) (hc : Symm c) (H : HashFn) (d k : Nat) (hd : 1 ≤ d) (hd' : d < c.N) (hk : 1 ≤ k) (hk' : k < c.N) (msg : Bytes) :
    Spec.Valid c H (d • c.G) msg (c.x (k • c.G)) ((Spec.even c k + Spec.challenge c H (c.x (d • c.G)) (c.x (k • c.G)) msg * Spec.even c d) % c.N : Nat) := by
  have hkG := c.smul_ne_zero (c.not_dvd hk hk')
  refine ⟨by omega, by omega, by exact_mod_cast Nat.mod_lt _ c.N_pos, ?_⟩
  simp only [Int.toNat_natCast]
  generalize Spec.challenge c H (c.x (d • c.G)) (c.x (k • c.G)) msg = e
  have hR : ((Spec.even c k + e * Spec.even c d) % c.N) • c.G - e • Spec.lift c (d • c.G) = Spec.lift c (k • c.G) := by
    rw [← even_smul c hd'.le, ← even_smul c hk'.le, sub_eq_iff_eq_add, ← mul_smul, ← add_smul]
    exact c.smul_congr (by rw [ZMod.natCast_mod])
  rw [hR]
  exact ⟨lift_ne_zero c hkG, lift_even hc hkG, by rw [lift_x hc]⟩

/-- `SignUsingKToRS` in terms of the nonce it derives. -/
theorem signUsingK_eq (c : Curve) (H : HashFn) (d : Nat) (hd : 1 ≤ d) (hd' : d < c.N) (hN : c.N ≤ 256 ^ c.plen) (a msg : Bytes) (ha : a.length = c.plen) :
    signUsingK c (setBytes a) ⟨d, d • c.G⟩ H msg =
      let k := setBytes (Spec.tagged H "BIP0340/nonce" (mask (hx c.plen (Spec.even c d)) (Spec.tagged H "BIP0340/aux" a) ++ Spec.fe c (c.x (d • c.G)) ++ msg)) % c.N
      .ok (if k = 0 then none else
        some (c.x (k • c.G), (Spec.even c k + Spec.challenge c H (c.x (d • c.G)) (c.x (k • c.G)) msg * Spec.even c d) % c.N)) := by
  have hQ := c.smul_ne_zero (c.not_dvd hd hd')
  have hal : setBytes a < 256 ^ c.plen := by rw [← ha]; exact setBytes_lt a
  rw [signUsingK, if_neg (by simp [Curve.onCurve, hQ])]
  simp only [Curve.baseMult_eq]
  rw [if_neg (by omega), setScalar_eq c hd hd', fillBytes_ok hal, fillBytes_ok (by have := even_lt c hd hd'; omega), fillBytes_ok (coord_lt c _)]
  simp only [Res.bind_ok]
  rw [show hx c.plen (setBytes a) = a by rw [← ha]; exact hx_setBytes a]
  rw [List.append_assoc, tags.1, tags.2.1, tags.2.2, hash_eq]
  have e0 := hash_eq H "BIP0340/aux" a []
  rw [List.append_nil, List.append_nil] at e0
  rw [e0, ← List.append_assoc]
  simp only [Spec.fe]
  obtain ⟨k, hk⟩ : ∃ k, setBytes (Spec.tagged H "BIP0340/nonce" (mask (hx c.plen (Spec.even c d)) (Spec.tagged H "BIP0340/aux" a)
    ++ hx (byteLen c.P) (c.x (d • c.G)) ++ msg)) % c.N = k := ⟨_, rfl⟩
  simp only [hk]
  have hkl : k < c.N := by rw [← hk]; exact Nat.mod_lt _ c.N_pos
  by_cases h0 : k = 0
  · rw [if_pos h0, if_pos h0]
  rw [if_neg h0, if_neg h0, setScalar_eq c (by omega) hkl, fillBytes_ok (coord_lt c _)]
  simp only [Res.bind_ok]
  rw [List.append_assoc, hash_eq, ← List.append_assoc]
  congr 3
  rw [Nat.add_mod_mod]
  rfl

theorem xorb_comm' : ∀ a b : Bytes, xorb a b = xorb b a
  | [], [] => rfl
  | [], _ :: _ => rfl
  | _ :: _, [] => rfl
  | x :: a, y :: b => by
    have := xorb_comm' a b
    simp only [xorb, List.zipWith_cons_cons] at this ⊢
    rw [this, BitVec.xor_comm]

/-- C94. With a hash as long as a scalar (SHA-256 and secp256k1), `SignUsingKToRS` with the auxiliary data as its number
is BIP-340's default signing, for every key, message and auxiliary data. -/
theorem C94_sign_default (c : Curve) (H : HashFn) (d : Nat) (Q : c.α) (hk : IsKeyPair c d Q) (hN : c.N ≤ 256 ^ c.plen) (hH : H.size = c.plen)
    (a msg : Bytes) (ha : a.length = c.plen) : signUsingK c (setBytes a) ⟨d, Q⟩ H msg = .ok (Spec.sign c H d a msg) := by
  obtain ⟨hd, hd', rfl⟩ := hk
  rw [signUsingK_eq c H d hd hd' hN a msg ha]
  have hm : mask (hx c.plen (Spec.even c d)) (Spec.tagged H "BIP0340/aux" a) = xorb (hx c.plen (Spec.even c d)) (Spec.tagged H "BIP0340/aux" a) := by
    have hl : (Spec.tagged H "BIP0340/aux" a).length = c.plen := by rw [Spec.tagged, H.len, hH]
    rw [mask, if_neg (by simp [hl]), hx_length, List.take_of_length_le (by omega), List.drop_of_length_le (by omega), List.append_nil, xorb_comm']
  rw [hm]
  rfl

/-- C94. `SignUsingKToRS`, for every key pair, hash, message and number: the request for another number, or a valid
signature, which `VerifyWithRS` accepts unless one of its numbers is 0.  Missing from the full claim: those signatures
(`C94_zero_s_violated`). -/
theorem C94_sign_verifies_partial (c : Curve) (hc : Symm c) (H : HashFn) (d : Nat) (Q : c.α) (hk : IsKeyPair c d Q) (hN : c.N ≤ 256 ^ c.plen)
    (k : Nat) (hkl : k < 256 ^ c.plen) (msg : Bytes) :
    signUsingK c k ⟨d, Q⟩ H msg = .ok none ∨ ∃ r s : Nat, signUsingK c k ⟨d, Q⟩ H msg = .ok (some (r, s)) ∧ r < c.P ∧ s < c.N ∧
      Spec.Valid c H Q msg r s ∧ (r ≠ 0 → s ≠ 0 → verifyWithRS c Q H msg r s = .ok true) := by
  have hQ := hk.ne_zero
  obtain ⟨hd, hd', rfl⟩ := hk
  have hk := signUsingK_eq c H d hd hd' hN (hx c.plen k) msg (by simp)
  rw [setBytes_hx _ _ hkl] at hk
  rw [hk]
  generalize hkk : setBytes _ % c.N = k'
  have hkl' : k' < c.N := by rw [← hkk]; exact Nat.mod_lt _ c.N_pos
  by_cases h0 : k' = 0
  · left; simp [h0]
  right
  have hv := signed_valid c hc H d k' hd hd' (by omega) hkl' msg
  have hx := coord_lt c (k' • c.G)
  refine ⟨_, _, by simp only [if_neg h0], c.x_lt _, Nat.mod_lt _ c.N_pos, hv, fun hr0 hs0 => ?_⟩
  obtain ⟨b, hb, hiff⟩ := C94_verify_partial c hc H _ hQ ⟨d, rfl⟩ msg (c.x (k' • c.G) : Int)
    ((Spec.even c k' + Spec.challenge c H (c.x (d • c.G)) (c.x (k' • c.G)) msg * Spec.even c d) % c.N : Nat) (by exact_mod_cast hx)
  rw [hb, hiff.mpr ⟨by exact_mod_cast hr0, by exact_mod_cast hs0, hv⟩]

theorem plen_pos (c : Curve) : 0 < c.plen := by
  have := c.P_le
  have h := c.x_lt 0
  by_contra h0
  have h0 : c.plen = 0 := by omega
  have := c.size
  have hb : c.bitSize = 0 := by unfold Curve.plen at h0; omega
  rw [hb] at this
  omega

theorem signLoop_spec (c : Curve) (hc : Symm c) (H : HashFn) (d : Nat) (Q : c.α) (hk : IsKeyPair c d Q) (hN : c.N ≤ 256 ^ c.plen) (msg : Bytes) :
    ∀ fuel rd, rd.length < fuel → signLoop c ⟨d, Q⟩ H msg fuel rd = .err ∨ ∃ r s : Nat, signLoop c ⟨d, Q⟩ H msg fuel rd = .ok (r, s) ∧
      r < c.P ∧ s < c.N ∧ Spec.Valid c H Q msg r s ∧ (r ≠ 0 → s ≠ 0 → verifyWithRS c Q H msg r s = .ok true)
  | 0, rd, h => by omega
  | fuel + 1, rd, h => by
    rw [signLoop]
    by_cases hl : rd.length < c.plen
    · left; rw [if_pos hl]
    rw [if_neg hl]
    have hb : setBytes (rd.take c.plen) < 256 ^ c.plen := by
      have := setBytes_lt (rd.take c.plen)
      rwa [List.length_take, Nat.min_eq_left (by omega)] at this
    rcases C94_sign_verifies_partial c hc H d Q hk hN _ hb msg with e | ⟨r, s, e, h'⟩
    · rw [e]
      exact signLoop_spec c hc H d Q hk hN msg fuel _ (by have := plen_pos c; simp; omega)
    · right
      rw [e]
      exact ⟨r, s, rfl, h'⟩

/-- C94. `SignToRS` ends for every random source, with its error or with a valid signature, which is accepted unless one
of its numbers is 0. -/
theorem C94_signToRS_partial (c : Curve) (hc : Symm c) (H : HashFn) (d : Nat) (Q : c.α) (hk : IsKeyPair c d Q) (hN : c.N ≤ 256 ^ c.plen) (rd msg : Bytes) :
    signToRS c rd ⟨d, Q⟩ H msg = .err ∨ ∃ r s : Nat, signToRS c rd ⟨d, Q⟩ H msg = .ok (r, s) ∧
      r < c.P ∧ s < c.N ∧ Spec.Valid c H Q msg r s ∧ (r ≠ 0 → s ≠ 0 → verifyWithRS c Q H msg r s = .ok true) :=
  signLoop_spec c hc H d Q hk hN msg _ rd (by omega)

/-- C94. `VerifyBytes` has a verdict on every byte string: it accepts exactly the encodings of valid signatures in which
neither number is 0. -/
theorem C94_verifyBytes_partial (c : Curve) (hc : Symm c) (H : HashFn) (Q : c.α) (hQ : Q ≠ 0) (hG : ∃ k : Nat, Q = k • c.G) (msg sig : Bytes) :
    ∃ b, verifyBytes c Q H msg sig = .ok b ∧
      (b = true ↔ ∃ r s : Nat, s < 256 ^ c.plen ∧ sig = Spec.fe c r ++ hx c.plen s ∧ r ≠ 0 ∧ s ≠ 0 ∧ Spec.Valid c H Q msg r s) := by
  rw [verifyBytes]
  by_cases hl : sig.length = byteLen c.P + c.plen
  · rw [if_neg (by omega)]
    have h1 : (sig.take (byteLen c.P)).length = byteLen c.P := by rw [List.length_take]; omega
    have h2 : (sig.drop (byteLen c.P)).length = c.plen := by rw [List.length_drop]; omega
    have b1 := setBytes_lt (sig.take (byteLen c.P))
    have b2 := setBytes_lt (sig.drop (byteLen c.P))
    have e1 := hx_setBytes (sig.take (byteLen c.P))
    have e2 := hx_setBytes (sig.drop (byteLen c.P))
    rw [h1] at b1 e1
    rw [h2] at b2 e2
    obtain ⟨b, hb, hiff⟩ := C94_verify_partial c hc H Q hQ hG msg (setBytes (sig.take (byteLen c.P))) (setBytes (sig.drop (byteLen c.P)))
      (by exact_mod_cast b1)
    refine ⟨b, hb, hiff.trans ⟨?_, ?_⟩⟩
    · rintro ⟨hr, hs, hv⟩
      exact ⟨_, _, b2, by rw [Spec.fe, e1, e2, List.take_append_drop], by exact_mod_cast hr, by exact_mod_cast hs, hv⟩
    · rintro ⟨r, s, hsl, rfl, hr, hs, hv⟩
      have hrl : r < 256 ^ byteLen c.P := by
        have h := hv.2.2.2.2.2
        have hx := coord_lt c (((s : Int)).toNat • c.G - Spec.challenge c H (c.x Q) ((r : Int)).toNat msg • Spec.lift c Q)
        generalize c.x _ = w at h hx
        omega
      rw [List.take_left' (by simp [Spec.fe]), List.drop_left' (by simp [Spec.fe]), Spec.fe, setBytes_hx _ _ hrl, setBytes_hx _ _ hsl]
      exact ⟨by exact_mod_cast hr, by exact_mod_cast hs, hv⟩
  · rw [if_pos hl]
    refine ⟨false, rfl, ⟨fun h => by (cases h), ?_⟩⟩
    rintro ⟨r, s, _, rfl, _⟩
    simp [Spec.fe] at hl

/-- C94. `SignBytes` never panics when the order fits in as many bytes as the field; its result has the length that
`VerifyBytes` expects, and is accepted unless one of its numbers is 0. -/
theorem C94_signBytes_partial (c : Curve) (hc : Symm c) (H : HashFn) (d : Nat) (Q : c.α) (hk : IsKeyPair c d Q) (hN : c.N ≤ 256 ^ c.plen) (rd msg : Bytes) :
    signBytes c rd ⟨d, Q⟩ H msg = .err ∨ ∃ r s : Nat, signBytes c rd ⟨d, Q⟩ H msg = .ok (Spec.fe c r ++ hx c.plen s) ∧
      Spec.Valid c H Q msg r s ∧ (r ≠ 0 → s ≠ 0 → verifyBytes c Q H msg (Spec.fe c r ++ hx c.plen s) = .ok true) := by
  rw [signBytes]
  rcases C94_signToRS_partial c hc H d Q hk hN rd msg with h | ⟨r, s, h, hr, hs, hv, ht⟩
  · left; rw [h]; rfl
  have h1 : r < 256 ^ byteLen c.P := by have := lt_pow_byteLen c.P; omega
  have h2 : s < 256 ^ c.plen := by omega
  refine .inr ⟨r, s, by rw [h]; simp [fillBytes_ok h1, fillBytes_ok h2, Spec.fe], hv, fun hr0 hs0 => ?_⟩
  rw [verifyBytes, if_neg (by simp [Spec.fe]), List.take_left' (by simp [Spec.fe]), List.drop_left' (by simp [Spec.fe]), Spec.fe, setBytes_hx _ _ h1, setBytes_hx _ _ h2]
  exact ht hr0 hs0

/-- C94. `BatchVerify` of at least one key accepts exactly when every signature is accepted on its own; with too few
messages or signatures it rejects. -/
theorem C94_batch (c : Curve) (hc : Symm c) (H : HashFn) (pub : List c.α) (hne : pub ≠ []) (hQ : ∀ Q ∈ pub, Q ≠ 0 ∧ ∃ k : Nat, Q = k • c.G) (m sig : List Bytes) :
    ∃ b, batchVerify c H pub m sig = .ok b ∧ (b = true ↔ pub.length ≤ m.length ∧ pub.length ≤ sig.length ∧
      ∀ (i : Nat) Q msg s, pub[i]? = some Q → m[i]? = some msg → sig[i]? = some s → verifyBytes c Q H msg s = .ok true) := by
  have key : ∀ (pub : List c.α) (m sig : List Bytes), (∀ Q ∈ pub, Q ≠ 0 ∧ ∃ k : Nat, Q = k • c.G) → pub.length ≤ m.length → pub.length ≤ sig.length →
      ∃ b, batchLoop c H pub m sig = .ok b ∧ (b = true ↔ ∀ (i : Nat) Q msg s, pub[i]? = some Q → m[i]? = some msg → sig[i]? = some s → verifyBytes c Q H msg s = .ok true) := by
    intro pub
    induction pub with
    | nil => intro m sig _ _ _; exact ⟨true, rfl, by simp⟩
    | cons Q Qs ih =>
      intro m sig hQ h1 h2
      match m, sig, h1, h2 with
      | msg :: ms, s :: sigs, h1, h2 =>
        obtain ⟨hQ0, hQ1⟩ := hQ Q (by simp)
        obtain ⟨b, hb, _⟩ := C94_verifyBytes_partial c hc H Q hQ0 hQ1 msg s
        rw [batchLoop, hb]
        simp only [Res.bind_ok]
        cases b with
        | false =>
          refine ⟨false, by simp, ⟨fun h => by (cases h), fun h => ?_⟩⟩
          have := h 0 Q msg s rfl rfl rfl
          rw [hb] at this
          cases this
        | true =>
          obtain ⟨b, hb', hiff⟩ := ih ms sigs (fun Q h => hQ Q (by simp [h])) (by simpa using h1) (by simpa using h2)
          refine ⟨b, by simpa using hb', hiff.trans ⟨fun h i => ?_, fun h i => ?_⟩⟩
          · cases i with
            | zero =>
              intro Q' msg' s' e1 e2 e3
              simp only [List.getElem?_cons_zero, Option.some.injEq] at e1 e2 e3
              subst e1 e2 e3
              exact hb
            | succ i => simpa using h i
          · simpa using h (i + 1)
  simp only [batchVerify]
  have hpos : 0 < pub.length := List.length_pos_iff.mpr hne
  by_cases hl : m.length = 0 ∨ m.length < pub.length ∨ sig.length < pub.length
  · rw [if_pos hl]
    refine ⟨false, rfl, ⟨fun h => by (cases h), ?_⟩⟩
    rintro ⟨_, _, _⟩; omega
  · rw [if_neg hl]
    obtain ⟨b, hb, hiff⟩ := key pub m sig hQ (by omega) (by omega)
    match pub, hne with
    | Q :: Qs, _ =>
      exact ⟨b, hb, hiff.trans ⟨fun h => ⟨by omega, by omega, h⟩, fun h => h.2.2⟩⟩

/-- `BatchVerify` with messages but no keys panics instead of rejecting. -/
theorem C94_batch_empty_violated (c : Curve) (H : HashFn) (msg : Bytes) (m sig : List Bytes) : batchVerify c H [] (msg :: m) sig = .panic := by
  rw [batchVerify, if_neg (by simp)]

theorem toy_symm : Symm toy where
  odd := by decide
  zero := by decide
  x_neg a := (by decide : ∀ i : Fin 7, toy.x (-(show toy.α from i)) = toy.x (show toy.α from i)) a
  y_neg a := (by decide : ∀ i : Fin 7, (show toy.α from i) ≠ 0 → toy.y (-(show toy.α from i)) + toy.y (show toy.α from i) = toy.P) a

/-- `SignUsingKToRS` returns a valid signature with `s = 0`, and `VerifyWithRS` rejects it. -/
theorem C94_zero_s_violated : ∃ (k : Nat) (msg : Bytes) (r : Nat), IsKeyPair toy 1 (1 : ZMod 7) ∧
    signUsingK toy k ⟨1, (1 : ZMod 7)⟩ toyHash msg = .ok (some (r, 0)) ∧ Spec.Valid toy toyHash (1 : ZMod 7) msg r 0 ∧
    verifyWithRS toy (1 : ZMod 7) toyHash msg r 0 = .ok false :=
  ⟨2, [1], 5, ⟨by decide, by decide, rfl⟩, by decide, ⟨by decide, by decide, by decide, by decide, by decide, by decide⟩, by decide⟩

example : IsKeyPair toy 2 (2 : ZMod 7) ∧ toy.N ≤ 256 ^ toy.plen ∧ toyHash.size = toy.plen ∧
    signUsingK toy 3 ⟨2, (2 : ZMod 7)⟩ toyHash [1] = .ok (some (2, 6)) ∧ verifyWithRS toy (2 : ZMod 7) toyHash [1] 2 6 = .ok true ∧
    verifyWithRS toy (2 : ZMod 7) toyHash [1] 2 5 = .ok false :=
  ⟨⟨by decide, by decide, rfl⟩, by decide, by decide, by decide, by decide, by decide⟩
example : signBytes toy [3] ⟨2, (2 : ZMod 7)⟩ toyHash [1] = .ok [2, 6] ∧
    batchVerify toy toyHash [(2 : ZMod 7), (1 : ZMod 7)] [[1], [2]] [[2, 6], [3, 3]] = .ok true := by decide

end Verif.Pub.Bip340
