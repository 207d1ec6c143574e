import Verif.Pub.EcKcdsa
import Verif.Pub.EcGdsaProps
/-
C91: EC-KCDSA (pubkey/eckcdsa).  The specification is ISO/IEC 14888-3, stated with octet strings, the group of the curve
and the field of integers modulo the order.
-/
namespace Verif.Pub.EcKcdsa
open Verif.Cipher Verif.Kdf

namespace Spec

/-- Steps 2 and 6 of signing: the rightmost octets of a digest, at most as many as the order has. -/
def rightmost (n : Nat) (b : Bytes) : Bytes := b.drop (b.length - byteLen n)

/-- `z`: the first block of the hash function's input, made of the coordinates of the public key, cut or filled with
zeros. -/
def z (c : Curve) (H : HashFn) (Q : c.α) : Bytes := fit H.block (hx c.plen (c.x Q) ++ hx c.plen (c.y Q))

/-- Step 5: the octet string `r` of the point `W`. -/
def rOf (c : Curve) (H : HashFn) (W : c.α) : Bytes := rightmost c.N (H.f (hx c.plen (c.x W)))

/-- Steps 1, 2 and 7: `e = OS2I(r XOR h)`. -/
def e (c : Curve) (H : HashFn) (Q : c.α) (msg r : Bytes) : Nat := setBytes (xorb r (rightmost c.N (H.f (z c H Q ++ msg))))

/-- The length of `r`. -/
def rLen (c : Curve) (H : HashFn) : Nat := min H.size (byteLen c.N)

/-- A valid signature: `r` has the length of a digest (or of the order), `0 < s < q`, and `r` is the digest of the
x-coordinate of `sQ + eG`. -/
def Valid (c : Curve) (H : HashFn) (Q : c.α) (msg : Bytes) (r : Bytes) (s : Int) : Prop :=
  r.length = rLen c H ∧ 0 < s ∧ s < c.N ∧ r = rOf c H (s.toNat • Q + e c H Q msg r • c.G)

end Spec

theorem padLeft_eq {v l : Nat} (h : v < 256 ^ l) : padLeft (natBytes v) l = hx l v := by
  have hb := byteLen_le.mpr h
  rw [padLeft]
  have hl : (natBytes v).length = byteLen v := by simp [natBytes]
  split
  · have : byteLen v = l := by omega
    rw [List.take_of_length_le (by omega), natBytes, this]
  · refine setBytes_inj (by simp [hl]; omega) ?_
    rw [setBytes_append, setBytes_natBytes, setBytes_hx _ _ h]
    have : ∀ n, setBytes (List.replicate n 0#8) = 0 := by
      intro n
      rw [setBytes, Kb.beN, List.reverse_replicate]
      induction n with
      | zero => rfl
      | succ n ih => rw [List.replicate_succ, leN, ih]; rfl
    rw [this, Nat.zero_mul, Nat.zero_add]

theorem padRight_eq (a : Bytes) (l : Nat) : padRight a l = fit l a := by
  rw [padRight, fit]
  split
  · rw [Nat.sub_eq_zero_of_le (by assumption)]; simp
  · rw [copyInto, List.length_replicate, List.take_of_length_le (by omega), List.drop_replicate]

theorem cQ_eq (c : Curve) (H : HashFn) (Q : c.α) : cQ c H Q = Spec.z c H Q := by
  rw [cQ, Spec.z, padRight_eq, padLeft_eq (Nat.lt_of_lt_of_le (c.x_lt Q) c.P_le), padLeft_eq (Nat.lt_of_lt_of_le (c.y_lt Q) c.P_le)]

theorem rightmost_length (c : Curve) (H : HashFn) (m : Bytes) : (Spec.rightmost c.N (H.f m)).length = Spec.rLen c H := by
  rw [Spec.rightmost, List.length_drop, H.len, Spec.rLen]; omega

theorem reduce_eq (c : Curve) (H : HashFn) (m : Bytes) : reduce H c.N m = setBytes (Spec.rightmost c.N (H.f m)) := by
  rw [reduce, Spec.rightmost]
  have hl := H.len m
  by_cases h : H.size > byteLen c.N
  · simp only [h, if_true]
    exact setBytes_mod _ _ (by omega)
  · simp only [h, if_false]
    rw [show (H.f m).length - byteLen c.N = 0 by omega, List.drop_zero]

theorem point_bytes (c : Curve) (W : c.α) : padLeft (natBytes (c.x W)) c.plen = hx c.plen (c.x W) :=
  padLeft_eq (Nat.lt_of_lt_of_le (c.x_lt W) c.P_le)

/-- The congruence that ties signing and verification. -/
theorem signPoint (c : Curve) {d k e : Nat} {Q : c.α} (hk : EcGdsa.Spec.IsPair c d Q) {s : Nat}
    (hs : (s : ZMod c.N) = d * (k - e)) : s • Q + e • c.G = k • c.G := by
  obtain ⟨q, hq⟩ := hk.2.2.2
  have hdq := EcGdsa.pair_scalar (c := c) (d := d) (k := q) (by rw [← hq]; exact hk.2.2.1)
  rw [hq, ← mul_smul, ← add_smul]
  refine c.smul_congr ?_
  rw [Nat.cast_add, Nat.cast_mul, hs]
  linear_combination ((k : ZMod c.N) - e) * hdq

theorem signUsingK_spec (c : Curve) (k : Nat) (d : Nat) (Q : c.α) (hk : EcGdsa.Spec.IsPair c d Q) (H : HashFn) (msg : Bytes) :
    signUsingK c k ⟨d, Q⟩ H msg = .ok none ∨
    ∃ r s, signUsingK c k ⟨d, Q⟩ H msg = .ok (some (setBytes r, s)) ∧ r = Spec.rOf c H (k • c.G) ∧ Spec.Valid c H Q msg r s := by
  have hQ := EcGdsa.pair_ne_zero hk
  rw [signUsingK]
  simp only [Curve.onCurve, hQ, ne_eq, not_false_eq_true, decide_true, Bool.not_true, Bool.false_eq_true, if_false, Curve.baseMult_eq,
    point_bytes, reduce_eq, cQ_eq]
  split
  · left; rfl
  right
  rename_i ht
  refine ⟨Spec.rOf c H (k • c.G), _, rfl, rfl, ?_⟩
  generalize hT : (d : Int) * (((k : Int) - _) % c.N) % c.N = t at ht ⊢
  have hN : (0 : Int) < c.N := by have := c.N_pos; omega
  have htl : t < c.N := by rw [← hT]; exact Int.emod_lt_of_pos _ hN
  have hx : setBytes (xorb (Spec.rOf c H (k • c.G)) (Spec.rightmost c.N (H.f (Spec.z c H Q ++ msg)))) =
      (setBytes (Spec.rightmost c.N (H.f (hx c.plen (c.x (k • c.G))))) ^^^ setBytes (Spec.rightmost c.N (H.f (Spec.z c H Q ++ msg)))) := by
    rw [setBytes_xor]; · rfl
    rw [Spec.rOf, rightmost_length, rightmost_length]
  refine ⟨by rw [Spec.rOf, rightmost_length], by omega, by omega, ?_⟩
  rw [Int.toNat_natCast, signPoint c hk (k := k)]
  have hc : ((t.toNat : Nat) : ZMod c.N) = ((t : Int) : ZMod c.N) := by
    conv_rhs => rw [← Int.toNat_of_nonneg (show 0 ≤ t by omega)]
    rw [Int.cast_natCast]
  rw [hc, ← hT, ZMod.intCast_mod, Int.cast_mul, ZMod.intCast_mod, Spec.e, hx]
  push_cast
  rfl

theorem signLoop_spec (c : Curve) (d : Nat) (Q : c.α) (hk : EcGdsa.Spec.IsPair c d Q) (H : HashFn) (msg : Bytes) : ∀ fuel rd, rd.length < fuel →
    signLoop c ⟨d, Q⟩ H msg fuel rd = .err ∨
    ∃ r s, signLoop c ⟨d, Q⟩ H msg fuel rd = .ok (setBytes r, s) ∧ Spec.Valid c H Q msg r s
  | 0, rd, h => by omega
  | fuel + 1, rd, h => by
    rw [signLoop]
    rcases randFieldElement_cases c.N c.N_pos rd with hr | ⟨k, rd', hr, h1, h2, h3⟩
    · left; rw [hr]
    rw [hr]
    dsimp only
    rcases signUsingK_spec c k d Q hk H msg with e | ⟨r, s, e, _, hv⟩
    · rw [e]
      exact signLoop_spec c d Q hk H msg fuel rd' (by omega)
    · rw [e]
      exact .inr ⟨r, s, rfl, hv⟩

/-- C91. `VerifyWithRS` is a decision for all integers: it accepts exactly the numbers `r > 0` and `s` whose octet
string is a valid EC-KCDSA signature. -/
theorem C91_verify (c : Curve) (H : HashFn) (Q : c.α) (hQ : Q ≠ 0) (msg : Bytes) (r s : Int) :
    verifyWithRS c Q H msg r s = true ↔ 0 < r ∧ ∃ rb, (setBytes rb : Int) = r ∧ Spec.Valid c H Q msg rb s := by
  rw [verifyWithRS, if_neg (by simp [Curve.onCurve, hQ])]
  by_cases hneg : r ≤ 0 ∨ s ≤ 0
  · rw [if_pos hneg]
    constructor
    · intro h; cases h
    · rintro ⟨h, rb, _, _, h3, _⟩; omega
  rw [if_neg hneg]
  obtain ⟨r, rfl⟩ := Int.eq_ofNat_of_zero_le (show 0 ≤ r by omega)
  obtain ⟨s, rfl⟩ := Int.eq_ofNat_of_zero_le (show 0 ≤ s by omega)
  simp only [Int.toNat_natCast, Curve.baseMult_eq, Curve.mult_eq, point_bytes, reduce_eq, cQ_eq]
  by_cases hlen : r < 256 ^ Spec.rLen c H
  · have hb := byteLen_le.mpr hlen
    rw [Spec.rLen] at hb
    rw [if_neg (by omega), if_neg (by omega)]
    by_cases hs : s ≥ c.N
    · rw [if_pos hs]
      constructor
      · intro h; cases h
      · rintro ⟨h, rb, _, _, h3, h4, _⟩; omega
    rw [if_neg hs]
    have he : ∀ rb : Bytes, rb.length = Spec.rLen c H → setBytes rb = r →
        Spec.e c H Q msg rb = (r ^^^ setBytes (Spec.rightmost c.N (H.f (Spec.z c H Q ++ msg)))) := by
      intro rb hl hr
      rw [Spec.e, setBytes_xor _ _ (by rw [rightmost_length, hl]), hr]
    have hsm : ∀ v : Nat, (v % c.N) • c.G = v • c.G := fun v => c.smul_congr (by rw [ZMod.natCast_mod])
    rw [beq_iff_eq, hsm]
    constructor
    · intro h
      refine ⟨by omega, Spec.rOf c H (s • Q + (r ^^^ setBytes (Spec.rightmost c.N (H.f (Spec.z c H Q ++ msg)))) • c.G), ?_, ?_,
        by omega, by omega, ?_⟩
      · rw [Spec.rOf, ← h]
      · rw [Spec.rOf, rightmost_length]
      · rw [he _ (by rw [Spec.rOf, rightmost_length]) (by rw [Spec.rOf, ← h]), Int.toNat_natCast]
    · rintro ⟨_, rb, h1, h2, _, _, h3⟩
      have h1 : setBytes rb = r := by exact_mod_cast h1
      rw [he rb h2 h1, Int.toNat_natCast, Spec.rOf] at h3
      rw [← h3, h1]
  · have hb : ¬ byteLen r ≤ Spec.rLen c H := fun h => hlen (byteLen_le.mp h)
    rw [Spec.rLen] at hb
    constructor
    · intro h
      by_cases h1 : H.size > byteLen c.N ∧ byteLen r > byteLen c.N
      · rw [if_pos h1] at h; cases h
      · rw [if_neg h1, if_pos (by omega)] at h; cases h
    · rintro ⟨_, rb, h1, h2, _⟩
      have := setBytes_lt rb
      rw [h2] at this
      omega

/-- C91. `SignToRS` with any key pair, hash, message and random source ends; what it returns is a valid EC-KCDSA
signature, and `VerifyWithRS` accepts it.  Missing from the full claim: the case `r = 0`, a signature `SignToRS` may
return and `VerifyWithRS` rejects (`C91_zero_r_violated`). -/
theorem C91_sign_verifies_partial (c : Curve) (H : HashFn) (d : Nat) (Q : c.α) (hk : EcGdsa.Spec.IsPair c d Q) (rd msg : Bytes) :
    signToRS c rd ⟨d, Q⟩ H msg = .err ∨
    ∃ (r s : Nat) (rb : Bytes), signToRS c rd ⟨d, Q⟩ H msg = .ok (r, s) ∧ setBytes rb = r ∧ Spec.Valid c H Q msg rb s ∧
      (r ≠ 0 → verifyWithRS c Q H msg r s = true) := by
  rcases signLoop_spec c d Q hk H msg (rd.length + 1) rd (by omega) with h | ⟨r, s, h, hv⟩
  · exact .inl h
  refine .inr ⟨_, s, r, h, rfl, hv, fun h0 => ?_⟩
  rw [C91_verify c H Q (EcGdsa.pair_ne_zero hk)]
  exact ⟨by omega, r, rfl, hv⟩

example : EcGdsa.Spec.IsPair toy 3 (5 : ZMod 7) := ⟨by decide, by decide, by decide, 5, rfl⟩
example : signToRS toy [48, 32] ⟨3, (5 : ZMod 7)⟩ toyHash [1, 2] = .ok (18, 5) := by decide

/-- A small hash function with three bytes of output. -/
def toyHash3 : HashFn where
  f m := [m.foldl (· + ·) 0#8, 7#8, m.foldl (· ^^^ ·) 0#8]
  size := 3
  block := 4
  pos := by decide
  len _ := rfl

/-- A signature with `r = 0` (valid as octets) is returned by `SignToRS` and rejected by `VerifyWithRS`. -/
theorem C91_zero_r_violated : ∃ (H : HashFn) (rd msg : Bytes) (s : Nat), EcGdsa.Spec.IsPair toy 3 (5 : ZMod 7) ∧
    signToRS toy rd ⟨3, (5 : ZMod 7)⟩ H msg = .ok (0, s) ∧ verifyWithRS toy (5 : ZMod 7) H msg 0 s = false :=
  ⟨{ toyHash with f := fun m => [m.foldl (· ^^^ ·) 3#8] }, [32], [1], 3, ⟨by decide, by decide, by decide, 5, rfl⟩, by decide, by decide⟩

/-- C91. `SignBytes` and `VerifyBytes`: when the order fits in as many bytes as the field, every signature has the length
that `VerifyBytes` expects, is the octet string `r` with leading zeros followed by `s`, and verifies unless `r = 0`. -/
theorem C91_bytes_partial (c : Curve) (H : HashFn) (d : Nat) (Q : c.α) (hk : EcGdsa.Spec.IsPair c d Q) (hN : c.N < 256 ^ c.plen) (rd msg : Bytes) :
    signBytes c rd ⟨d, Q⟩ H msg = .err ∨
    ∃ (sig : Bytes) (r s : Nat), signBytes c rd ⟨d, Q⟩ H msg = .ok sig ∧ signToRS c rd ⟨d, Q⟩ H msg = .ok (r, s) ∧
      sig = hx (min H.size c.plen) r ++ hx c.plen s ∧ (r ≠ 0 → verifyBytes c Q H msg sig = true) := by
  rw [signBytes]
  rcases C91_sign_verifies_partial c H d Q hk rd msg with h | ⟨r, s, rb, h, hr, hv, ht⟩
  · left; rw [h]; rfl
  right
  have ⟨h2, h3, h4, _⟩ := hv
  have hb := byteLen_le.mpr hN
  have hr1 : r < 256 ^ sigRLen H c := by
    refine Nat.lt_of_lt_of_le (hr ▸ setBytes_lt rb) (Nat.pow_le_pow_right (by decide) ?_)
    rw [h2, Spec.rLen, sigRLen]; omega
  have hs : s < 256 ^ c.plen := by omega
  refine ⟨hx (sigRLen H c) r ++ hx c.plen s, r, s, ?_, h, rfl, fun h0 => ?_⟩
  · rw [h]; simp [fillBytes_ok hr1, fillBytes_ok hs]
  · rw [verifyBytes, if_neg (by simp), List.take_left' (by simp), List.drop_left' (by simp), setBytes_hx _ _ hr1, setBytes_hx _ _ hs]
    exact ht h0

/-- The condition on the order is needed: on a curve whose order is longer than the field (the repository has
secp160r1 and secp160k1), `SignBytes` panics as soon as `r` is longer than the field. -/
theorem C91_bytes_violated : EcGdsa.Spec.IsPair toyBig 193 (4 : ZMod 257) ∧
    signBytes toyBig [0, 1] ⟨193, (4 : ZMod 257)⟩ toyHash3 [9] = .panic :=
  ⟨⟨by decide, by decide, show (193 : Nat) • (4 : ZMod 257) = 1 by decide +kernel, 4, rfl⟩, by decide +kernel⟩

end Verif.Pub.EcKcdsa
