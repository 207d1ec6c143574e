import Verif.Pub.EcRdsa
/-
C93: EC-RDSA (pubkey/ecrdsa).  The specification is ISO/IEC 14888-3 (and RFC 7091), stated with the group of the curve
and the field of integers modulo the order.
-/
namespace Verif.Pub.EcRdsa
open Verif.Cipher Verif.Kdf

namespace Spec

/-- The number of the message: the digest, in one byte order or the other, as an element of the field, with 1 for 0. -/
def e (c : Curve) (rev : Bool) (H : HashFn) (msg : Bytes) : ZMod c.N :=
  let h : ZMod c.N := (setBytes (if rev then (H.f msg).reverse else H.f msg) : Nat)
  if h = 0 then 1 else h

/-- A valid signature: `0 < r < q`, `0 < s < q`, and `r` is the x-coordinate modulo `q` of `(s/e)·G − (r/e)·Q`. -/
def Valid (c : Curve) (rev : Bool) (H : HashFn) (Q : c.α) (msg : Bytes) (r s : Int) : Prop :=
  0 < r ∧ r < c.N ∧ 0 < s ∧ s < c.N ∧
  ∃ u v : Nat, (u : ZMod c.N) = s / e c rev H msg ∧ (v : ZMod c.N) = -r / e c rev H msg ∧ r = (c.x (u • c.G + v • Q) % c.N : Nat)

/-- Steps 3 to 8 of signing with the random number `k`: `s = rd + ke`; `none` is the instruction to start again. -/
def Signs (c : Curve) (rev : Bool) (d : Nat) (H : HashFn) (msg : Bytes) (k : Nat) (r s : Nat) : Prop :=
  r = c.x (k • c.G) % c.N ∧ r ≠ 0 ∧ (s : ZMod c.N) = r * d + k * e c rev H msg ∧ s ≠ 0 ∧ s < c.N

end Spec

theorem e_ne_zero (c : Curve) (rev : Bool) (H : HashFn) (msg : Bytes) : Spec.e c rev H msg ≠ 0 := by
  rw [Spec.e]
  generalize (setBytes _ : ZMod c.N) = h
  by_cases h0 : h = 0
  · simp [h0]
  · simp [h0]

theorem hashInt_cast (c : Curve) (rev : Bool) (H : HashFn) (msg : Bytes) : (hashInt rev H c.N msg : ZMod c.N) = Spec.e c rev H msg := by
  rw [hashInt, Spec.e]
  generalize (if rev = true then (H.f msg).reverse else H.f msg) = b
  by_cases h : setBytes b % c.N = 0
  · have : ((setBytes b : Nat) : ZMod c.N) = 0 := by rw [ZMod.natCast_eq_zero_iff]; exact Nat.dvd_of_mod_eq_zero h
    rw [if_pos h, if_pos this, Nat.cast_one]
  · have : ¬ ((setBytes b : Nat) : ZMod c.N) = 0 := by
      rw [ZMod.natCast_eq_zero_iff]; exact fun hd => h (Nat.mod_eq_zero_of_dvd hd)
    rw [if_neg h, if_neg this, ZMod.natCast_mod]

/-- `VerifyWithRS` on numbers in range, in terms of the specification. -/
theorem verify_eq (c : Curve) (rev : Bool) (H : HashFn) (Q : c.α) (msg : Bytes) (hQ : Q ≠ 0) (hG : ∃ k : Nat, Q = k • c.G) (r s : Nat)
    (hr0 : 0 < r) (hr : r < c.N) (hs0 : 0 < s) (hs : s < c.N) (u v : Nat)
    (hu : (u : ZMod c.N) = s / Spec.e c rev H msg) (hv : (v : ZMod c.N) = -r / Spec.e c rev H msg) :
    verifyWithRS c rev Q H msg r s = .ok (r == c.x (u • c.G + v • Q) % c.N) := by
  have he := e_ne_zero c rev H msg
  have hd : ¬ c.N ∣ hashInt rev H c.N msg := by
    rw [← ZMod.natCast_eq_zero_iff, hashInt_cast]; exact he
  obtain ⟨x, hx, _, h1⟩ := modInv_prime c.prime hd
  rw [hashInt_cast] at h1
  have hxi : (x : ZMod c.N) = (Spec.e c rev H msg)⁻¹ := by
    rw [← one_div, eq_div_iff he]; linear_combination h1
  rw [verifyWithRS, if_neg (by simp [Curve.onCurve, hQ]), if_neg (by omega)]
  simp only [Int.toNat_natCast]
  rw [if_neg (by omega)]
  simp only [hx, Curve.mult_eq, Curve.baseMult_eq]
  obtain ⟨k, rfl⟩ := hG
  rw [add_comm]
  congr 5
  · refine c.smul_congr ?_
    rw [hu, ZMod.natCast_mod, Nat.cast_mul, hxi]; ring
  · rw [← mul_smul, ← mul_smul]
    refine c.smul_congr ?_
    rw [Nat.cast_mul, Nat.cast_mul, hv, cast_negMod _ _ c.N_pos, ZMod.natCast_mod, Nat.cast_mul, hxi]; ring

/-- C93. `VerifyWithRS` is a decision for all integers `r` and `s`, public keys and messages: it accepts exactly the valid
signatures, and never panics. -/
theorem C93_verify (c : Curve) (rev : Bool) (H : HashFn) (Q : c.α) (hQ : Q ≠ 0) (hG : ∃ k : Nat, Q = k • c.G) (msg : Bytes) (r s : Int) :
    ∃ b, verifyWithRS c rev Q H msg r s = .ok b ∧ (b = true ↔ Spec.Valid c rev H Q msg r s) := by
  by_cases hneg : r ≤ 0 ∨ s ≤ 0
  · rw [verifyWithRS, if_neg (by simp [Curve.onCurve, hQ]), if_pos hneg]
    refine ⟨false, rfl, ⟨fun h => by (cases h), ?_⟩⟩
    rintro ⟨h1, h2, h3, _⟩; omega
  obtain ⟨r, rfl⟩ := Int.eq_ofNat_of_zero_le (show 0 ≤ r by omega)
  obtain ⟨s, rfl⟩ := Int.eq_ofNat_of_zero_le (show 0 ≤ s by omega)
  by_cases hbig : r ≥ c.N ∨ s ≥ c.N
  · rw [verifyWithRS, if_neg (by simp [Curve.onCurve, hQ]), if_neg hneg]
    simp only [Int.toNat_natCast]
    rw [if_pos hbig]
    refine ⟨false, rfl, ⟨fun h => by (cases h), ?_⟩⟩
    rintro ⟨h1, h2, h3, h4, _⟩; omega
  obtain ⟨u, hu⟩ := exists_nat (((s : Nat) : ZMod c.N) / Spec.e c rev H msg)
  obtain ⟨v, hv⟩ := exists_nat (-((r : Nat) : ZMod c.N) / Spec.e c rev H msg)
  refine ⟨_, verify_eq c rev H Q msg hQ hG r s (by omega) (by omega) (by omega) (by omega) u v hu hv, ?_⟩
  rw [beq_iff_eq]
  constructor
  · intro h
    exact ⟨by omega, by omega, by omega, by omega, u, v, by simpa using hu, by simpa using hv, by exact_mod_cast h⟩
  · rintro ⟨_, _, _, _, u', v', hu', hv', h⟩
    obtain ⟨k, rfl⟩ := hG
    have e1 : u' • c.G = u • c.G := c.smul_congr (by rw [hu', hu]; simp)
    have e2 : v' • k • c.G = v • k • c.G := by
      rw [← mul_smul, ← mul_smul]
      exact c.smul_congr (by rw [Nat.cast_mul, Nat.cast_mul, hv', hv]; simp)
    rw [e1, e2] at h
    exact_mod_cast h

theorem signs_valid (c : Curve) (rev : Bool) (H : HashFn) (d : Nat) (msg : Bytes) (k r s : Nat) (h : Spec.Signs c rev d H msg k r s) :
    Spec.Valid c rev H (d • c.G) msg r s := by
  obtain ⟨hr, hr0, hs, hs0, hsl⟩ := h
  have he := e_ne_zero c rev H msg
  have hrl : r < c.N := by rw [hr]; exact Nat.mod_lt _ c.N_pos
  obtain ⟨u, hu⟩ := exists_nat (((s : Nat) : ZMod c.N) / Spec.e c rev H msg)
  obtain ⟨v, hv⟩ := exists_nat (-((r : Nat) : ZMod c.N) / Spec.e c rev H msg)
  refine ⟨by omega, by omega, by omega, by omega, u, v, by simpa using hu, by simpa using hv, ?_⟩
  have : u • c.G + v • d • c.G = k • c.G := by
    rw [← mul_smul, ← add_smul]
    refine c.smul_congr ?_
    rw [Nat.cast_add, Nat.cast_mul, hu, hv, hs]
    field_simp
    ring
  rw [this, ← hr]

/-- What the loop of `SignToRS` ends with: the first number that is not discarded signs the message written as many
times as there were attempts that reached the hash. -/
theorem signLoop_spec (c : Curve) (rev : Bool) (d : Nat) (H : HashFn) (msg : Bytes) : ∀ fuel hb rd, rd.length < fuel →
    signLoop c rev d H msg fuel hb rd = .err ∨ ∃ (k r s n : Nat), signLoop c rev d H msg fuel hb rd = .ok (r, s) ∧
      Spec.Signs c rev d H (hb ++ (List.replicate (n + 1) msg).flatten) k r s
  | 0, _, rd, h => by omega
  | fuel + 1, hb, rd, h => by
    rw [signLoop]
    rcases randFieldElement_cases c.N c.N_pos rd with hr | ⟨k, rd', hr, h1, h2, h3⟩
    · left; rw [hr]
    simp only [hr, Curve.baseMult_eq]
    split
    · exact signLoop_spec c rev d H msg fuel hb rd' (by omega)
    rename_i hr0
    split
    · rcases signLoop_spec c rev d H msg fuel (hb ++ msg) rd' (by omega) with e | ⟨k', r, s, n, e, hs⟩
      · exact .inl e
      · refine .inr ⟨k', r, s, n + 1, e, ?_⟩
        rw [List.append_assoc] at hs
        rw [List.replicate_succ, List.flatten_cons]
        exact hs
    · rename_i hs0
      refine .inr ⟨k, _, _, 0, rfl, rfl, hr0, ?_, hs0, Nat.mod_lt _ c.N_pos⟩
      rw [← hashInt_cast]
      simp [ZMod.natCast_mod]

/-- C93. Signing, for every key pair, hash, message and random source: it ends, with the error of the random source or
with a signature of the message repeated as many times as attempts reached the hash; and it is a signature of the
message itself, accepted by `VerifyWithRS`, when the first number drawn is not one the standard tells to discard.
Missing from the full claim: the other random sources (`C93_retry_violated`). -/
theorem C93_sign_verifies_partial (c : Curve) (rev : Bool) (H : HashFn) (d : Nat) (Q : c.α) (hk : IsKeyPair c d Q) (rd msg : Bytes) :
    (signToRS c rev rd ⟨d, Q⟩ H msg = .err ∨ ∃ r s n : Nat, signToRS c rev rd ⟨d, Q⟩ H msg = .ok (r, s) ∧
      Spec.Valid c rev H Q (List.replicate (n + 1) msg).flatten r s) ∧
    (∀ k rd' r s, randFieldElement c.N rd = .ok (k, rd') → Spec.Signs c rev d H msg k r s →
      signToRS c rev rd ⟨d, Q⟩ H msg = .ok (r, s) ∧ verifyWithRS c rev Q H msg r s = .ok true) := by
  have hQ := hk.ne_zero
  rw [signToRS, if_neg (by simp [Curve.onCurve, hQ])]
  constructor
  · rcases signLoop_spec c rev d H msg (rd.length + 1) [] rd (by omega) with e | ⟨k', r, s, n, e, hs⟩
    · exact .inl e
    · refine .inr ⟨r, s, n, e, ?_⟩
      have := signs_valid c rev H d _ k' r s hs
      rw [← hk.2.2] at this
      simpa using this
  · intro k rd' r s hrd hs
    constructor
    · have ⟨h1, h2, h3, h4, h5⟩ := hs
      rw [signLoop]
      simp only [hrd, Curve.baseMult_eq, List.nil_append]
      rw [← h1, if_neg h2]
      have : (r * d % c.N + k * hashInt rev H c.N msg % c.N) % c.N = s := by
        have e : ((r * d % c.N + k * hashInt rev H c.N msg % c.N : Nat) : ZMod c.N) = s := by
          push_cast
          rw [ZMod.natCast_mod, ZMod.natCast_mod, Nat.cast_mul, Nat.cast_mul, hashInt_cast, h3]
        have := (ZMod.natCast_eq_natCast_iff' _ _ _).mp e
        rw [this, Nat.mod_eq_of_lt h5]
      rw [this, if_neg h4]
    · have hv := signs_valid c rev H d msg k r s hs
      rw [← hk.2.2] at hv
      obtain ⟨b, hb, hiff⟩ := C93_verify c rev H Q hQ ⟨d, hk.2.2⟩ msg r s
      rw [hb, hiff.mpr hv]

example : randFieldElement toy.N [32, 9] = .ok (1, [9]) ∧ signToRS toy false [32, 9] ⟨3, (3 : ZMod 7)⟩ toyHash [1, 2] = .ok (3, 3) := by decide
example : Spec.Signs toy false 3 toyHash [1, 2] 1 3 3 := ⟨by decide, by decide, by decide, by decide, by decide⟩

/-- The first number drawn is discarded because `s = 0`, as the standard says; the second attempt hashes the message
twice, and the signature returned is rejected. -/
theorem C93_retry_violated : ∃ (rd msg : Bytes) (r s : Nat), IsKeyPair toy 1 (1 : ZMod 7) ∧
    signToRS toy false rd ⟨1, (1 : ZMod 7)⟩ toyHash msg = .ok (r, s) ∧ verifyWithRS toy false (1 : ZMod 7) toyHash msg r s = .ok false :=
  ⟨[32, 96], [3], 2, 5, ⟨by decide, by decide, rfl⟩, by decide, by decide⟩

/-- C93. `SignBytes` and `VerifyBytes` agree with the pairs when the order fits in as many bytes as the field, and
`VerifyBytes` has a verdict on every byte string. -/
theorem C93_bytes_partial (c : Curve) (rev : Bool) (H : HashFn) (d : Nat) (Q : c.α) (hk : IsKeyPair c d Q) (rd msg : Bytes) :
    (c.N ≤ 256 ^ c.plen → signBytes c rev rd ⟨d, Q⟩ H msg = .err ∨
      ∃ r s, signToRS c rev rd ⟨d, Q⟩ H msg = .ok (r, s) ∧ signBytes c rev rd ⟨d, Q⟩ H msg = .ok (hx c.plen r ++ hx c.plen s) ∧
        verifyBytes c rev Q H msg (hx c.plen r ++ hx c.plen s) = verifyWithRS c rev Q H msg r s) ∧
    (∀ sig, ∃ b, verifyBytes c rev Q H msg sig = .ok b) := by
  constructor
  · intro hN
    rw [signBytes]
    rcases (C93_sign_verifies_partial c rev H d Q hk rd msg).1 with h | ⟨r, s, n, h, hv⟩
    · left; rw [h]; rfl
    right
    have ⟨_, h1, _, h2, _⟩ := hv
    have h1 : r < 256 ^ c.plen := by omega
    have h2 : s < 256 ^ c.plen := by omega
    refine ⟨r, s, h, ?_, ?_⟩
    · rw [h]; simp [fillBytes_ok h1, fillBytes_ok h2]
    · rw [verifyBytes, if_neg (by simp; omega), List.take_left' (by simp), List.drop_left' (by simp), setBytes_hx _ _ h1, setBytes_hx _ _ h2]
  · intro sig
    rw [verifyBytes]
    split
    · exact ⟨_, rfl⟩
    · obtain ⟨b, hb, _⟩ := C93_verify c rev H Q hk.ne_zero ⟨d, hk.2.2⟩ msg (setBytes (sig.take c.plen)) (setBytes (sig.drop c.plen))
      exact ⟨b, hb⟩

end Verif.Pub.EcRdsa
