import Verif.Pub.EcGdsa
/-
C90: EC-GDSA (pubkey/ecgdsa).  The specification is ISO/IEC 14888-3, stated with the group of the curve and the field
of integers modulo the order.
-/
namespace Verif.Pub.EcGdsa
open Verif.Cipher Verif.Kdf

namespace Spec

/-- Step 1 of signing and step 2 of verification: the leftmost bytes of the digest, at most as many as the order has. -/
def digest (H : HashFn) (n : Nat) (msg : Bytes) : Nat := setBytes ((H.f msg).take (byteLen n))

/-- The public key of `d`: the point `Q` with `d·Q = G`. -/
def IsPair (c : Curve) (d : Nat) (Q : c.α) : Prop := 1 ≤ d ∧ d < c.N ∧ d • Q = c.G ∧ ∃ k : Nat, Q = k • c.G

/-- A valid signature: `0 < r < q`, `0 < s < q`, and `r` is the x-coordinate modulo `q` of `(h/r)·G + (s/r)·Q`. -/
def Valid (c : Curve) (H : HashFn) (Q : c.α) (msg : Bytes) (r s : Int) : Prop :=
  0 < r ∧ r < c.N ∧ 0 < s ∧ s < c.N ∧
  ∃ u v : Nat, (u : ZMod c.N) = digest H c.N msg / r ∧ (v : ZMod c.N) = s / r ∧ r = (c.x (u • c.G + v • Q) % c.N : Nat)

end Spec

theorem hashInt_eq (H : HashFn) (n : Nat) (msg : Bytes) : hashInt H n msg = Spec.digest H n msg % n := by
  have hl := H.len msg
  unfold hashInt Spec.digest
  by_cases h : H.size > byteLen n
  · have := setBytes_shift ((H.f msg).take (byteLen n)) ((H.f msg).drop (byteLen n))
    rw [List.take_append_drop, List.length_drop, hl] at this
    simp only [h, if_true]
    rw [if_pos (by omega), this]
  · simp only [h, if_false]
    rw [List.take_of_length_le (by omega)]
    simp

/-- What the loop of `SignToRS` ends with. -/
theorem signLoop_spec (c : Curve) (d e : Nat) : ∀ fuel rd, rd.length < fuel →
    signLoop c d e fuel rd = .err ∨ ∃ k r s, signLoop c d e fuel rd = .ok (r, s) ∧ 1 ≤ k ∧ k < c.N ∧ r = c.x (k • c.G) % c.N ∧
      r ≠ 0 ∧ s < c.N ∧ s ≠ 0 ∧ (s : ZMod c.N) = d * (k * r + e)
  | 0, rd, h => by omega
  | fuel + 1, rd, h => by
    rw [signLoop]
    rcases randFieldElement_cases c.N c.N_pos rd with hr | ⟨k, rd', hr, h1, h2, h3⟩
    · left; rw [hr]
    rw [hr]
    simp only [Curve.baseMult_eq]
    have ih := signLoop_spec c d e fuel rd' (by omega)
    split
    · exact ih
    split
    · exact ih
    rename_i hr0 hs0
    refine .inr ⟨k, _, _, rfl, h1, h2, rfl, hr0, Nat.mod_lt _ c.N_pos, hs0, ?_⟩
    simp [ZMod.natCast_mod]

/-- Verification in terms of the specification: everything but the upper bound on `s`. -/
theorem verify_eq (c : Curve) (H : HashFn) (Q : c.α) (msg : Bytes) (r s : Nat) (hQ : Q ≠ 0) (hr : 0 < r) (hs : 0 < s)
    (hd : ¬ c.N ∣ r) (u v : Nat) (hu : (u : ZMod c.N) = Spec.digest H c.N msg / r) (hv : (v : ZMod c.N) = s / r) (hG : ∃ k : Nat, Q = k • c.G) :
    verifyWithRS c Q H msg r s = .ok (r == c.x (u • c.G + v • Q) % c.N) := by
  have hn := c.cast_ne_zero hd
  obtain ⟨x, hx, _, h1⟩ := modInv_prime c.prime hd
  have hxi : (x : ZMod c.N) = (r : ZMod c.N)⁻¹ := by
    rw [← one_div]; rw [eq_div_iff hn]; linear_combination h1
  unfold verifyWithRS
  have hg : ¬ ((r : Int) ≤ 0 ∨ (s : Int) ≤ 0) := by omega
  simp only [Curve.onCurve, hQ, ne_eq, not_false_eq_true, decide_true, Bool.not_true, Bool.false_eq_true, if_false, hg, Int.toNat_natCast, hx,
    Curve.baseMult_eq, Curve.mult_eq]
  obtain ⟨k, rfl⟩ := hG
  rw [add_comm]
  congr 5
  · refine c.smul_congr ?_
    rw [hu, ZMod.natCast_mod, Nat.cast_mul, hashInt_eq, ZMod.natCast_mod, hxi]; ring
  · rw [← mul_smul, ← mul_smul]
    refine c.smul_congr ?_
    rw [Nat.cast_mul, Nat.cast_mul, hv, ZMod.natCast_mod, Nat.cast_mul, hxi]; ring

theorem pair_ne_zero {c : Curve} {d : Nat} {Q : c.α} (h : Spec.IsPair c d Q) : Q ≠ 0 := by
  rintro rfl
  have h3 := h.2.2.1
  rw [smul_zero] at h3
  have := (c.order 1).mp (by rw [one_smul, h3])
  have := Nat.le_of_dvd (by decide) this
  have := c.two_le; omega

theorem pair_scalar {c : Curve} {d k : Nat} (h : d • k • c.G = c.G) : (d : ZMod c.N) * k = 1 := by
  rw [← mul_smul] at h
  have := c.smul_inj (a := d * k) (b := 1) (by rw [one_smul, h])
  simpa using this

/-- C90. `SignToRS` with any key pair, hash, message and random source ends, and what it returns is a valid EC-GDSA
signature that `VerifyWithRS` accepts; the only other outcome is the error of the random source. -/
theorem C90_sign_verifies (c : Curve) (H : HashFn) (d : Nat) (Q : c.α) (hk : Spec.IsPair c d Q) (rd msg : Bytes) :
    signToRS c rd ⟨d, Q⟩ H msg = .err ∨
    ∃ r s : Nat, signToRS c rd ⟨d, Q⟩ H msg = .ok (r, s) ∧ Spec.Valid c H Q msg r s ∧ verifyWithRS c Q H msg r s = .ok true := by
  have hQ := pair_ne_zero hk
  rw [signToRS]
  simp only [Curve.onCurve, hQ, ne_eq, not_false_eq_true, decide_true, Bool.not_true, Bool.false_eq_true, if_false]
  rcases signLoop_spec c d (negMod (hashInt H c.N msg) c.N) (rd.length + 1) rd (by omega) with h | ⟨k, r, s, h, h1, h2, hr, hr0, hs, hs0, he⟩
  · exact .inl h
  refine .inr ⟨r, s, h, ?_⟩
  have hrlt : r < c.N := by rw [hr]; exact Nat.mod_lt _ c.N_pos
  have hnd : ¬ c.N ∣ r := c.not_dvd (by omega) hrlt
  have hn := c.cast_ne_zero hnd
  obtain ⟨u, hu⟩ := exists_nat (((Spec.digest H c.N msg : Nat) : ZMod c.N) / ((r : Nat) : ZMod c.N))
  obtain ⟨v, hv⟩ := exists_nat (((s : Nat) : ZMod c.N) / ((r : Nat) : ZMod c.N))
  obtain ⟨q, hq⟩ := hk.2.2.2
  have hdq := pair_scalar (c := c) (d := d) (k := q) (by rw [← hq]; exact hk.2.2.1)
  have hW : u • c.G + v • Q = k • c.G := by
    rw [hq, ← mul_smul, ← add_smul]
    refine c.smul_congr ?_
    rw [cast_negMod _ _ c.N_pos, hashInt_eq, ZMod.natCast_mod] at he
    rw [Nat.cast_add, Nat.cast_mul, hu, hv, he]
    field_simp
    linear_combination (k * r - Spec.digest H c.N msg : ZMod c.N) * hdq
  have hx : r = c.x (u • c.G + v • Q) % c.N := by rw [hW, hr]
  refine ⟨⟨by omega, by omega, by omega, by omega, u, v, ?_, ?_, by exact_mod_cast hx⟩, ?_⟩
  · simpa using hu
  · simpa using hv
  · rw [verify_eq c H Q msg r s hQ (by omega) (by omega) hnd u v hu hv ⟨q, hq⟩, ← hx]; simp

example : signToRS toy [48, 32] ⟨3, (5 : ZMod 7)⟩ toyHash [1, 2] = .ok (3, 6) := by decide
example : Spec.IsPair toy 3 (5 : ZMod 7) := ⟨by decide, by decide, by decide, 5, rfl⟩

theorem valid_iff (c : Curve) (H : HashFn) (Q : c.α) (msg : Bytes) (hG : ∃ k : Nat, Q = k • c.G) (r s : Nat) (u v : Nat)
    (hu : (u : ZMod c.N) = ((Spec.digest H c.N msg : Nat) : ZMod c.N) / ((r : Nat) : ZMod c.N)) (hv : (v : ZMod c.N) = (s : ZMod c.N) / (r : ZMod c.N)) :
    Spec.Valid c H Q msg r s ↔ 0 < r ∧ 0 < s ∧ s < c.N ∧ r = c.x (u • c.G + v • Q) % c.N := by
  constructor
  · rintro ⟨h1, h2, h3, h4, u', v', hu', hv', h⟩
    refine ⟨by omega, by omega, by omega, ?_⟩
    obtain ⟨k, rfl⟩ := hG
    have e1 : u' • c.G = u • c.G := c.smul_congr (by rw [hu', hu]; simp)
    have e2 : v' • k • c.G = v • k • c.G := by
      rw [← mul_smul, ← mul_smul]
      exact c.smul_congr (by rw [Nat.cast_mul, Nat.cast_mul, hv', hv]; simp)
    rw [e1, e2] at h
    exact_mod_cast h
  · rintro ⟨h1, h2, h3, h4⟩
    have : r < c.N := by rw [h4]; exact Nat.mod_lt _ c.N_pos
    exact ⟨by omega, by omega, by omega, by omega, u, v, by simpa using hu, by simpa using hv, by exact_mod_cast h4⟩

/-- C90. `VerifyWithRS` accepts every valid signature, and what it accepts with `s` in range is valid.  Missing from the
full claim (accept exactly the valid ones, for all integers): `s` is not bounded from above
(`C90_high_s_violated`), and there are inputs on which there is no verdict (`C90_verify_panics_violated`). -/
theorem C90_verify_partial (c : Curve) (H : HashFn) (Q : c.α) (hQ : Q ≠ 0) (hG : ∃ k : Nat, Q = k • c.G) (msg : Bytes) (r s : Int) :
    (Spec.Valid c H Q msg r s → verifyWithRS c Q H msg r s = .ok true) ∧
    (s < c.N → verifyWithRS c Q H msg r s = .ok true → Spec.Valid c H Q msg r s) := by
  by_cases hneg : r ≤ 0 ∨ s ≤ 0
  · constructor
    · rintro ⟨h1, _, h3, _⟩; omega
    · intro _ h
      rw [verifyWithRS, if_neg (by simp [Curve.onCurve, hQ]), if_pos hneg] at h
      cases h
  obtain ⟨r, rfl⟩ := Int.eq_ofNat_of_zero_le (show 0 ≤ r by omega)
  obtain ⟨s, rfl⟩ := Int.eq_ofNat_of_zero_le (show 0 ≤ s by omega)
  by_cases hd : c.N ∣ r
  · constructor
    · rintro ⟨h1, h2, _⟩
      exact absurd hd (c.not_dvd (by omega) (by omega))
    · intro _ h
      rw [verifyWithRS, if_neg (by simp [Curve.onCurve, hQ]), if_neg hneg] at h
      simp only [Int.toNat_natCast, modInv_none c.one_lt hd] at h
      cases h
  obtain ⟨u, hu⟩ := exists_nat (((Spec.digest H c.N msg : Nat) : ZMod c.N) / ((r : Nat) : ZMod c.N))
  obtain ⟨v, hv⟩ := exists_nat (((s : Nat) : ZMod c.N) / ((r : Nat) : ZMod c.N))
  rw [valid_iff c H Q msg hG r s u v hu hv, verify_eq c H Q msg r s hQ (by omega) (by omega) hd u v hu hv hG]
  constructor
  · rintro ⟨_, _, _, h⟩; rw [← h]; simp
  · intro hs h
    have h := Res.ok.inj h
    exact ⟨by omega, by omega, by omega, by simpa using h⟩

/-- C90, against the range check of the standard: with any accepted signature `(r, s)`, the pair `(r, s + q)` is
accepted too, although it is not valid. -/
theorem C90_high_s_violated (c : Curve) (H : HashFn) (Q : c.α) (hG : ∃ k : Nat, Q = k • c.G) (msg : Bytes) (r s : Int)
    (h : Spec.Valid c H Q msg r s) (hQ : Q ≠ 0) :
    verifyWithRS c Q H msg r (s + c.N) = .ok true ∧ ¬ Spec.Valid c H Q msg r (s + c.N) := by
  refine ⟨?_, fun h' => by have := h'.2.2.2.1; have := h.2.2.1; omega⟩
  have ⟨h1, h2, h3, h4, _⟩ := h
  obtain ⟨r, rfl⟩ := Int.eq_ofNat_of_zero_le (show 0 ≤ r by omega)
  obtain ⟨s, rfl⟩ := Int.eq_ofNat_of_zero_le (show 0 ≤ s by omega)
  have hd : ¬ c.N ∣ r := c.not_dvd (by omega) (by omega)
  obtain ⟨u, hu⟩ := exists_nat (((Spec.digest H c.N msg : Nat) : ZMod c.N) / ((r : Nat) : ZMod c.N))
  obtain ⟨v, hv⟩ := exists_nat (((s : Nat) : ZMod c.N) / ((r : Nat) : ZMod c.N))
  have e := ((valid_iff c H Q msg hG r s u v hu hv).mp h).2.2.2
  have := verify_eq c H Q msg r (s + c.N) hQ (by omega) (by omega) hd u v hu (by rw [hv]; simp) hG
  rw [← e] at this
  simpa using this

/-- C90, against a verdict on every input: a signature whose `r` is the group order, or any multiple of it, makes
`VerifyWithRS` panic, for every public key and message. -/
theorem C90_verify_panics_violated (c : Curve) (H : HashFn) (Q : c.α) (hQ : Q ≠ 0) (msg : Bytes) (k s : Nat) (hk : 0 < k) (hs : 0 < s) :
    verifyWithRS c Q H msg (c.N * k : Nat) s = .panic := by
  have : 0 < c.N * k := Nat.mul_pos c.N_pos hk
  rw [verifyWithRS, if_neg (by simp [Curve.onCurve, hQ]), if_neg (by omega)]
  simp only [Int.toNat_natCast, modInv_none c.one_lt (Nat.dvd_mul_right _ _)]

/-- The panic is reached from bytes: `VerifyBytes` of the encoding of `(q, 1)`, when `q` fits the encoding. -/
theorem C90_verifyBytes_panics_violated (c : Curve) (H : HashFn) (Q : c.α) (hQ : Q ≠ 0) (msg : Bytes) (hN : c.N < 256 ^ c.plen) :
    verifyBytes c Q H msg (hx c.plen c.N ++ hx c.plen 1) = .panic := by
  have h1 : 1 < 256 ^ c.plen := by have := c.two_le; omega
  have := C90_verify_panics_violated c H Q hQ msg 1 1 (by decide) (by decide)
  rw [verifyBytes, if_neg (by simp; omega), List.take_left' (by simp), List.drop_left' (by simp), setBytes_hx _ _ hN, setBytes_hx _ _ h1]
  simpa using this

/-- C90. `SignBytes` and `VerifyBytes`: when the order fits in as many bytes as the field, every signature is
`2·plen` bytes and verifies; the only other outcome is the error of the random source. -/
theorem C90_bytes_partial (c : Curve) (H : HashFn) (d : Nat) (Q : c.α) (hk : Spec.IsPair c d Q) (hN : c.N ≤ 256 ^ c.plen) (rd msg : Bytes) :
    signBytes c rd ⟨d, Q⟩ H msg = .err ∨
    ∃ sig, signBytes c rd ⟨d, Q⟩ H msg = .ok sig ∧ sig.length = 2 * c.plen ∧ verifyBytes c Q H msg sig = .ok true := by
  rw [signBytes]
  rcases C90_sign_verifies c H d Q hk rd msg with h | ⟨r, s, h, hv, ht⟩
  · left; rw [h]; rfl
  right
  have ⟨h1, h2, h3, h4, _⟩ := hv
  have hr : r < 256 ^ c.plen := by omega
  have hs : s < 256 ^ c.plen := by omega
  refine ⟨hx c.plen r ++ hx c.plen s, ?_, by simp; omega, ?_⟩
  · rw [h]; simp [fillBytes_ok hr, fillBytes_ok hs]
  · rw [verifyBytes, if_neg (by simp; omega), List.take_left' (by simp), List.drop_left' (by simp), setBytes_hx _ _ hr, setBytes_hx _ _ hs]
    exact ht

/-- The condition on the order is needed: on a curve with more points than `256^plen`, `SignBytes` can panic. -/
theorem C90_bytes_violated : Spec.IsPair toyBig 193 (4 : ZMod 257) ∧ signBytes toyBig [0, 1] ⟨193, (4 : ZMod 257)⟩ toyHash [] = .panic :=
  ⟨⟨by decide, by decide, show (193 : Nat) • (4 : ZMod 257) = 1 by decide +kernel, 4, rfl⟩, by decide +kernel⟩

/-- C90. `GenerateKey` delivers a key pair, or the error of the random source. -/
theorem C90_generate (c : Curve) (rd : Bytes) :
    generateKey c rd = .err ∨ ∃ key, generateKey c rd = .ok key ∧ Spec.IsPair c key.d key.Q := by
  rw [generateKey]
  rcases randFieldElement_cases c.N c.N_pos rd with hr | ⟨k, rd', hr, h1, h2, h3⟩
  · left; rw [hr]
  right
  rw [hr]
  refine ⟨_, rfl, h1, h2, ?_, _, c.baseMult_eq _⟩
  have := fermat_mul c.prime (c.not_dvd h1 h2)
  rw [Curve.baseMult_eq, ← mul_smul]
  conv_rhs => rw [← one_smul Nat c.G]
  exact c.smul_congr (by simpa using this)

/-- C90. Export and import of a private key give the same key pair.  Missing from the full claim: the key `d = q - 1`,
which `GenerateKey` can deliver (`C90_last_key_violated`). -/
theorem C90_import_partial (c : Curve) (d : Nat) (Q : c.α) (hk : Spec.IsPair c d Q) (hd : d ≠ c.N - 1) :
    ∃ b, privateKeyTo ⟨d, Q⟩ = .ok b ∧ b.length = byteLen c.N ∧ newPrivateKey c b = .ok ⟨d, Q⟩ := by
  have ⟨h1, h2, h3, k, hq⟩ := hk
  have hl : d < 256 ^ byteLen c.N := by have := lt_pow_byteLen c.N; omega
  refine ⟨hx (byteLen c.N) d, fillBytes_ok hl, by simp, ?_⟩
  rw [newPrivateKey]
  simp only [setBytes_hx _ _ hl]
  rw [if_neg (by omega), Curve.baseMult_eq, hq]
  congr 2
  have e := fermat_mul c.prime (c.not_dvd h1 h2)
  have f := pair_scalar (c := c) (d := d) (k := k) (by rw [← hq]; exact h3)
  refine c.smul_congr ?_
  have := c.cast_ne_zero (c.not_dvd h1 h2)
  exact mul_left_cancel₀ this (e.trans f.symm)

/-- The exported form of the key pair `d = q - 1` is refused by `NewPrivateKey`, on every curve. -/
theorem C90_last_key_violated (c : Curve) (Q : c.α) :
    ∃ b, privateKeyTo (c := c) ⟨c.N - 1, Q⟩ = .ok b ∧ newPrivateKey c b = .err := by
  have hl : c.N - 1 < 256 ^ byteLen c.N := by have := lt_pow_byteLen c.N; omega
  refine ⟨hx (byteLen c.N) (c.N - 1), fillBytes_ok hl, ?_⟩
  rw [newPrivateKey]
  simp only [setBytes_hx _ _ hl]
  rw [if_pos (by omega)]

example : Spec.IsPair toy 6 (6 : ZMod 7) := ⟨by decide, by decide, by decide, 6, rfl⟩

end Verif.Pub.EcGdsa
