import Verif.Pub.EcSchnorr
/-
C92: EC-SDSA, EC-OSDSA (pubkey/ecsdsa, pubkey/ecosdsa) and EC-FSDSA (pubkey/ecfsdsa).  The specification is
ISO/IEC 14888-3, stated with octet strings, the group of the curve and the field of integers modulo the order.
-/
namespace Verif.Pub.EcSchnorr
open Verif.Cipher Verif.Kdf

namespace Spec

/-- FE2OS: a coordinate in as many octets as the field has. -/
def fe (c : Curve) (v : Nat) : Bytes := hx (byteLen c.P) v

/-- The witness string: `H(Wx ‖ Wy ‖ m)`, or `H(Wx ‖ m)` in the optimised scheme. -/
def witness (c : Curve) (opt : Bool) (H : HashFn) (msg : Bytes) (W : c.α) : Bytes :=
  H.f (if opt then fe c (c.x W) ++ msg else fe c (c.x W) ++ fe c (c.y W) ++ msg)

/-- Steps 2 to 8 of signing with the random number `k`; `none` is the instruction to start again. -/
def attempt (c : Curve) (opt : Bool) (d : Nat) (H : HashFn) (msg : Bytes) (k : Nat) : Option (Bytes × Nat) :=
  let r := witness c opt H msg (k • c.G)
  let e := setBytes r % c.N
  let s := (k + e * d) % c.N
  if e = 0 ∨ s = 0 then none else some (r, s)

/-- A valid signature: `r` is a digest whose number is not 0 modulo `q`, `0 < s < q`, and `r` is the witness of
`sG − rQ`. -/
def Valid (c : Curve) (opt : Bool) (H : HashFn) (Q : c.α) (msg r : Bytes) (s : Int) : Prop :=
  ¬ c.N ∣ setBytes r ∧ 0 < s ∧ s < c.N ∧ r = witness c opt H msg (s.toNat • c.G - setBytes r • Q)

/-- EC-FSDSA: the witness is the point itself. -/
def fwitness (c : Curve) (W : c.α) : Bytes := fe c (c.x W) ++ fe c (c.y W)

/-- EC-FSDSA, steps 2 to 9 of signing with the random number `k`. -/
def fattempt (c : Curve) (d : Nat) (H : HashFn) (msg : Bytes) (k : Nat) : Option (Bytes × Nat) :=
  let r := fwitness c (k • c.G)
  let s := (k + setBytes (H.f (r ++ msg)) * d) % c.N
  if r = List.replicate r.length 0#8 ∨ s = 0 then none else some (r, s)

/-- EC-FSDSA, a valid signature: `r` encodes a point of the curve, `0 < s < q`, and the point is `sG − H(r ‖ m)·Q`. -/
def FValid (c : Curve) (H : HashFn) (Q : c.α) (msg r : Bytes) (s : Int) : Prop :=
  c.isOn (setBytes (r.take (byteLen c.P))) (setBytes (r.drop (byteLen c.P))) = true ∧ 0 < s ∧ s < c.N ∧
  r = fwitness c (s.toNat • c.G - setBytes (H.f (r ++ msg)) • Q)

end Spec

theorem x_fits (c : Curve) (W : c.α) : fillBytes (plenP c) (c.x W) = .ok (Spec.fe c (c.x W)) :=
  fillBytes_ok (Nat.lt_trans (c.x_lt W) (lt_pow_byteLen _))

theorem y_fits (c : Curve) (W : c.α) : fillBytes (plenP c) (c.y W) = .ok (Spec.fe c (c.y W)) :=
  fillBytes_ok (Nat.lt_trans (c.y_lt W) (lt_pow_byteLen _))

theorem witness_eq (c : Curve) (opt : Bool) (H : HashFn) (msg : Bytes) (W : c.α) :
    H.f (Spec.fe c (c.x W) ++ (if opt then [] else Spec.fe c (c.y W)) ++ msg) = Spec.witness c opt H msg W := by
  cases opt <;> simp [Spec.witness]

theorem witness_length (c : Curve) (opt : Bool) (H : HashFn) (msg : Bytes) (W : c.α) : (Spec.witness c opt H msg W).length = H.size := H.len _

theorem wy_eq (c : Curve) (opt : Bool) (W : c.α) :
    wyBytes c opt W = .ok (if opt then [] else Spec.fe c (c.y W)) := by
  cases opt <;> simp [wyBytes, y_fits]

/-- `eQ` for `e = −r mod q`. -/
theorem neg_mult (c : Curve) {Q : c.α} (hG : ∃ k : Nat, Q = k • c.G) (r s : Nat) :
    negMod (r % c.N) c.N • Q + s • c.G = s • c.G - r • Q := by
  obtain ⟨k, rfl⟩ := hG
  rw [eq_sub_iff_add_eq, ← mul_smul, ← mul_smul, ← add_smul, ← add_smul]
  refine c.smul_congr ?_
  push_cast
  rw [cast_negMod _ _ c.N_pos, ZMod.natCast_mod]
  ring

theorem negMod_eq_zero (r n : Nat) (hn : 0 < n) : negMod (r % n) n = 0 ↔ n ∣ r := by
  rw [negMod, Nat.mod_mod]
  have : r % n < n := Nat.mod_lt _ hn
  rw [Nat.dvd_iff_mod_eq_zero]
  constructor
  · intro h
    by_contra h0
    rw [Nat.mod_eq_of_lt (by omega)] at h
    omega
  · intro h; rw [h]; simp

/-- C92. `VerifyWithRS` of EC-SDSA and EC-OSDSA on numbers `r` no longer than a digest: accepts exactly the valid
signatures.  Missing from the full claim: longer `r`, on which there is no verdict (`C92_verify_panics_violated`). -/
theorem C92_verify_partial (c : Curve) (opt : Bool) (H : HashFn) (Q : c.α) (hQ : Q ≠ 0) (hG : ∃ k : Nat, Q = k • c.G) (msg : Bytes) (r s : Int)
    (hr : r < 256 ^ H.size) :
    ∃ b, verifyWithRS c opt Q H msg r s = .ok b ∧ (b = true ↔ ∃ rb, (setBytes rb : Int) = r ∧ rb.length = H.size ∧ Spec.Valid c opt H Q msg rb s) := by
  rw [verifyWithRS, if_neg (by simp [Curve.onCurve, hQ])]
  have zero : ∀ rb : Bytes, ¬ c.N ∣ setBytes rb → setBytes rb ≠ 0 := fun rb h e => h (e ▸ Nat.dvd_zero _)
  by_cases hneg : r ≤ 0 ∨ s ≤ 0
  · rw [if_pos hneg]
    refine ⟨false, rfl, ⟨fun h => by (cases h), ?_⟩⟩
    rintro ⟨rb, h1, _, h2, h3, _⟩
    have := zero rb h2
    omega
  rw [if_neg hneg]
  obtain ⟨r, rfl⟩ := Int.eq_ofNat_of_zero_le (show 0 ≤ r by omega)
  obtain ⟨s, rfl⟩ := Int.eq_ofNat_of_zero_le (show 0 ≤ s by omega)
  have hr : r < 256 ^ H.size := by exact_mod_cast hr
  simp only [Int.toNat_natCast]
  by_cases hs : s ≥ c.N
  · rw [if_pos hs]
    refine ⟨false, rfl, ⟨fun h => by (cases h), ?_⟩⟩
    rintro ⟨rb, h1, _, h2, h3, h4, _⟩
    omega
  rw [if_neg hs]
  by_cases he : c.N ∣ r
  · rw [if_pos ((negMod_eq_zero r c.N c.N_pos).mpr he)]
    refine ⟨false, rfl, ⟨fun h => by (cases h), ?_⟩⟩
    rintro ⟨rb, h1, _, h2, _⟩
    have h1 : setBytes rb = r := by exact_mod_cast h1
    exact absurd (h1 ▸ he) h2
  rw [if_neg (fun h => he ((negMod_eq_zero r c.N c.N_pos).mp h))]
  simp only [x_fits, wy_eq, Res.bind_ok, fillBytes_ok hr, Curve.mult_eq, Curve.baseMult_eq, neg_mult c hG, witness_eq]
  refine ⟨_, rfl, ?_⟩
  rw [beq_iff_eq]
  constructor
  · intro h
    refine ⟨hx H.size r, by rw [setBytes_hx _ _ hr], by simp, ?_, by omega, by omega, ?_⟩
    · rwa [setBytes_hx _ _ hr]
    · rwa [setBytes_hx _ _ hr, Int.toNat_natCast]
  · rintro ⟨rb, h1, hl, _, _, _, h2⟩
    have h1 : setBytes rb = r := by exact_mod_cast h1
    rw [h1, Int.toNat_natCast] at h2
    rw [← h2, ← h1, ← hl, hx_setBytes]

/-- C92. What a signing attempt of the standard yields is valid. -/
theorem attempt_valid (c : Curve) (opt : Bool) (H : HashFn) (d : Nat) (msg : Bytes) (k : Nat) (r : Bytes) (s : Nat)
    (h : Spec.attempt c opt d H msg k = some (r, s)) : Spec.Valid c opt H (d • c.G) msg r s ∧ r.length = H.size := by
  simp only [Spec.attempt] at h
  split at h
  · cases h
  rename_i hc
  rw [not_or] at hc
  have h := Option.some.inj h
  obtain ⟨rfl, rfl⟩ := Prod.mk.inj h
  refine ⟨⟨fun hd => hc.1 (Nat.mod_eq_zero_of_dvd hd), by have := hc.2; omega, by exact_mod_cast Nat.mod_lt _ c.N_pos, ?_⟩, H.len _⟩
  rw [Int.toNat_natCast]
  congr 1
  rw [eq_sub_iff_add_eq, ← mul_smul, ← add_smul]
  refine c.smul_congr ?_
  push_cast
  rw [ZMod.natCast_mod, Nat.cast_add, Nat.cast_mul, ZMod.natCast_mod]

/-- One round of the loop when the hash object is fresh. -/
theorem signLoop_first (c : Curve) (opt : Bool) (d : Nat) (H : HashFn) (msg : Bytes) (fuel : Nat) (rd rd' : Bytes) (k : Nat)
    (hrd : randFieldElement c.N rd = .ok (k, rd')) (r : Bytes) (s : Nat) (h : Spec.attempt c opt d H msg k = some (r, s)) :
    signLoop c opt d H msg (fuel + 1) [] rd = .ok (setBytes r, s) := by
  simp only [Spec.attempt] at h
  split at h
  · cases h
  rename_i hc
  rw [not_or] at hc
  have h := Option.some.inj h
  obtain ⟨rfl, rfl⟩ := Prod.mk.inj h
  rw [signLoop]
  simp only [hrd, x_fits, wy_eq, Res.bind_ok, Curve.baseMult_eq, List.nil_append, witness_eq]
  have e : (k + setBytes (Spec.witness c opt H msg (k • c.G)) % c.N * d % c.N) % c.N =
      (k + setBytes (Spec.witness c opt H msg (k • c.G)) % c.N * d) % c.N := by rw [Nat.add_mod_mod]
  rw [if_neg hc.1, e, if_neg hc.2]

theorem signLoop_total (c : Curve) (opt : Bool) (d : Nat) (H : HashFn) (msg : Bytes) : ∀ fuel hb rd, rd.length < fuel →
    signLoop c opt d H msg fuel hb rd = .err ∨ ∃ r s, signLoop c opt d H msg fuel hb rd = .ok (r, s) ∧ r < 256 ^ H.size ∧ s < c.N
  | 0, _, rd, h => by omega
  | fuel + 1, hb, rd, h => by
    rw [signLoop]
    rcases randFieldElement_cases c.N c.N_pos rd with hr | ⟨k, rd', hr, h1, h2, h3⟩
    · left; rw [hr]
    simp only [hr, x_fits, wy_eq, Res.bind_ok, Curve.baseMult_eq]
    generalize hb ++ Spec.fe c (c.x (k • c.G)) ++ _ ++ msg = hb'
    split
    · exact signLoop_total c opt d H msg fuel _ rd' (by omega)
    split
    · exact signLoop_total c opt d H msg fuel _ rd' (by omega)
    · refine .inr ⟨_, _, rfl, ?_, Nat.mod_lt _ c.N_pos⟩
      have := setBytes_lt (H.f hb')
      rwa [H.len] at this

/-- C92. `SignToRS` of EC-SDSA and EC-OSDSA ends for every random source, with an error of that source or numbers that
fit their encoding. -/
theorem C92_sign_ends (c : Curve) (opt : Bool) (H : HashFn) (priv : EcKey c) (rd msg : Bytes) :
    signToRS c opt rd priv H msg = .err ∨ ∃ r s, signToRS c opt rd priv H msg = .ok (r, s) ∧ r < 256 ^ H.size ∧ s < c.N := by
  rw [signToRS]
  split
  · exact .inl rfl
  · exact signLoop_total c opt priv.d H msg _ [] rd (by omega)

/-- C92. Signing, when the first random number drawn is not one the standard tells to discard: the result is the
signature of the standard for that number, and `VerifyWithRS` accepts it.  Missing from the full claim: the other
random sources, for which the signature can be one that does not verify (`C92_retry_violated`). -/
theorem C92_sign_verifies_partial (c : Curve) (opt : Bool) (H : HashFn) (d : Nat) (Q : c.α) (hk : IsKeyPair c d Q) (rd rd' msg : Bytes) (k : Nat)
    (hrd : randFieldElement c.N rd = .ok (k, rd')) (r : Bytes) (s : Nat) (h : Spec.attempt c opt d H msg k = some (r, s)) :
    signToRS c opt rd ⟨d, Q⟩ H msg = .ok (setBytes r, s) ∧ Spec.Valid c opt H Q msg r s ∧
    verifyWithRS c opt Q H msg (setBytes r) s = .ok true := by
  have hQ := hk.ne_zero
  have ⟨hv, hl⟩ := attempt_valid c opt H d msg k r s h
  rw [← hk.2.2] at hv
  refine ⟨?_, hv, ?_⟩
  · rw [signToRS, if_neg (by simp [Curve.onCurve, hQ])]
    exact signLoop_first c opt d H msg _ rd rd' k hrd r s h
  · have hlt := setBytes_lt r
    rw [hl] at hlt
    obtain ⟨b, hb, hiff⟩ := C92_verify_partial c opt H Q hQ ⟨d, hk.2.2⟩ msg (setBytes r) s (by exact_mod_cast hlt)
    rw [hb, hiff.mpr ⟨r, rfl, hl, hv⟩]

example : IsKeyPair toy 3 (3 : ZMod 7) := ⟨by decide, by decide, rfl⟩
example : randFieldElement toy.N [64, 9] = .ok (2, [9]) ∧ Spec.attempt toy false 3 toyHash [1, 2] 2 = some ([51], 1) := by decide

/-- The first number drawn is discarded because its digest is 0 modulo the order, as the standard says; the second
attempt hashes the bytes of both attempts, and the signature returned is rejected. -/
theorem C92_retry_violated : ∃ (rd msg : Bytes) (r s : Nat), IsKeyPair toy 3 (3 : ZMod 7) ∧
    signToRS toy false rd ⟨3, (3 : ZMod 7)⟩ toyHash msg = .ok (r, s) ∧ verifyWithRS toy false (3 : ZMod 7) toyHash msg r s = .ok false :=
  ⟨[32, 64], [1], 169, 5, ⟨by decide, by decide, rfl⟩, by decide, by decide⟩

/-- C92, against a verdict on every input: an `r` longer than a digest makes `VerifyWithRS` panic, for every key and
message, unless it is 0 modulo the order. -/
theorem C92_verify_panics_violated (c : Curve) (opt : Bool) (H : HashFn) (Q : c.α) (hQ : Q ≠ 0) (msg : Bytes) (r s : Nat)
    (hs0 : 0 < s) (hs : s < c.N) (hr : 256 ^ H.size ≤ r) (hd : ¬ c.N ∣ r) : verifyWithRS c opt Q H msg r s = .panic := by
  have : 0 < 256 ^ H.size := Nat.pow_pos (by decide)
  rw [verifyWithRS, if_neg (by simp [Curve.onCurve, hQ]), if_neg (by omega)]
  simp only [Int.toNat_natCast]
  rw [if_neg (by omega), if_neg (fun h => hd ((negMod_eq_zero r c.N c.N_pos).mp h))]
  simp only [x_fits, wy_eq, Res.bind_ok, fillBytes_panic (show ¬ r < 256 ^ H.size by omega)]
  rfl

example : ∃ r s : Nat, 0 < s ∧ s < toy.N ∧ 256 ^ toyHash.size ≤ r ∧ ¬ toy.N ∣ r := ⟨256, 1, by decide, by decide, by decide, by decide⟩

/-- C92. `VerifyBytes` of EC-SDSA and EC-OSDSA has a verdict on every byte string: it accepts exactly the encodings
`r ‖ s` of valid signatures. -/
theorem C92_verifyBytes (c : Curve) (opt : Bool) (H : HashFn) (Q : c.α) (hQ : Q ≠ 0) (hG : ∃ k : Nat, Q = k • c.G) (msg sig : Bytes) :
    ∃ b, verifyBytes c opt Q H msg sig = .ok b ∧
      (b = true ↔ ∃ (rb : Bytes) (s : Nat), rb.length = H.size ∧ s < 256 ^ c.plen ∧ sig = rb ++ hx c.plen s ∧ Spec.Valid c opt H Q msg rb s) := by
  rw [verifyBytes]
  by_cases hl : sig.length = H.size + c.plen
  · rw [if_neg (by omega)]
    have hl1 : (sig.take H.size).length = H.size := by rw [List.length_take]; omega
    have hl2 : (sig.drop H.size).length = c.plen := by rw [List.length_drop]; omega
    have hlt := setBytes_lt (sig.take H.size)
    have hlt2 := setBytes_lt (sig.drop H.size)
    rw [hl1] at hlt
    rw [hl2] at hlt2
    obtain ⟨b, hb, hiff⟩ := C92_verify_partial c opt H Q hQ hG msg (setBytes (sig.take H.size)) (setBytes (sig.drop H.size)) (by exact_mod_cast hlt)
    refine ⟨b, hb, hiff.trans ?_⟩
    constructor
    · rintro ⟨rb, h1, h2, h3⟩
      have h1 : setBytes rb = setBytes (sig.take H.size) := by exact_mod_cast h1
      have := setBytes_inj (by rw [h2, hl1]) h1
      refine ⟨rb, _, h2, hlt2, ?_, h3⟩
      have e := hx_setBytes (sig.drop H.size)
      rw [hl2] at e
      rw [e, this, List.take_append_drop]
    · rintro ⟨rb, s, h1, h2, h3, h4⟩
      have e1 : sig.take H.size = rb := by rw [h3, List.take_left' h1]
      have e2 : sig.drop H.size = hx c.plen s := by rw [h3, List.drop_left' h1]
      exact ⟨rb, by rw [e1], h1, by rw [e2, setBytes_hx _ _ h2]; exact h4⟩
  · rw [if_pos hl]
    refine ⟨false, rfl, ⟨fun h => by (cases h), ?_⟩⟩
    rintro ⟨rb, s, h1, _, h3, _⟩
    exact absurd (by rw [h3]; simp [h1]) hl

/-- C92. `SignBytes` of EC-SDSA and EC-OSDSA does not panic when the order fits in as many bytes as the field, and the
result has the length `VerifyBytes` expects. -/
theorem C92_signBytes_partial (c : Curve) (opt : Bool) (H : HashFn) (priv : EcKey c) (hN : c.N ≤ 256 ^ c.plen) (rd msg : Bytes) :
    signBytes c opt rd priv H msg = .err ∨
    ∃ r s, signToRS c opt rd priv H msg = .ok (r, s) ∧ signBytes c opt rd priv H msg = .ok (hx H.size r ++ hx c.plen s) ∧
      verifyBytes c opt priv.Q H msg (hx H.size r ++ hx c.plen s) = verifyWithRS c opt priv.Q H msg r s := by
  rw [signBytes]
  rcases C92_sign_ends c opt H priv rd msg with h | ⟨r, s, h, h1, h2⟩
  · left; rw [h]; rfl
  right
  have h2 : s < 256 ^ c.plen := by omega
  refine ⟨r, s, h, ?_, ?_⟩
  · rw [h]; simp [fillBytes_ok h1, fillBytes_ok h2]
  · rw [verifyBytes, if_neg (by simp), List.take_left' (by simp), List.drop_left' (by simp), setBytes_hx _ _ h1, setBytes_hx _ _ h2]

theorem fwitness_length (c : Curve) (W : c.α) : (Spec.fwitness c W).length = 2 * byteLen c.P := by simp [Spec.fwitness, Spec.fe]; omega

/-- C92. `VerifyWithRS` of EC-FSDSA on numbers `r` no longer than two coordinates: accepts exactly the valid signatures.
Missing from the full claim: longer `r`, on which there is no verdict (`C92_fsdsa_verify_panics_violated`). -/
theorem C92_fsdsa_verify_partial (c : Curve) (H : HashFn) (Q : c.α) (hQ : Q ≠ 0) (hG : ∃ k : Nat, Q = k • c.G) (msg : Bytes) (r s : Int)
    (hr : r < 256 ^ (2 * byteLen c.P)) :
    ∃ b, fverifyWithRS c Q H msg r s = .ok b ∧
      (b = true ↔ 0 < r ∧ ∃ rb, (setBytes rb : Int) = r ∧ rb.length = 2 * byteLen c.P ∧ Spec.FValid c H Q msg rb s) := by
  rw [fverifyWithRS, if_neg (by simp [Curve.onCurve, hQ])]
  by_cases hneg : r ≤ 0 ∨ s ≤ 0
  · rw [if_pos hneg]
    refine ⟨false, rfl, ⟨fun h => by (cases h), ?_⟩⟩
    rintro ⟨h0, rb, h1, _, h2, h3, _⟩
    omega
  rw [if_neg hneg]
  obtain ⟨r, rfl⟩ := Int.eq_ofNat_of_zero_le (show 0 ≤ r by omega)
  obtain ⟨s, rfl⟩ := Int.eq_ofNat_of_zero_le (show 0 ≤ s by omega)
  have hr : r < 256 ^ (2 * plenP c) := by exact_mod_cast hr
  simp only [Int.toNat_natCast]
  by_cases hs : s ≥ c.N
  · rw [if_pos hs]
    refine ⟨false, rfl, ⟨fun h => by (cases h), ?_⟩⟩
    rintro ⟨_, rb, h1, _, h2, h3, h4, _⟩
    omega
  rw [if_neg hs]
  simp only [fillBytes_ok hr, Res.bind_ok]
  have huniq : ∀ rb : Bytes, (setBytes rb : Int) = r → rb.length = 2 * byteLen c.P → rb = hx (2 * plenP c) r := by
    intro rb h1 h2
    have h1 : setBytes rb = r := by exact_mod_cast h1
    rw [← h1, plenP, ← h2, hx_setBytes]
  by_cases hon : c.isOn (setBytes ((hx (2 * plenP c) r).take (plenP c))) (setBytes ((hx (2 * plenP c) r).drop (plenP c))) = true
  · rw [if_neg (by simp [hon])]
    simp only [x_fits, y_fits, Res.bind_ok, Curve.mult_eq, Curve.baseMult_eq, neg_mult c hG]
    refine ⟨_, rfl, ?_⟩
    rw [beq_iff_eq]
    constructor
    · intro h
      refine ⟨by omega, hx (2 * plenP c) r, by rw [setBytes_hx _ _ hr], by simp [plenP], hon, by omega, by omega, ?_⟩
      rw [Int.toNat_natCast]; exact h
    · rintro ⟨_, rb, h1, h2, _, _, _, h3⟩
      have := huniq rb h1 h2
      subst this
      rw [Int.toNat_natCast] at h3
      exact h3
  · rw [if_pos (by simp [hon])]
    refine ⟨false, rfl, ⟨fun h => by (cases h), ?_⟩⟩
    rintro ⟨_, rb, h1, h2, h3, _⟩
    have := huniq rb h1 h2
    subst this
    exact absurd h3 hon

theorem replicate_of_all : ∀ b : Bytes, (b.all (· == 0)) = true ↔ b = List.replicate b.length 0#8
  | [] => by simp
  | x :: t => by
    rw [List.all_cons, Bool.and_eq_true, replicate_of_all t, beq_iff_eq, List.length_cons, List.replicate_succ, List.cons.injEq]
    rfl

theorem setBytes_pos {b : Bytes} (h : ¬ b = List.replicate b.length 0#8) : 0 < setBytes b := by
  rcases Nat.eq_zero_or_pos (setBytes b) with h0 | h0
  · exfalso; apply h
    conv_lhs => rw [← hx_setBytes b, h0]
    exact Kb.hx_zero _
  · exact h0

theorem fattempt_valid (c : Curve) (H : HashFn) (d : Nat) (msg : Bytes) (k : Nat) (hk : ¬ c.N ∣ k) (r : Bytes) (s : Nat)
    (h : Spec.fattempt c d H msg k = some (r, s)) : Spec.FValid c H (d • c.G) msg r s ∧ r.length = 2 * byteLen c.P ∧ 0 < setBytes r := by
  simp only [Spec.fattempt] at h
  split at h
  · cases h
  rename_i hc
  rw [not_or] at hc
  have h := Option.some.inj h
  obtain ⟨rfl, rfl⟩ := Prod.mk.inj h
  refine ⟨⟨?_, by have := hc.2; omega, by exact_mod_cast Nat.mod_lt _ c.N_pos, ?_⟩, fwitness_length c _, setBytes_pos hc.1⟩
  · rw [Spec.fwitness, List.take_left' (by simp [Spec.fe]), List.drop_left' (by simp [Spec.fe]), Spec.fe, Spec.fe,
      setBytes_hx _ _ (Nat.lt_trans (c.x_lt _) (lt_pow_byteLen _)), setBytes_hx _ _ (Nat.lt_trans (c.y_lt _) (lt_pow_byteLen _)), c.isOn_coord]
    simp [c.smul_ne_zero hk]
  · rw [Int.toNat_natCast]
    congr 1
    rw [eq_sub_iff_add_eq, ← mul_smul, ← add_smul]
    refine c.smul_congr ?_
    push_cast
    rw [ZMod.natCast_mod, Nat.cast_add, Nat.cast_mul]

/-- C92. Signing with EC-FSDSA, when the first random number drawn is not one the standard tells to discard: the result
is the signature of the standard for that number, and `VerifyWithRS` accepts it.  Missing from the full claim: the other
random sources (`C92_fsdsa_retry_violated`). -/
theorem C92_fsdsa_sign_verifies_partial (c : Curve) (H : HashFn) (d : Nat) (Q : c.α) (hk : IsKeyPair c d Q) (rd rd' msg : Bytes) (k : Nat)
    (hrd : randFieldElement c.N rd = .ok (k, rd')) (r : Bytes) (s : Nat) (h : Spec.fattempt c d H msg k = some (r, s)) :
    fsignToRS c rd ⟨d, Q⟩ H msg = .ok (setBytes r, s) ∧ Spec.FValid c H Q msg r s ∧
    fverifyWithRS c Q H msg (setBytes r) s = .ok true := by
  have hQ := hk.ne_zero
  have hkN : ¬ c.N ∣ k := by
    rcases randFieldElement_cases c.N c.N_pos rd with hr | ⟨k', rd'', hr, h1, h2, h3⟩
    · rw [hr] at hrd; cases hrd
    · rw [hr] at hrd
      have := Res.ok.inj hrd
      obtain ⟨rfl, _⟩ := Prod.mk.inj this
      exact c.not_dvd h1 h2
  have ⟨hv, hl, hp⟩ := fattempt_valid c H d msg k hkN r s h
  rw [← hk.2.2] at hv
  refine ⟨?_, hv, ?_⟩
  · rw [fsignToRS, if_neg (by simp [Curve.onCurve, hQ]), fsignLoop]
    simp only [Spec.fattempt] at h
    split at h
    · cases h
    rename_i hc
    rw [not_or] at hc
    have h := Option.some.inj h
    obtain ⟨rfl, rfl⟩ := Prod.mk.inj h
    simp only [hrd, x_fits, y_fits, Res.bind_ok, Curve.baseMult_eq, List.nil_append]
    have e0 : Spec.fe c (c.x (k • c.G)) ++ Spec.fe c (c.y (k • c.G)) = Spec.fwitness c (k • c.G) := rfl
    rw [e0, if_neg (fun hh => hc.1 ((replicate_of_all _).mp hh))]
    have e : ∀ z, (k + z % c.N * d % c.N) % c.N = (k + z * d) % c.N := by
      intro z; rw [Nat.add_mod_mod, Nat.add_mod, Nat.mul_mod, Nat.mod_mod, ← Nat.mul_mod, ← Nat.add_mod]
    rw [e, if_neg hc.2]
  · have hlt := setBytes_lt r
    rw [hl] at hlt
    obtain ⟨b, hb, hiff⟩ := C92_fsdsa_verify_partial c H Q hQ ⟨d, hk.2.2⟩ msg (setBytes r) s (by exact_mod_cast hlt)
    rw [hb, hiff.mpr ⟨by exact_mod_cast hp, r, rfl, hl, hv⟩]

example : randFieldElement toy.N [32, 9] = .ok (1, [9]) ∧ Spec.fattempt toy 3 toyHash [1] 1 = some ([3, 4], 1) := by decide

/-- The first number drawn is discarded because `s = 0`, as the standard says; the second attempt hashes the bytes of
both attempts, and the signature returned is rejected. -/
theorem C92_fsdsa_retry_violated : ∃ (rd msg : Bytes) (r s : Nat), IsKeyPair toy 3 (3 : ZMod 7) ∧
    fsignToRS toy rd ⟨3, (3 : ZMod 7)⟩ toyHash msg = .ok (r, s) ∧ fverifyWithRS toy (3 : ZMod 7) toyHash msg r s = .ok false :=
  ⟨[32, 64], [3], 1282, 5, ⟨by decide, by decide, rfl⟩, by decide, by decide⟩

/-- C92, against a verdict on every input: an `r` longer than two coordinates makes `VerifyWithRS` of EC-FSDSA panic, for
every key and message. -/
theorem C92_fsdsa_verify_panics_violated (c : Curve) (H : HashFn) (Q : c.α) (hQ : Q ≠ 0) (msg : Bytes) (r s : Nat)
    (hs0 : 0 < s) (hs : s < c.N) (hr : 256 ^ (2 * byteLen c.P) ≤ r) : fverifyWithRS c Q H msg r s = .panic := by
  have : 0 < 256 ^ (2 * byteLen c.P) := Nat.pow_pos (by decide)
  rw [fverifyWithRS, if_neg (by simp [Curve.onCurve, hQ]), if_neg (by omega)]
  simp only [Int.toNat_natCast]
  rw [if_neg (by omega), fillBytes_panic (show ¬ r < 256 ^ (2 * plenP c) by rw [plenP]; omega)]
  rfl

/-- C92. `VerifyBytes` of EC-FSDSA has a verdict on every byte string: it accepts exactly the encodings `r ‖ s` of valid
signatures with `r` not all zero. -/
theorem C92_fsdsa_verifyBytes (c : Curve) (H : HashFn) (Q : c.α) (hQ : Q ≠ 0) (hG : ∃ k : Nat, Q = k • c.G) (msg sig : Bytes) :
    ∃ b, fverifyBytes c Q H msg sig = .ok b ∧
      (b = true ↔ ∃ (rb : Bytes) (s : Nat), rb.length = 2 * byteLen c.P ∧ s < 256 ^ c.plen ∧ sig = rb ++ hx c.plen s ∧
        0 < setBytes rb ∧ Spec.FValid c H Q msg rb s) := by
  rw [fverifyBytes, plenP]
  generalize hL : 2 * byteLen c.P = L
  by_cases hl : sig.length = L + c.plen
  · rw [if_neg (by omega)]
    have hl1 : (sig.take L).length = L := by rw [List.length_take]; omega
    have hl2 : (sig.drop L).length = c.plen := by rw [List.length_drop]; omega
    have hlt := setBytes_lt (sig.take L)
    have hlt2 := setBytes_lt (sig.drop L)
    rw [hl1] at hlt
    rw [hl2] at hlt2
    obtain ⟨b, hb, hiff⟩ := C92_fsdsa_verify_partial c H Q hQ hG msg (setBytes (sig.take L)) (setBytes (sig.drop L))
      (by rw [hL]; exact_mod_cast hlt)
    rw [hL] at hiff
    refine ⟨b, hb, hiff.trans ?_⟩
    constructor
    · rintro ⟨h0, rb, h1, h2, h3⟩
      have h1 : setBytes rb = setBytes (sig.take L) := by exact_mod_cast h1
      have := setBytes_inj (by rw [h2, hl1]) h1
      refine ⟨rb, _, h2, hlt2, ?_, by omega, h3⟩
      have e := hx_setBytes (sig.drop L)
      rw [hl2] at e
      rw [e, this, List.take_append_drop]
    · rintro ⟨rb, s, h1, h2, h3, h0, h4⟩
      have e1 : sig.take L = rb := by rw [h3, List.take_left' h1]
      have e2 : sig.drop L = hx c.plen s := by rw [h3, List.drop_left' h1]
      exact ⟨by rw [e1]; omega, rb, by rw [e1], h1, by rw [e2, setBytes_hx _ _ h2]; exact h4⟩
  · rw [if_pos hl]
    refine ⟨false, rfl, ⟨fun h => by (cases h), ?_⟩⟩
    rintro ⟨rb, s, h1, _, h3, _⟩
    exact absurd (by rw [h3]; simp [h1]) hl

/-- C92. `GenerateKey` of these packages delivers a key pair, or the error of the random source. -/
theorem C92_generate (c : Curve) (rd : Bytes) :
    genKey c rd = .err ∨ ∃ key, genKey c rd = .ok key ∧ IsKeyPair c key.d key.Q := by
  rw [genKey]
  rcases randFieldElement_cases c.N c.N_pos rd with hr | ⟨k, rd', hr, h1, h2, h3⟩
  · left; rw [hr]
  right
  rw [hr]
  exact ⟨_, rfl, h1, h2, c.baseMult_eq _⟩

/-- C92. Export and import of a private key give the same key pair.  Missing from the full claim: the key `d = q - 1`
(`C92_last_key_violated`). -/
theorem C92_import_partial (c : Curve) (d : Nat) (Q : c.α) (hk : IsKeyPair c d Q) (hd : d ≠ c.N - 1) :
    ∃ b, keyTo ⟨d, Q⟩ = .ok b ∧ b.length = byteLen c.N ∧ newKey c b = .ok ⟨d, Q⟩ := by
  have ⟨h1, h2, h3⟩ := hk
  have hl : d < 256 ^ byteLen c.N := by have := lt_pow_byteLen c.N; omega
  refine ⟨hx (byteLen c.N) d, fillBytes_ok hl, by simp, ?_⟩
  rw [newKey]
  simp only [setBytes_hx _ _ hl]
  rw [if_neg (by omega), Curve.baseMult_eq, h3]

/-- The exported form of the key `d = q - 1` is refused by `NewPrivateKey`, on every curve. -/
theorem C92_last_key_violated (c : Curve) (Q : c.α) : ∃ b, keyTo (c := c) ⟨c.N - 1, Q⟩ = .ok b ∧ newKey c b = .err := by
  have hl : c.N - 1 < 256 ^ byteLen c.N := by have := lt_pow_byteLen c.N; omega
  refine ⟨hx (byteLen c.N) (c.N - 1), fillBytes_ok hl, ?_⟩
  rw [newKey]
  simp only [setBytes_hx _ _ hl]
  rw [if_pos (by omega)]

end Verif.Pub.EcSchnorr
