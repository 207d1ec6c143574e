import Verif.Pub.Kcdsa
import Verif.Pub.ElGamalProps
import Verif.Pub.Ec
/-
C108: SDSA signatures (pubkey/sdsa).
-/
namespace Verif.Pub.Kcdsa
open Verif.Cipher Verif.Kdf Verif.Pub.ElGamal

namespace Spec

/-- Parameters: `G` has an order that divides `Q` in the group modulo `P`; and so has `Y`. -/
structure IsParams (pub : DPub) : Prop where
  P : 1 < pub.P
  Q : 1 < pub.Q
  G : (pub.G : ZMod pub.P) ^ pub.Q = 1
  Y : (pub.Y : ZMod pub.P) ^ pub.Q = 1

/-- An SDSA key pair: `Y = G^X`. -/
structure IsSd (k : DKey) : Prop extends IsParams k.toDPub where
  X : 0 < k.X ∧ k.X < k.Q
  key : (k.Y : ZMod k.P) = (k.G : ZMod k.P) ^ k.X

/-- A KCDSA key pair: `Y^X = G`. -/
structure IsKc (k : DKey) : Prop extends IsParams k.toDPub where
  X : 0 < k.X ∧ k.X < k.Q
  key : (k.Y : ZMod k.P) ^ k.X = (k.G : ZMod k.P)

/-- A residue modulo `P` in as many bytes as `P` has. -/
def enc {P : Nat} (w : ZMod P) : Bytes := hx (byteLen P) w.val

/-- A valid SDSA signature (ISO/IEC 14888-3): `r` is the hash of `w` and the message, where `w · Y^r = G^s`. -/
def SdValid (pub : DPub) (H : HashFn) (data : Bytes) (r s : Int) : Prop :=
  0 < r ∧ 0 < s ∧ s < pub.Q ∧ ∃ w : ZMod pub.P, w * (pub.Y : ZMod pub.P) ^ r.toNat = (pub.G : ZMod pub.P) ^ s.toNat ∧ r = setBytes (H.f (enc w ++ data))

end Spec

theorem enc_fill {P v : Nat} (hv : v < P) : fillBytes (byteLen P) v = .ok (Spec.enc (v : ZMod P)) := by
  have : NeZero P := ⟨by omega⟩
  rw [fillBytes_ok (Nat.lt_trans hv (lt_pow_byteLen P)), Spec.enc, ZMod.val_natCast, Nat.mod_eq_of_lt hv]

theorem drawLoop_spec (n Q : Nat) (hn : 0 < n) : ∀ fuel rd, rd.length < fuel →
    drawLoop n Q fuel rd = .err ∨ ∃ x rest, drawLoop n Q fuel rd = .ok (x, rest) ∧ 0 < x ∧ x < Q ∧ rest.length < rd.length
  | 0, rd, h => by omega
  | fuel + 1, rd, h => by
    rw [drawLoop]
    by_cases hl : rd.length < n
    · left; rw [if_pos hl]
    rw [if_neg hl]
    have hd : (rd.drop n).length < rd.length := by simp; omega
    simp only
    split
    · rename_i hc
      exact .inr ⟨_, _, rfl, by omega, hc.2, hd⟩
    · rcases drawLoop_spec n Q hn fuel (rd.drop n) (by omega) with h | ⟨v, rest, h, h1, h2, h3⟩
      · exact .inl h
      · exact .inr ⟨v, rest, h, h1, h2, by omega⟩

theorem pow_mod_order {R : Type} [CommRing R] (y : R) (Q : Nat) (hy : y ^ Q = 1) {a b : Nat} (h : a % Q = b % Q) : y ^ a = y ^ b := by
  have e (a : Nat) : y ^ a = y ^ (a % Q) := by
    conv_lhs => rw [← Nat.mod_add_div a Q, pow_add, pow_mul, hy, one_pow, mul_one]
  rw [e a, h, ← e b]

theorem pow_cancel {R : Type} [CommRing R] (y : R) (Q r : Nat) (hQ : 0 < Q) (hy : y ^ Q = 1) : y ^ r * y ^ (Q - r % Q) = 1 := by
  have hr : r % Q < Q := Nat.mod_lt _ hQ
  rw [← pow_add, pow_mod_order y Q hy (b := 0), pow_zero]
  have h1 : r + (Q - r % Q) = Q * (r / Q + 1) := by
    have := Nat.mod_add_div r Q
    rw [Nat.mul_add, Nat.mul_one]
    omega
  rw [h1, Nat.mul_mod_right, Nat.zero_mod]

/-! ### C108 -/

theorem sdVerify_eq (pub : DPub) (hp : Spec.IsParams pub) (H : HashFn) (data : Bytes) (r s : Nat) (hr : 0 < r) (hs : 0 < s) (hsQ : s < pub.Q) :
    sdVerify pub H data r s = (fillBytes H.size r).bind fun rPrime =>
      .ok (rPrime == H.f (Spec.enc ((pub.G : ZMod pub.P) ^ s * (pub.Y : ZMod pub.P) ^ (pub.Q - r % pub.Q)) ++ data)) := by
  have hP : 0 < pub.P := by have := hp.P; omega
  rw [sdVerify, if_neg (by omega), if_neg (by omega), if_neg (by omega)]
  simp only [Int.toNat_natCast]
  have hcast : ((expMod pub.G s pub.P * expMod pub.Y (pub.Q - r % pub.Q) pub.P % pub.P : Nat) : ZMod pub.P) = (pub.G : ZMod pub.P) ^ s * (pub.Y : ZMod pub.P) ^ (pub.Q - r % pub.Q) := by
    rw [ZMod.natCast_mod, Nat.cast_mul, expMod_cast, expMod_cast]
  rw [enc_fill (Nat.mod_lt _ hP), hcast]
  rfl

/-- C108. Verification, for all parameters, hash functions, messages and integers: unless `r` has more bytes than a hash (and
the other tests pass), a verdict, which is that of the scheme.  Missing from the full claim: see `C108_panic_violated`. -/
theorem C108_verify_partial (pub : DPub) (hp : Spec.IsParams pub) (H : HashFn) (data : Bytes) (r s : Int) (hsz : 0 < s → s < pub.Q → r < (256 : Int) ^ H.size) :
    ∃ b, sdVerify pub H data r s = .ok b ∧ (b = true ↔ Spec.SdValid pub H data r s) := by
  have hP : 0 < pub.P := by have := hp.P; omega
  have hQ : 0 < pub.Q := by have := hp.Q; omega
  by_cases hr : r < 1
  · rw [sdVerify, if_neg (by omega), if_pos hr]
    exact ⟨_, rfl, by simp only [Bool.false_eq_true, false_iff]; rintro ⟨h, -⟩; omega⟩
  by_cases hs : s < 1 ∨ s ≥ pub.Q
  · rw [sdVerify, if_neg (by omega), if_neg hr, if_pos hs]
    exact ⟨_, rfl, by simp only [Bool.false_eq_true, false_iff]; rintro ⟨-, h1, h2, -⟩; omega⟩
  have hlt : r < (256 : Int) ^ H.size := hsz (by omega) (by omega)
  obtain ⟨r, rfl⟩ : ∃ n : Nat, r = n := ⟨r.toNat, by omega⟩
  obtain ⟨s, rfl⟩ : ∃ n : Nat, s = n := ⟨s.toNat, by omega⟩
  have hlt : r < 256 ^ H.size := by exact_mod_cast hlt
  rw [sdVerify_eq pub hp H data r s (by omega) (by omega) (by omega), fillBytes_ok hlt]
  refine ⟨_, rfl, ?_⟩
  rw [beq_iff_eq]
  have hw (w : ZMod pub.P) : w * (pub.Y : ZMod pub.P) ^ r = (pub.G : ZMod pub.P) ^ s ↔ w = (pub.G : ZMod pub.P) ^ s * (pub.Y : ZMod pub.P) ^ (pub.Q - r % pub.Q) := by
    have hc := pow_cancel (pub.Y : ZMod pub.P) pub.Q r hQ hp.Y
    constructor
    · intro h; rw [← h, mul_assoc, hc, mul_one]
    · rintro rfl; rw [mul_assoc, mul_comm _ ((pub.Y : ZMod pub.P) ^ r), hc, mul_one]
  constructor
  · intro h
    refine ⟨by omega, by omega, by omega, _, (hw _).mpr rfl, ?_⟩
    rw [← h, setBytes_hx _ _ hlt]
  · rintro ⟨-, -, -, w, h1, h2⟩
    rw [Int.toNat_natCast, Int.toNat_natCast] at h1
    rw [(hw w).mp h1] at h2
    have h2 := Int.natCast_inj.mp h2
    have hl := H.len (Spec.enc ((pub.G : ZMod pub.P) ^ s * (pub.Y : ZMod pub.P) ^ (pub.Q - r % pub.Q)) ++ data)
    generalize H.f (Spec.enc ((pub.G : ZMod pub.P) ^ s * (pub.Y : ZMod pub.P) ^ (pub.Q - r % pub.Q)) ++ data) = hh at h2 hl ⊢
    rw [h2, ← hl, hx_setBytes]

/-- C108, full claim false: `Verify` and `VerifyASN1` panic on every `r` with more bytes than a hash and `s` in range, for every
key and message. -/
theorem C108_panic_violated (pub : DPub) (hp : Spec.IsParams pub) (H : HashFn) (data : Bytes) (r s : Nat) (hs : 0 < s) (hsQ : s < pub.Q) (hr : 256 ^ H.size ≤ r) :
    sdVerify pub H data r s = .panic := by
  rw [sdVerify_eq pub hp H data r s (by have : 0 < 256 ^ H.size := Nat.pow_pos (by decide); omega) hs hsQ, fillBytes_panic (by omega)]
  rfl

/-- The value `r` of the attempt with number `i`, counted from 0: the hash of `w` and the message, repeated. -/
def Spec.sdR (priv : DKey) (H : HashFn) (k : Nat) (data : Bytes) (i : Nat) : Nat :=
  setBytes (H.f ((List.replicate (i + 1) (Spec.enc ((priv.G : ZMod priv.P) ^ k) ++ data)).flatten))

theorem sdLoop_spec (priv : DKey) (hP : 0 < priv.P) (H : HashFn) (k : Nat) (data : Bytes) : ∀ (n j : Nat),
    let out := sdLoop priv H k data n ((List.replicate j (Spec.enc ((priv.G : ZMod priv.P) ^ k) ++ data)).flatten)
    let bad := fun i => priv.Q ∣ Spec.sdR priv H k data i ∨ priv.Q ∣ k + Spec.sdR priv H k data i * priv.X
    (out = .err ∧ ∀ i, j ≤ i → i < j + n → bad i) ∨
    ∃ i, j ≤ i ∧ i < j + n ∧ (∀ i', j ≤ i' → i' < i → bad i') ∧ ¬ bad i ∧ out = .ok (Spec.sdR priv H k data i, (k + Spec.sdR priv H k data i * priv.X) % priv.Q) := by
  intro n
  induction n with
  | zero => intro j; exact .inl ⟨rfl, fun i h1 h2 => by omega⟩
  | succ n ih =>
    intro j
    simp only
    rw [sdLoop, enc_fill (expMod_lt _ _ hP), expMod_cast]
    simp only [Res.bind_ok]
    have hcat : (List.replicate j (Spec.enc ((priv.G : ZMod priv.P) ^ k) ++ data)).flatten ++ Spec.enc ((priv.G : ZMod priv.P) ^ k) ++ data =
        (List.replicate (j + 1) (Spec.enc ((priv.G : ZMod priv.P) ^ k) ++ data)).flatten := by
      rw [List.replicate_succ', List.flatten_append, List.flatten_singleton, List.append_assoc]
    rw [hcat, show setBytes (H.f ((List.replicate (j + 1) (Spec.enc ((priv.G : ZMod priv.P) ^ k) ++ data)).flatten)) = Spec.sdR priv H k data j from rfl]
    have hs : (priv.X * (Spec.sdR priv H k data j % priv.Q) % priv.Q + k) % priv.Q = (k + Spec.sdR priv H k data j * priv.X) % priv.Q := by
      rw [Nat.mul_mod_mod, Nat.mod_add_mod, Nat.add_comm, Nat.mul_comm priv.X]
    rw [hs]
    have hnext := ih (j + 1)
    simp only at hnext
    by_cases h1 : Spec.sdR priv H k data j % priv.Q = 0
    · rw [if_pos h1]
      rcases hnext with ⟨he, hb⟩ | ⟨i, h2, h3, h4, h5⟩
      · refine .inl ⟨he, fun i hi1 hi2 => ?_⟩
        by_cases hij : i = j
        · subst hij; exact .inl (Nat.dvd_of_mod_eq_zero h1)
        · exact hb i (by omega) (by omega)
      · refine .inr ⟨i, by omega, by omega, fun i' hi1 hi2 => ?_, h5⟩
        by_cases hij : i' = j
        · subst hij; exact .inl (Nat.dvd_of_mod_eq_zero h1)
        · exact h4 i' (by omega) hi2
    · rw [if_neg h1]
      by_cases h2 : (k + Spec.sdR priv H k data j * priv.X) % priv.Q = 0
      · rw [if_neg (by simpa using h2)]
        rcases hnext with ⟨he, hb⟩ | ⟨i, h3, h4, h5, h6⟩
        · refine .inl ⟨he, fun i hi1 hi2 => ?_⟩
          by_cases hij : i = j
          · subst hij; exact .inr (Nat.dvd_of_mod_eq_zero h2)
          · exact hb i (by omega) (by omega)
        · refine .inr ⟨i, by omega, by omega, fun i' hi1 hi2 => ?_, h6⟩
          by_cases hij : i' = j
          · subst hij; exact .inr (Nat.dvd_of_mod_eq_zero h2)
          · exact h5 i' (by omega) hi2
      · rw [if_pos h2]
        refine .inr ⟨j, le_refl _, by omega, fun i' hi1 hi2 => by omega, ?_, rfl⟩
        rintro (h | h)
        · exact h1 (Nat.mod_eq_zero_of_dvd h)
        · exact h2 (Nat.mod_eq_zero_of_dvd h)

/-- C108. Signing with the number `k`, for all key pairs, hash functions and messages: an error, or a signature from the first
attempt that gives numbers different from zero.  One from the very first attempt is accepted.  Missing from the full claim: a
signature from a later attempt is over the message repeated (`C108_retry_violated`). -/
theorem C108_signK_partial (priv : DKey) (hk : Spec.IsSd priv) (H : HashFn) (data : Bytes) (k : Nat) :
    (sdSignK k priv H data = .err ∧ ∀ i < 10, priv.Q ∣ Spec.sdR priv H k data i ∨ priv.Q ∣ k + Spec.sdR priv H k data i * priv.X ∨ priv.G = 0) ∨
    ∃ i < 10, (∀ i' < i, priv.Q ∣ Spec.sdR priv H k data i' ∨ priv.Q ∣ k + Spec.sdR priv H k data i' * priv.X) ∧
      sdSignK k priv H data = .ok (Spec.sdR priv H k data i, (k + Spec.sdR priv H k data i * priv.X) % priv.Q) ∧
      (i = 0 → Spec.SdValid priv.toDPub H data (Spec.sdR priv H k data i) (((k + Spec.sdR priv H k data i * priv.X) % priv.Q : Nat) : Int) ∧
        sdVerify priv.toDPub H data (Spec.sdR priv H k data i) (((k + Spec.sdR priv H k data i * priv.X) % priv.Q : Nat) : Int) = .ok true) := by
  have hP : 0 < priv.P := by have := hk.P; omega
  have hQ : 0 < priv.Q := by have := hk.Q; omega
  have hX := hk.X.1
  rw [sdSignK]
  by_cases hG : priv.G = 0
  · rw [if_pos (by tauto)]
    exact .inl ⟨rfl, fun _ _ => .inr (.inr hG)⟩
  rw [if_neg (by omega)]
  have := sdLoop_spec priv hP H k data 10 0
  simp only [List.replicate_zero, List.flatten_nil, Nat.zero_add, Nat.zero_le, true_and, forall_const] at this
  rcases this with ⟨he, hb⟩ | ⟨i, hi, hb, hnb, ho⟩
  · refine .inl ⟨he, fun i hi => ?_⟩
    rcases hb i hi with h | h
    · exact .inl h
    · exact .inr (.inl h)
  · refine .inr ⟨i, hi, hb, ho, ?_⟩
    rintro rfl
    have hnz : ¬ priv.Q ∣ Spec.sdR priv H k data 0 := fun h => hnb (.inl h)
    have hsz : ¬ priv.Q ∣ k + Spec.sdR priv H k data 0 * priv.X := fun h => hnb (.inr h)
    have hr0 : 0 < Spec.sdR priv H k data 0 := Nat.pos_of_ne_zero fun h => hnz (by rw [h]; exact dvd_zero _)
    have hs0 : 0 < (k + Spec.sdR priv H k data 0 * priv.X) % priv.Q := Nat.pos_of_ne_zero fun h => hsz (Nat.dvd_of_mod_eq_zero h)
    have hsQ : (k + Spec.sdR priv H k data 0 * priv.X) % priv.Q < priv.Q := Nat.mod_lt _ hQ
    have hval : Spec.SdValid priv.toDPub H data (Spec.sdR priv H k data 0) (((k + Spec.sdR priv H k data 0 * priv.X) % priv.Q : Nat) : Int) := by
      refine ⟨by omega, by omega, by omega, (priv.G : ZMod priv.P) ^ k, ?_, ?_⟩
      · rw [Int.toNat_natCast, Int.toNat_natCast, hk.key, ← pow_mul, ← pow_add]
        apply pow_mod_order _ _ hk.G
        rw [Nat.mod_mod, Nat.mul_comm priv.X]
      · rw [Spec.sdR]
        simp
    refine ⟨hval, ?_⟩
    obtain ⟨b, hb, hiff⟩ := C108_verify_partial priv.toDPub hk.toIsParams H data (Spec.sdR priv H k data 0) (((k + Spec.sdR priv H k data 0 * priv.X) % priv.Q : Nat) : Int) (by
      intro _ _
      have := setBytes_lt (H.f ((List.replicate (0 + 1) (Spec.enc ((priv.G : ZMod priv.P) ^ k) ++ data)).flatten))
      rw [H.len] at this
      have this : Spec.sdR priv H k data 0 < 256 ^ H.size := this
      exact_mod_cast this)
    rw [hb, hiff.mpr hval]

/-- C108. `Sign` and `SignBytes` return the signature for a number in `[1, Q)` drawn from the random source, or an error; an
error for every key whose `Q` has a number of bits that is not a multiple of eight. -/
theorem C108_sign (priv : DKey) (hk : Spec.IsSd priv) (H : HashFn) (data rd : Bytes) :
    (bitLen priv.Q % 8 ≠ 0 ∧ sdSign rd priv H data = .err) ∨ sdSign rd priv H data = .err ∨ ∃ k, 0 < k ∧ k < priv.Q ∧ sdSign rd priv H data = sdSignK k priv H data := by
  rw [sdSign]
  by_cases h8 : bitLen priv.Q % 8 ≠ 0
  · exact .inl ⟨h8, if_pos h8⟩
  simp only
  rw [if_neg h8]
  right
  have hQ := hk.Q
  have hb : bitLen priv.Q ≠ 0 := by rw [Ne, bitLen_eq_zero]; omega
  rcases drawLoop_spec (bitLen priv.Q / 8) priv.Q (by omega) (rd.length + 1) rd (by omega) with h | ⟨x, rest, h, h1, h2, -⟩
  · rw [h]; exact .inl rfl
  · rw [h]
    exact .inr ⟨x, h1, h2, rfl⟩

/-- C108. `VerifyBytes` never panics: it accepts exactly the fixed-length encodings of valid signatures, and so the bytes of
`SignBytes` whenever the pair is valid. -/
theorem C108_bytes (pub : DPub) (hp : Spec.IsParams pub) (H : HashFn) (data sig : Bytes) :
    ∃ b, sdVerifyBytes pub H data sig = .ok b ∧ (b = true ↔ ∃ r s : Nat, sig = hx H.size r ++ hx (byteLen pub.Q) s ∧ r < 256 ^ H.size ∧ Spec.SdValid pub H data r s) := by
  rw [sdVerifyBytes]
  by_cases hl : sig.length = H.size + byteLen pub.Q
  swap
  · rw [if_pos hl]
    refine ⟨_, rfl, ?_⟩
    simp only [Bool.false_eq_true, false_iff]
    rintro ⟨r, s, rfl, -⟩
    exact hl (by simp)
  rw [if_neg (by simpa using hl)]
  have h1 : (sig.take H.size).length = H.size := by rw [List.length_take]; omega
  have h2 : (sig.drop H.size).length = byteLen pub.Q := by rw [List.length_drop]; omega
  have hr := setBytes_lt (sig.take H.size)
  rw [h1] at hr
  obtain ⟨b, hb, hiff⟩ := C108_verify_partial pub hp H data (setBytes (sig.take H.size)) (setBytes (sig.drop H.size)) (fun _ _ => by exact_mod_cast hr)
  refine ⟨b, hb, hiff.trans ?_⟩
  constructor
  · intro hv
    refine ⟨_, _, ?_, hr, hv⟩
    have e1 := hx_setBytes (sig.take H.size)
    have e2 := hx_setBytes (sig.drop H.size)
    rw [h1] at e1
    rw [h2] at e2
    rw [e1, e2, List.take_append_drop]
  · rintro ⟨r, s, rfl, hr, hv⟩
    have hs : s < 256 ^ byteLen pub.Q := by
      have := hv.2.2.1
      exact Nat.lt_trans (by omega) (lt_pow_byteLen pub.Q)
    rw [List.take_left' (hx_length _ _), List.drop_left' (hx_length _ _), setBytes_hx _ _ hr, setBytes_hx _ _ hs]
    exact hv

/-- C108. What `SignBytes` returns for a valid pair, `VerifyBytes` accepts. -/
theorem C108_signBytes (priv : DKey) (hk : Spec.IsSd priv) (H : HashFn) (data rd : Bytes) (r s : Nat) (hs : sdSign rd priv H data = .ok (r, s)) (hv : Spec.SdValid priv.toDPub H data r s) :
    ∃ sig, sdSignBytes rd priv H data = .ok sig ∧ sdVerifyBytes priv.toDPub H data sig = .ok true := by
  have hr : r < 256 ^ H.size := by
    obtain ⟨-, -, -, w, -, h⟩ := hv
    have := setBytes_lt (H.f (Spec.enc w ++ data))
    rw [H.len] at this
    omega
  have hsl : s < 256 ^ byteLen priv.Q := by
    have h1 := hv.2.2.1
    have h2 : s < priv.Q := by exact_mod_cast h1
    exact Nat.lt_trans h2 (lt_pow_byteLen priv.Q)
  refine ⟨hx H.size r ++ hx (byteLen priv.Q) s, ?_, ?_⟩
  · rw [sdSignBytes, hs]
    simp only [Res.bind_ok]
    rw [fillBytes_ok hr, fillBytes_ok hsl]
    rfl
  · obtain ⟨b, hb, hiff⟩ := C108_bytes priv.toDPub hk.toIsParams H data (hx H.size r ++ hx (byteLen priv.Q) s)
    rw [hb, hiff.mpr ⟨r, s, rfl, hr, hv⟩]

/-- C108. `GenerateKey` gives a key pair, or the error of the random source, when `Q` has at least eight bits. -/
theorem C108_genKey (P Q G : Nat) (hP : 1 < P) (hQ : 128 ≤ Q) (hG : (G : ZMod P) ^ Q = 1) (rd : Bytes) :
    sdGenKey P Q G rd = .err ∨ ∃ k, sdGenKey P Q G rd = .ok k ∧ k.P = P ∧ k.Q = Q ∧ k.G = G ∧ Spec.IsSd k := by
  have hb : 8 ≤ bitLen Q := by
    by_contra h
    have h1 := lt_pow_bitLen Q
    have h2 : 2 ^ bitLen Q ≤ 2 ^ 7 := Nat.pow_le_pow_right (by decide) (by omega)
    omega
  rw [sdGenKey]
  rcases drawLoop_spec (bitLen Q / 8) Q (by omega) (rd.length + 1) rd (by omega) with h | ⟨x, rest, h, h1, h2, -⟩
  · rw [h]; exact .inl rfl
  · rw [h]
    refine .inr ⟨_, rfl, rfl, rfl, rfl, ⟨⟨hP, by simp only; omega, hG, ?_⟩, ⟨h1, h2⟩, expMod_cast _ _ _⟩⟩
    simp only
    rw [expMod_cast, ← pow_mul, Nat.mul_comm, pow_mul, hG, one_pow]

/-- C108. With a smaller `Q` there are no bytes to draw from: `GenerateKey` never returns. -/
theorem C108_genKey_violated (P Q G : Nat) (hQ : Q < 128) (rd : Bytes) : sdGenKey P Q G rd = .hang := by
  have hb : bitLen Q / 8 = 0 := by
    have : bitLen Q < 8 := by
      by_contra h
      rw [bitLen] at h
      split at h
      · omega
      · rename_i h0
        have := Nat.log2_self_le h0
        have h2 : 2 ^ 7 ≤ 2 ^ Nat.log2 Q := Nat.pow_le_pow_right (by decide) (by omega)
        omega
    omega
  have hloop : ∀ fuel rd, drawLoop 0 Q fuel rd = .hang := by
    intro fuel
    induction fuel with
    | zero => intro rd; rfl
    | succ n ih =>
      intro rd
      rw [drawLoop, if_neg (by omega)]
      have : setBytes (List.take 0 rd) = 0 := rfl
      simp only [this]
      rw [if_neg (by simp), List.drop_zero, ih]
  rw [sdGenKey, hb, hloop]
  rfl

/-- A key pair to test statements on. -/
def toySd : DKey := { P := 23, Q := 11, G := 2, Y := 4, X := 2 }

theorem toySd_isSd : Spec.IsSd toySd := ⟨⟨by decide, by decide, by decide, by decide⟩, by decide, by decide⟩

/-- C108, full claim false: a key pair, a number `k` and a message for which `SignUsingK` needs a second attempt; its signature
is rejected. -/
theorem C108_retry_violated : Spec.IsSd toySd ∧ sdSignK 3 toySd toyHash [1] = .ok (32, 1) ∧ sdVerify toySd.toDPub toyHash [1] 32 1 = .ok false :=
  ⟨toySd_isSd, by decide, by decide⟩

/-- A signature of the first attempt. -/
example : sdSignK 3 toySd toyHash [2] = .ok (71, 2) ∧ sdVerify toySd.toDPub toyHash [2] 71 2 = .ok true := by decide

/-- A key with `Q` of eight bits: `GenerateKey`, `SignBytes` and `VerifyBytes`. -/
example : (347 : Nat) = 2 * 173 + 1 ∧ (4 : ZMod 347) ^ 173 = 1 := by decide +kernel
example : sdGenKey 347 173 4 [200, 0, 5] = .ok { P := 347, Q := 173, G := 4, Y := 330, X := 5 } := by decide +kernel
example : sdSignBytes [255, 9] { P := 347, Q := 173, G := 4, Y := 330, X := 5 } toyHash [1, 2] = .ok [0x31, 0x51] ∧
    sdVerifyBytes { P := 347, Q := 173, G := 4, Y := 330 } toyHash [1, 2] [0x31, 0x51] = .ok true ∧
    sdVerifyBytes { P := 347, Q := 173, G := 4, Y := 330 } toyHash [1, 2] [0x31, 0x52] = .ok false := by decide +kernel
/-- A panic. -/
example : sdVerify toySd.toDPub toyHash [1] 256 1 = .panic := C108_panic_violated _ toySd_isSd.toIsParams _ _ 256 1 (by decide) (by decide) (by decide)

end Verif.Pub.Kcdsa
