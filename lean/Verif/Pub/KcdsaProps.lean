import Verif.Pub.SdsaProps
/-
C109: KCDSA signatures and key derivation (pubkey/kcdsa).
-/
namespace Verif.Pub.Kcdsa
open Verif.Cipher Verif.Kdf Verif.Pub.ElGamal

namespace Spec

/-- The hash of a residue, cut to its low `B` bits. -/
def kcR (H : HashFn) (B : Nat) {P : Nat} (w : ZMod P) : Nat := setBytes (H.f (enc w)) % 2 ^ B

/-- The hash of the message after the low bytes of the public key, one block of the hash function, cut to `B` bits. -/
def kcH (H : HashFn) (B Y : Nat) (data : Bytes) : Nat := setBytes (H.f (hx H.block (Y % 256 ^ H.block) ++ data)) % 2 ^ B

/-- A valid KCDSA signature (ISO/IEC 14888-3, TTAK.KO-12.0001): `r` is the hash of `Y^s · G^e`, with `e = (r ⊕ h) mod Q`. -/
def KcValid (pub : DPub) (H : HashFn) (data : Bytes) (r s : Int) : Prop :=
  0 < r ∧ 0 < s ∧ s < pub.Q ∧
    r = kcR H (bitLen pub.Q) ((pub.Y : ZMod pub.P) ^ s.toNat * (pub.G : ZMod pub.P) ^ ((r.toNat ^^^ kcH H (bitLen pub.Q) pub.Y data) % pub.Q))

/-- The hashes of the sources followed by the counters 0, 1, …, `m − 1` (modulo 256), the first one last. -/
def cat (H : HashFn) (src : Bytes) : Nat → Bytes
  | 0 => []
  | m + 1 => H.f (src ++ [BitVec.ofNat 8 m]) ++ cat H src m

/-- The number made by the pseudorandom function: the low `n` bits of those hashes. -/
def prf (H : HashFn) (n : Nat) (src : Bytes) : Nat := setBytes (cat H src n) % 2 ^ n

end Spec

theorem setBytes_cons (x : Byte) (xs : Bytes) : setBytes (x :: xs) = x.toNat * 256 ^ xs.length + setBytes xs := by
  have := setBytes_append [x] xs
  rwa [List.singleton_append, show setBytes [x] = x.toNat from by simp [setBytes, Kb.beN, leN]] at this

theorem maskFirst_length (b : Bytes) (n : Nat) : (maskFirst b n).length = b.length := by
  cases b <;> simp [maskFirst]

theorem rightMost_length (b : Bytes) (bits : Nat) : (rightMost b bits).length = min b.length ((bits + 7) / 8) := by
  rw [rightMost]
  have h : (if b.length ≥ (bits + 7) / 8 then b.drop (b.length - (bits + 7) / 8) else b).length = min b.length ((bits + 7) / 8) := by
    split
    · rw [List.length_drop]; omega
    · omega
  generalize (if b.length ≥ (bits + 7) / 8 then b.drop (b.length - (bits + 7) / 8) else b) = c at h ⊢
  split
  · rw [maskFirst_length, h]
  · exact h

theorem two_pow_eight (n : Nat) : (256 : Nat) ^ n = 2 ^ (8 * n) := by rw [Nat.pow_mul]

theorem setBytes_maskFirst (b : Bytes) (n r : Nat) (hb : b.length = n + 1) : setBytes (maskFirst b r) = setBytes b % 2 ^ (8 * n + r) ∨ 8 ≤ r := by
  by_cases hr : 8 ≤ r
  · exact .inr hr
  left
  match b, hb with
  | x :: xs, hb =>
    have hl : xs.length = n := by simpa using hb
    rw [maskFirst, setBytes_cons, setBytes_cons, hl]
    have h2 : 2 ^ r < 256 := lt_of_lt_of_le (Nat.pow_lt_pow_right (by decide) (by omega : r < 8)) (by decide)
    have hm : (x &&& BitVec.ofNat 8 (2 ^ r - 1)).toNat = x.toNat % 2 ^ r := by
      rw [BitVec.toNat_and, BitVec.toNat_ofNat, Nat.mod_eq_of_lt (by omega), Nat.and_two_pow_sub_one_eq_mod]
    rw [hm]
    have hs := setBytes_lt xs
    rw [hl] at hs
    rw [Nat.pow_add, ← two_pow_eight, Nat.mod_mul, Nat.mul_comm (x.toNat % _), Nat.mul_comm x.toNat, Nat.mul_add_mod, Nat.mod_eq_of_lt hs, Nat.mul_add_div (Nat.pow_pos (by decide)), Nat.div_eq_of_lt hs, Nat.add_zero,
      Nat.add_comm]

/-- `RightMost` keeps the low bits of a number, when the slice has that many or they are whole bytes. -/
theorem setBytes_rightMost (b : Bytes) (bits : Nat) (h : bits % 8 = 0 ∨ (bits + 7) / 8 ≤ b.length) : setBytes (rightMost b bits) = setBytes b % 2 ^ bits := by
  rw [rightMost]
  by_cases hl : b.length ≥ (bits + 7) / 8
  · rw [if_pos hl]
    have hd := setBytes_mod b ((bits + 7) / 8) hl
    have hlen : (b.drop (b.length - (bits + 7) / 8)).length = (bits + 7) / 8 := by rw [List.length_drop]; omega
    by_cases hr : bits % 8 > 0
    · rw [if_pos hr]
      rcases setBytes_maskFirst (b.drop (b.length - (bits + 7) / 8)) (bits / 8) (bits % 8) (by rw [hlen]; omega) with h | h
      · rw [h, ← hd, two_pow_eight, Nat.mod_mod_of_dvd, Nat.div_add_mod]
        exact pow_dvd_pow _ (by omega)
      · omega
    · rw [if_neg hr, ← hd, two_pow_eight, show 8 * ((bits + 7) / 8) = bits by omega]
  · have h8 : bits % 8 = 0 := by omega
    rw [if_neg hl, if_neg (by omega), Nat.mod_eq_of_lt]
    refine Nat.lt_of_lt_of_le (setBytes_lt b) ?_
    rw [two_pow_eight]
    exact Nat.pow_le_pow_right (by decide) (by omega)

theorem kcZ_eq (Y l : Nat) : kcZ Y l = .ok (hx l (Y % 256 ^ l)) := by
  have hlt : Y < 256 ^ max (byteLen Y) l := lt_of_lt_of_le (lt_pow_byteLen Y) (Nat.pow_le_pow_right (by decide) (by omega))
  rw [kcZ, fillBytes_ok hlt]
  simp only [Res.bind_ok]
  congr 1
  have hl : (rightMost (hx (max (byteLen Y) l) Y) (l * 8)).length = l := by rw [rightMost_length, hx_length]; omega
  have hv := setBytes_rightMost (hx (max (byteLen Y) l) Y) (l * 8) (.inl (by omega))
  rw [setBytes_hx _ _ hlt, Nat.mul_comm, ← two_pow_eight] at hv
  have := hx_setBytes (rightMost (hx (max (byteLen Y) l) Y) (l * 8))
  rw [hl] at this
  rw [← this, Nat.mul_comm, hv]

theorem bits_ok (H : HashFn) (Q : Nat) (hB : bitLen Q % 8 = 0 ∨ byteLen Q ≤ H.size) (m : Bytes) :
    setBytes (rightMost (H.f m) (bitLen Q)) = setBytes (H.f m) % 2 ^ bitLen Q :=
  setBytes_rightMost _ _ (hB.imp id fun h => by rw [H.len]; exact h)

/-- C109. Verification, for all parameters (with `Q` of whole bytes or not longer than a hash), hash functions, messages and
integers: a verdict, never a panic, and it is that of the scheme. -/
theorem C109_verify (pub : DPub) (hp : Spec.IsParams pub) (H : HashFn) (hB : bitLen pub.Q % 8 = 0 ∨ byteLen pub.Q ≤ H.size) (data : Bytes) (r s : Int) :
    ∃ b, kcVerify pub H data r s = .ok b ∧ (b = true ↔ Spec.KcValid pub H data r s) := by
  have hP : 0 < pub.P := by have := hp.P; omega
  by_cases hr : r < 1
  · rw [kcVerify, if_neg (by omega), if_pos hr]
    exact ⟨_, rfl, by simp only [Bool.false_eq_true, false_iff]; rintro ⟨h, -⟩; omega⟩
  by_cases hs : s < 1 ∨ s ≥ pub.Q
  · rw [kcVerify, if_neg (by omega), if_neg hr, if_pos hs]
    exact ⟨_, rfl, by simp only [Bool.false_eq_true, false_iff]; rintro ⟨-, h1, h2, -⟩; omega⟩
  rw [kcVerify, if_neg (by omega), if_neg hr, if_neg hs]
  obtain ⟨r, rfl⟩ : ∃ n : Nat, r = n := ⟨r.toNat, by omega⟩
  obtain ⟨s, rfl⟩ : ∃ n : Nat, s = n := ⟨s.toNat, by omega⟩
  simp only [Int.toNat_natCast, kcZ_eq, Res.bind_ok, bits_ok H _ hB]
  rw [show setBytes (H.f (hx H.block (pub.Y % 256 ^ H.block) ++ data)) % 2 ^ bitLen pub.Q = Spec.kcH H (bitLen pub.Q) pub.Y data from rfl,
    enc_fill (Nat.mod_lt _ hP), ZMod.natCast_mod, Nat.cast_mul, expMod_cast, expMod_cast]
  refine ⟨_, rfl, ?_⟩
  rw [beq_iff_eq]
  rw [Spec.KcValid, Int.toNat_natCast, Int.toNat_natCast, Int.natCast_inj]
  constructor
  · intro h; exact ⟨by omega, by omega, by omega, h⟩
  · intro h; exact h.2.2.2

/-- What one attempt computes. -/
theorem kcAttempt_eq (priv : DKey) (hP : 0 < priv.P) (H : HashFn) (h8 : bitLen priv.Q % 8 = 0) (hZ : max (byteLen priv.Y) H.block ≤ byteLen priv.P) (k : Nat) (data : Bytes) :
    kcAttempt priv H k data =
      let r := Spec.kcR H (bitLen priv.Q) ((priv.G : ZMod priv.P) ^ k)
      let e := (r ^^^ Spec.kcH H (bitLen priv.Q) priv.Y data) % priv.Q
      let s := priv.X * (((k : Int) - e) % priv.Q).toNat % priv.Q
      .ok (if r ≠ 0 ∧ s ≠ 0 then some (r, s) else none) := by
  rw [kcAttempt]
  simp only
  rw [enc_fill (expMod_lt _ _ hP), expMod_cast]
  simp only [Res.bind_ok, bits_ok H _ (.inl h8)]
  rw [if_neg (by omega), kcZ_eq]
  rfl

theorem kcDraw_spec (Q : Nat) (hQ : 1 < Q) : ∀ fuel rd, rd.length < fuel →
    kcDraw Q fuel rd = .err ∨ ∃ k rest, kcDraw Q fuel rd = .ok (k, rest) ∧ 0 < k ∧ k < Q
  | 0, rd, h => by omega
  | fuel + 1, rd, h => by
    have hb : bitLen Q ≠ 0 := by rw [Ne, bitLen_eq_zero]; omega
    rw [kcDraw, readBits]
    simp only
    by_cases hl : rd.length < (bitLen Q + 7) / 8
    · left; rw [if_pos hl]
    rw [if_neg hl]
    simp only
    generalize (if bitLen Q % 8 ≠ 0 then maskFirst (rd.take ((bitLen Q + 7) / 8)) (bitLen Q % 8) else rd.take ((bitLen Q + 7) / 8)) = buf
    split
    · rename_i hc
      exact .inr ⟨_, _, rfl, by omega, hc⟩
    · exact kcDraw_spec Q hQ fuel _ (by rw [List.length_drop]; omega)

/-- C109. `Sign`, for all key pairs, messages, hash functions whose block is not longer than `P`, and random sources: an error,
or for some `k` in `[1, Q)` the signature with `r = h(G^k)` and `s = X·(k − e) mod Q`, which is valid and which `Verify`
accepts.  Missing from the full claim: longer blocks (`C109_panic_violated`). -/
theorem C109_sign_partial (priv : DKey) (hk : Spec.IsKc priv) (H : HashFn) (hY : priv.Y < priv.P) (hl : H.block ≤ byteLen priv.P) (data rd : Bytes) :
    kcSign rd priv H data = .err ∨
    ∃ k r s : Nat, 0 < k ∧ k < priv.Q ∧ kcSign rd priv H data = .ok (r, s) ∧ r = Spec.kcR H (bitLen priv.Q) ((priv.G : ZMod priv.P) ^ k) ∧
      Spec.KcValid priv.toDPub H data r s ∧ kcVerify priv.toDPub H data r s = .ok true := by
  have hP : 0 < priv.P := by have := hk.P; omega
  have hQ := hk.Q
  have hX := hk.X.1
  rw [kcSign]
  by_cases hc : priv.Q = 0 ∨ priv.P = 0 ∨ priv.G = 0 ∨ priv.X = 0 ∨ bitLen priv.Q % 8 ≠ 0
  · rw [if_pos hc]; exact .inl rfl
  rw [if_neg hc]
  have h8 : bitLen priv.Q % 8 = 0 := by
    by_contra h
    exact hc (.inr (.inr (.inr (.inr h))))
  have hZ : max (byteLen priv.Y) H.block ≤ byteLen priv.P := by
    have : byteLen priv.Y ≤ byteLen priv.P := byteLen_le.mpr (Nat.lt_trans hY (lt_pow_byteLen _))
    omega
  clear hc
  generalize 10 = n
  induction n generalizing rd with
  | zero => exact .inl rfl
  | succ n ih =>
    rw [kcLoop]
    rcases kcDraw_spec priv.Q hQ (rd.length + 1) rd (by omega) with h | ⟨k, rest, h, hk0, hkQ⟩
    · rw [h]; exact .inl rfl
    rw [h]
    simp only [Res.bind_ok]
    rw [kcAttempt_eq priv hP H h8 hZ k data]
    simp only [Res.bind_ok]
    generalize hr : Spec.kcR H (bitLen priv.Q) ((priv.G : ZMod priv.P) ^ k) = r
    generalize he : (r ^^^ Spec.kcH H (bitLen priv.Q) priv.Y data) % priv.Q = e
    generalize hs : priv.X * (((k : Int) - e) % priv.Q).toNat % priv.Q = s
    by_cases hz : r ≠ 0 ∧ s ≠ 0
    swap
    · rw [if_neg hz]; exact ih rest
    rw [if_pos hz]
    have hsQ : s < priv.Q := by rw [← hs]; exact Nat.mod_lt _ (by omega)
    have hval : Spec.KcValid priv.toDPub H data r s := by
      refine ⟨by omega, by omega, by omega, ?_⟩
      rw [Int.toNat_natCast, Int.toNat_natCast, he, Int.natCast_inj]
      have hpow : (priv.Y : ZMod priv.P) ^ s * (priv.G : ZMod priv.P) ^ e = (priv.G : ZMod priv.P) ^ k := by
        rw [← hs]
        rw [pow_mod_order (priv.Y : ZMod priv.P) priv.Q hk.Y (Nat.mod_mod _ _), pow_mul, hk.key, ← pow_add]
        apply pow_mod_order _ _ hk.G
        have hnn : 0 ≤ ((k : Int) - e) % priv.Q := Int.emod_nonneg _ (by omega)
        zify
        rw [Int.toNat_of_nonneg hnn, Int.emod_add_emod, sub_add_cancel]
      rw [hpow, hr]
    obtain ⟨b, hb, hiff⟩ := C109_verify priv.toDPub hk.toIsParams H (.inl h8) data r s
    exact .inr ⟨k, r, s, hk0, hkQ, rfl, hr.symm, hval, by rw [hb, hiff.mpr hval]⟩

/-- C109, full claim false: `Sign` panics for every key pair and message when the block of the hash function is longer than `P`
and the random source delivers a number. -/
theorem C109_panic_violated (priv : DKey) (hP : 0 < priv.P) (hG : 0 < priv.G) (hX : 0 < priv.X) (hQ : 0 < priv.Q) (h8 : bitLen priv.Q % 8 = 0) (H : HashFn) (hl : byteLen priv.P < H.block)
    (data rd : Bytes) (hrd : byteLen priv.Q ≤ rd.length) (hk : setBytes (rd.take (byteLen priv.Q)) + 1 < priv.Q) :
    kcSign rd priv H data = .panic := by
  rw [kcSign, if_neg (by omega), kcLoop, kcDraw, readBits]
  simp only
  rw [if_neg (by rw [← byteLen]; omega), if_neg (by omega), ← byteLen]
  simp only
  rw [if_pos hk]
  simp only [Res.bind_ok]
  rw [kcAttempt]
  simp only
  rw [enc_fill (expMod_lt _ _ hP)]
  simp only [Res.bind_ok]
  rw [if_pos (by omega)]
  rfl

/-- C109. `VerifyBytes` never panics; it accepts exactly the fixed-length encodings of valid signatures. -/
theorem C109_bytes (pub : DPub) (hp : Spec.IsParams pub) (H : HashFn) (hB : bitLen pub.Q % 8 = 0 ∨ byteLen pub.Q ≤ H.size) (data sig : Bytes) :
    ∃ b, kcVerifyBytes pub H data sig = .ok b ∧
      (b = true ↔ ∃ r s : Nat, sig = hx (min H.size (byteLen pub.Q)) r ++ hx (byteLen pub.Q) s ∧ Spec.KcValid pub H data r s) := by
  have hrlt (r s : Nat) (hv : Spec.KcValid pub H data r s) : r < 256 ^ min H.size (byteLen pub.Q) := by
    have h := hv.2.2.2
    rw [Int.natCast_inj] at h
    rw [h, Spec.kcR]
    have h1 := setBytes_lt (H.f (Spec.enc ((pub.Y : ZMod pub.P) ^ (s : Int).toNat * (pub.G : ZMod pub.P) ^ (((r : Int).toNat ^^^ Spec.kcH H (bitLen pub.Q) pub.Y data) % pub.Q))))
    rw [H.len] at h1
    generalize setBytes (H.f (Spec.enc ((pub.Y : ZMod pub.P) ^ (s : Int).toNat * (pub.G : ZMod pub.P) ^ (((r : Int).toNat ^^^ Spec.kcH H (bitLen pub.Q) pub.Y data) % pub.Q)))) = w at h1
    have h2 : w % 2 ^ bitLen pub.Q < 256 ^ byteLen pub.Q := by
      refine Nat.lt_of_lt_of_le (Nat.mod_lt _ (Nat.pow_pos (by decide))) ?_
      rw [two_pow_eight]
      exact Nat.pow_le_pow_right (by decide) (by unfold byteLen; omega)
    have h3 : w % 2 ^ bitLen pub.Q < 256 ^ H.size := Nat.lt_of_le_of_lt (Nat.mod_le _ _) h1
    rcases Nat.le_total H.size (byteLen pub.Q) with h | h
    · rwa [Nat.min_eq_left h]
    · rwa [Nat.min_eq_right h]
  rw [kcVerifyBytes]
  generalize hn : min H.size (byteLen pub.Q) = n at hrlt ⊢
  by_cases hl : sig.length = n + byteLen pub.Q
  swap
  · rw [if_pos hl]
    refine ⟨_, rfl, ?_⟩
    simp only [Bool.false_eq_true, false_iff]
    rintro ⟨r, s, rfl, -⟩
    exact hl (by simp)
  rw [if_neg (by simpa using hl)]
  have h1 : (sig.take n).length = n := by rw [List.length_take]; omega
  have h2 : (sig.drop n).length = byteLen pub.Q := by rw [List.length_drop]; omega
  obtain ⟨b, hb, hiff⟩ := C109_verify pub hp H hB data (setBytes (sig.take n)) (setBytes (sig.drop n))
  refine ⟨b, hb, hiff.trans ?_⟩
  constructor
  · intro hv
    refine ⟨_, _, ?_, hv⟩
    have e1 := hx_setBytes (sig.take n)
    have e2 := hx_setBytes (sig.drop n)
    rw [h1] at e1
    rw [h2] at e2
    rw [e1, e2, List.take_append_drop]
  · rintro ⟨r, s, rfl, hv⟩
    have hs : s < 256 ^ byteLen pub.Q := by
      have := hv.2.2.1
      exact Nat.lt_trans (by omega) (lt_pow_byteLen pub.Q)
    rw [List.take_left' (hx_length _ _), List.drop_left' (hx_length _ _), setBytes_hx _ _ (hrlt _ _ hv), setBytes_hx _ _ hs]
    exact hv

/-- C109. What `SignBytes` returns, `VerifyBytes` accepts; it does not panic. -/
theorem C109_signBytes_partial (priv : DKey) (hk : Spec.IsKc priv) (H : HashFn) (hY : priv.Y < priv.P) (hl : H.block ≤ byteLen priv.P) (data rd : Bytes) :
    (kcSignBytes rd priv H data = .err ∧ kcSign rd priv H data = .err) ∨ ∃ sig, kcSignBytes rd priv H data = .ok sig ∧ kcVerifyBytes priv.toDPub H data sig = .ok true := by
  rcases C109_sign_partial priv hk H hY hl data rd with h | ⟨k, r, s, -, -, h, hr, hv, -⟩
  · exact .inl ⟨by rw [kcSignBytes, h]; rfl, h⟩
  right
  have h8 : bitLen priv.Q % 8 = 0 := by
    by_contra h8
    rw [kcSign, if_pos (by simp [h8])] at h
    cases h
  have hr1 : r < 256 ^ H.size := by
    rw [hr, Spec.kcR]
    have := setBytes_lt (H.f (Spec.enc ((priv.G : ZMod priv.P) ^ k)))
    rw [H.len] at this
    exact Nat.lt_of_le_of_lt (Nat.mod_le _ _) this
  have hr2 : r < 256 ^ byteLen priv.Q := by
    rw [hr, Spec.kcR]
    refine Nat.lt_of_lt_of_le (Nat.mod_lt _ (Nat.pow_pos (by decide))) ?_
    rw [two_pow_eight]
    exact Nat.pow_le_pow_right (by decide) (by unfold byteLen; omega)
  have hr3 : r < 256 ^ min H.size (byteLen priv.Q) := by
    rcases Nat.le_total H.size (byteLen priv.Q) with h | h
    · rwa [Nat.min_eq_left h]
    · rwa [Nat.min_eq_right h]
  have hs : s < 256 ^ byteLen priv.Q := by
    have h1 := hv.2.2.1
    have h2 : s < priv.Q := by exact_mod_cast h1
    exact Nat.lt_trans h2 (lt_pow_byteLen priv.Q)
  refine ⟨hx (min H.size (byteLen priv.Q)) r ++ hx (byteLen priv.Q) s, ?_, ?_⟩
  · rw [kcSignBytes, h]
    simp only [Res.bind_ok]
    rw [fillBytes_ok hr3, fillBytes_ok hs]
    rfl
  · obtain ⟨b, hb, hiff⟩ := C109_bytes priv.toDPub hk.toIsParams H (.inl h8) data (hx (min H.size (byteLen priv.Q)) r ++ hx (byteLen priv.Q) s)
    rw [hb, hiff.mpr ⟨r, s, rfl, hv⟩]

/-- C109. `GenerateKey` gives a key pair, or the error of the random source. -/
theorem C109_genKey (P Q G : Nat) (hP : 1 < P) (hQ : Q.Prime) (hG : (G : ZMod P) ^ Q = 1) (rd : Bytes) :
    kcGenKey P Q G rd = .err ∨ ∃ k, kcGenKey P Q G rd = .ok k ∧ k.P = P ∧ k.Q = Q ∧ k.G = G ∧ k.Y < P ∧ Spec.IsKc k := by
  rw [kcGenKey]
  rcases drawLoop_spec (byteLen Q) Q (byteLen_pos hQ.pos) (rd.length + 1) rd (by omega) with h | ⟨x, rest, h, h1, h2, -⟩
  · rw [h]; exact .inl rfl
  · rw [h]
    have hY : ((kcY P Q G x : Nat) : ZMod P) = (G : ZMod P) ^ kcInverse x Q := expMod_cast _ _ _
    refine .inr ⟨_, rfl, rfl, rfl, rfl, expMod_lt _ _ (by omega), ⟨⟨hP, hQ.one_lt, hG, ?_⟩, ⟨h1, h2⟩, ?_⟩⟩
    · simp only
      rw [hY, ← pow_mul, Nat.mul_comm, pow_mul, hG, one_pow]
    · simp only
      rw [hY, ← pow_mul]
      have hf := fermat_mul hQ (Nat.not_dvd_of_pos_of_lt h1 h2)
      have : kcInverse x Q * x % Q = 1 % Q := by
        rw [← Nat.ModEq, ← ZMod.natCast_eq_natCast_iff, Nat.cast_mul, mul_comm, Nat.cast_one]
        exact hf
      rw [pow_mod_order (G : ZMod P) Q hG this, pow_one]

/-! ### Key derivation -/

theorem cat_length (H : HashFn) (src : Bytes) : ∀ m, (Spec.cat H src m).length = m * H.size
  | 0 => by simp [Spec.cat]
  | m + 1 => by rw [Spec.cat, List.length_append, H.len, cat_length H src m, Nat.succ_mul, Nat.add_comm]

theorem cat_suffix (H : HashFn) (src : Bytes) (c : Nat) : ∀ d, ∃ X, Spec.cat H src (c + d) = X ++ Spec.cat H src c
  | 0 => ⟨[], rfl⟩
  | d + 1 => by
    obtain ⟨X, h⟩ := cat_suffix H src c d
    exact ⟨H.f (src ++ [BitVec.ofNat 8 (c + d)]) ++ X, by rw [← Nat.add_assoc, Spec.cat, h, List.append_assoc]⟩

theorem ppgfLoop_spec (H : HashFn) (src : Bytes) : ∀ (fuel i c : Nat), i < fuel →
    ∃ d X, X ++ ppgfLoop H src fuel i (BitVec.ofNat 8 c) (Spec.cat H src c) = Spec.cat H src (c + d) ∧ d ≤ i + 1 ∧
      (ppgfLoop H src fuel i (BitVec.ofNat 8 c) (Spec.cat H src c)).length = i + c * H.size := by
  intro fuel
  induction fuel with
  | zero => intro i c h; omega
  | succ fuel ih =>
    intro i c h
    rw [ppgfLoop]
    simp only
    have hpos := H.pos
    by_cases hi : i ≥ H.size
    · rw [if_pos hi]
      by_cases h0 : i - H.size = 0
      · rw [if_pos h0]
        refine ⟨1, [], rfl, by omega, ?_⟩
        rw [List.length_append, H.len, cat_length]; omega
      · rw [if_neg h0]
        obtain ⟨d, X, h1, h2, h3⟩ := ih (i - H.size) (c + 1) (by omega)
        have hc : BitVec.ofNat 8 c + 1 = BitVec.ofNat 8 (c + 1) := by
          apply BitVec.eq_of_toNat_eq
          simp [BitVec.toNat_add]
        rw [hc]
        refine ⟨d + 1, X, ?_, by omega, ?_⟩
        · rw [show c + (d + 1) = c + 1 + d by omega]; exact h1
        · have := h3
          rw [Nat.succ_mul] at this
          rw [show H.f (src ++ [BitVec.ofNat 8 c]) ++ Spec.cat H src c = Spec.cat H src (c + 1) from rfl, this]; omega
    · rw [if_neg hi]
      refine ⟨1, (H.f (src ++ [BitVec.ofNat 8 c])).take ((H.f (src ++ [BitVec.ofNat 8 c])).length - i), ?_, by omega, ?_⟩
      · rw [← List.append_assoc, List.take_append_drop]; rfl
      · rw [List.length_append, List.length_drop, H.len, cat_length]; omega

/-- C109. The pseudorandom function, for all hash functions, sources and numbers of bits: the low bits of the concatenated
hashes, in as many bytes as needed. -/
theorem C109_ppgf (H : HashFn) (n : Nat) (src : Bytes) : ppgf H n src = hx ((n + 7) / 8) (Spec.prf H n src) := by
  rw [ppgf]
  obtain ⟨d, X, h1, h2, h3⟩ := ppgfLoop_spec H src ((n + 7) / 8 + 1) ((n + 7) / 8) 0 (by omega)
  rw [show (BitVec.ofNat 8 0 : Byte) = 0 from rfl, show Spec.cat H src 0 = [] from rfl] at *
  generalize ppgfLoop H src ((n + 7) / 8 + 1) ((n + 7) / 8) 0 [] = out at *
  have hl : out.length = (n + 7) / 8 := by omega
  have hlen : (rightMost out n).length = (n + 7) / 8 := by rw [rightMost_length]; omega
  have hval := setBytes_rightMost out n (.inr (by omega))
  have hv2 : setBytes out % 2 ^ n = Spec.prf H n src := by
    rw [Spec.prf]
    have hmod (A B : Bytes) (hB : n ≤ 8 * B.length) : setBytes (A ++ B) % 2 ^ n = setBytes B % 2 ^ n := by
      rw [setBytes_append, two_pow_eight, Nat.add_mod, Nat.mod_eq_zero_of_dvd (Dvd.dvd.mul_left (pow_dvd_pow 2 hB) _), Nat.zero_add, Nat.mod_mod]
    have hpos := H.pos
    have e1 : setBytes (Spec.cat H src (0 + d)) % 2 ^ n = setBytes out % 2 ^ n := by rw [← h1, hmod _ _ (by omega)]
    rw [← e1, Nat.zero_add]
    have hcat (m : Nat) (hm : d ≤ m ∨ n ≤ m) (hdm : d ≤ m) : setBytes (Spec.cat H src m) % 2 ^ n = setBytes (Spec.cat H src d) % 2 ^ n := by
      obtain ⟨Z, hZ⟩ := cat_suffix H src d (m - d)
      rw [show d + (m - d) = m by omega] at hZ
      rw [hZ, hmod]
      have : out.length ≤ (Spec.cat H src d).length := by
        have := congrArg List.length h1
        rw [List.length_append, Nat.zero_add] at this
        omega
      omega
    by_cases hdn : d ≤ n
    · exact (hcat n (.inl hdn) hdn).symm
    · obtain ⟨Z, hZ⟩ := cat_suffix H src n (d - n)
      rw [show n + (d - n) = d by omega] at hZ
      rw [hZ, hmod]
      rw [cat_length]
      have : n * 1 ≤ n * H.size := Nat.mul_le_mul_left _ hpos
      omega
  have := hx_setBytes (rightMost out n)
  rw [hlen, hval, hv2] at this
  exact this.symm

theorem addLoop_spec : ∀ (as bs : Bytes) (carry : Nat), carry ≤ 1 → (addLoop as bs carry).length = as.length ∧ leN (addLoop as bs carry) = (leN as + leN bs + carry) % 256 ^ as.length
  | [], bs, carry, _ => ⟨rfl, by simp [addLoop, leN, Nat.mod_one]⟩
  | a :: as, bs, carry, hc => by
    have ha := a.isLt
    cases bs with
    | nil =>
      simp only [addLoop, List.tail_nil]
      obtain ⟨h1, h2⟩ := addLoop_spec as [] ((a.toNat + carry + 0) >>> 8) (by rw [Nat.shiftRight_eq_div_pow]; omega)
      refine ⟨by rw [List.length_cons, List.length_cons, h1], ?_⟩
      simp only [leN, List.length_cons, BitVec.toNat_ofNat] at h2 ⊢
      rw [h2, Nat.shiftRight_eq_div_pow, pow_succ 256 as.length, Nat.mul_comm (256 ^ as.length) 256, Nat.mod_mul]
      congr 1
      · omega
      · congr 2; omega
    | cons b bs =>
      have hb := b.isLt
      simp only [addLoop, List.tail_cons]
      obtain ⟨h1, h2⟩ := addLoop_spec as bs ((a.toNat + carry + b.toNat) >>> 8) (by rw [Nat.shiftRight_eq_div_pow]; omega)
      refine ⟨by rw [List.length_cons, List.length_cons, h1], ?_⟩
      simp only [leN, List.length_cons, BitVec.toNat_ofNat] at h2 ⊢
      rw [h2, Nat.shiftRight_eq_div_pow, pow_succ 256 as.length, Nat.mul_comm (256 ^ as.length) 256, Nat.mod_mul]
      congr 1
      · omega
      · congr 2; omega

/-- C109. The derived private key, for all inputs: `PRF((PRF(upri) + xkey) mod 2^B) mod Q`. -/
theorem C109_kcX (Q : Nat) (upri xkey : Bytes) (H : HashFn) (B : Nat) :
    kcX Q upri xkey H B = Spec.prf H B (hx ((B + 7) / 8) ((Spec.prf H B upri + setBytes xkey) % 2 ^ B)) % Q := by
  have hlt (src : Bytes) : Spec.prf H B src < 256 ^ ((B + 7) / 8) := by
    refine Nat.lt_of_lt_of_le (Nat.mod_lt _ (Nat.pow_pos (by decide))) ?_
    rw [two_pow_eight]
    exact Nat.pow_le_pow_right (by decide) (by omega)
  rw [kcX]
  rw [C109_ppgf, C109_ppgf, setBytes_hx _ _ (hlt _)]
  congr 2
  obtain ⟨h1, h2⟩ := addLoop_spec (hx ((B + 7) / 8) (Spec.prf H B upri)).reverse xkey.reverse 0 (by decide)
  generalize addLoop (hx ((B + 7) / 8) (Spec.prf H B upri)).reverse xkey.reverse 0 = out at *
  have e1 : leN (hx ((B + 7) / 8) (Spec.prf H B upri)).reverse = Spec.prf H B upri := setBytes_hx _ _ (hlt _)
  rw [List.length_reverse, hx_length] at h1 h2
  rw [e1, Nat.add_zero] at h2
  have hl : (rightMost out.reverse B).length = (B + 7) / 8 := by rw [rightMost_length, List.length_reverse]; omega
  have hv := setBytes_rightMost out.reverse B (.inr (by rw [List.length_reverse]; omega))
  have e2 : setBytes out.reverse = leN out := by rw [setBytes, Kb.beN, List.reverse_reverse]
  rw [e2, h2, two_pow_eight, Nat.mod_mod_of_dvd _ (pow_dvd_pow 2 (by omega))] at hv
  have := hx_setBytes (rightMost out.reverse B)
  rw [hl, hv] at this
  exact this.symm

/-- C109: the derived private key may be zero, which `Sign` then refuses. -/
theorem C109_kcX_violated : kcX 173 [1] [80] toyHash 8 = 0 := by decide +kernel

/-- A key pair to test statements on, and a hash function with a block of two bytes. -/
def toyKc : DKey := { P := 347, Q := 173, G := 4, Y := 25, X := 5 }
def toyHash2 : HashFn := { toyHash with block := 2 }

example : Nat.Prime 173 ∧ (4 : ZMod 347) ^ 173 = 1 := ⟨by norm_num, by decide +kernel⟩
theorem toyKc_isKc : Spec.IsKc toyKc := ⟨⟨by decide, by decide, by decide +kernel, by decide +kernel⟩, by decide, by decide +kernel⟩
example : kcGenKey 347 173 4 [200, 0, 5] = .ok toyKc := by decide +kernel
example : toyKc.Y < toyKc.P ∧ toyHash2.block ≤ byteLen toyKc.P ∧ bitLen toyKc.Q % 8 = 0 := by decide
example : kcSignBytes [255, 9] toyKc toyHash2 [1, 2] = .ok [0x51, 0x0d] ∧ kcVerifyBytes toyKc.toDPub toyHash2 [1, 2] [0x51, 0x0d] = .ok true ∧
    kcVerifyBytes toyKc.toDPub toyHash2 [1, 2] [0x51, 0x0e] = .ok false := by decide +kernel
example : kcSign [9] toyKc toyHash [1, 2] = .panic :=
  C109_panic_violated toyKc (by decide) (by decide) (by decide) (by decide) (by decide) toyHash (by decide) _ _ (by decide) (by decide)
example : kcX 173 [1] [2] toyHash 13 = 15 := by decide +kernel

end Verif.Pub.Kcdsa
