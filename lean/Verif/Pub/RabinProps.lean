import Verif.Pub.Rabin
import Verif.Pub.ElGamalProps
import Mathlib.FieldTheory.Finite.Basic
import Mathlib.NumberTheory.LegendreSymbol.Basic
import Mathlib.Tactic.NormNum.Prime
/-
C110: the Rabin cryptosystem (pubkey/rabin).
-/
namespace Verif.Pub.Rabin
open Verif.Cipher Verif.Kdf Verif.Pub.ElGamal

namespace Spec

/-- A key: `N` is the product of two different primes that are 3 modulo 4. -/
structure IsKey (k : RKey) : Prop where
  P : k.P.Prime
  Q : k.Q.Prime
  ne : k.P ≠ k.Q
  P4 : k.P % 4 = 3
  Q4 : k.Q % 4 = 3
  N : k.N = k.P * k.Q

end Spec

theorem smLoop_spec (a b c : Nat) : ∀ (i r : Nat), r = a ^ (b >>> i) % c → smLoop a b c i r = a ^ b % c
  | 0, r, h => by rw [smLoop, h, Nat.shiftRight_zero]
  | i + 1, r, h => by
    rw [smLoop]
    apply smLoop_spec a b c i
    have hb : b >>> i = 2 * (b >>> (i + 1)) + (b.testBit i).toNat := by
      rw [Nat.shiftRight_succ, Nat.testBit_eq_decide_div_mod_eq, ← Nat.shiftRight_eq_div_pow]
      generalize b >>> i = w
      have : w % 2 = 0 ∨ w % 2 = 1 := by omega
      rcases this with h | h <;> simp [h] <;> omega
    rw [hb, h]
    cases b.testBit i
    · simp only [Bool.false_eq_true, if_false, Bool.toNat_false, Nat.add_zero]
      rw [← Nat.mul_mod, ← pow_add, ← two_mul]
    · simp only [if_true, Bool.toNat_true]
      rw [← Nat.mul_mod, ← pow_add, ← two_mul, Nat.mod_mul_mod, ← pow_succ]

theorem squareAndMultiple_eq (a b c : Nat) (hb : 0 < b) (hc : 0 < c) : squareAndMultiple a b c = .ok (a ^ b % c) := by
  rw [squareAndMultiple, if_neg (by omega), smLoop_spec, ← Nat.pow_mod]
  have : b >>> (bitLen b - 1) = 1 := by
    rw [bitLen, if_neg (by omega), Nat.add_sub_cancel, Nat.shiftRight_eq_div_pow]
    have h1 := Nat.log2_self_le (show b ≠ 0 by omega)
    have h2 := Nat.lt_log2_self (n := b)
    apply Nat.div_eq_of_lt_le <;> omega
  rw [this, pow_one, Nat.mod_mod]

theorem eeaLoop_spec (A B : Nat) : ∀ (fuel a b : Nat) (x2 x1 y2 y1 : Int), b < fuel → x2 * A + y2 * B = a → x1 * A + y1 * B = b →
    ∃ x y, eeaLoop fuel a b x2 x1 y2 y1 = .ok (Nat.gcd a b, x, y) ∧ x * A + y * B = Nat.gcd a b := by
  intro fuel
  induction fuel with
  | zero => intros; omega
  | succ fuel ih =>
    intro a b x2 x1 y2 y1 hf h2 h1
    rw [eeaLoop]
    by_cases hb : b > 0
    · rw [if_pos hb]
      simp only
      have hr : a - a / b * b = a % b := by
        have := Nat.mod_add_div a b
        rw [Nat.mul_comm] at this
        omega
      have hlt : a % b < b := Nat.mod_lt _ hb
      rw [hr]
      obtain ⟨x, y, e1, e2⟩ := ih b (a % b) x1 (x2 - (a / b : Nat) * x1) y1 (y2 - (a / b : Nat) * y1) (by omega) h1 (by
        have hd : ((a % b : Nat) : Int) = a - (a / b : Nat) * b := by
          have := Nat.mod_add_div a b
          zify at this
          push_cast
          linear_combination this
        rw [hd, ← h2, ← h1]; ring)
      have hg : Nat.gcd a b = Nat.gcd b (a % b) := by rw [Nat.gcd_comm a b, Nat.gcd_rec b a, Nat.gcd_comm]
      rw [hg]
      exact ⟨x, y, e1, e2⟩
    · rw [if_neg hb]
      obtain rfl : b = 0 := by omega
      exact ⟨x2, y2, by rw [Nat.gcd_zero_right], by rw [h2, Nat.gcd_zero_right]⟩

theorem eea_spec (a b : Nat) : ∃ x y, eea a b = .ok (Nat.gcd a b, x, y) ∧ x * a + y * b = Nat.gcd a b := by
  rw [eea]
  by_cases hb : b = 0
  · subst hb
    exact ⟨1, 0, by rw [if_pos rfl, Nat.gcd_zero_right], by simp⟩
  · rw [if_neg hb]
    exact eeaLoop_spec a b (b + 1) a b 1 0 0 1 (by omega) (by ring) (by ring)

/-- The root modulo a prime that is 3 modulo 4. -/
theorem root_sign {p : Nat} (hp : p.Prime) (h4 : p % 4 = 3) (m : ZMod p) : (m ^ 2) ^ ((p + 1) / 4) = m ∨ (m ^ 2) ^ ((p + 1) / 4) = -m := by
  have : Fact p.Prime := ⟨hp⟩
  by_cases hm : m = 0
  · left; subst hm
    have : (p + 1) / 4 ≠ 0 := by omega
    simp [this]
  have h2 : 2 * ((p + 1) / 4) = p / 2 + 1 := by omega
  rw [← pow_mul, h2, pow_succ]
  rcases ZMod.pow_div_two_eq_neg_one_or_one p hm with h | h
  · left; rw [h, one_mul]
  · right; rw [h, neg_one_mul]

theorem norm_cast (v : Int) (N : Nat) (k : Nat) (hk : k ∣ N) : ((norm v N : Int) : ZMod k) = (v : ZMod k) := by
  have hN : ((N : Nat) : ZMod k) = 0 := (ZMod.natCast_eq_zero_iff N k).mpr hk
  rw [norm]
  split
  · push_cast; rw [hN, mul_zero, add_zero]
  · rw [Int.emod_def]; push_cast; rw [hN, zero_mul, sub_zero]

theorem norm_range (v : Int) (N : Nat) (hN : 0 < N) : 0 ≤ norm v N ∧ norm v N ≤ N := by
  rw [norm]
  split
  · rename_i hv
    obtain ⟨w, rfl⟩ : ∃ w : Nat, v = -(w : Int) := ⟨v.natAbs, by omega⟩
    rw [Int.natAbs_neg, Int.natAbs_natCast]
    have h1 := Nat.mod_add_div w N
    have h2 := Nat.mod_lt w hN
    have e : -(w : Int) + ((w : Int) / N + 1) * N = N - (w % N : Nat) := by
      have : ((w % N + N * (w / N) : Nat) : Int) = w := by exact_mod_cast h1
      push_cast at this ⊢
      linear_combination this
    rw [e]
    omega
  · have h1 := Int.emod_nonneg v (show (N : Int) ≠ 0 by omega)
    have h2 := Int.emod_lt_of_pos v (show (0 : Int) < N by omega)
    omega

/-- The four candidates are in `[0, N]` and the number that was squared is one of them. -/
theorem roots_spec (k : RKey) (hk : Spec.IsKey k) (C : Nat) : ∃ ms, roots k.P k.Q C k.N = .ok ms ∧ (∀ x ∈ ms, 0 ≤ x ∧ x ≤ k.N) ∧
    ∀ m : Nat, 0 < m → m < k.N → m ^ 2 % k.N = C % k.N → (m : Int) ∈ ms := by
  have hP := hk.P.pos
  have hQ := hk.Q.pos
  have hN : 0 < k.N := by rw [hk.N]; exact Nat.mul_pos hP hQ
  have hcop : Nat.Coprime k.P k.Q := (Nat.coprime_primes hk.P hk.Q).mpr hk.ne
  obtain ⟨yp, yq, he, hbez⟩ := eea_spec k.P k.Q
  rw [hcop] at he hbez
  rw [roots, squareRoot, squareRoot, squareAndMultiple_eq _ _ _ (by have := hk.P4; omega) hP, squareAndMultiple_eq _ _ _ (by have := hk.Q4; omega) hQ, he]
  simp only [Res.bind_ok]
  have r1 := norm_range (yp * k.P * (C ^ ((k.Q + 1) / 4) % k.Q : Nat) + k.Q * (C ^ ((k.P + 1) / 4) % k.P : Nat) * yq) k.N hN
  have r2 := norm_range (yp * k.P * (C ^ ((k.Q + 1) / 4) % k.Q : Nat) - k.Q * (C ^ ((k.P + 1) / 4) % k.P : Nat) * yq) k.N hN
  refine ⟨_, rfl, ?_, ?_⟩
  · intro x hx
    simp only [List.mem_cons, List.not_mem_nil, or_false] at hx
    rcases hx with rfl | rfl | rfl | rfl <;> omega
  intro m hm0 hmN hC
  have dP : k.P ∣ k.N := by rw [hk.N]; exact dvd_mul_right _ _
  have dQ : k.Q ∣ k.N := by rw [hk.N]; exact dvd_mul_left _ _
  have cP : (C : ZMod k.P) = (m : ZMod k.P) ^ 2 := by
    have := (Nat.ModEq.of_dvd dP (show m ^ 2 ≡ C [MOD k.N] from hC))
    rw [← ZMod.natCast_eq_natCast_iff] at this
    rw [← this, Nat.cast_pow]
  have cQ : (C : ZMod k.Q) = (m : ZMod k.Q) ^ 2 := by
    have := (Nat.ModEq.of_dvd dQ (show m ^ 2 ≡ C [MOD k.N] from hC))
    rw [← ZMod.natCast_eq_natCast_iff] at this
    rw [← this, Nat.cast_pow]
  have bP : (yq : ZMod k.P) * (k.Q : ZMod k.P) = 1 := by
    have := congrArg (Int.cast : Int → ZMod k.P) hbez
    push_cast at this
    rwa [ZMod.natCast_self, mul_zero, zero_add] at this
  have bQ : (yp : ZMod k.Q) * (k.P : ZMod k.Q) = 1 := by
    have := congrArg (Int.cast : Int → ZMod k.Q) hbez
    push_cast at this
    rwa [ZMod.natCast_self, mul_zero, add_zero] at this
  -- a candidate that agrees with `m` modulo both primes is `m`
  have key (x : Int) (h0 : 0 ≤ x) (h1 : x ≤ k.N) (hp : (x : ZMod k.P) = (m : ZMod k.P)) (hq : (x : ZMod k.Q) = (m : ZMod k.Q)) : (m : Int) = x := by
    have hp' : (k.P : Int) ∣ x - m := by
      rw [← ZMod.intCast_zmod_eq_zero_iff_dvd] at *
      push_cast; rw [hp, sub_self]
    have hq' : (k.Q : Int) ∣ x - m := by
      rw [← ZMod.intCast_zmod_eq_zero_iff_dvd] at *
      push_cast; rw [hq, sub_self]
    have hd : (k.N : Int) ∣ x - m := by
      rw [hk.N]; push_cast
      exact IsCoprime.mul_dvd (Nat.isCoprime_iff_coprime.mpr hcop) hp' hq'
    have : |x - m| < k.N := by rw [abs_lt]; constructor <;> omega
    have := Int.eq_zero_of_abs_lt_dvd hd this
    omega
  have mp := root_sign hk.P hk.P4 (m : ZMod k.P)
  have mq := root_sign hk.Q hk.Q4 (m : ZMod k.Q)
  have eP : (((C ^ ((k.P + 1) / 4) % k.P : Nat)) : ZMod k.P) = ((m : ZMod k.P) ^ 2) ^ ((k.P + 1) / 4) := by
    rw [ZMod.natCast_mod, Nat.cast_pow, cP]
  have eQ : (((C ^ ((k.Q + 1) / 4) % k.Q : Nat)) : ZMod k.Q) = ((m : ZMod k.Q) ^ 2) ^ ((k.Q + 1) / 4) := by
    rw [ZMod.natCast_mod, Nat.cast_pow, cQ]
  rw [← eP] at mp
  rw [← eQ] at mq
  generalize (C ^ ((k.P + 1) / 4) % k.P : Nat) = u at *
  generalize (C ^ ((k.Q + 1) / 4) % k.Q : Nat) = w at *
  have aP (v : Int) (hv : v = yp * k.P * (w : Nat) + k.Q * (u : Nat) * yq) : (v : ZMod k.P) = u := by
    rw [hv]; push_cast; rw [ZMod.natCast_self]; linear_combination (u : ZMod k.P) * bP
  have aQ (v : Int) (hv : v = yp * k.P * (w : Nat) + k.Q * (u : Nat) * yq) : (v : ZMod k.Q) = w := by
    rw [hv]; push_cast; rw [ZMod.natCast_self]; linear_combination (w : ZMod k.Q) * bQ
  have sP (v : Int) (hv : v = yp * k.P * (w : Nat) - k.Q * (u : Nat) * yq) : (v : ZMod k.P) = -u := by
    rw [hv]; push_cast; rw [ZMod.natCast_self]; linear_combination -(u : ZMod k.P) * bP
  have sQ (v : Int) (hv : v = yp * k.P * (w : Nat) - k.Q * (u : Nat) * yq) : (v : ZMod k.Q) = w := by
    rw [hv]; push_cast; rw [ZMod.natCast_self]; linear_combination (w : ZMod k.Q) * bQ
  have nP : ((k.N : Int) : ZMod k.P) = 0 := by push_cast; exact (ZMod.natCast_eq_zero_iff _ _).mpr dP
  have nQ : ((k.N : Int) : ZMod k.Q) = 0 := by push_cast; exact (ZMod.natCast_eq_zero_iff _ _).mpr dQ
  simp only [List.mem_cons, List.not_mem_nil, or_false]
  rcases mp with hp | hp <;> rcases mq with hq | hq
  · left
    exact key _ r1.1 r1.2 (by rw [norm_cast _ _ _ dP, aP _ rfl, hp]) (by rw [norm_cast _ _ _ dQ, aQ _ rfl, hq])
  · right; right; right
    refine key _ (by omega) (by omega) ?_ ?_
    · rw [Int.cast_sub, nP, norm_cast _ _ _ dP, sP _ rfl, hp]; ring
    · rw [Int.cast_sub, nQ, norm_cast _ _ _ dQ, sQ _ rfl, hq]; ring
  · right; right; left
    exact key _ r2.1 r2.2 (by rw [norm_cast _ _ _ dP, sP _ rfl, hp]; ring) (by rw [norm_cast _ _ _ dQ, sQ _ rfl, hq])
  · right; left
    refine key _ (by omega) (by omega) ?_ ?_
    · rw [Int.cast_sub, nP, norm_cast _ _ _ dP, aP _ rfl, hp]; ring
    · rw [Int.cast_sub, nQ, norm_cast _ _ _ dQ, aQ _ rfl, hq]; ring

theorem bitLen_le_iff (v n : Nat) : bitLen v ≤ n ↔ v < 2 ^ n := by
  rw [bitLen]
  split
  · rename_i h; subst h; simp
  · rename_i h
    rw [← Nat.log2_lt h]; omega

theorem hashEqual_some {H : HashFn} {p : Int} {h b : Bytes} {length : Nat} (e : hashEqual H p h length = some b) :
    b.length = length ∧ H.f b = h ∧ setBytes b = p.natAbs := by
  rw [hashEqual] at e
  split at e
  · cases e
  · rename_i hb
    have hlt : p.natAbs < 256 ^ length := by
      have := (bitLen_le_iff p.natAbs (length * 8)).mp (by omega)
      rwa [Nat.mul_comm, Nat.pow_mul] at this
    simp only at e
    split at e
    · rename_i hh
      cases e
      exact ⟨hx_length _ _, hh, setBytes_hx _ _ hlt⟩
    · cases e

theorem hashEqual_self (H : HashFn) (m : Bytes) : hashEqual H (setBytes m : Int) (H.f m) m.length = some m := by
  rw [hashEqual, Int.natAbs_natCast, if_neg, hx_setBytes]
  · simp
  · rw [not_lt, bitLen_le_iff, Nat.mul_comm, Nat.pow_mul]
    exact setBytes_lt m

/-- C110. `Encrypt` then `Decrypt`, for all keys, and plaintexts that are, read as a number, in `(0, N)`: the plaintext; or
another byte string of the same length, with the same square and the same hash (a collision of SHA-256).  Missing from the full
claim: see the violations below. -/
theorem C110_roundtrip_partial (H : HashFn) (hH : H.size = 32) (k : RKey) (hk : Spec.IsKey k) (m : Bytes) (hlen : m.length < 2 ^ 32) (h0 : 0 < setBytes m) (hN : setBytes m < k.N) :
    ∃ c, encrypt H k.N m = .ok c ∧ ∃ m', decrypt H k c = .ok m' ∧
      (m' = m ∨ m' ≠ m ∧ H.f m' = H.f m ∧ m'.length = m.length) := by
  have hP := hk.P.pos
  have hQ := hk.Q.pos
  have hNpos : 0 < k.N := by omega
  have hcop : Nat.Coprime k.P k.Q := (Nat.coprime_primes hk.P hk.Q).mpr hk.ne
  have hc0 : setBytes m ^ 2 % k.N ≠ 0 := by
    intro h
    have hd := Nat.dvd_of_mod_eq_zero h
    rw [hk.N] at hd
    have h1 := hk.P.dvd_of_dvd_pow (dvd_trans (dvd_mul_right _ _) hd)
    have h2 := hk.Q.dvd_of_dvd_pow (dvd_trans (dvd_mul_left _ _) hd)
    have h3 := Nat.le_of_dvd h0 (hcop.mul_dvd_of_dvd_of_dvd h1 h2)
    rw [← hk.N] at h3
    omega
  rw [encrypt, squareAndMultiple_eq _ _ _ (by decide) hNpos]
  simp only [Res.bind_ok]
  refine ⟨_, rfl, ?_⟩
  rw [Nat.mod_eq_of_lt hlen]
  generalize hC : setBytes m ^ 2 % k.N = C at *
  have hCl : 0 < (natBytes C).length := by
    rw [natBytes, hx_length]; exact byteLen_pos (by omega)
  have hHl : (H.f m).length = 32 := by rw [H.len, hH]
  have hl : (hx 4 m.length ++ natBytes C ++ H.f m).length = 36 + (natBytes C).length := by simp [hHl]; omega
  rw [decrypt, if_neg (by omega)]
  have e1 : (hx 4 m.length ++ natBytes C ++ H.f m).take 4 = hx 4 m.length := by
    rw [List.append_assoc, List.take_left' (hx_length _ _)]
  have e2 : (hx 4 m.length ++ natBytes C ++ H.f m).drop ((hx 4 m.length ++ natBytes C ++ H.f m).length - 32) = H.f m := by
    apply List.drop_left'
    simp [hHl]; omega
  have e3 : ((hx 4 m.length ++ natBytes C ++ H.f m).take ((hx 4 m.length ++ natBytes C ++ H.f m).length - 32)).drop 4 = natBytes C := by
    rw [List.take_left' (by simp [hHl]; omega), List.drop_left' (hx_length _ _)]
  simp only [e1, e2, e3]
  rw [setBytes_natBytes, setBytes_hx _ _ (by omega)]
  obtain ⟨ms, h1, -, h3⟩ := roots_spec k hk C
  rw [h1]
  simp only [Res.bind_ok]
  have hmem := h3 (setBytes m) h0 hN (by rw [hC, ← hC, Nat.mod_mod])
  cases hf : ms.findSome? (fun x => hashEqual H x (H.f m) m.length) with
  | none =>
    have := List.findSome?_eq_none_iff.mp hf _ hmem
    rw [hashEqual_self] at this
    cases this
  | some b =>
    refine ⟨b, rfl, ?_⟩
    obtain ⟨x, hxm, hx⟩ := List.exists_of_findSome?_eq_some hf
    obtain ⟨q1, q2, -⟩ := hashEqual_some hx
    by_cases hb : b = m
    · exact .inl hb
    · exact .inr ⟨hb, q2, q1⟩

/-- C110. `Decrypt`, for all keys and ciphertexts: an error, or a plaintext with the length and the hash that the ciphertext
carries, not above `N` as a number.  No panic. -/
theorem C110_decrypt (H : HashFn) (k : RKey) (hk : Spec.IsKey k) (c : Bytes) :
    decrypt H k c = .err ∨ ∃ m, decrypt H k c = .ok m ∧ 36 < c.length ∧ m.length = setBytes (c.take 4) ∧ H.f m = c.drop (c.length - 32) ∧ setBytes m ≤ k.N := by
  rw [decrypt]
  by_cases hl : c.length ≤ 36
  · rw [if_pos hl]; exact .inl rfl
  rw [if_neg hl]
  simp only
  obtain ⟨ms, h1, h2, -⟩ := roots_spec k hk (setBytes ((c.take (c.length - 32)).drop 4))
  rw [h1]
  simp only [Res.bind_ok]
  cases hf : ms.findSome? (fun x => hashEqual H x (c.drop (c.length - 32)) (setBytes (c.take 4))) with
  | none => exact .inl rfl
  | some b =>
    obtain ⟨x, hxm, hx⟩ := List.exists_of_findSome?_eq_some hf
    obtain ⟨q1, q2, q3⟩ := hashEqual_some hx
    have := h2 x hxm
    exact .inr ⟨b, rfl, by omega, q1, q2, by omega⟩

/-- C110. A plaintext that is zero as a number (no bytes, or zero bytes only) never decrypts, whatever the key. -/
theorem C110_zero_violated (H : HashFn) (hH : H.size = 32) (k : RKey) (hN : 0 < k.N) (m : Bytes) (h0 : setBytes m = 0) :
    ∃ c, encrypt H k.N m = .ok c ∧ decrypt H k c = .err := by
  rw [encrypt, squareAndMultiple_eq _ _ _ (by decide) hN, h0]
  simp only [Res.bind_ok]
  refine ⟨_, rfl, ?_⟩
  rw [decrypt, if_pos]
  have : natBytes (0 ^ 2 % k.N) = [] := by rw [zero_pow (by decide), Nat.zero_mod]; rfl
  rw [this]
  simp [H.len, hH]

/-- C110. `Encrypt` does not refuse a plaintext that is too large, and only its residue can come back: a plaintext that is at
least `N + 1` as a number is never returned. -/
theorem C110_large_violated (H : HashFn) (k : RKey) (hk : Spec.IsKey k) (m : Bytes) (hN : k.N < setBytes m) :
    (∃ c, encrypt H k.N m = .ok c) ∧ ∀ c, decrypt H k c ≠ .ok m := by
  have hP := hk.P.pos
  have hQ := hk.Q.pos
  have hNpos : 0 < k.N := by rw [hk.N]; exact Nat.mul_pos hP hQ
  constructor
  · rw [encrypt, squareAndMultiple_eq _ _ _ (by decide) hNpos]
    exact ⟨_, rfl⟩
  · intro c h
    rcases C110_decrypt H k hk c with h' | ⟨m', h', -, -, -, hle⟩
    · rw [h'] at h; cases h
    · rw [h'] at h; cases h; omega

/-! ### Key generation -/

theorem divLoop_three (v : Nat) (h : v % 4 = 2) (fuel : Nat) : divLoop v (fuel + 5) 2 2 = .ok 6 := by
  have h2 : v % 2 = 0 := by omega
  rw [divLoop, if_pos h2, show swm 2 (2 + 1) = 2 from rfl, divLoop, if_pos h2, show swm 2 (2 + 1 + 1) = 1 from rfl, divLoop, if_pos (Nat.mod_one _),
    show swm 2 (2 + 1 + 1 + 1) = 2 from rfl, divLoop, if_pos h2, show swm 2 (2 + 1 + 1 + 1 + 1) = 4 from rfl, divLoop, if_neg (by omega)]

/-- Squaring cannot give `−1` modulo a number that is 3 modulo 4. -/
theorem sq_ne_neg_one {n : Nat} (h4 : n % 4 = 3) (x : Nat) : x * x % n ≠ n - 1 := by
  intro h
  have hn : 0 < n := by omega
  obtain ⟨p, hp, hpn, hp4⟩ : ∃ p, p.Prime ∧ p ∣ n ∧ p % 4 = 3 := by
    by_contra hcon
    push Not at hcon
    have : ∀ m, 0 < m → m % 2 = 1 → (∀ p, p.Prime → p ∣ m → p % 4 ≠ 3) → m % 4 = 1 := by
      intro m
      induction m using Nat.strong_induction_on with
      | _ m ih =>
        intro hm hodd hall
        by_cases h1 : m = 1
        · subst h1; rfl
        obtain ⟨p, hp, hpm⟩ := Nat.exists_prime_and_dvd h1
        obtain ⟨w, rfl⟩ := hpm
        have hw : 0 < w := Nat.pos_of_ne_zero fun e => by simp [e] at hm
        have hpo : p % 2 = 1 := by
          rcases Nat.mod_two_eq_zero_or_one p with h | h
          · rw [Nat.mul_mod, h] at hodd; simp at hodd
          · exact h
        have hwo : w % 2 = 1 := by
          rcases Nat.mod_two_eq_zero_or_one w with h | h
          · rw [Nat.mul_mod, h] at hodd; simp at hodd
          · exact h
        have hlt : w < p * w := by
          have := hp.two_le
          calc w < 2 * w := by omega
            _ ≤ p * w := Nat.mul_le_mul_right _ this
        have e1 := ih w hlt hw hwo fun q hq hqw => hall q hq (dvd_mul_of_dvd_right hqw p)
        have e2 := hall p hp (dvd_mul_right _ _)
        have e3 : p % 4 = 1 := by omega
        rw [Nat.mul_mod, e1, e3]
    have := this n hn (by omega) fun p hp hd => hcon p hp hd
    omega
  have : Fact p.Prime := ⟨hp⟩
  have hs : ((x : ZMod p)) ^ 2 = -1 := by
    have h1 : ((x * x % n : Nat) : ZMod n) = ((n - 1 : Nat) : ZMod n) := by rw [h]
    have h2 : (x * x : Nat) ≡ n - 1 [MOD n] := by
      rw [← ZMod.natCast_eq_natCast_iff, ← h1, ZMod.natCast_mod]
    have h3 := Nat.ModEq.of_dvd hpn h2
    rw [← ZMod.natCast_eq_natCast_iff, Nat.cast_mul, Nat.cast_sub (by omega), (ZMod.natCast_eq_zero_iff n p).mpr hpn] at h3
    rw [pow_two, h3]; simp
  have := ZMod.exists_sq_eq_neg_one_iff.mp (⟨(x : ZMod p), by rw [← hs, pow_two]⟩ : IsSquare (-1 : ZMod p))
  exact this hp4

theorem mrLoop_three {n : Nat} (h4 : n % 4 = 3) : ∀ i x, mrLoop n i x = false
  | 0, _ => rfl
  | i + 1, x => by
    rw [mrLoop]
    split
    · rfl
    · rw [if_neg (sq_ne_neg_one h4 x)]
      exact mrLoop_three h4 i _

/-- C110. The primality test, for all numbers that are 3 modulo 4: it ends, and its answer is whether the fixed number
1000000000001 has power `±1` with the exponent `(n − 1)/2`. -/
theorem C110_isPrime (n : Nat) (h4 : n % 4 = 3) :
    ∃ b, isPrime n 5 = .ok b ∧ (b = true ↔ ((1000000000001 : Nat) : ZMod n) ^ ((n - 1) / 2) = 1 ∨ ((1000000000001 : Nat) : ZMod n) ^ ((n - 1) / 2) = -1) := by
  have hn : 1 < n := by omega
  have : NeZero n := ⟨by omega⟩
  have hloop : divLoop (n - 1) (n + 10) 2 2 = .ok 6 := divLoop_three (n - 1) (by omega) (n + 5)
  have hmr : ∀ i, mrRounds n ((n - 1) / 2) 5 (i + 1) = .ok (decide (1000000000001 ^ ((n - 1) / 2) % n = 1 ∨ 1000000000001 ^ ((n - 1) / 2) % n = n - 1)) := by
    have hone : millerRabin n ((n - 1) / 2) 5 = .ok (decide (1000000000001 ^ ((n - 1) / 2) % n = 1 ∨ 1000000000001 ^ ((n - 1) / 2) % n = n - 1)) := by
      rw [millerRabin, squareAndMultiple_eq _ _ _ (by omega) (by omega)]
      simp only [Res.bind_ok]
      split
      · rename_i h; simp only [h, decide_true]
      · rename_i h; rw [mrLoop_three h4]; simp only [h, decide_false]
    intro i
    induction i with
    | zero =>
      rw [mrRounds, hone]
      simp only [Res.bind_ok]
      cases decide (1000000000001 ^ ((n - 1) / 2) % n = 1 ∨ 1000000000001 ^ ((n - 1) / 2) % n = n - 1) <;> rfl
    | succ i ih =>
      rw [mrRounds, hone]
      simp only [Res.bind_ok]
      rw [ih]
      cases decide (1000000000001 ^ ((n - 1) / 2) % n = 1 ∨ 1000000000001 ^ ((n - 1) / 2) % n = n - 1) <;> rfl
  refine ⟨decide (1000000000001 ^ ((n - 1) / 2) % n = 1 ∨ 1000000000001 ^ ((n - 1) / 2) % n = n - 1), ?_, ?_⟩
  · rw [isPrime, if_neg (by omega)]
    simp only
    rw [hloop]
    simp only [Res.bind_ok]
    rw [show swm 2 (6 - 1) = 2 from rfl]
    exact hmr 4
  · rw [decide_eq_true_eq]
    have h1 : 1000000000001 ^ ((n - 1) / 2) % n = 1 ↔ ((1000000000001 : Nat) : ZMod n) ^ ((n - 1) / 2) = 1 := by
      rw [← Nat.cast_pow, ← Nat.cast_one (R := ZMod n), ZMod.natCast_eq_natCast_iff', Nat.mod_eq_of_lt hn]
    have h2 : 1000000000001 ^ ((n - 1) / 2) % n = n - 1 ↔ ((1000000000001 : Nat) : ZMod n) ^ ((n - 1) / 2) = -1 := by
      have : (-1 : ZMod n) = ((n - 1 : Nat) : ZMod n) := by rw [Nat.cast_sub (by omega), ZMod.natCast_self]; simp
      rw [this, ← Nat.cast_pow, ZMod.natCast_eq_natCast_iff', Nat.mod_eq_of_lt (by omega : n - 1 < n)]
    exact or_congr h1 h2

/-- C110. Every prime that is 3 modulo 4 passes the test. -/
theorem C110_isPrime_complete (p : Nat) (hp : p.Prime) (h4 : p % 4 = 3) : isPrime p 5 = .ok true := by
  obtain ⟨b, hb, hiff⟩ := C110_isPrime p h4
  have : Fact p.Prime := ⟨hp⟩
  rw [hb, hiff.mpr]
  by_cases ha : ((1000000000001 : Nat) : ZMod p) = 0
  · exfalso
    have hd := (ZMod.natCast_eq_zero_iff _ _).mp ha
    -- `1000000000001 = (10^6)^2 + 1`
    have hs : ((1000000 : ZMod p)) ^ 2 = -1 := by
      have : ((1000000000001 : Nat) : ZMod p) = 1000000 ^ 2 + 1 := by norm_num
      rw [ha] at this
      linear_combination -this
    have := ZMod.exists_sq_eq_neg_one_iff.mp (⟨(1000000 : ZMod p), by rw [← hs, pow_two]⟩ : IsSquare (-1 : ZMod p))
    exact this h4
  · have := ZMod.pow_div_two_eq_neg_one_or_one p ha
    rwa [show p / 2 = (p - 1) / 2 by omega] at this

theorem getPrime_ok (len : Nat) : ∀ (fuel : Nat) (rd : Bytes) (n : Nat) (rest : Bytes), getPrime len fuel rd = .ok (n, rest) → isPrime n 5 = .ok true ∧ n < 256 ^ len
  | 0, _, _, _, h => by cases h
  | fuel + 1, rd, n, rest, h => by
    rw [getPrime] at h
    generalize hn : (if rd.length < len then 0 else setBytes (rd.take len)) = m at h
    have hm : m < 256 ^ len := by
      rw [← hn]
      split
      · exact Nat.pow_pos (by decide)
      · refine Nat.lt_of_lt_of_le (setBytes_lt _) (Nat.pow_le_pow_right (by decide) ?_)
        rw [List.length_take]; omega
    cases hp : isPrime m 5 with
    | ok b =>
      rw [hp] at h
      simp only [Res.bind_ok] at h
      cases b with
      | true => simp only [if_true] at h; cases h; exact ⟨hp, hm⟩
      | false => simp only [Bool.false_eq_true, if_false] at h; exact getPrime_ok len fuel _ _ _ h
    | err => rw [hp] at h; cases h
    | panic => rw [hp] at h; cases h
    | hang => rw [hp] at h; cases h

theorem rabinPrime_ok (len : Nat) : ∀ (fuel : Nat) (rd : Bytes) (n : Nat) (rest : Bytes), rabinPrime len fuel rd = .ok (n, rest) → isPrime n 5 = .ok true ∧ n < 256 ^ len ∧ n % 4 = 3
  | 0, _, _, _, h => by cases h
  | fuel + 1, rd, n, rest, h => by
    rw [rabinPrime] at h
    cases hp : getPrime len (rd.length + 1) rd with
    | ok x =>
      obtain ⟨p, rd'⟩ := x
      rw [hp] at h
      simp only [Res.bind_ok] at h
      split at h
      · rename_i h4
        cases h
        have := getPrime_ok _ _ _ _ _ hp
        exact ⟨this.1, this.2, h4⟩
      · exact rabinPrime_ok len fuel _ _ _ h
    | err => rw [hp] at h; cases h
    | panic => rw [hp] at h; cases h
    | hang => rw [hp] at h; cases h

/-- C110. A generated key: two numbers of at most `len` bytes that are 3 modulo 4 and pass the test above, and their product.
Missing from the full claim: that they are different primes (`C110_genKey_violated`). -/
theorem C110_genKey_partial (len : Nat) (rd : Bytes) (k : RKey) (h : genKey len rd = .ok k) :
    k.N = k.P * k.Q ∧ (k.P % 4 = 3 ∧ k.P < 256 ^ len ∧ isPrime k.P 5 = .ok true) ∧ (k.Q % 4 = 3 ∧ k.Q < 256 ^ len ∧ isPrime k.Q 5 = .ok true) := by
  rw [genKey] at h
  cases h1 : rabinPrime len (rd.length + 1) rd with
  | ok x =>
    obtain ⟨p, rd'⟩ := x
    rw [h1] at h
    simp only [Res.bind_ok] at h
    cases h2 : rabinPrime len (rd'.length + 1) rd' with
    | ok y =>
      obtain ⟨q, rd''⟩ := y
      rw [h2] at h
      cases h
      have a := rabinPrime_ok _ _ _ _ _ h1
      have b := rabinPrime_ok _ _ _ _ _ h2
      exact ⟨rfl, ⟨a.2.2, a.2.1, a.1⟩, b.2.2, b.2.1, b.1⟩
    | err => rw [h2] at h; cases h
    | panic => rw [h2] at h; cases h
    | hang => rw [h2] at h; cases h
  | err => rw [h1] at h; cases h
  | panic => rw [h1] at h; cases h
  | hang => rw [h1] at h; cases h

/-- C110, violation: 175 = 5·5·7 passes the test, and `GenerateKeyWithBitLength(rand, 1)` gives a key with it; nor are the two
factors different. -/
theorem C110_genKey_violated : genKey 1 [175, 4, 7] = .ok { N := 1225, P := 175, Q := 7 } ∧ ¬ Nat.Prime 175 ∧ genKey 1 [7, 7] = .ok { N := 49, P := 7, Q := 7 } :=
  ⟨by decide +kernel, by norm_num, by decide +kernel⟩

/-- A hash function of 32 bytes and a key to test statements on. -/
def toyHash32 : HashFn where
  f m := List.replicate 31 1#8 ++ [m.foldl (fun a b => a * 3 + b) 5#8]
  size := 32
  block := 4
  pos := by decide
  len _ := by simp
def toyKey : RKey := { N := 77, P := 7, Q := 11 }
theorem toyKey_isKey : Spec.IsKey toyKey := ⟨by norm_num [toyKey], by norm_num [toyKey], by decide, by decide, by decide, by decide⟩

example : ∃ c, encrypt toyHash32 77 [0, 5] = .ok c ∧ decrypt toyHash32 toyKey c = .ok [0, 5] := by
  refine ⟨hx 4 2 ++ [25] ++ toyHash32.f [0, 5], by decide +kernel, by decide +kernel⟩
example : isPrime 65543 5 = .ok true ∧ isPrime 65547 5 = .ok false := by decide +kernel

/-- C110, violation: with a key of two equal factors the round trip fails. -/
theorem C110_equal_violated : ∃ c, encrypt toyHash32 49 [3] = .ok c ∧ decrypt toyHash32 { N := 49, P := 7, Q := 7 } c = .err :=
  ⟨hx 4 1 ++ [9] ++ toyHash32.f [3], by decide +kernel, by decide +kernel⟩

/-- C110, violation: `Decrypt` accepts a ciphertext that is not the encryption of what it returns. -/
theorem C110_forged_violated : decrypt toyHash32 toyKey (hx 4 1 ++ [52] ++ toyHash32.f [5]) = .ok [5] ∧
    encrypt toyHash32 77 [5] ≠ .ok (hx 4 1 ++ [52] ++ toyHash32.f [5]) := by decide +kernel

/-- C110, violation: the test does not end on the number 1, whatever the number of steps. -/
theorem C110_isPrime_one_violated (fuel r e : Nat) : divLoop 0 fuel r e = .hang := by
  induction fuel generalizing r e with
  | zero => rfl
  | succ n ih => rw [divLoop, if_pos (Nat.zero_mod _), ih]

/-- C110, violation: `GenerateKey` never returns when the random source fails: no error. -/
theorem C110_source_violated (len : Nat) (rd : Bytes) (h : rd.length < len) : genKey len rd = .hang := by
  have hg : ∀ fuel (rd : Bytes), rd.length < len → getPrime len fuel rd = .hang := by
    intro fuel
    induction fuel with
    | zero => intros; rfl
    | succ n ih =>
      intro rd h
      rw [getPrime, if_pos h]
      rw [show isPrime 0 5 = .ok false from rfl]
      exact ih _ (by rw [List.length_drop]; omega)
  rw [genKey, rabinPrime, hg _ _ h]
  rfl

end Verif.Pub.Rabin
