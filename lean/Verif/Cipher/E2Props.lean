import Verif.Cipher.E2
import Mathlib.Data.BitVec
import Mathlib.Tactic.Ring
import Mathlib.Tactic.IntervalCases
/-
C176: E2 (cipher/e2).
-/
namespace Verif.Cipher.E2
set_option maxRecDepth 100000

/-! ## The inverse modulo 2^32 -/

theorem toNat_rem (a b : W) : (a - a / b * b).toNat = a.toNat % b.toNat := by
  have h1 : a.toNat / b.toNat * b.toNat ≤ a.toNat := Nat.div_mul_le_self _ _
  have h2 := Nat.mod_add_div a.toNat b.toNat
  have h3 := a.isLt
  rw [Nat.mul_comm] at h2
  rw [BitVec.toNat_sub, BitVec.toNat_mul, BitVec.toNat_udiv, Nat.mod_eq_of_lt (show a.toNat / b.toNat * b.toNat < 2 ^ 32 by omega)]
  omega

theorem eq_one_of_rem {a b : Nat} (h : Nat.Coprime a b) (hz : a % b = 0) : b = 1 :=
  Nat.eq_one_of_dvd_one (h ▸ Nat.dvd_gcd (Nat.dvd_of_mod_eq_zero hz) (Nat.dvd_refl b))

theorem invLoop_spec (x : W) : ∀ (fuel : Nat) (a b y1 y2 : W), a = x * y2 → b = x * y1 → Nat.Coprime a.toNat b.toNat → 0 < b.toNat → b.toNat < fuel →
    ∃ y, invLoop x fuel a b y1 y2 = .ok y ∧ x * y = 1
  | 0, _, _, _, _, _, _, _, _, hf => absurd hf (Nat.not_lt_zero _)
  | fuel + 1, a, b, y1, y2, ha, hb, hc, h0, hf => by
    have hb0 : b ≠ 0 := by rintro rfl; exact absurd h0 (by decide)
    rw [invLoop, if_neg hb0]
    dsimp only
    have hr := toNat_rem a b
    have ha' : a - a / b * b = x * (y2 - a / b * y1) := by
      generalize a / b = q
      rw [ha, hb]; ring
    have hc' : Nat.Coprime (a.toNat % b.toNat) b.toNat := by
      rw [Nat.Coprime, ← Nat.gcd_rec, Nat.gcd_comm]; exact hc
    generalize a - a / b * b = a' at hr ha'
    generalize y2 - a / b * y1 = y2' at ha'
    by_cases hz : a' = 0
    · rw [if_pos hz]
      have h1 : b = 1 := by
        apply BitVec.eq_of_toNat_eq
        rw [hz] at hr
        exact eq_one_of_rem hc (by rw [← hr]; rfl)
      have h2 : x * y1 = 1 := by rw [← hb, h1]
      exact ⟨y1, by rw [if_pos h2], h2⟩
    · rw [if_neg hz]
      have ha0 : 0 < a'.toNat := by
        rcases Nat.eq_zero_or_pos a'.toNat with h | h
        · exact absurd (BitVec.eq_of_toNat_eq (by rw [h]; rfl)) hz
        · exact h
      have hr2 := toNat_rem b a'
      rw [← hr] at hc'
      have hb' : b - b / a' * a' = x * (y1 - b / a' * y2') := by
        generalize b / a' = q
        rw [ha', hb]; ring
      have hlt : a'.toNat < b.toNat := by rw [hr]; exact Nat.mod_lt _ h0
      have hlt2 : b.toNat % a'.toNat < a'.toNat := Nat.mod_lt _ ha0
      have hc2 : Nat.Coprime a'.toNat (b.toNat % a'.toNat) := by
        rw [Nat.Coprime, Nat.gcd_comm, ← Nat.gcd_rec]; exact hc'
      rw [← hr2] at hc2 hlt2
      generalize b - b / a' * a' = b' at hr2 hb' hlt2 hc2
      generalize y1 - b / a' * y2' = y1' at hb'
      by_cases hz' : b' = 0
      · rw [if_pos hz']
        have h1 : a' = 1 := by
          apply BitVec.eq_of_toNat_eq
          rw [hz'] at hr2
          exact eq_one_of_rem hc'.symm (by rw [← hr2]; rfl)
        have h2 : x * y2' = 1 := by rw [← ha', h1]
        exact ⟨y2', by rw [if_pos h2], h2⟩
      · rw [if_neg hz']
        have hb0' : 0 < b'.toNat := by
          rcases Nat.eq_zero_or_pos b'.toNat with h | h
          · exact absurd (BitVec.eq_of_toNat_eq (by rw [h]; rfl)) hz'
          · exact h
        exact invLoop_spec x fuel a' b' y1' y2' ha' hb' hc2 hb0' (by omega)

/-- What the first lines of `mod_inv` compute is `2^32 mod x`. -/
theorem first_rem (x : W) (hx : 0 < x.toNat) : (~~~ ((-x) / x) * x).toNat = 2 ^ 32 % x.toNat := by
  have h1 := x.isLt
  have h2 : (-x).toNat = 2 ^ 32 - x.toNat := by rw [BitVec.toNat_neg, Nat.mod_eq_of_lt (by omega)]
  have h3 := Nat.mod_add_div (2 ^ 32) x.toNat
  have h4 := Nat.div_eq_sub_div hx (show x.toNat ≤ 2 ^ 32 by omega)
  have h5 := Nat.mod_lt (2 ^ 32) hx
  have h6 : 2 ^ 32 / x.toNat ≤ 2 ^ 32 := Nat.div_le_self _ _
  rw [BitVec.toNat_mul, BitVec.toNat_not, BitVec.toNat_udiv, h2, show 2 ^ 32 - 1 - (2 ^ 32 - x.toNat) / x.toNat = 2 ^ 32 - 2 ^ 32 / x.toNat by omega]
  generalize 2 ^ 32 / x.toNat = q at *
  generalize 2 ^ 32 % x.toNat = r at *
  generalize x.toNat = n at *
  rw [Nat.sub_mul, Nat.mul_comm q n]
  obtain ⟨n, rfl⟩ : ∃ k, n = k + 1 := ⟨n - 1, by omega⟩
  rw [show 2 ^ 32 * (n + 1) - (n + 1) * q = r + 2 ^ 32 * n by omega, Nat.add_mul_mod_self_left, Nat.mod_eq_of_lt (by omega)]

/-- **C176** `mod_inv` finds the inverse of every odd number other than 1 modulo 2^32, and panics on 1: it divides by zero. -/
theorem C176_inverse_partial (x : W) (ho : x.toNat % 2 = 1) : (x ≠ 1 → ∃ y, modInv x = .ok y ∧ x * y = 1) ∧ (x = 1 → modInv x = .panic) := by
  refine ⟨fun h1 => ?_, fun h1 => by subst h1; decide⟩
  have hx : 0 < x.toNat := by omega
  have hc : Nat.Coprime x.toNat (2 ^ 32) := Nat.Coprime.pow_right 32 (by rw [Nat.Coprime, Nat.gcd_comm, Nat.gcd_rec, ho]; rfl)
  have hfr := first_rem x hx
  have hc2 : Nat.Coprime x.toNat (2 ^ 32 % x.toNat) := by
    rw [Nat.Coprime, Nat.gcd_comm, ← Nat.gcd_rec]; exact hc
  have h0 : 0 < 2 ^ 32 % x.toNat := by
    rcases Nat.eq_zero_or_pos (2 ^ 32 % x.toNat) with h | h
    · rw [h] at hc2
      exact absurd (BitVec.eq_of_toNat_eq ((Nat.coprime_zero_right _).mp hc2)) h1
    · exact h
  have hlt := Nat.mod_lt (2 ^ 32) hx
  rw [← hfr] at hc2 h0 hlt
  exact invLoop_spec x _ x _ _ 1 (by ring) (by ring) hc2 h0 (by omega)

example : modInv 3 = .ok 0xaaaaaaab := by decide +kernel

theorem factor_odd (key : Bytes) (j : Nat) : (factor key j).toNat % 2 = 1 := by
  unfold factor
  rw [BitVec.toNat_or, show (1 : W).toNat = 1 from rfl]
  generalize (raw key |>.getD (52 + j) 0).toNat = n
  have := Nat.testBit_or n 1 0
  simpa [Nat.testBit_zero] using this

theorem inverses_ok (key : Bytes) : ∀ n j, (∀ i, j ≤ i → i < j + n → factor key i ≠ 1) →
    ∃ inv, inverses key n j = .ok inv ∧ ∀ i, i < n → factor key (j + i) * inv.getD i 0 = 1
  | 0, j, _ => ⟨[], rfl, fun i h => absurd h (Nat.not_lt_zero _)⟩
  | n + 1, j, h => by
    obtain ⟨y, hy, hxy⟩ := (C176_inverse_partial _ (factor_odd key j)).1 (h j (by omega) (by omega))
    obtain ⟨ys, hys, hz⟩ := inverses_ok key n (j + 1) fun i h1 h2 => h i (by omega) (by omega)
    refine ⟨y :: ys, by rw [inverses, hy, Res.bind, hys, Res.bind], fun i hi => ?_⟩
    cases i with
    | zero => simpa using hxy
    | succ i =>
      have := hz i (by omega)
      rw [show j + 1 + i = j + (i + 1) by omega] at this
      simpa using this

theorem inverses_panic (key : Bytes) : ∀ n j, (∃ i, j ≤ i ∧ i < j + n ∧ factor key i = 1) → inverses key n j = .panic
  | 0, j, h => by obtain ⟨i, h1, h2, _⟩ := h; omega
  | n + 1, j, h => by
    by_cases h1 : factor key j = 1
    · rw [inverses, (C176_inverse_partial _ (factor_odd key j)).2 h1, Res.bind]
    · obtain ⟨y, hy, _⟩ := (C176_inverse_partial _ (factor_odd key j)).1 h1
      rw [inverses, hy, Res.bind, inverses_panic key n (j + 1), Res.bind]
      obtain ⟨i, h2, h3, h4⟩ := h
      rcases Nat.eq_or_lt_of_le h2 with h5 | h5
      · exact absurd (h5 ▸ h4) h1
      · exact ⟨i, h5, by omega, h4⟩

/-! ## The rounds -/

theorem sw_sw (m : W) (s : W × W) : sw m (sw m s) = s := by
  unfold sw
  apply Prod.ext
  all_goals
    apply BitVec.eq_of_getElem_eq
    intro i hi
    simp only [BitVec.getElem_xor, BitVec.getElem_and]
    cases s.1[i] <;> cases s.2[i] <;> cases m[i] <;> rfl

theorem sw_not (m m' : W) (h : m' = ~~~ m) (s : W × W) : sw m (sw m' s) = (s.2, s.1) := by
  subst h
  unfold sw
  apply Prod.ext
  all_goals
    apply BitVec.eq_of_getElem_eq
    intro i hi
    simp only [BitVec.getElem_xor, BitVec.getElem_and, BitVec.getElem_not]
    cases s.1[i] <;> cases s.2[i] <;> cases m[i] <;> rfl

def swap (s : St) : St := (s.2, s.1)

theorem bp_ibp (s : St) : bp (ibp s) = swap s := by
  have h1 := sw_not 0x00ffff00 0xff0000ff (by decide) (s.1.1, s.2.1)
  have h2 := sw_not 0x0000ffff 0xffff0000 (by decide) (s.1.2, s.2.2)
  simp only [bp, ibp, Prod.mk.eta, h1, h2]
  rfl

theorem ibp_swap_bp (s : St) : ibp (swap (bp s)) = s := by
  have h1 := sw_not 0xff0000ff 0x00ffff00 (by decide) (s.1.1, s.2.1)
  have h2 := sw_not 0xffff0000 0x0000ffff (by decide) (s.1.2, s.2.2)
  have h (m : W) (t : W × W) : sw m (t.2, t.1) = ((sw m t).2, (sw m t).1) := by
    simp only [sw, BitVec.xor_comm t.2 t.1]
  simp only [bp, ibp, swap, h, h1, h2]

theorem xor2_xor2 (s t : W × W) : xor2 (xor2 s t) t = s := by
  simp [xor2, BitVec.xor_assoc]

theorem ddbl_dbl (K : Nat → W) (s : St) (j : Nat) : ddbl K (swap (dbl K s j)) j = swap s := by
  simp only [ddbl, dbl, swap, xor2_xor2]

theorem rounds_undo (K : Nat → W) : ∀ (l : List Nat) (s : St), l.reverse.foldl (ddbl K) (swap (l.foldl (dbl K) s)) = swap s
  | [], _ => rfl
  | j :: l, s => by
    rw [List.foldl_cons, List.reverse_cons, List.foldl_append, rounds_undo K l, List.foldl_cons, List.foldl_nil, ddbl_dbl]

theorem bswap_bswap (x : W) : bswap (bswap x) = x := by
  apply BitVec.eq_of_getLsbD_eq
  intro i hi
  unfold bswap rotr
  interval_cases i <;> simp

theorem io_oi (s : St) : io (oi s) = s := by simp [io, oi, bswap_bswap]
theorem oi_io (s : W × W × W × W) : oi (io s) = s := by simp [io, oi, bswap_bswap]
theorem xorK_xorK (K : Nat → W) (n : Nat) (s : St) : xorK K n (xorK K n s) = s := by simp [xorK, BitVec.xor_assoc]
theorem mulK_mulK (K : Nat → W) (n m : Nat) (h : ∀ i, i < 4 → K (m + i) * K (n + i) = 1) (s : St) : mulK K n (mulK K m s) = s := by
  have h0 := h 0 (by decide)
  have h1 := h 1 (by decide)
  have h2 := h 2 (by decide)
  have h3 := h 3 (by decide)
  rw [Nat.add_zero, Nat.add_zero] at h0
  simp only [mulK, BitVec.mul_assoc, h0, h1, h2, h3, mul_one]

theorem decrypt_encrypt (K : Nat → W) (h : ∀ i, i < 8 → K (52 + i) * K (64 + i) = 1) (s : W × W × W × W) : decrypt K (encrypt K s) = s := by
  rw [decrypt, encrypt, io_oi, xorK_xorK, mulK_mulK K 56 68, bp_ibp, rounds_undo, ibp_swap_bp, mulK_mulK K 64 52, xorK_xorK, oi_io]
  · intro i hi
    exact h i (by omega)
  · intro i hi
    rw [BitVec.mul_comm]
    have := h (4 + i) (by omega)
    rwa [show 52 + (4 + i) = 56 + i by omega, show 64 + (4 + i) = 68 + i by omega] at this

theorem blockFn {key : Bytes} {inv : List W} (h : ∀ i, i < 8 → factor key (0 + i) * inv.getD i 0 = 1) : BlockFn 16 (encB key inv) (decB key inv) :=
  blockFn_4BE 16 (by decide) (by decide) (decrypt_encrypt _ fun i hi => by
    have := h i hi
    simp only [lKey]
    rw [if_neg (show ¬ 52 + i < 48 by omega), if_neg (show ¬ 52 + i < 52 by omega), if_pos (show 52 + i < 60 by omega), if_neg (show ¬ 64 + i < 48 by omega),
      if_neg (show ¬ 64 + i < 52 by omega), if_neg (show ¬ 64 + i < 60 by omega), if_neg (show ¬ 64 + i < 64 by omega), show 52 + i - 52 = 0 + i by omega, show 64 + i - 64 = i by omega]
    exact this)

/-- **C176** Keys of 16, 24 and 32 bytes are accepted and no others, except that `NewCipher` panics when one of the eight factors of the key schedule is 1. Otherwise `Encrypt`
and `Decrypt` are inverse functions of the first 16 bytes; they panic on short or partially overlapping slices, and write zeros after the block when both slices are longer.
Missing: that `NewCipher` never panics, that the function is E2 as published, and that nothing is written after the block. -/
theorem C176_block_cipher_partial (key : Bytes) :
    (¬ (key.length = 16 ∨ key.length = 24 ∨ key.length = 32) → newCipher key = .err) ∧
    ((key.length = 16 ∨ key.length = 24 ∨ key.length = 32) →
      ((∃ j, j < 8 ∧ factor key j = 1) → newCipher key = .panic) ∧
      ((∀ j, j < 8 → factor key j ≠ 1) → ∃ c E D, newCipher key = .ok c ∧ c.bs = 16 ∧ BlockFn 16 E D ∧
        ∀ m dst src, ((src.len < 16 ∨ dst.len < 16 ∨ inexactOverlap { dst with len := 16 } { src with len := 16 } = true) → c.enc m dst src = .panic ∧ c.dec m dst src = .panic) ∧
          (¬ (src.len < 16 ∨ dst.len < 16 ∨ inexactOverlap { dst with len := 16 } { src with len := 16 } = true) →
            c.enc m dst src = .ok (m.write dst.ptr ((E (m.read src.ptr 16) ++ List.replicate (4 * (src.len / 4) - 16) 0).take dst.len)) ∧
            c.dec m dst src = .ok (m.write dst.ptr ((D (m.read src.ptr 16) ++ List.replicate (4 * (src.len / 4) - 16) 0).take dst.len))))) := by
  refine ⟨fun h => if_neg h, fun hk => ⟨fun ⟨j, h1, h2⟩ => ?_, fun h => ?_⟩⟩
  · rw [newCipher, if_pos hk, inverses_panic key 8 0 ⟨j, by omega, by omega, h2⟩, Res.bind]
  · obtain ⟨inv, hi, hz⟩ := inverses_ok key 8 0 fun i _ h2 => h i (by omega)
    refine ⟨⟨16, spill 4 16 (encB key inv), spill 4 16 (decB key inv)⟩, encB key inv, decB key inv, ?_, rfl, blockFn hz, fun m dst src => ⟨fun hp => ?_, fun hp => ?_⟩⟩
    · rw [newCipher, if_pos hk, hi, Res.bind]
    · exact ⟨(spill_eq ..).trans (if_pos hp), (spill_eq ..).trans (if_pos hp)⟩
    · exact ⟨(spill_eq ..).trans (if_neg hp), (spill_eq ..).trans (if_neg hp)⟩

/-- **C176, the fault.** There is a key of 16 bytes for which `NewCipher` panics: the seventh factor is 1. -/
theorem C176_new_panics_violated : ∃ key : Bytes, key.length = 16 ∧ newCipher key = .panic :=
  ⟨hx 16 0x00000001000000000000000000e231a8, by decide +kernel, by
    refine (C176_block_cipher_partial _).2 (by decide +kernel) |>.1 ⟨6, by decide, by decide +kernel⟩⟩

/-- The field with 256 elements modulo `x^8 + x^4 + x^3 + x + 1`: product, by shifts and additions. -/
def gmul (a b : Nat) : Nat := (List.range 8).foldl (fun r i => (if b.testBit (7 - i) then a else 0) ^^^ (if (2 * r) < 256 then 2 * r else (2 * r) ^^^ 0x11b)) 0

/-- `x^127`, as the product of `x`, `x^2`, `x^4`, …, `x^64`. -/
def pow127 (x : Nat) : Nat := ((List.range 7).foldl (fun s _ => (gmul s.1 s.2, gmul s.2 s.2)) (1, x)).1

/-- **C176** The substitution table is the published one: `97 x^127 + 225`, the power in the field and the rest modulo 256. -/
theorem C176_sbox (x : Nat) (h : x < 256) :
    sBox.getD x 0 = BitVec.ofNat 8 (97 * pow127 x + 225) := by
  revert h
  revert x
  decide +kernel

/- Other keys are accepted, and decryption gives the plaintext back. -/
example : (kat newCipher (hx 16 0x000102030405060708090a0b0c0d0e0f) (hx 16 0x00112233445566778899aabbccddeeff)).bind (katD newCipher (hx 16 0x000102030405060708090a0b0c0d0e0f)) =
    .ok (hx 16 0x00112233445566778899aabbccddeeff) := by decide +kernel
example : ∀ j, j < 8 → factor (hx 16 0x000102030405060708090a0b0c0d0e0f) j ≠ 1 := by decide +kernel

end Verif.Cipher.E2
