import Verif.Pub.ElGamal
import Mathlib.FieldTheory.Finite.Basic
import Mathlib.Tactic.FieldSimp
import Mathlib.Tactic.LinearCombination
import Mathlib.NumberTheory.LucasPrimality
import Mathlib.Tactic.ReduceModChar
import Mathlib.Tactic.NormNum.Prime
/-
C99: ElGamal encryption.  The specification is in the field of integers modulo `P`.
-/
namespace Verif.Pub.ElGamal
open Verif.Cipher Verif.Kdf

namespace Spec

/-- A key pair: `P` is prime, `G` is not zero modulo `P` and `Y = G^X`. -/
structure IsKey (k : EKey) : Prop where
  prime : k.P.Prime
  unit : (k.G : ZMod k.P) ≠ 0
  pub : (k.Y : ZMod k.P) = (k.G : ZMod k.P) ^ k.X
  lt : k.Y < k.P

/-- The padding: the byte 2, at least eight bytes that are not zero, a zero byte, the message. -/
def Padded (msg em : Bytes) : Prop := ∃ ps : Bytes, 8 ≤ ps.length ∧ (0 : Byte) ∉ ps ∧ em = 2 :: ps ++ 0 :: msg

/-- A valid ElGamal signature of the number `m`. -/
def Valid (pub : EPub) (m : Nat) (r s : Int) : Prop :=
  0 < r ∧ r < pub.P ∧ 0 < s ∧ s < (pub.P : Int) - 1 ∧
  (pub.G : ZMod pub.P) ^ m = (pub.Y : ZMod pub.P) ^ r.toNat * (r : ZMod pub.P) ^ s.toNat

end Spec

theorem randLoop_spec (max bits : Nat) (hb : 0 < bits) : ∀ fuel rd, rd.length < fuel →
    randLoop max bits fuel rd = .err ∨ ∃ v rest, randLoop max bits fuel rd = .ok (v, rest) ∧ v < max ∧ rest.length < rd.length
  | 0, rd, h => by omega
  | fuel + 1, rd, h => by
    rw [randLoop]
    simp only
    by_cases hl : rd.length < (bits + 7) / 8
    · left; rw [if_pos hl]
    rw [if_neg hl]
    have hd : (rd.drop ((bits + 7) / 8)).length < rd.length := by simp; omega
    split
    · rename_i hm
      exact .inr ⟨_, _, rfl, hm, hd⟩
    · rcases randLoop_spec max bits hb fuel (rd.drop ((bits + 7) / 8)) (by omega) with h | ⟨v, rest, h, h1, h2⟩
      · exact .inl h
      · exact .inr ⟨v, rest, h, h1, by omega⟩

theorem bitLen_eq_zero {n : Nat} : bitLen n = 0 ↔ n = 0 := by
  rw [bitLen]; split <;> omega

theorem randInt_spec (max : Int) (hm : 0 < max) (rd : Bytes) :
    randInt max rd = .err ∨ ∃ v rest, randInt max rd = .ok (v, rest) ∧ (v : Int) < max ∧ rest.length ≤ rd.length ∧ (1 < max → rest.length < rd.length) := by
  rw [randInt, if_neg (by omega)]
  simp only
  by_cases h : bitLen (max.toNat - 1) = 0
  · rw [if_pos h]
    exact .inr ⟨0, rd, rfl, by omega, le_refl _, fun h1 => by rw [bitLen_eq_zero] at h; omega⟩
  · rw [if_neg h]
    rcases randLoop_spec max.toNat _ (Nat.pos_of_ne_zero h) (rd.length + 1) rd (by omega) with h | ⟨v, rest, h, h1, h2⟩
    · exact .inl h
    · exact .inr ⟨v, rest, h, by omega, by omega, fun _ => h2⟩

theorem expMod_cast (a e n : Nat) : ((expMod a e n : Nat) : ZMod n) = (a : ZMod n) ^ e := by
  rw [expMod, ZMod.natCast_mod, Nat.cast_pow]

theorem expMod_lt (a e : Nat) {n : Nat} (hn : 0 < n) : expMod a e n < n := Nat.mod_lt _ hn

theorem toNat_mod_cast (a : Int) {n : Nat} (hn : 0 < n) : (((a % n).toNat : Nat) : ZMod n) = a := by
  have : 0 ≤ a % n := Int.emod_nonneg _ (by omega)
  rw [← Int.cast_natCast, Int.toNat_of_nonneg this, ZMod.intCast_mod]

theorem expI_cast (a : Int) (e : Nat) {n : Nat} (hn : 0 < n) : ((expI a e n : Nat) : ZMod n) = (a : ZMod n) ^ e := by
  rw [expI, toNat_mod_cast _ hn, Int.cast_pow]

theorem cast_eq_zero_iff' {n v : Nat} (hv : v < n) : ((v : Nat) : ZMod n) = 0 ↔ v = 0 := by
  rw [ZMod.natCast_eq_zero_iff]
  constructor
  · intro h; exact Nat.eq_zero_of_dvd_of_lt h hv
  · rintro rfl; exact dvd_zero _

theorem val_of_cast {n v : Nat} [NeZero n] (hv : v < n) {z : ZMod n} (h : (v : ZMod n) = z) : z.val = v := by
  rw [← h, ZMod.val_natCast, Nat.mod_eq_of_lt hv]

theorem natBytes_setBytes {b : Byte} {bs : Bytes} (hb : b ≠ 0) : natBytes (setBytes (b :: bs)) = b :: bs := by
  have h1 : setBytes (b :: bs) < 256 ^ (b :: bs).length := setBytes_lt _
  have h2 : ¬ setBytes (b :: bs) < 256 ^ bs.length := by
    rw [show b :: bs = [b] ++ bs from rfl, setBytes_append]
    have : setBytes [b] ≠ 0 := by
      intro h
      have : hx 1 (setBytes [b]) = [b] := hx_setBytes [b]
      rw [h] at this
      have h0 : hx 1 0 = [0] := by decide
      rw [h0] at this
      injection this with h
      exact hb h.symm
    have : 256 ^ bs.length ≤ setBytes [b] * 256 ^ bs.length := Nat.le_mul_of_pos_left _ (by omega)
    omega
  have hl : byteLen (setBytes (b :: bs)) = (b :: bs).length := by
    have := byteLen_le.mpr h1
    have h3 : ¬ byteLen (setBytes (b :: bs)) ≤ bs.length := fun h => h2 (byteLen_le.mp h)
    simp only [List.length_cons] at this ⊢
    omega
  rw [natBytes, hl, hx_setBytes]

theorem nonZero_spec : ∀ (rd : Bytes) (b : Byte), nonZero b rd = .err ∨ ∃ b' rest, nonZero b rd = .ok (b', rest) ∧ b' ≠ 0
  | [], b => by
    rw [nonZero]; split
    · rename_i h; exact .inr ⟨b, [], rfl, h⟩
    · exact .inl rfl
  | b' :: rd, b => by
    rw [nonZero]; split
    · rename_i h; exact .inr ⟨b, _, rfl, h⟩
    · exact nonZero_spec rd b'

theorem nonZeroAll_spec : ∀ bs rd : Bytes,
    nonZeroAll bs rd = .err ∨ ∃ ps rest, nonZeroAll bs rd = .ok (ps, rest) ∧ ps.length = bs.length ∧ (0 : Byte) ∉ ps
  | [], rd => .inr ⟨[], rd, rfl, rfl, by simp⟩
  | b :: bs, rd => by
    rw [nonZeroAll]
    rcases nonZero_spec rd b with h | ⟨b', rest, h, hb⟩
    · left; rw [h]; rfl
    rw [h]
    simp only [Res.bind_ok]
    rcases nonZeroAll_spec bs rest with h | ⟨ps, rest', h, hl, hp⟩
    · left; rw [h]; rfl
    right
    refine ⟨b' :: ps, rest', by rw [h]; rfl, by simp [hl], ?_⟩
    simp only [List.mem_cons, not_or]
    exact ⟨fun e => hb e.symm, hp⟩

theorem scan_done : ∀ (bs : Bytes) i idx, scan bs i false idx = (false, idx)
  | [], i, idx => rfl
  | b :: bs, i, idx => by
    rw [scan]
    simp only [Bool.false_and, Bool.false_eq_true, if_false, ite_self]
    exact scan_done bs (i + 1) idx

theorem scan_found : ∀ (ps msg : Bytes) i idx, (0 : Byte) ∉ ps → scan (ps ++ 0 :: msg) i true idx = (false, i + ps.length)
  | [], msg, i, idx, _ => by
    rw [List.nil_append, scan]
    simp [scan_done]
  | b :: ps, msg, i, idx, h => by
    simp only [List.mem_cons, not_or] at h
    have hb : (b == 0) = false := by simpa using fun e : b = 0 => h.1 e.symm
    rw [List.cons_append, scan]
    simp only [hb, Bool.and_false, Bool.false_eq_true, if_false]
    rw [scan_found ps msg (i + 1) idx h.2]
    simp only [List.length_cons]
    congr 1; omega

theorem scan_none : ∀ (ps : Bytes) i idx, (0 : Byte) ∉ ps → scan ps i true idx = (true, idx)
  | [], i, idx, _ => rfl
  | b :: ps, i, idx, h => by
    simp only [List.mem_cons, not_or] at h
    have hb : (b == 0) = false := by simpa using fun e : b = 0 => h.1 e.symm
    rw [scan]
    simp only [hb, Bool.and_false, Bool.false_eq_true, if_false]
    exact scan_none ps (i + 1) idx h.2

/-- The decoding of the padding. -/
theorem unpad_spec (b : Byte) (bs : Bytes) (out : Res Bytes)
    (hout : out = if b ≠ 2 ∨ (scan bs 1 true 0).1 = true ∨ (scan bs 1 true 0).2 < 9 then .err else .ok ((b :: bs).drop ((scan bs 1 true 0).2 + 1))) :
    (∀ msg, out = .ok msg ↔ Spec.Padded msg (b :: bs)) ∧ (out = .err ∨ ∃ msg, out = .ok msg) := by
  refine ⟨fun msg => ⟨fun h => ?_, ?_⟩, ?_⟩
  · rw [h] at hout
    split at hout
    · cases hout
    rename_i hc
    simp only [not_or, not_not, Bool.not_eq_true, not_lt] at hc
    obtain ⟨rfl, hl, hi⟩ := hc
    by_cases h0 : (0 : Byte) ∈ bs
    · obtain ⟨ps, ms, rfl, hp⟩ := List.eq_append_cons_of_mem h0
      rw [scan_found ps ms 1 0 hp] at hi hout
      simp only at hi
      refine ⟨ps, by omega, hp, ?_⟩
      injection hout with hout
      rw [hout]
      rw [show 1 + ps.length + 1 = ((2 : Byte) :: ps ++ [0]).length by simp; omega]
      rw [show (2 : Byte) :: (ps ++ 0 :: ms) = ((2 : Byte) :: ps ++ [0]) ++ ms by simp, List.drop_left]
      simp
    · rw [scan_none bs 1 0 h0] at hl
      cases hl
  · rintro ⟨ps, hl, hp, he⟩
    rw [List.cons_append] at he
    injection he with h1 h2
    subst h1 h2
    rw [scan_found ps msg 1 0 hp] at hout
    rw [hout, if_neg (by simp; omega)]
    congr 1
    rw [show 1 + ps.length + 1 = ((2 : Byte) :: ps ++ [0]).length by simp; omega]
    rw [show (2 : Byte) :: (ps ++ 0 :: msg) = ((2 : Byte) :: ps ++ [0]) ++ msg by simp, List.drop_left]
  · rw [hout]; split
    · exact .inl rfl
    · exact .inr ⟨_, rfl⟩

/-- The number in a ciphertext: `c₂ / c₁^X`. -/
def Spec.plain (k : EKey) [Fact k.P.Prime] (c1 c2 : Int) : ZMod k.P := c2 / (c1 : ZMod k.P) ^ k.X

theorem decryptLegacy_spec (k : EKey) [hp : Fact k.P.Prime] (c1 c2 : Int) :
    ((c1 : ZMod k.P) ^ k.X = 0 → decryptLegacy k c1 c2 = .err) ∧
    ((c1 : ZMod k.P) ^ k.X ≠ 0 → decryptLegacy k c1 c2 = .ok (natBytes (Spec.plain k c1 c2).val)) := by
  have h := expI_cast c1 k.X hp.out.pos
  rw [decryptLegacy]
  constructor
  · intro h0
    rw [h0, ZMod.natCast_eq_zero_iff] at h
    rw [modInv_none hp.out.one_lt h]
  · intro h0
    obtain ⟨v, hv, -, hm⟩ := modInv_prime hp.out (a := expI c1 k.X k.P) (by rw [← ZMod.natCast_eq_zero_iff, h]; exact h0)
    rw [hv]
    simp only
    congr 2
    rw [h] at hm
    refine (val_of_cast ?_ ?_).symm
    · have := Int.emod_lt_of_pos (v * c2 : Int) (by exact_mod_cast hp.out.pos : (0 : Int) < k.P)
      have := Int.emod_nonneg (v * c2 : Int) (by exact_mod_cast hp.out.ne_zero : (k.P : Int) ≠ 0)
      omega
    · rw [toNat_mod_cast _ hp.out.pos, Spec.plain, eq_div_iff h0]
      push_cast
      linear_combination (c2 : ZMod k.P) * hm

/-- C99. `Decrypt`, for every key with prime modulus and all integers: an error if `c₁` has no inverse power, a panic if the
number in the ciphertext is zero, and otherwise exactly the message whose padded form is that number, or an error if
there is none.  Missing from the full claim: zero (`C99_decrypt_violated`). -/
theorem C99_decrypt_partial (k : EKey) [hp : Fact k.P.Prime] (c1 c2 : Int) :
    ((c1 : ZMod k.P) ^ k.X = 0 → decrypt k c1 c2 = .err) ∧
    ((c1 : ZMod k.P) ^ k.X ≠ 0 → Spec.plain k c1 c2 = 0 → decrypt k c1 c2 = .panic) ∧
    ((c1 : ZMod k.P) ^ k.X ≠ 0 → Spec.plain k c1 c2 ≠ 0 →
      (∀ msg, decrypt k c1 c2 = .ok msg ↔ ∃ em, Spec.Padded msg em ∧ setBytes em = (Spec.plain k c1 c2).val) ∧
      (decrypt k c1 c2 = .err ∨ ∃ msg, decrypt k c1 c2 = .ok msg)) := by
  obtain ⟨d1, d2⟩ := decryptLegacy_spec k c1 c2
  refine ⟨fun h => ?_, fun h h0 => ?_, fun h h0 => ?_⟩
  · rw [decrypt, d1 h]; rfl
  · rw [decrypt, d2 h, h0, ZMod.val_zero]; rfl
  · have hv : (Spec.plain k c1 c2).val ≠ 0 := by rwa [Ne, ZMod.val_eq_zero]
    generalize (Spec.plain k c1 c2).val = v at hv d2
    have hsb := setBytes_natBytes v
    rcases hn : natBytes v with _ | ⟨b, bs⟩
    · rw [hn] at hsb
      exact absurd hsb.symm hv
    have hdec : decrypt k c1 c2 = if b ≠ 2 ∨ (scan bs 1 true 0).1 = true ∨ (scan bs 1 true 0).2 < 9 then .err else
        .ok ((b :: bs).drop ((scan bs 1 true 0).2 + 1)) := by
      rw [decrypt, d2 h, hn]; rfl
    obtain ⟨h1, h2⟩ := unpad_spec b bs _ hdec
    refine ⟨fun msg => (h1 msg).trans ⟨fun hpad => ⟨_, hpad, by rw [← hn, hsb]⟩, ?_⟩, h2⟩
    rintro ⟨em, hpad, he⟩
    have hpad' := hpad
    obtain ⟨ps, -, -, rfl⟩ := hpad
    have := natBytes_setBytes (b := 2) (bs := ps ++ 0 :: msg) (by decide)
    rw [List.cons_append] at he hpad'
    rw [he, hn] at this
    rw [this]; exact hpad'

/-- C99, against the claim that a ciphertext decrypts or is an error: `c₂ = 0` (or a multiple of `P`) makes `Decrypt` and
`DecryptBytes` panic for every key. -/
theorem C99_decrypt_violated (k : EKey) [hp : Fact k.P.Prime] (c1 : Nat) (h1 : ¬ k.P ∣ c1) (hlt : c1 < k.P) :
    decrypt k c1 0 = .panic ∧ decryptBytes k (hx (bitLen k.P) c1 ++ hx (bitLen k.P) 0) = .panic := by
  have hc : ((c1 : Int) : ZMod k.P) ≠ 0 := by rw [Int.cast_natCast, Ne, ZMod.natCast_eq_zero_iff]; exact h1
  have h : decrypt k c1 0 = .panic := (C99_decrypt_partial k c1 0).2.1 (pow_ne_zero _ hc) (by simp [Spec.plain])
  refine ⟨h, ?_⟩
  have hb : k.P < 256 ^ bitLen k.P := by
    have := lt_pow_bitLen k.P
    have : 2 ^ bitLen k.P ≤ 256 ^ bitLen k.P := Nat.pow_le_pow_left (by decide) _
    omega
  rw [decryptBytes, if_neg (by simp; omega), List.take_left' (by simp), List.drop_left' (by simp), setBytes_hx _ _ (by omega), setBytes_hx _ _ (by omega)]
  rw [if_neg (by have := hp.out.pos; omega)]
  exact h

theorem encryptLegacy_spec (k : EKey) (hk : Spec.IsKey k) (rd msg : Bytes) :
    encryptLegacy rd k.toEPub msg = .err ∨ ∃ c1 c2, encryptLegacy rd k.toEPub msg = .ok (c1, c2) ∧ c1 < k.P ∧ c2 < k.P ∧
      (c1 : ZMod k.P) ≠ 0 ∧ (c2 : ZMod k.P) = (c1 : ZMod k.P) ^ k.X * setBytes msg := by
  have : Fact k.P.Prime := ⟨hk.prime⟩
  have hpos := hk.prime.pos
  rw [encryptLegacy]
  rcases randInt_spec k.P (by omega) rd with h | ⟨v, rest, h, -⟩
  · left; rw [h]; rfl
  right
  rw [h]
  refine ⟨_, _, rfl, expMod_lt _ _ hpos, Nat.mod_lt _ hpos, ?_, ?_⟩
  · rw [expMod_cast]; exact pow_ne_zero _ hk.unit
  · rw [ZMod.natCast_mod, Nat.cast_mul, expMod_cast, expMod_cast, hk.pub, ← pow_mul, ← pow_mul, mul_comm v]

/-- C99. `EncryptLegacy` and `DecryptLegacy`: every byte string whose number is below `P` decrypts to the bytes of that
number (without leading zeros). -/
theorem C99_legacy (k : EKey) (hk : Spec.IsKey k) (rd msg : Bytes) (hm : setBytes msg < k.P) :
    encryptLegacy rd k.toEPub msg = .err ∨ ∃ c1 c2, encryptLegacy rd k.toEPub msg = .ok (c1, c2) ∧ c1 < k.P ∧ c2 < k.P ∧
      decryptLegacy k c1 c2 = .ok (natBytes (setBytes msg)) := by
  have : Fact k.P.Prime := ⟨hk.prime⟩
  rcases encryptLegacy_spec k hk rd msg with h | ⟨c1, c2, h, l1, l2, h1, h2⟩
  · exact .inl h
  refine .inr ⟨c1, c2, h, l1, l2, ?_⟩
  have h1' : ((c1 : Int) : ZMod k.P) ^ k.X ≠ 0 := by rw [Int.cast_natCast]; exact pow_ne_zero _ h1
  rw [(decryptLegacy_spec k c1 c2).2 h1', Spec.plain]
  congr 2
  refine val_of_cast hm ?_
  rw [eq_div_iff h1', Int.cast_natCast, Int.cast_natCast, h2, mul_comm]

/-- C99. The round trip: a message that is too long is an error; any other one is encrypted, for every random source that
delivers enough bytes, to two numbers below `P` that `Decrypt` takes back to the message. -/
theorem C99_roundTrip (k : EKey) (hk : Spec.IsKey k) (rd msg : Bytes) :
    (byteLen k.P < msg.length + 11 → encrypt rd k.toEPub msg = .err) ∧
    (encrypt rd k.toEPub msg = .err ∨ ∃ c1 c2, encrypt rd k.toEPub msg = .ok (c1, c2) ∧ c1 < k.P ∧ c2 < k.P ∧ decrypt k c1 c2 = .ok msg) := by
  have : Fact k.P.Prime := ⟨hk.prime⟩
  by_cases hl : byteLen k.P < msg.length + 11
  · have : encrypt rd k.toEPub msg = .err := by rw [encrypt]; exact if_pos (by omega)
    exact ⟨fun _ => this, .inl this⟩
  refine ⟨fun h => absurd h hl, ?_⟩
  rw [encrypt]
  simp only
  rw [if_neg (by omega)]
  rw [nonZeroRandomBytes]
  split
  · exact .inl rfl
  rename_i hr
  rcases nonZeroAll_spec (rd.take (byteLen k.P - 1 - msg.length - 1 - 1)) (rd.drop (byteLen k.P - 1 - msg.length - 1 - 1)) with h | ⟨ps, rest, h, hpl, hp⟩
  · left; rw [h]; rfl
  rw [h]
  simp only [Res.bind_ok]
  rw [List.length_take, min_eq_left (by omega)] at hpl
  rcases encryptLegacy_spec k hk rest (2 :: ps ++ 0 :: msg) with h | ⟨c1, c2, h, l1, l2, h1, h2⟩
  · exact .inl h
  refine .inr ⟨c1, c2, h, l1, l2, ?_⟩
  have h1' : ((c1 : Int) : ZMod k.P) ^ k.X ≠ 0 := by rw [Int.cast_natCast]; exact pow_ne_zero _ h1
  have hlt : setBytes (2 :: ps ++ 0 :: msg) < k.P := by
    have a := setBytes_lt (2 :: ps ++ 0 :: msg)
    have hlen : (2 :: ps ++ 0 :: msg).length = byteLen k.P - 1 := by simp; omega
    rw [hlen] at a
    have b : ¬ k.P < 256 ^ (byteLen k.P - 1) := fun h => by have := byteLen_le.mpr h; omega
    omega
  have hv : (Spec.plain k c1 c2).val = setBytes (2 :: ps ++ 0 :: msg) := by
    refine val_of_cast hlt ?_
    rw [Spec.plain, eq_div_iff h1', Int.cast_natCast, Int.cast_natCast, h2, mul_comm]
  have hne : Spec.plain k c1 c2 ≠ 0 := by
    intro h0
    rw [h0, ZMod.val_zero] at hv
    have := natBytes_setBytes (b := 2) (bs := ps ++ 0 :: msg) (by decide)
    rw [← List.cons_append, ← hv] at this
    exact absurd this (by simp [natBytes, byteLen, bitLen, hx, leBytes])
  exact (((C99_decrypt_partial k c1 c2).2.2 h1' hne).1 msg).mpr ⟨_, ⟨ps, by omega, hp, rfl⟩, hv.symm⟩

theorem pow_bitLen' (n : Nat) : n < 256 ^ bitLen n := by
  have := lt_pow_bitLen n
  have : 2 ^ bitLen n ≤ 256 ^ bitLen n := Nat.pow_le_pow_left (by decide) _
  omega

/-- C99. `DecryptBytes` takes back what `EncryptBytes` writes. -/
theorem C99_bytes (k : EKey) (hk : Spec.IsKey k) (rd msg : Bytes) :
    encryptBytes rd k.toEPub msg = .err ∨ ∃ ct, encryptBytes rd k.toEPub msg = .ok ct ∧ ct.length = 2 * bitLen k.P ∧ decryptBytes k ct = .ok msg := by
  have hb := pow_bitLen' k.P
  rcases (C99_roundTrip k hk rd msg).2 with h | ⟨c1, c2, h, l1, l2, hd⟩
  · left; rw [encryptBytes, h]; rfl
  refine .inr ⟨hx (bitLen k.P) c1 ++ hx (bitLen k.P) c2, ?_, by simp; omega, ?_⟩
  · rw [encryptBytes, h]
    simp [fillBytes_ok (show c1 < 256 ^ bitLen k.P by omega), fillBytes_ok (show c2 < 256 ^ bitLen k.P by omega)]
  · rw [decryptBytes, if_neg (by simp; omega), List.take_left' (by simp), List.drop_left' (by simp), setBytes_hx _ _ (by omega), setBytes_hx _ _ (by omega)]
    simp only
    rw [if_neg (by omega)]
    exact hd

/-- C99. `DecryptBytes` never accepts a wrong length or numbers that are not below `P`. -/
theorem C99_bytes_range (k : EKey) (data msg : Bytes) (h : decryptBytes k data = .ok msg) :
    data.length = 2 * bitLen k.P ∧ setBytes (data.take (bitLen k.P)) < k.P ∧ setBytes (data.drop (bitLen k.P)) < k.P := by
  rw [decryptBytes] at h
  simp only at h
  split at h
  · cases h
  split at h
  · cases h
  omega

/-- C99. The homomorphic product: two ciphertexts of `EncryptLegacy` combine to one that `DecryptLegacy` takes to the
bytes of the product of the two numbers modulo `P`. -/
theorem C99_homomorphic (k : EKey) (hk : Spec.IsKey k) (rd rd' m m' : Bytes) (c1 c2 d1 d2 : Nat)
    (h : encryptLegacy rd k.toEPub m = .ok (c1, c2)) (h' : encryptLegacy rd' k.toEPub m' = .ok (d1, d2)) :
    ∃ e1 e2, homTwo k.toEPub (natBytes c1) (natBytes c2) (natBytes d1) (natBytes d2) = .ok (e1, e2) ∧
      decryptLegacy k e1 e2 = .ok (natBytes (setBytes m * setBytes m' % k.P)) := by
  have : Fact k.P.Prime := ⟨hk.prime⟩
  have hpos := hk.prime.pos
  rcases encryptLegacy_spec k hk rd m with g | ⟨_, _, g, l1, l2, g1, g2⟩ <;> rw [h] at g <;> cases g
  rcases encryptLegacy_spec k hk rd' m' with g' | ⟨_, _, g', l1', l2', g1', g2'⟩ <;> rw [h'] at g' <;> cases g'
  refine ⟨c1 * d1 % k.P, c2 * d2 % k.P, ?_, ?_⟩
  · rw [homTwo]
    simp only [setBytes_natBytes]
    rw [if_neg (by omega), if_neg (by omega)]
  · have hu : (((c1 * d1 % k.P : Nat) : Int) : ZMod k.P) ^ k.X ≠ 0 := by
      rw [Int.cast_natCast, ZMod.natCast_mod, Nat.cast_mul]
      exact pow_ne_zero _ (mul_ne_zero g1 g1')
    rw [(decryptLegacy_spec k _ _).2 hu, Spec.plain]
    congr 2
    refine val_of_cast (Nat.mod_lt _ hpos) ?_
    rw [eq_div_iff hu]
    push_cast [ZMod.natCast_mod]
    rw [g2, g2']
    ring

/-- C99, against the documented rejection of numbers larger than the modulus: `HomomorphicEncTwo` rejects only if both
numbers of a ciphertext are larger; with one of them the wrong range is accepted, for every key. -/
theorem C99_homomorphic_range_violated (pub : EPub) (hP : 0 < pub.P) :
    homTwo pub (natBytes (pub.P + 1)) (natBytes 1) (natBytes 1) (natBytes 1) = .ok ((pub.P + 1) * 1 % pub.P, 1 * 1 % pub.P) := by
  rw [homTwo]
  simp only [setBytes_natBytes]
  rw [if_neg (by omega), if_neg (by omega)]

/-- C99. `HommorphicEncMultiple` is the product of all ciphertexts. -/
theorem C99_homMultiple (pub : EPub) (hP : 1 < pub.P) (cs : List (Bytes × Bytes)) (h : ∀ c ∈ cs, setBytes c.1 ≤ pub.P ∨ setBytes c.2 ≤ pub.P) :
    homMultiple pub cs = .ok ((cs.map fun c => setBytes c.1).prod % pub.P, (cs.map fun c => setBytes c.2).prod % pub.P) := by
  have aux : ∀ (cs : List (Bytes × Bytes)) (a b : Nat), (∀ c ∈ cs, setBytes c.1 ≤ pub.P ∨ setBytes c.2 ≤ pub.P) → a < pub.P → b < pub.P →
      homLoop pub cs (a, b) = .ok (a * (cs.map fun c => setBytes c.1).prod % pub.P, b * (cs.map fun c => setBytes c.2).prod % pub.P) := by
    intro cs
    induction cs with
    | nil => intro a b _ ha hb; simp [homLoop, Nat.mod_eq_of_lt ha, Nat.mod_eq_of_lt hb]
    | cons c cs ih =>
      intro a b hc ha hb
      obtain ⟨b1, b2⟩ := c
      have := hc (b1, b2) (by simp)
      rw [homLoop]
      rw [if_neg (by simp only at this; omega), ih _ _ (fun c hc' => hc c (by simp [hc'])) (Nat.mod_lt _ (by omega)) (Nat.mod_lt _ (by omega))]
      simp only [List.map_cons, List.prod_cons]
      rw [Nat.mod_mul_mod, Nat.mod_mul_mod, mul_assoc, mul_assoc]
  rw [homMultiple, aux cs 1 1 h (by omega) (by omega), one_mul, one_mul]

/-- A prime of 130 bits. -/
theorem bigP_prime : Nat.Prime 850705917302346158658436518579420528641 := by
  refine lucas_primality _ (17 : ZMod 850705917302346158658436518579420528641) ?_ ?_
  · norm_num only; reduce_mod_char
  · intro q hq hd
    have h : q = 2 ∨ q = 5 := by
      rw [show 850705917302346158658436518579420528641 - 1 = 5 * 2 ^ 127 by norm_num] at hd
      rcases hq.dvd_mul.mp hd with h | h
      · exact .inr ((Nat.prime_dvd_prime_iff_eq hq (by norm_num)).mp h)
      · exact .inl ((Nat.prime_dvd_prime_iff_eq hq (by norm_num)).mp (hq.dvd_of_dvd_pow h))
    rcases h with rfl | rfl
    · norm_num only; reduce_mod_char; decide
    · norm_num only; reduce_mod_char; decide

/-- A key to test statements on. -/
def toyKey : EKey := { P := 850705917302346158658436518579420528641, G := 3, Y := 243, X := 5 }

theorem toyKey_isKey : Spec.IsKey toyKey where
  prime := bigP_prime
  unit := by rw [Ne, ZMod.natCast_eq_zero_iff]; decide +kernel
  pub := by
    have : (toyKey.Y : Nat) = toyKey.G ^ toyKey.X := by decide
    rw [this, Nat.cast_pow]
  lt := by decide +kernel

/-- Twelve bytes of padding, one of which is replaced because it is zero, and the number 2. -/
def toyRd : Bytes := [1, 2, 3, 0, 5, 6, 7, 8, 9, 10, 11, 12] ++ [4] ++ List.replicate 16 0 ++ [2]

example : (∃ c, encrypt toyRd toyKey.toEPub [0x68, 0x69] = .ok c) ∧
    encrypt toyRd toyKey.toEPub [1, 2, 3, 4, 5, 6, 7] = .err ∧ byteLen toyKey.P = 17 := by
  refine ⟨⟨(9, 243 ^ 2 * setBytes [2, 1, 2, 3, 4, 5, 6, 7, 8, 9, 10, 11, 12, 0, 0x68, 0x69] % toyKey.P), ?_⟩, ?_, ?_⟩ <;> decide +kernel

example : ∃ ct, encryptBytes toyRd toyKey.toEPub [0x68, 0x69] = .ok ct ∧ ct.length = 260 ∧ decryptBytes toyKey ct = .ok [0x68, 0x69] := by
  rcases C99_bytes toyKey toyKey_isKey toyRd [0x68, 0x69] with h | ⟨ct, h, hl, hd⟩
  · have : encryptBytes toyRd toyKey.toEPub [0x68, 0x69] ≠ .err := by decide +kernel
    exact absurd h this
  · exact ⟨ct, h, hl.trans (by decide +kernel), hd⟩

example : homTwo toyKey.toEPub [9] [18] [3] [4] = .ok (27, 72) ∧ homMultiple toyKey.toEPub [([9], [18]), ([3], [4])] = .ok (27, 72) := by decide +kernel

end Verif.Pub.ElGamal
