import Verif.Aead.Ocb3Model
import Verif.Aead.EaxLemmas
import Verif.Aead.MgmLemmas
/-
Lemmas for OCB3: arithmetic of `uint128`, offsets, and the loops.
-/
namespace Verif.Aead
open Verif.Mode (chunks mapAcc)
open Verif.Mode.Spec (natBe beNat)

/-! Numbers. -/

theorem natBe_xor (n a b : Nat) : natBe n (a ^^^ b) = xorb (natBe n a) (natBe n b) := by
  induction n generalizing a b with
  | zero => rfl
  | succ n ih =>
    unfold natBe
    rw [xorb_append _ _ _ _ (by rw [Mode.natBe_len, Mode.natBe_len]), ← ih]
    have : (a ^^^ b) / 256 = a / 256 ^^^ b / 256 := by
      have := Nat.xor_div_two_pow (a := a) (b := b) (n := 8)
      simpa using this
    rw [this, BitVec.ofNat_xor]
    rfl

theorem xor_split (k a b c d : Nat) (hb : b < 2 ^ k) (hd : d < 2 ^ k) :
    (2 ^ k * a + b) ^^^ (2 ^ k * c + d) = 2 ^ k * (a ^^^ c) + (b ^^^ d) := by
  apply Nat.eq_of_testBit_eq
  intro j
  rw [Nat.testBit_xor, Nat.testBit_two_pow_mul_add _ hb, Nat.testBit_two_pow_mul_add _ hd,
    Nat.testBit_two_pow_mul_add _ (Nat.xor_lt_two_pow hb hd)]
  split <;> rw [Nat.testBit_xor]

theorem or_split (k a b : Nat) (hb : b < 2 ^ k) : (2 ^ k * a) ||| b = 2 ^ k * a + b := by
  rw [Nat.two_pow_add_eq_or_of_lt hb]

/-- The number a `uint128` stands for. -/
def U128.val (u : U128) : Nat := 2 ^ 64 * u.lo.toNat + u.hi.toNat

theorem U128.val_lt (u : U128) : u.val < 2 ^ 128 := by
  have := u.lo.isLt; have := u.hi.isLt
  unfold U128.val; omega

theorem U128.ext_val {u v : U128} (h : u.val = v.val) : u = v := by
  have := u.lo.isLt; have := u.hi.isLt; have := v.lo.isLt; have := v.hi.isLt
  unfold U128.val at h
  cases u; cases v
  simp only [U128.mk.injEq]
  constructor <;> apply BitVec.eq_of_toNat_eq <;> simp only at * <;> omega

theorem U128.bytes_eq (u : U128) : u.bytes = natBe 16 u.val := by
  have := u.hi.isLt
  unfold U128.bytes U128.val
  rw [Nat.mul_comm, show (2 : Nat) ^ 64 = 256 ^ 8 by rfl, natBe_split 8 8 _ _ (by simpa using this)]

@[simp] theorem U128.bytes_length (u : U128) : u.bytes.length = 16 := by rw [U128.bytes_eq, Mode.natBe_len]

theorem beNat_app (a b : Bytes) : beNat (a ++ b) = beNat a * 256 ^ b.length + beNat b := by
  have := beNat_natBe_append a b.length (beNat b) (beNat_lt b)
  rwa [Mode.natBe_beNat] at this

theorem U128.val_of (b : Bytes) (h : b.length = 16) : (U128.of b).val = beNat b := by
  unfold U128.val U128.of
  have h1 : b = b.take 8 ++ (b.drop 8).take 8 := by
    rw [List.take_of_length_le (l := b.drop 8) (by rw [List.length_drop]; omega), List.take_append_drop]
  have l1 : (b.take 8).length = 8 := by rw [List.length_take]; omega
  have l2 : ((b.drop 8).take 8).length = 8 := by rw [List.length_take, List.length_drop]; omega
  have h2 := beNat_lt (b.take 8)
  have h3 := beNat_lt ((b.drop 8).take 8)
  conv_rhs => rw [h1, beNat_app]
  rw [l1] at h2
  rw [l2] at h3 ⊢
  simp only [BitVec.toNat_ofNat]
  rw [Nat.mod_eq_of_lt (by simpa using h2), Nat.mod_eq_of_lt (by simpa using h3)]
  omega

theorem U128.bytes_of (b : Bytes) (h : b.length = 16) : (U128.of b).bytes = b := by
  rw [U128.bytes_eq, U128.val_of b h]
  conv_rhs => rw [← Mode.natBe_beNat b, h]

theorem U128.val_xor (a b : U128) : (a.xor b).val = a.val ^^^ b.val := by
  unfold U128.val U128.xor
  simp only [BitVec.toNat_xor]
  rw [xor_split _ _ _ _ _ a.hi.isLt b.hi.isLt]

theorem U128.bytes_xor (a b : U128) : (a.xor b).bytes = xorb a.bytes b.bytes := by
  rw [U128.bytes_eq, U128.val_xor, natBe_xor, ← U128.bytes_eq, ← U128.bytes_eq]

theorem U128.bytes_zero : (⟨0, 0⟩ : U128).bytes = List.replicate 16 0 := by
  rw [U128.bytes_eq]; exact natBe_zero 16

theorem U128.bytes_cipher (f : Bytes → Bytes) (hf : ∀ b, b.length = 16 → (f b).length = 16) (u : U128) :
    (U128.cipher f u).bytes = f u.bytes := U128.bytes_of _ (hf _ (by simp))

theorem beNat_natBe (n v : Nat) (h : v < 256 ^ n) : beNat (natBe n v) = v := by
  have := beNat_natBe_append [] n v h
  simpa [beNat] using this

theorem shl_or64 (a b : BitVec 64) (s : Nat) (hs : s ≤ 64) :
    (a <<< s ||| b >>> (64 - s)).toNat = a.toNat * 2 ^ s % 2 ^ 64 + b.toNat / 2 ^ (64 - s) := by
  have hb := b.isLt
  have e : (2 : Nat) ^ 64 = 2 ^ s * 2 ^ (64 - s) := by rw [← Nat.pow_add]; congr 1; omega
  rw [BitVec.toNat_or, BitVec.toNat_shiftLeft, BitVec.toNat_ushiftRight, Nat.shiftLeft_eq, Nat.shiftRight_eq_div_pow]
  have h1 : a.toNat * 2 ^ s % 2 ^ 64 = 2 ^ s * (a.toNat % 2 ^ (64 - s)) := by
    rw [e, Nat.mul_comm a.toNat, Nat.mul_mod_mul_left]
  rw [h1, or_split]
  apply Nat.div_lt_of_lt_mul
  rw [Nat.mul_comm, ← e]; exact hb

theorem U128.val_double (x : U128) : x.double.val =
    if x.val < 2 ^ 127 then 2 * x.val else (2 * x.val - 2 ^ 128) ^^^ 0x87 := by
  have hl := x.lo.isLt
  have hh := x.hi.isLt
  have e1 := shl_or64 x.lo x.hi 1 (by decide)
  have e2 : (x.lo.sshiftRight 63 &&& 135).toNat = if x.lo.toNat < 2 ^ 63 then 0 else 0x87 := by
    have : x.lo.sshiftRight 63 = if x.lo.toNat < 2 ^ 63 then 0 else BitVec.allOnes 64 := by
      apply BitVec.eq_of_getLsbD_eq
      intro i hi
      have hm : x.lo.msb = decide (2 ^ 63 ≤ x.lo.toNat) := BitVec.msb_eq_decide x.lo
      have hm2 : x.lo.msb = x.lo.getLsbD 63 := BitVec.msb_eq_getLsbD_last x.lo
      rw [BitVec.getLsbD_sshiftRight]
      by_cases h0 : i = 0
      · subst h0
        simp only [show (63 + 0 : Nat) < 64 by decide, if_true, show ¬ (64 : Nat) ≤ 0 by decide, Nat.add_zero, ← hm2, hm]
        split <;> simp <;> omega
      · rw [if_neg (show ¬ 63 + i < 64 by omega), hm]
        by_cases h1 : x.lo.toNat < 2 ^ 63
        · rw [if_pos h1, decide_eq_false (p := 2 ^ 63 ≤ _) (by omega)]; simp
        · rw [if_neg h1, decide_eq_true (p := 2 ^ 63 ≤ _) (by omega), BitVec.getLsbD_allOnes,
            decide_eq_false (p := 64 ≤ i) (by omega), decide_eq_true hi]; rfl
    rw [this]
    split <;> rfl
  have e3 : (x.hi <<< 1).toNat = 2 * x.hi.toNat % 2 ^ 64 := by
    rw [BitVec.toNat_shiftLeft, Nat.shiftLeft_eq]; omega
  unfold U128.double
  conv_lhs => rw [U128.val]
  simp only [e1, BitVec.toNat_xor, e2, e3]
  by_cases h0 : x.lo.toNat < 2 ^ 63
  · rw [if_pos h0, if_pos (by unfold U128.val; omega), Nat.xor_zero]
    unfold U128.val; omega
  · rw [if_neg h0, if_neg (by unfold U128.val; omega)]
    have : 2 * x.val - 2 ^ 128 = 2 ^ 64 * (x.lo.toNat * 2 ^ 1 % 2 ^ 64 + x.hi.toNat / 2 ^ (64 - 1)) + 2 * x.hi.toNat % 2 ^ 64 := by
      unfold U128.val; omega
    rw [this]
    have := xor_split 64 (x.lo.toNat * 2 ^ 1 % 2 ^ 64 + x.hi.toNat / 2 ^ (64 - 1)) (2 * x.hi.toNat % 2 ^ 64) 0 0x87
      (Nat.mod_lt _ (by decide)) (by decide)
    rw [Nat.mul_zero, Nat.zero_add, Nat.xor_zero] at this
    exact this.symm

theorem U128.bytes_double (x : U128) : x.double.bytes = Spec.gfDouble x.bytes := by
  have hx : beNat x.bytes = x.val := by
    rw [U128.bytes_eq, beNat_natBe 16 _ (by simpa using x.val_lt)]
  rw [U128.bytes_eq, U128.val_double]
  unfold Spec.gfDouble
  rw [hx]

/-! The masks. -/

theorem ntzAux_le (f i k : Nat) (hi : 0 < i) (h : i < 2 ^ k) : Spec.ntzAux f i < k := by
  induction f generalizing i k with
  | zero => unfold Spec.ntzAux; cases k with
    | zero => simp at h; omega
    | succ k => omega
  | succ f ih =>
    unfold Spec.ntzAux
    cases k with
    | zero => simp at h; omega
    | succ k =>
      split
      · omega
      · have := ih (i / 2) k (by omega) (by rw [Nat.pow_succ] at h; omega)
        omega

/-- Positive numbers below `2^k` have fewer than `k` trailing zeros. -/
theorem ntz_lt (i k : Nat) (hi : 0 < i) (h : i < 2 ^ k) : Spec.ntz i < k := ntzAux_le i i k hi h

/-- `ntz i` is the number of trailing zeros. -/
theorem ntzAux_spec (f i : Nat) (hf : i ≤ f) (hi : 0 < i) : 2 ^ Spec.ntzAux f i ∣ i ∧ ¬ 2 ^ (Spec.ntzAux f i + 1) ∣ i := by
  induction f generalizing i with
  | zero => omega
  | succ f ih =>
    unfold Spec.ntzAux
    by_cases h : i % 2 = 1
    · rw [if_pos h]
      exact ⟨by simp, by rw [Nat.zero_add, Nat.pow_one, Nat.dvd_iff_mod_eq_zero]; omega⟩
    · rw [if_neg h]
      obtain ⟨h1, h2⟩ := ih (i / 2) (by omega) (by omega)
      obtain ⟨j, rfl⟩ : ∃ j, i = 2 * j := ⟨i / 2, by omega⟩
      rw [Nat.mul_div_cancel_left _ (by decide)] at h1 h2 ⊢
      refine ⟨?_, ?_⟩
      · rw [Nat.add_comm, Nat.pow_succ, Nat.mul_comm]; exact Nat.mul_dvd_mul_left 2 h1
      · rw [Nat.add_comm 1, Nat.pow_succ, Nat.mul_comm]
        intro h3
        exact h2 (Nat.dvd_of_mul_dvd_mul_left (by decide) h3)

theorem ocb3Table_getD (k : Nat) (i : Nat) (h : i < k) (d : U128) (E : Bytes → Bytes) (j : Nat) (y : U128) (hy : y.bytes = Spec.ocbL E j) :
    ((ocb3Table k y).getD i d).bytes = Spec.ocbL E (j + i) := by
  induction k generalizing i j y with
  | zero => omega
  | succ k ih =>
    unfold ocb3Table
    cases i with
    | zero => simpa using hy
    | succ i =>
      rw [List.getD_cons_succ, ih i (by omega) (j + 1) y.double (by
        rw [U128.bytes_double, hy]; rfl)]
      congr 1; omega

theorem ocb3Table_length (k : Nat) (x : U128) : (ocb3Table k x).length = k := by
  induction k generalizing x with
  | zero => rfl
  | succ k ih => simp [ocb3Table, ih]

/-- The masks of an object are those of the specification. -/
structure Ocb3.OK (c : BlockCipher) (x : Ocb3) : Prop where
  h16 : c.bs = 16
  lstar : x.Lstar.bytes = Spec.ocbLstar c.E
  ldollar : x.Ldollar.bytes = Spec.ocbLdollar c.E
  len : x.L.length = 58
  tab : ∀ i, i < 58 → (x.L.getD i ⟨0, 0⟩).bytes = Spec.ocbL c.E i

theorem lenE16 {c : BlockCipher} (h16 : c.bs = 16) (b : Bytes) (hb : b.length = 16) : (c.E b).length = 16 := by
  rw [c.lenE _ (by rw [hb, h16]), h16]

theorem lenD16 {c : BlockCipher} (h16 : c.bs = 16) (b : Bytes) (hb : b.length = 16) : (c.D b).length = 16 := by
  rw [c.lenD _ (by rw [hb, h16]), h16]

theorem ocb3New_ok {c : BlockCipher} {ns ts : Int} {x : Ocb3} (h : ocb3New c ns ts = .ok x) :
    x.OK c ∧ 12 ≤ x.tagSize ∧ x.tagSize ≤ 16 ∧ 1 ≤ x.nonceSize ∧ (x.nonceSize : Int) = ns ∧ (x.tagSize : Int) = ts := by
  unfold ocb3New at h
  split at h
  · simp at h
  · rename_i h1
    split at h
    · simp at h
    · rename_i h2
      split at h
      · simp at h
      · rename_i h3
        have h16 : c.bs = 16 := Classical.byContradiction h3
        simp only [Res.ok.injEq] at h
        subst h
        have hs : (U128.cipher c.E ⟨0, 0⟩).bytes = Spec.ocbLstar c.E := by
          rw [U128.bytes_cipher _ (lenE16 h16), U128.bytes_zero]; rfl
        have h0 : (U128.cipher c.E ⟨0, 0⟩).double.double.bytes = Spec.ocbL c.E 0 := by
          rw [U128.bytes_double, U128.bytes_double, hs]; rfl
        refine ⟨⟨h16, hs, ?_, ocb3Table_length _ _, ?_⟩, ?_, ?_, ?_, ?_, ?_⟩
        · rw [U128.bytes_double, hs]; rfl
        · intro i hi
          have := ocb3Table_getD 58 i hi ⟨0, 0⟩ c.E 0 _ h0
          rwa [Nat.zero_add] at this
        all_goals simp only; omega

/-! The initial offset. -/

theorem ocb3Nonce_head : ∀ t, t < 17 → ∀ j, j < 16 →
    let n0 := ((List.replicate 16 (0 : Byte)).set 0 (BitVec.ofNat 8 ((t * 8) % 128) <<< 1)).take (j + 1)
    n0.set j (n0.getD j 0 ||| 1) = natBe (j + 1) (2 * (8 * t % 128) * 256 ^ j + 1) := by
  decide +kernel

theorem ocbNonce_split (t : Nat) (N : Bytes) (j : Nat) (hj : j + N.length = 15) :
    Spec.ocbNonce t N = (2 * (8 * t % 128) * 256 ^ j + 1) * 256 ^ N.length + beNat N := by
  unfold Spec.ocbNonce
  have e1 : (2 : Nat) ^ (8 * N.length) = 256 ^ N.length := by rw [Nat.pow_mul]
  have e2 : (2 : Nat) ^ 121 = 2 * (256 ^ j * 256 ^ N.length) := by rw [← Nat.pow_add, hj]; rfl
  rw [e1, e2, Nat.add_mul, Nat.one_mul]
  congr 2
  rw [Nat.mul_assoc (2 * _), Nat.mul_comm 2 (8 * t % 128), Nat.mul_assoc]

theorem ocb3Nonce_eq (t : Nat) (ht : t < 17) (N : Bytes) (hN : N.length ≤ 15) :
    (let n0 := (List.replicate 16 (0 : Byte)).set 0 (BitVec.ofNat 8 ((t * 8) % 128) <<< 1)
    let n1 := n0.take (16 - N.length) ++ N
    n1.set (16 - N.length - 1) (n1.getD (16 - N.length - 1) 0 ||| 1)) = natBe 16 (Spec.ocbNonce t N) := by
  obtain ⟨j, hj⟩ : ∃ j, j + N.length = 15 := ⟨15 - N.length, by omega⟩
  have := ocb3Nonce_head t ht j (by omega)
  simp only at this ⊢
  rw [show 16 - N.length = j + 1 by omega, Nat.add_sub_cancel, ocbNonce_split t N j hj]
  have e : (16 : Nat) = (j + 1) + N.length := by omega
  rw [show natBe 16 ((2 * (8 * t % 128) * 256 ^ j + 1) * 256 ^ N.length + beNat N) =
    natBe ((j + 1) + N.length) ((2 * (8 * t % 128) * 256 ^ j + 1) * 256 ^ N.length + beNat N) by rw [← e],
    natBe_split _ _ _ _ (beNat_lt N), Mode.natBe_beNat, ← this]
  have hl : (((List.replicate 16 (0 : Byte)).set 0 (BitVec.ofNat 8 ((t * 8) % 128) <<< 1)).take (j + 1)).length = j + 1 := by
    simp; omega
  generalize ((List.replicate 16 (0 : Byte)).set 0 (BitVec.ofNat 8 ((t * 8) % 128) <<< 1)).take (j + 1) = n0 at *
  rw [List.set_append, if_pos (by omega), List.getD_eq_getElem?_getD, List.getD_eq_getElem?_getD,
    List.getElem?_append_left (by omega)]

theorem and_not63 (x : BitVec 64) : (x &&& ~~~(0x3f : BitVec 64)).toNat = x.toNat - x.toNat % 64 := by
  have : x &&& ~~~(0x3f : BitVec 64) = (x >>> 6) <<< 6 := by
    apply BitVec.eq_of_getLsbD_eq
    intro i hi
    have h63 : (0x3f : BitVec 64).getLsbD i = decide (i < 6) := by
      rw [show (0x3f : BitVec 64) = BitVec.ofNat 64 (2 ^ 6 - 1) by rfl, BitVec.getLsbD_ofNat, Nat.testBit_two_pow_sub_one]
      simp [hi]
    simp only [BitVec.getLsbD_and, BitVec.getLsbD_not, BitVec.getLsbD_shiftLeft, BitVec.getLsbD_ushiftRight, h63]
    by_cases h6 : i < 6
    · simp [h6]
    · simp [h6, hi, show 6 + (i - 6) = i by omega]
  rw [this, BitVec.toNat_shiftLeft, BitVec.toNat_ushiftRight, Nat.shiftLeft_eq, Nat.shiftRight_eq_div_pow]
  have := x.isLt
  omega

theorem natBe_getD15 (v : Nat) : ((natBe 16 v).getD 15 0 &&& 0x3f).toNat = v % 64 := by
  have h1 : (natBe 16 v).getD 15 0 = BitVec.ofNat 8 v := by
    rw [natBe, List.getD_eq_getElem?_getD, List.getElem?_append_right (by rw [Mode.natBe_len]), Mode.natBe_len]; rfl
  have h2 : ∀ b : Byte, (b &&& 0x3f).toNat = b.toNat % 64 := by decide +kernel
  rw [h1, h2, BitVec.toNat_ofNat]
  omega

theorem ocbNonce_lt (t : Nat) (N : Bytes) (hN : N.length ≤ 15) : Spec.ocbNonce t N < 2 ^ 128 := by
  obtain ⟨j, hj⟩ : ∃ j, j + N.length = 15 := ⟨15 - N.length, by omega⟩
  have hN := beNat_lt N
  have ht : 8 * t % 128 ≤ 127 := by omega
  have e1 : (2 : Nat) ^ (8 * N.length) = 256 ^ N.length := by rw [Nat.pow_mul]
  have e2 : 256 ^ N.length ≤ 256 ^ 15 := Nat.pow_le_pow_right (by decide) (by omega)
  unfold Spec.ocbNonce
  rw [e1]
  have : 8 * t % 128 * 2 ^ 121 ≤ 127 * 2 ^ 121 := Nat.mul_le_mul_right _ ht
  omega

theorem stretch_arith (b lo hi s : Nat) (hb : b ≤ 64) (hs : s < 2 ^ 64) (hh : hi < 2 ^ 64) :
    (2 ^ 64 * (2 ^ 64 * lo + hi) + s) / 2 ^ (64 - b) % 2 ^ 128 =
      2 ^ 64 * (lo * 2 ^ b % 2 ^ 64 + hi / 2 ^ (64 - b)) + (hi * 2 ^ b % 2 ^ 64 + s / 2 ^ (64 - b)) := by
  have e : (2 : Nat) ^ 64 = 2 ^ b * 2 ^ (64 - b) := by rw [← Nat.pow_add]; congr 1; omega
  have hB : 0 < 2 ^ b := Nat.pow_pos (by decide)
  have hC : 0 < 2 ^ (64 - b) := Nat.pow_pos (by decide)
  have e3 : (2 ^ 64 * (2 ^ 64 * lo + hi) + s) / 2 ^ (64 - b) = 2 ^ b * (2 ^ 64 * lo + hi) + s / 2 ^ (64 - b) := by
    conv_lhs => rw [show 2 ^ 64 * (2 ^ 64 * lo + hi) + s = s + 2 ^ (64 - b) * (2 ^ b * (2 ^ 64 * lo + hi)) by
      rw [← Nat.mul_assoc (2 ^ (64 - b)), Nat.mul_comm (2 ^ (64 - b)), ← e, Nat.add_comm]]
    rw [Nat.add_mul_div_left _ _ hC, Nat.add_comm]
  have e4 : hi * 2 ^ b = 2 ^ 64 * (hi / 2 ^ (64 - b)) + hi * 2 ^ b % 2 ^ 64 := by
    have h1 : hi * 2 ^ b % 2 ^ 64 = 2 ^ b * (hi % 2 ^ (64 - b)) := by
      rw [e, Nat.mul_comm hi, Nat.mul_mod_mul_left]
    have h2 := Nat.div_add_mod hi (2 ^ (64 - b))
    rw [h1]
    conv_lhs => rw [← h2]
    rw [e, Nat.mul_comm _ (2 ^ b), Nat.mul_add, Nat.mul_assoc]
  have h5 : hi / 2 ^ (64 - b) < 2 ^ b := Nat.div_lt_of_lt_mul (by rw [Nat.mul_comm, ← e]; exact hh)
  have h6 : s / 2 ^ (64 - b) < 2 ^ b := Nat.div_lt_of_lt_mul (by rw [Nat.mul_comm, ← e]; exact hs)
  have e7 := Nat.div_add_mod (lo * 2 ^ b) (2 ^ 64)
  have h1 : hi * 2 ^ b % 2 ^ 64 = 2 ^ b * (hi % 2 ^ (64 - b)) := by
    rw [e, Nat.mul_comm hi, Nat.mul_mod_mul_left]
  have h1' : lo * 2 ^ b % 2 ^ 64 = 2 ^ b * (lo % 2 ^ (64 - b)) := by
    rw [e, Nat.mul_comm lo, Nat.mul_mod_mul_left]
  have h8 : hi * 2 ^ b % 2 ^ 64 + s / 2 ^ (64 - b) < 2 ^ 64 := by
    rw [h1]
    have h9 : hi % 2 ^ (64 - b) + 1 ≤ 2 ^ (64 - b) := Nat.mod_lt _ hC
    have := Nat.mul_le_mul_left (2 ^ b) h9
    rw [← e, Nat.mul_add] at this
    omega
  have h8' : lo * 2 ^ b % 2 ^ 64 + hi / 2 ^ (64 - b) < 2 ^ 64 := by
    rw [h1']
    have h9 : lo % 2 ^ (64 - b) + 1 ≤ 2 ^ (64 - b) := Nat.mod_lt _ hC
    have := Nat.mul_le_mul_left (2 ^ b) h9
    rw [← e, Nat.mul_add] at this
    omega
  rw [e3, Nat.mul_add, ← Nat.mul_assoc, Nat.mul_comm (2 ^ b) (2 ^ 64), Nat.mul_assoc, Nat.mul_comm (2 ^ b) lo, Nat.mul_comm (2 ^ b) hi]
  generalize lo * 2 ^ b = X at *
  generalize hi * 2 ^ b = Y at *
  generalize hi / 2 ^ (64 - b) = Z at *
  generalize s / 2 ^ (64 - b) = W at *
  clear e h1 h1' e3 h5 h6 hB hC
  omega

theorem beNat_mid (K : Bytes) (h : K.length = 16) : beNat ((K.drop 1).take 8) = beNat (K.take 8) * 256 % 2 ^ 64 + beNat ((K.drop 8).take 8) / 2 ^ 56 := by
  match K, h with
  | [a0, a1, a2, a3, a4, a5, a6, a7, a8, a9, b0, b1, b2, b3, b4, b5], _ =>
    have h0 := a0.isLt; have h1 := a1.isLt; have h2 := a2.isLt; have h3 := a3.isLt; have h4 := a4.isLt
    have h5 := a5.isLt; have h6 := a6.isLt; have h7 := a7.isLt; have h8 := a8.isLt; have h9 := a9.isLt
    have i0 := b0.isLt; have i1 := b1.isLt; have i2 := b2.isLt; have i3 := b3.isLt; have i4 := b4.isLt; have i5 := b5.isLt
    simp only [List.drop_succ_cons, List.drop_zero, List.take_succ_cons, List.take_zero, beNat, List.foldl]
    omega

theorem ocb3Init_eq (c : BlockCipher) (x : Ocb3) (h16 : c.bs = 16) (ht : x.tagSize ≤ 16) (N : Bytes) (hN : N.length ≤ 15) :
    ∃ off, ocb3Init c x N = .ok off ∧ off.bytes = Spec.ocbStart c.E x.tagSize N := by
  have hn := ocb3Nonce_eq x.tagSize (by omega) N hN
  have hv := ocbNonce_lt x.tagSize N hN
  unfold ocb3Init
  rw [if_neg (by omega)]
  simp only at hn ⊢
  rw [hn, natBe_getD15]
  refine ⟨_, rfl, ?_⟩
  unfold Spec.ocbStart
  simp only
  generalize Spec.ocbNonce x.tagSize N = v at *
  have htop : (⟨(U128.of (natBe 16 v)).lo, (U128.of (natBe 16 v)).hi &&& ~~~0x3f⟩ : U128).bytes = natBe 16 (v - v % 64) := by
    have h1 := U128.val_of (natBe 16 v) (Mode.natBe_len _ _)
    rw [beNat_natBe 16 v (by simpa using hv)] at h1
    have h2 : (⟨(U128.of (natBe 16 v)).lo, (U128.of (natBe 16 v)).hi &&& ~~~0x3f⟩ : U128).val = v - v % 64 := by
      unfold U128.val at h1 ⊢
      simp only
      rw [and_not63]
      omega
    rw [U128.bytes_eq, h2]
  have hk : (U128.cipher c.E ⟨(U128.of (natBe 16 v)).lo, (U128.of (natBe 16 v)).hi &&& ~~~0x3f⟩) =
      U128.of (c.E (natBe 16 (v - v % 64))) := by
    unfold U128.cipher; rw [htop]
  rw [hk]
  have hK : (c.E (natBe 16 (v - v % 64))).length = 16 := lenE16 h16 _ (Mode.natBe_len _ _)
  generalize c.E (natBe 16 (v - v % 64)) = K at *
  have hKv := U128.val_of K hK
  have l1 : (K.take 8).length = 8 := by rw [List.length_take]; omega
  have l2 : ((K.drop 8).take 8).length = 8 := by rw [List.length_take, List.length_drop]; omega
  have m1 := beNat_lt (K.take 8)
  have m2 := beNat_lt ((K.drop 8).take 8)
  rw [l1] at m1
  rw [l2] at m2
  have hlo : (U128.of K).lo.toNat = beNat (K.take 8) := by
    unfold U128.of; rw [BitVec.toNat_ofNat]; exact Nat.mod_eq_of_lt (by simpa using m1)
  have hhi : (U128.of K).hi.toNat = beNat ((K.drop 8).take 8) := by
    unfold U128.of; rw [BitVec.toNat_ofNat]; exact Nat.mod_eq_of_lt (by simpa using m2)
  have hs2 : ((U128.of K).lo ^^^ ((U128.of K).lo <<< 8 ||| (U128.of K).hi >>> 56)).toNat =
      beNat (K.take 8) ^^^ beNat ((K.drop 1).take 8) := by
    have := shl_or64 (U128.of K).lo (U128.of K).hi 8 (by decide)
    rw [show 64 - 8 = 56 from rfl, show 2 ^ 8 = 256 from rfl] at this
    rw [BitVec.toNat_xor, this, beNat_mid K hK, hlo, hhi]
  rw [U128.bytes_eq, ← hs2, ← hKv]
  rw [← Mode.natBe_mod 16 (_ / _)]
  refine congrArg (natBe 16) ?_
  have := stretch_arith (v % 64) (U128.of K).lo.toNat (U128.of K).hi.toNat
    ((U128.of K).lo ^^^ ((U128.of K).lo <<< 8 ||| (U128.of K).hi >>> 56)).toNat (by omega) (BitVec.isLt _) (BitVec.isLt _)
  rw [show (256 : Nat) ^ 16 = 2 ^ 128 by rfl]
  conv_lhs => unfold U128.val
  simp only
  rw [shl_or64 _ _ _ (by omega), shl_or64 _ _ _ (by omega), ← this, Nat.mul_comm (U128.val _)]
  rfl

/-! Loops. -/

theorem memBlocks_eq {σ : Type} (f : σ → Bytes → Bytes × σ) (hf : ∀ s b, (f s b).1.length = 16) (k : Nat) (m : Mem)
    (out inp : Nat) (s : σ) (ho : SameOrApart out inp (16 * k)) :
    memBlocks f k m out inp s =
      (m.write out (mapAcc f s (chunks 16 (m.read inp (16 * k)))).1.flatten, (mapAcc f s (chunks 16 (m.read inp (16 * k)))).2) := by
  induction k generalizing m out inp s with
  | zero =>
    unfold memBlocks
    simp [Mem.read, mapAcc, Mem.write_nil]
  | succ k ih =>
    unfold memBlocks
    simp only
    have hx := hf s (m.read inp 16)
    rw [ih _ (out + 16) (inp + 16) _ (by unfold SameOrApart at ho ⊢; omega)]
    have e : 16 * (k + 1) = 16 + 16 * k := by omega
    have hr : (m.write out (f s (m.read inp 16)).1).read (inp + 16) (16 * k) = m.read (inp + 16) (16 * k) := by
      apply Mem.read_write_disjoint
      rw [hx]
      unfold SameOrApart at ho
      by_cases hk : k = 0
      · subst hk
        omega
      · omega
    rw [hr, e, Mem.read_append, Mode.chunks_append 16 (by decide) _ _ (by simp)]
    have h1 : chunks 16 (m.read inp 16) = [m.read inp 16] := by
      rw [Mode.chunks_cons 16 (by decide) _ (by intro h; have := congrArg List.length h; simp at this),
        List.take_of_length_le (by simp), List.drop_of_length_le (by simp)]; rfl
    rw [h1]
    simp only [List.singleton_append, mapAcc, List.flatten_cons]
    rw [Mem.write_append, hx]

theorem ocbL_length (E : Bytes → Bytes) (i : Nat) : (Spec.ocbL E i).length = 16 := by
  cases i <;> exact gfDouble_length _

theorem ocbOffset_length (E : Bytes → Bytes) (O : Bytes) (h : O.length = 16) (i : Nat) : (Spec.ocbOffset E O i).length = 16 := by
  induction i with
  | zero => exact h
  | succ i ih => rw [Spec.ocbOffset, xorb_length, ih, ocbL_length]; rfl

/-- The blocks that a mode function `f` gives. -/
def ocbMap (f E : Bytes → Bytes) (O : Bytes) (i : Nat) (l : List Bytes) : List Bytes :=
  (l.zipIdx i).map fun (x, j) => xorb (f (xorb x (Spec.ocbOffset E O j))) (Spec.ocbOffset E O j)

theorem ocb3Seal_loop {c : BlockCipher} {x : Ocb3} (hx : x.OK c) (O : Bytes) (l : List Bytes) (hl : ∀ b ∈ l, b.length = 16)
    (off ck : U128) (i : Nat) (ho : off.bytes = Spec.ocbOffset c.E O i) (hi : i + l.length < 2 ^ 58) :
    (mapAcc (ocb3SealStep c x) (off, ck, i + 1) l).1 = ocbMap c.E c.E O (i + 1) l ∧
      (mapAcc (ocb3SealStep c x) (off, ck, i + 1) l).2.1.bytes = Spec.ocbOffset c.E O (i + l.length) ∧
      (mapAcc (ocb3SealStep c x) (off, ck, i + 1) l).2.2.1.bytes = l.foldl xorb ck.bytes := by
  induction l generalizing off ck i with
  | nil => exact ⟨rfl, ho, rfl⟩
  | cons b l ih =>
    have hb := hl b (by simp)
    rw [List.length_cons] at hi
    have hT := hx.tab (Spec.ntz (i + 1)) (ntz_lt _ 58 (by omega) (by omega))
    have ho' : (off.xor (x.L.getD (Spec.ntz (i + 1)) ⟨0, 0⟩)).bytes = Spec.ocbOffset c.E O (i + 1) := by
      rw [U128.bytes_xor, ho, hT]; rfl
    obtain ⟨h1, h2, h3⟩ := ih (fun b hb => hl b (by simp [hb])) (off.xor (x.L.getD (Spec.ntz (i + 1)) ⟨0, 0⟩))
      (ck.xor (U128.of b)) (i + 1) ho' (by omega)
    simp only [mapAcc, ocb3SealStep]
    refine ⟨?_, ?_, ?_⟩
    · rw [h1, U128.bytes_xor, U128.bytes_cipher _ (lenE16 hx.h16), U128.bytes_xor, U128.bytes_of b hb, ho']
      rfl
    · rw [h2, List.length_cons]; congr 1; omega
    · rw [h3, U128.bytes_xor, U128.bytes_of b hb]; rfl

theorem ocb3Open_loop {c : BlockCipher} {x : Ocb3} (hx : x.OK c) (O : Bytes) (l : List Bytes) (hl : ∀ b ∈ l, b.length = 16)
    (off ck : U128) (i : Nat) (ho : off.bytes = Spec.ocbOffset c.E O i) (hi : i + l.length < 2 ^ 58) :
    (mapAcc (ocb3OpenStep c x) (off, ck, i + 1) l).1 = ocbMap c.D c.E O (i + 1) l ∧
      (mapAcc (ocb3OpenStep c x) (off, ck, i + 1) l).2.1.bytes = Spec.ocbOffset c.E O (i + l.length) ∧
      (mapAcc (ocb3OpenStep c x) (off, ck, i + 1) l).2.2.1.bytes = (ocbMap c.D c.E O (i + 1) l).foldl xorb ck.bytes := by
  induction l generalizing off ck i with
  | nil => exact ⟨rfl, ho, rfl⟩
  | cons b l ih =>
    have hb := hl b (by simp)
    rw [List.length_cons] at hi
    have hT := hx.tab (Spec.ntz (i + 1)) (ntz_lt _ 58 (by omega) (by omega))
    have ho' : (off.xor (x.L.getD (Spec.ntz (i + 1)) ⟨0, 0⟩)).bytes = Spec.ocbOffset c.E O (i + 1) := by
      rw [U128.bytes_xor, ho, hT]; rfl
    have hp : ((U128.cipher c.D ((U128.of b).xor (off.xor (x.L.getD (Spec.ntz (i + 1)) ⟨0, 0⟩)))).xor
        (off.xor (x.L.getD (Spec.ntz (i + 1)) ⟨0, 0⟩))).bytes =
        xorb (c.D (xorb b (Spec.ocbOffset c.E O (i + 1)))) (Spec.ocbOffset c.E O (i + 1)) := by
      rw [U128.bytes_xor, U128.bytes_cipher _ (lenD16 hx.h16), U128.bytes_xor, U128.bytes_of b hb, ho']
    obtain ⟨h1, h2, h3⟩ := ih (fun b hb => hl b (by simp [hb])) (off.xor (x.L.getD (Spec.ntz (i + 1)) ⟨0, 0⟩))
      (ck.xor ((U128.cipher c.D ((U128.of b).xor (off.xor (x.L.getD (Spec.ntz (i + 1)) ⟨0, 0⟩)))).xor
        (off.xor (x.L.getD (Spec.ntz (i + 1)) ⟨0, 0⟩)))) (i + 1) ho' (by omega)
    simp only [mapAcc, ocb3OpenStep]
    refine ⟨?_, ?_, ?_⟩
    · rw [h1, hp]; rfl
    · rw [h2, List.length_cons]; congr 1; omega
    · rw [h3, U128.bytes_xor, hp]; rfl

/-! Padding and hash. -/

theorem ocb3Pad_eq (b : Bytes) (h : b.length < 16) : ocb3Pad b = Spec.pad10 b := by
  unfold ocb3Pad Spec.pad10
  rw [List.set_append, if_neg (by omega), Nat.sub_self, show 16 - b.length = (15 - b.length) + 1 by omega, List.replicate_succ]
  rfl

theorem pad10_length (b : Bytes) (h : b.length < 16) : (Spec.pad10 b).length = 16 := by
  unfold Spec.pad10; simp; omega

/-- `HASH` from a given point. -/
def ocbHashFrom (E : Bytes → Bytes) (i : Nat) (s : Bytes) (A : Bytes) : Bytes :=
  let Z := List.replicate 16 0
  let S := (((Spec.fullBlocks A).zipIdx (i + 1)).map fun (a, i) => E (xorb a (Spec.ocbOffset E Z i))).foldl xorb s
  if Spec.lastPart A = [] then S
  else xorb S (E (xorb (Spec.pad10 (Spec.lastPart A)) (xorb (Spec.ocbOffset E Z (i + A.length / 16)) (Spec.ocbLstar E))))

theorem fullBlocks_cons (A : Bytes) (h : 16 ≤ A.length) : Spec.fullBlocks A = A.take 16 :: Spec.fullBlocks (A.drop 16) := by
  unfold Spec.fullBlocks
  have e : 16 * (A.length / 16) = 16 + 16 * ((A.drop 16).length / 16) := by rw [List.length_drop]; omega
  rw [Mode.chunks_cons 16 (by decide) _ (by
    intro h0; have := congrArg List.length h0; rw [List.length_take, List.length_nil] at this; omega)]
  rw [List.take_take, List.drop_take, e, Nat.min_eq_left (by omega), Nat.add_sub_cancel_left]

theorem lastPart_drop (A : Bytes) (h : 16 ≤ A.length) : Spec.lastPart A = Spec.lastPart (A.drop 16) := by
  unfold Spec.lastPart
  rw [List.drop_drop, List.length_drop]
  congr 1; omega

theorem fullBlocks_short (A : Bytes) (h : A.length < 16) : Spec.fullBlocks A = [] ∧ Spec.lastPart A = A := by
  unfold Spec.fullBlocks Spec.lastPart
  rw [Nat.div_eq_of_lt h]; exact ⟨rfl, rfl⟩

theorem lastPart_length (A : Bytes) : (Spec.lastPart A).length = A.length % 16 := by
  unfold Spec.lastPart; rw [List.length_drop]; omega

theorem ocb3HashLoop_eq {c : BlockCipher} {x : Ocb3} (hx : x.OK c) (fuel : Nat) (A : Bytes) (hf : A.length < fuel)
    (off s : U128) (i : Nat) (ho : off.bytes = Spec.ocbOffset c.E (List.replicate 16 0) i) (hi : i + A.length / 16 < 2 ^ 58) :
    let r := ocb3HashLoop c x fuel off s (i + 1) A
    (if 0 < r.2.2.length then r.2.1.xor (U128.cipher c.E ((U128.of (ocb3Pad r.2.2)).xor (r.1.xor x.Lstar))) else r.2.1).bytes =
      ocbHashFrom c.E i s.bytes A := by
  induction fuel generalizing A off s i with
  | zero => omega
  | succ fuel ih =>
    unfold ocb3HashLoop
    by_cases h : 16 ≤ A.length
    · rw [if_pos h]
      simp only
      have hlt : Spec.ntz (i + 1) < 58 := ntz_lt _ 58 (by omega) (by omega)
      rw [hx.len, Nat.mod_eq_of_lt hlt]
      have hT := hx.tab (Spec.ntz (i + 1)) hlt
      have ho' : (off.xor (x.L.getD (Spec.ntz (i + 1)) ⟨0, 0⟩)).bytes =
          Spec.ocbOffset c.E (List.replicate 16 0) (i + 1) := by
        rw [U128.bytes_xor, ho, hT]; rfl
      have := ih (A.drop 16) (by rw [List.length_drop]; omega) (off.xor (x.L.getD (Spec.ntz (i + 1)) ⟨0, 0⟩))
        (s.xor (U128.cipher c.E ((U128.of (A.take 16)).xor (off.xor (x.L.getD (Spec.ntz (i + 1)) ⟨0, 0⟩))))) (i + 1) ho'
        (by rw [List.length_drop]; omega)
      simp only at this
      rw [this]
      unfold ocbHashFrom
      simp only
      rw [fullBlocks_cons A h, lastPart_drop A h, U128.bytes_xor, U128.bytes_cipher _ (lenE16 hx.h16), U128.bytes_xor, ho',
        U128.bytes_of _ (by rw [List.length_take]; omega), show i + A.length / 16 = i + 1 + (A.drop 16).length / 16 by
          rw [List.length_drop]; omega]
      rfl
    · rw [if_neg h]
      simp only
      unfold ocbHashFrom
      obtain ⟨e1, e2⟩ := fullBlocks_short A (by omega)
      simp only [e1, e2, List.zipIdx_nil, List.map_nil, List.foldl_nil]
      rw [Nat.div_eq_of_lt (by omega), Nat.add_zero]
      by_cases h0 : A = []
      · subst h0; simp
      · have hp := List.length_pos_iff.mpr h0
        rw [if_pos hp, if_neg h0, U128.bytes_xor, U128.bytes_cipher _ (lenE16 hx.h16), U128.bytes_xor, U128.bytes_xor,
          ho, hx.lstar, ocb3Pad_eq _ (by omega), U128.bytes_of _ (pad10_length _ (by omega))]

theorem ocb3Hash_eq {c : BlockCipher} {x : Ocb3} (hx : x.OK c) (A : Bytes) (hA : A.length ≤ 2 ^ 52) :
    (ocb3Hash c x A).bytes = Spec.ocbHash c.E A := by
  have := ocb3HashLoop_eq hx (A.length + 1) A (by omega) ⟨0, 0⟩ ⟨0, 0⟩ 0 U128.bytes_zero (by omega)
  simp only [Nat.zero_add] at this
  unfold ocb3Hash
  simp only
  rw [this, U128.bytes_zero]
  unfold ocbHashFrom Spec.ocbHash Spec.xorAll
  simp only [Nat.zero_add]

end Verif.Aead
