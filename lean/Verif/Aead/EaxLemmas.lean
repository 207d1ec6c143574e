import Verif.Aead.EaxModel
import Verif.Aead.EaxSpec
import Verif.Aead.CcmLemmas
/-
The EAX code computes the EAX values.
-/
namespace Verif.Aead
open Verif.Mode (chunks)
open Verif.Mode.Spec (natBe beNat keyBytes streamOf)

theorem natBe_cons (n v : Nat) : natBe (n + 1) v = BitVec.ofNat 8 (v / 256 ^ n) :: natBe n v := by
  induction n generalizing v with
  | zero => simp [natBe]
  | succ n ih =>
    rw [natBe, ih (v / 256), natBe, Nat.div_div_eq_div_mul, ← Nat.pow_succ', List.cons_append]

theorem beNat_cons (a : Byte) (t : Bytes) : beNat (a :: t) = a.toNat * 256 ^ t.length + beNat t := by
  induction t using Mode.list_snoc_induction with
  | h0 => simp [beNat]
  | h1 t b ih =>
    rw [← List.cons_append, Mode.beNat_append, ih, Mode.beNat_append, List.length_append, Nat.add_mul,
      List.length_singleton, Nat.pow_succ]
    rw [Nat.mul_assoc]; omega

theorem beNat_lt (t : Bytes) : beNat t < 256 ^ t.length := by
  induction t with
  | nil => simp [beNat]
  | cons a t ih =>
    rw [beNat_cons, List.length_cons, Nat.pow_succ]
    have := a.isLt
    have : (a.toNat + 1) * 256 ^ t.length ≤ 256 * 256 ^ t.length := Nat.mul_le_mul_right _ (by omega)
    rw [Nat.add_mul] at this
    omega

theorem natBe_congr (n v w : Nat) (h : v % 256 ^ n = w % 256 ^ n) : natBe n v = natBe n w := by
  rw [← Mode.natBe_mod n v, ← Mode.natBe_mod n w, h]

theorem shl_or (a b : Byte) : (a <<< 1) ||| (b >>> 7) = BitVec.ofNat 8 (2 * a.toNat + b.toNat / 128) := by
  have k0 : ∀ a : Byte, (a <<< 1) ||| 0 = BitVec.ofNat 8 (2 * a.toNat) := by decide +kernel
  have k1 : ∀ a : Byte, (a <<< 1) ||| 1 = BitVec.ofNat 8 (2 * a.toNat + 1) := by decide +kernel
  have kb : ∀ b : Byte, (b >>> 7 = 0 ∧ b.toNat / 128 = 0) ∨ (b >>> 7 = 1 ∧ b.toNat / 128 = 1) := by decide +kernel
  rcases kb b with ⟨h1, h2⟩ | ⟨h1, h2⟩
  · rw [h1, h2]; exact k0 a
  · rw [h1, h2]; exact k1 a

theorem shl_one (b : Byte) : b <<< 1 = BitVec.ofNat 8 (2 * b.toNat) := by
  have k : ∀ b : Byte, b <<< 1 = BitVec.ofNat 8 (2 * b.toNat) := by decide +kernel
  exact k b

/-- `ShiftLeft` doubles the number. -/
theorem shiftLeft1_eq (x : Bytes) : shiftLeft1 x = natBe x.length (2 * beNat x) := by
  induction x with
  | nil => rfl
  | cons a t ih =>
    cases t with
    | nil => simp [shiftLeft1, natBe, beNat, shl_one]
    | cons b t =>
      rw [shiftLeft1, ih, shl_or, show (a :: b :: t).length = (b :: t).length + 1 from rfl, natBe_cons (b :: t).length]
      have hb := beNat_cons a (b :: t)
      have hb' := beNat_cons b t
      have hlt := beNat_lt t
      have e : (b :: t).length = t.length + 1 := rfl
      refine congr (congrArg List.cons ?_) ?_
      · rw [hb, hb', e, Nat.pow_succ]
        refine congrArg (BitVec.ofNat 8) ?_
        generalize hp : 256 ^ t.length = p at *
        have hp0 : 0 < p := by rw [← hp]; exact Nat.pow_pos (by decide)
        have e1 : 2 * (a.toNat * (p * 256) + (b.toNat * p + beNat t)) =
            (2 * a.toNat) * (p * 256) + (2 * b.toNat * p + 2 * beNat t) := by
          rw [Nat.mul_add, Nat.mul_add, Nat.mul_assoc 2, Nat.mul_assoc 2]
        rw [e1, Nat.mul_comm (2 * a.toNat), Nat.mul_add_div (by omega)]
        refine congrArg (2 * a.toNat + ·) ?_
        rw [← Nat.div_div_eq_div_mul, Nat.mul_comm (2 * b.toNat), Nat.mul_add_div hp0]
        have : 2 * beNat t / p ≤ 1 := by
          have := (Nat.div_lt_iff_lt_mul hp0).mpr (show 2 * beNat t < 2 * p by omega)
          omega
        generalize 2 * beNat t / p = k at this ⊢
        omega
      · apply natBe_congr
        rw [hb, Nat.mul_add, ← Nat.mul_assoc, Nat.mul_add_mod']

theorem natBe_xor87 (n v : Nat) : natBe (n + 1) (v ^^^ 0x87) =
    (natBe (n + 1) v).set n ((natBe (n + 1) v).getD n 0 ^^^ 0x87) := by
  have l : (natBe n (v / 256)).length = n := Mode.natBe_len _ _
  rw [natBe, natBe, List.getD_eq_getElem?_getD, List.getElem?_append_right (by omega), List.set_append_right _ _ (by omega), l]
  have e1 : (v ^^^ 0x87) / 256 = v / 256 := by
    have : ∀ k, k / 256 = k >>> 8 := fun k => (Nat.shiftRight_eq_div_pow k 8).symm
    rw [this, this, Nat.shiftRight_xor_distrib, show 0x87 >>> 8 = 0 from rfl, Nat.xor_zero]
  rw [e1]
  simp [BitVec.ofNat_xor]

theorem gfnDouble_eq (x : Bytes) (h : x.length = 16) : gfnDouble x = .ok (Spec.gfDouble x) := by
  unfold gfnDouble Spec.gfDouble
  rw [if_neg (by omega)]
  simp only
  rw [shiftLeft1_eq, h]
  obtain ⟨a, t, rfl⟩ : ∃ a t, x = a :: t := by
    cases x with
    | nil => simp at h
    | cons a t => exact ⟨a, t, rfl⟩
  have ht : t.length = 15 := by simpa using h
  have hb := beNat_cons a t
  have hlt := beNat_lt t
  rw [ht] at hb hlt
  have kb : ∀ b : Byte, (b >>> 7 = 0 ∧ b.toNat < 128) ∨ (b >>> 7 = 1 ∧ 128 ≤ b.toNat) := by decide +kernel
  have e0 : (a :: t).getD 0 0 = a := rfl
  rw [e0]
  rcases kb a with ⟨h1, h2⟩ | ⟨h1, h2⟩
  · rw [h1, if_pos (by omega)]
    refine congrArg Res.ok ?_
    rw [show (0 : Byte) * 0x87 = 0#8 from rfl, BitVec.xor_zero]
    have l : (natBe 16 (2 * beNat (a :: t))).length = 16 := Mode.natBe_len _ _
    apply List.ext_getElem
    · simp
    · intro i hi1 hi2
      rw [List.getElem_set]
      split
      · rename_i h15; subst h15; rw [List.getD_eq_getElem?_getD, List.getElem?_eq_getElem (by omega)]; rfl
      · rfl
  · have e : natBe 16 (2 * beNat (a :: t) - 2 ^ 128) = natBe 16 (2 * beNat (a :: t)) := by
      apply natBe_congr; omega
    rw [h1, if_neg (by omega), natBe_xor87 15, e, show (1 : Byte) * 0x87 = 0x87 from rfl]

theorem gfDouble_length (x : Bytes) : (Spec.gfDouble x).length = 16 := Mode.natBe_len _ _

/-! OMAC. -/

variable (c : BlockCipher)

theorem stdCbc_length (h16 : c.bs = 16) (iv : Bytes) (l : List Bytes) (hiv : iv.length = 16) (hl : ∀ b ∈ l, b.length = 16) :
    (stdCbc c.E iv l).length = 16 * l.length := by
  induction l generalizing iv with
  | nil => rfl
  | cons b l ih =>
    have hb := hl b (by simp)
    have hE : (c.E (xorb b iv)).length = 16 := by rw [c.lenE _ (by rw [xorb_length, hb, hiv, h16]; rfl), h16]
    rw [stdCbc]
    rw [List.length_append, hE, ih _ hE (fun b' hb' => hl b' (List.mem_cons_of_mem _ hb')), List.length_cons]
    omega

theorem stdCbc_last (h16 : c.bs = 16) (iv : Bytes) (l : List Bytes) (hiv : iv.length = 16) (hl : ∀ b ∈ l, b.length = 16)
    (hne : l ≠ []) :
    (stdCbc c.E iv l).drop (16 * l.length - 16) = l.foldl (fun s b => c.E (xorb s b)) iv := by
  induction l generalizing iv with
  | nil => exact absurd rfl hne
  | cons b l ih =>
    have hb := hl b (by simp)
    have hE : (c.E (xorb b iv)).length = 16 := by rw [c.lenE _ (by rw [xorb_length, hb, hiv, h16]; rfl), h16]
    rw [stdCbc]
    rw [List.foldl_cons, xorb_comm iv b]
    by_cases h0 : l = []
    · subst h0; simp [stdCbc]
    · rw [← ih _ hE (fun b' hb' => hl b' (List.mem_cons_of_mem _ hb')) h0, List.length_cons,
        show 16 * (l.length + 1) - 16 = 16 + (16 * l.length - 16) by
          have := List.length_pos_iff.mpr h0; omega, ← List.drop_drop, List.drop_left' hE]

theorem xorEnd_length (X Y : Bytes) (hX : 16 ≤ X.length) (hY : Y.length = 16) : (Spec.xorEnd X Y).length = X.length := by
  unfold Spec.xorEnd; simp; omega

theorem rightXor_eq (X Y : Bytes) (hX : 16 ≤ X.length) (hY : Y.length = 16) : rightXor X Y = .ok (Spec.xorEnd X Y) := by
  unfold rightXor Spec.xorEnd
  rw [if_neg (by omega), hY]

theorem omacPadded (M B P : Bytes) (hB : B.length = 16) (hP : P.length = 16) :
    eaxPad 16 M B P = .ok (if M ≠ [] ∧ 16 ∣ M.length then Spec.xorEnd M B
      else Spec.xorEnd (M ++ 0x80 :: List.replicate (15 - M.length % 16) 0) P) ∧
    16 ∣ (if M ≠ [] ∧ 16 ∣ M.length then Spec.xorEnd M B
      else Spec.xorEnd (M ++ 0x80 :: List.replicate (15 - M.length % 16) 0) P).length ∧
    0 < (if M ≠ [] ∧ 16 ∣ M.length then Spec.xorEnd M B
      else Spec.xorEnd (M ++ 0x80 :: List.replicate (15 - M.length % 16) 0) P).length := by
  unfold eaxPad
  by_cases h1 : M ≠ [] ∧ 16 ∣ M.length
  · have hp : 0 < M.length := List.length_pos_iff.mpr h1.1
    have h2 := h1.2
    rw [if_pos h1, if_pos ⟨by omega, by omega⟩, rightXor_eq _ _ (by omega) hB, xorEnd_length _ _ (by omega) hB]
    exact ⟨rfl, h2, hp⟩
  · have h2 : ¬ (M.length ≠ 0 ∧ M.length % 16 = 0) := by
      intro ⟨ha, hb⟩; exact h1 ⟨fun h0 => ha (by rw [h0]; rfl), Nat.dvd_of_mod_eq_zero hb⟩
    have e : (List.replicate (16 - M.length % 16) (0 : Byte)).set 0 0x80 = 0x80 :: List.replicate (15 - M.length % 16) 0 := by
      rw [show 16 - M.length % 16 = (15 - M.length % 16) + 1 by omega, List.replicate_succ]
      rfl
    have l : (M ++ (0x80 : Byte) :: List.replicate (15 - M.length % 16) 0).length = M.length + (16 - M.length % 16) := by
      simp; omega
    rw [if_neg h1, if_neg h2, e, rightXor_eq _ _ (by omega) hP, xorEnd_length _ _ (by omega) hP, l]
    exact ⟨rfl, by omega, by omega⟩

theorem chunks_ne_nil (x : Bytes) (h : 0 < x.length) : chunks 16 x ≠ [] := by
  intro h0
  have := Mode.chunks_flatten 16 (by decide) x
  rw [h0] at this
  rw [← this] at h
  simp at h

theorem eaxOmac_eq (h16 : c.bs = 16) (M : Bytes) : eaxOmac c M = .ok (Spec.omac c.E M) ∧ (Spec.omac c.E M).length = 16 := by
  have hL : (c.E (List.replicate 16 0)).length = 16 := by rw [c.lenE _ (by rw [h16]; rfl), h16]
  obtain ⟨e1, e2, e3⟩ := omacPadded M (Spec.gfDouble (c.E (List.replicate 16 0)))
    (Spec.gfDouble (Spec.gfDouble (c.E (List.replicate 16 0)))) (gfDouble_length _) (gfDouble_length _)
  unfold eaxOmac Spec.omac Spec.cbcMac
  rw [h16, gfnDouble_eq _ hL, Res.bind_ok, gfnDouble_eq _ (gfDouble_length _), Res.bind_ok, e1, Res.bind_ok]
  simp only
  generalize (if M ≠ [] ∧ 16 ∣ M.length then Spec.xorEnd M (Spec.gfDouble (c.E (List.replicate 16 0)))
    else Spec.xorEnd (M ++ 0x80 :: List.replicate (15 - M.length % 16) 0)
      (Spec.gfDouble (Spec.gfDouble (c.E (List.replicate 16 0))))) = X at *
  have hall := Mode.chunks_all_len 16 (by decide) X e2
  have hne := chunks_ne_nil X e3
  have hl := stdCbc_length c h16 (List.replicate 16 0) (chunks 16 X) rfl hall
  have hlast := stdCbc_last c h16 (List.replicate 16 0) (chunks 16 X) rfl hall hne
  have hpos := List.length_pos_iff.mpr hne
  constructor
  · rw [hl, hlast]
  · rw [← hlast, List.length_drop, hl]; omega

theorem eaxOmacT_eq (h16 : c.bs = 16) (t : Byte) (M : Bytes) :
    eaxOmacT c t M = .ok (Spec.omacT c.E t M) ∧ (Spec.omacT c.E t M).length = 16 := by
  unfold eaxOmacT Spec.omacT
  rw [h16]
  exact eaxOmac_eq c h16 _

theorem eaxOmacT_panic (h16 : c.bs ≠ 16) (t : Byte) (M : Bytes) : eaxOmacT c t M = .panic := by
  unfold eaxOmacT eaxOmac gfnDouble
  rw [if_pos (by rw [c.lenE _ (by simp)]; exact h16)]
  rfl

end Verif.Aead
