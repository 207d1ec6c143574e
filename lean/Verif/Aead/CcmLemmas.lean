import Verif.Aead.CcmModel
import Verif.Aead.CcmSpec
/-
The CCM code computes the RFC 3610 values.
-/
namespace Verif.Aead
open Verif.Mode (chunks copyAt)
open Verif.Mode.Spec (natBe beNat keyBytes streamOf)

/-! Counter blocks. -/

theorem natBe_split (k L v i : Nat) (hi : i < 256 ^ L) : natBe (k + L) (v * 256 ^ L + i) = natBe k v ++ natBe L i := by
  induction L generalizing i with
  | zero =>
    have : i = 0 := by simpa using hi
    subst this; simp [natBe]
  | succ L ih =>
    have e : k + (L + 1) = (k + L) + 1 := rfl
    rw [e, natBe, natBe, ← List.append_assoc, Nat.pow_succ, ← Nat.mul_assoc]
    have hd : (v * 256 ^ L * 256 + i) / 256 = v * 256 ^ L + i / 256 := by omega
    rw [hd, ih (i / 256) (by rw [Nat.pow_succ] at hi; omega)]
    congr 2
    apply BitVec.eq_of_toNat_eq
    simp only [BitVec.toNat_ofNat]
    omega

theorem beNat_natBe_append (a : Bytes) (L i : Nat) (hi : i < 256 ^ L) :
    beNat (a ++ natBe L i) = beNat a * 256 ^ L + i := by
  induction L generalizing i with
  | zero =>
    have : i = 0 := by simpa using hi
    subst this; simp [natBe]
  | succ L ih =>
    rw [natBe, ← List.append_assoc, Mode.beNat_append, ih (i / 256) (by rw [Nat.pow_succ] at hi; omega), Nat.pow_succ,
      BitVec.toNat_ofNat, ← Nat.mul_assoc]
    omega

/-- Adding `j` to a counter block whose last `L` octets do not overflow. -/
theorem ctrBlock (a : Bytes) (L i j : Nat) (h : i + j < 256 ^ L) :
    natBe (a.length + L) (beNat (a ++ natBe L i) + j) = a ++ natBe L (i + j) := by
  rw [beNat_natBe_append a L i (by omega), Nat.add_assoc, natBe_split _ _ _ _ h, Mode.natBe_beNat]

theorem natBe_zero (n : Nat) : natBe n 0 = List.replicate n 0 := by
  induction n with
  | zero => rfl
  | succ n ih => rw [natBe, Nat.zero_div, ih, List.replicate_succ']; rfl

theorem natBe_one (n : Nat) : natBe (n + 1) 1 = List.replicate n 0 ++ [1] := by
  rw [natBe, show 1 / 256 = 0 from rfl, natBe_zero]; rfl

theorem keyBytes_congr {f g : Nat → Byte} {n : Nat} (h : ∀ i, i < n → f i = g i) : keyBytes f 0 n = keyBytes g 0 n := by
  unfold keyBytes
  apply List.map_congr_left
  intro i hi
  rw [Nat.zero_add]
  exact h i (List.mem_range.mp hi)

theorem streamOf_congr {k : Nat} {f g : Nat → Bytes} {i : Nat} (h : f (i / k) = g (i / k)) : streamOf k f i = streamOf k g i := by
  unfold streamOf; rw [h]

/-! CBC-MAC. -/

theorem xorInto_length (out data : Bytes) : (xorInto out data).length = out.length := by
  unfold xorInto; simp; omega

theorem xorInto_of_le (out data : Bytes) (h : out.length ≤ data.length) : xorInto out data = xorb out (data.take out.length) := by
  unfold xorInto
  rw [List.drop_eq_nil_of_le h, List.append_nil]
  have := xorb_take out data out.length
  rw [List.take_of_length_le (by simp; omega), List.take_of_length_le (Nat.le_refl _)] at this
  exact this

theorem xorInto_pad (out data : Bytes) (n : Nat) (h : out.length ≤ data.length + n) :
    xorInto out data = xorInto out (data ++ List.replicate n 0) := by
  induction out generalizing data with
  | nil => simp [xorInto]
  | cons a o ih =>
    cases data with
    | nil =>
      have h2 : (a :: o).length ≤ n := by simpa using h
      unfold xorInto
      rw [List.nil_append, xorb_zeros_right _ _ h2, List.length_replicate, List.drop_eq_nil_of_le h2]
      simp
    | cons b d =>
      have := ih d (by simpa [Nat.add_right_comm] using h)
      unfold xorInto at this ⊢
      simp only [xorb_cons, List.cons_append, List.length_cons, List.drop_succ_cons, this]

variable (c : BlockCipher)

theorem ccmCmacLoop_fuel (f g : Nat) (out data : Bytes) (hf : data.length ≤ f) (hg : data.length ≤ g) :
    ccmCmacLoop c f out data = ccmCmacLoop c g out data := by
  induction f generalizing g out data with
  | zero =>
    have : data.length = 0 := by omega
    cases g with
    | zero => rfl
    | succ g => rw [ccmCmacLoop, ccmCmacLoop, if_neg (by omega), if_neg (by omega)]
  | succ f ih =>
    cases g with
    | zero =>
      rw [ccmCmacLoop, ccmCmacLoop, if_neg (by omega), if_neg (by omega)]
    | succ g =>
      rw [ccmCmacLoop, ccmCmacLoop]
      by_cases h : 16 ≤ data.length
      · rw [if_pos h, if_pos h]
        exact ih g _ _ (by rw [List.length_drop]; omega) (by rw [List.length_drop]; omega)
      · rw [if_neg h, if_neg h]

theorem ccmCmac_nil (out : Bytes) : ccmCmac c out [] = out := rfl

theorem ccmCmac_cons (out data : Bytes) (h : data ≠ []) :
    ccmCmac c out data = ccmCmac c (c.E (xorInto out data)) (data.drop 16) := by
  have hp : 0 < data.length := List.length_pos_iff.mpr h
  unfold ccmCmac
  rw [ccmCmacLoop_fuel c data.length (data.length + 1) _ _ (Nat.le_refl _) (by omega), ccmCmacLoop]
  by_cases h1 : 16 ≤ data.length
  · rw [if_pos h1]
    exact ccmCmacLoop_fuel c _ _ _ _ (by rw [List.length_drop]; omega) (Nat.le_refl _)
  · rw [if_neg h1, if_pos hp, List.drop_eq_nil_of_le (by omega)]
    rfl

theorem padZero_cons (x : Bytes) (h : x ≠ []) :
    chunks 16 (Spec.padZero 16 x) =
      (x.take 16 ++ List.replicate (16 - x.length) 0) :: chunks 16 (Spec.padZero 16 (x.drop 16)) := by
  have hp : 0 < x.length := List.length_pos_iff.mpr h
  by_cases h1 : 16 ≤ x.length
  · have e : Spec.padZero 16 x = x.take 16 ++ Spec.padZero 16 (x.drop 16) := by
      unfold Spec.padZero
      rw [← List.append_assoc, List.take_append_drop, List.length_drop]
      congr 2
      omega
    have l : (x.take 16).length = 16 := by rw [List.length_take]; omega
    rw [e, Mode.chunks_append 16 (by decide) _ _ (by rw [l]; exact Nat.dvd_refl 16),
      Mode.chunks_cons 16 (by decide) (x.take 16) (by intro h0; rw [h0] at l; simp at l)]
    rw [List.take_of_length_le (Nat.le_of_eq l), List.drop_eq_nil_of_le (Nat.le_of_eq l),
      show 16 - x.length = 0 by omega]
    simp
  · have e : Spec.padZero 16 x = x ++ List.replicate (16 - x.length) 0 := by
      unfold Spec.padZero; congr 2; omega
    have l : (x ++ List.replicate (16 - x.length) (0 : Byte)).length = 16 := by simp; omega
    rw [e, Mode.chunks_cons 16 (by decide) _ (by intro h0; rw [h0] at l; simp at l),
      List.take_of_length_le (Nat.le_of_eq l), List.drop_eq_nil_of_le (Nat.le_of_eq l),
      List.drop_eq_nil_of_le (by omega), List.take_of_length_le (by omega)]
    rfl

theorem xorInto_block (out data : Bytes) (ho : out.length = 16) :
    xorInto out data = xorb out (data.take 16 ++ List.replicate (16 - data.length) 0) := by
  by_cases h : 16 ≤ data.length
  · rw [xorInto_of_le _ _ (by omega), ho, show 16 - data.length = 0 by omega, List.replicate_zero, List.append_nil]
  · rw [xorInto_pad _ _ (16 - data.length) (by omega), List.take_of_length_le (by omega : data.length ≤ 16),
      xorInto_of_le _ _ (by simp; omega), List.take_of_length_le (by simp; omega)]

theorem ccmCmac_eq (h16 : c.bs = 16) (out data : Bytes) (ho : out.length = 16) :
    ccmCmac c out data = Spec.cbcMac c.E out (Spec.padZero 16 data) ∧ (ccmCmac c out data).length = 16 := by
  induction hn : data.length using Nat.strongRecOn generalizing out data with
  | ind n ih =>
    by_cases hd : data = []
    · subst hd; rw [ccmCmac_nil]; exact ⟨rfl, ho⟩
    · have hp : 0 < data.length := List.length_pos_iff.mpr hd
      have hl : (c.E (xorInto out data)).length = 16 := by
        rw [c.lenE _ (by rw [xorInto_length, ho, h16]), h16]
      have := ih (data.drop 16).length (by rw [List.length_drop]; omega) (c.E (xorInto out data)) (data.drop 16) hl rfl
      rw [ccmCmac_cons c out data hd]
      refine ⟨?_, this.2⟩
      rw [this.1]
      unfold Spec.cbcMac
      rw [padZero_cons data hd, List.foldl_cons, xorInto_block out data ho]

theorem ccmCmac_two (out a b : Bytes) (ho : out.length = 16) (ha : a.length = 16) :
    ccmCmac c out (a ++ b) = ccmCmac c (ccmCmac c out a) b := by
  have na : a ≠ [] := by intro h; rw [h] at ha; simp at ha
  rw [ccmCmac_cons c out (a ++ b) (by simp [na]), ccmCmac_cons c out a na, List.drop_left' ha,
    List.drop_eq_nil_of_le (by omega), ccmCmac_nil, xorInto_block _ _ ho, xorInto_block _ _ ho, List.take_left' ha,
    List.take_of_length_le (by omega : a.length ≤ 16), List.length_append, ha,
    show 16 - (16 + b.length) = 0 by omega]

/-- The first block of additional data followed by the rest. -/
theorem ccmCmac_first (out fld ad : Bytes) (ho : out.length = 16) (hf : fld.length ≤ 16) (hne : 0 < ad.length) :
    ccmCmac c (ccmCmac c out (copyAt (fld ++ List.replicate (16 - fld.length) 0) fld.length ad))
      (ad.drop (min (16 - fld.length) ad.length)) = ccmCmac c out (fld ++ ad) := by
  have hb : copyAt (fld ++ List.replicate (16 - fld.length) 0) fld.length ad =
      (fld ++ ad).take 16 ++ List.replicate (16 - (fld ++ ad).length) 0 := by
    unfold copyAt copyInto
    rw [List.take_left' rfl, List.drop_left' rfl, List.take_append, List.take_of_length_le hf, List.length_replicate,
      List.drop_replicate, List.append_assoc, List.length_append]
    congr 3
    omega
  have l : ((fld ++ ad).take 16 ++ List.replicate (16 - (fld ++ ad).length) (0 : Byte)).length = 16 := by
    rw [List.length_append, List.length_take, List.length_replicate]; omega
  have n1 : fld ++ ad ≠ [] := by intro h0; have := congrArg List.length h0; rw [List.length_append, List.length_nil] at this; omega
  have n2 : (fld ++ ad).take 16 ++ List.replicate (16 - (fld ++ ad).length) (0 : Byte) ≠ [] := by
    intro h0; rw [h0] at l; simp at l
  have hd : (fld ++ ad).drop 16 = ad.drop (min (16 - fld.length) ad.length) := by
    rw [List.drop_append, List.drop_eq_nil_of_le hf, List.nil_append]
    by_cases h : 16 - fld.length ≤ ad.length
    · rw [Nat.min_eq_left h]
    · rw [Nat.min_eq_right (by omega), List.drop_eq_nil_of_le (by omega), List.drop_length]
  rw [hb, ccmCmac_cons c out _ n2, ccmCmac_cons c out _ n1, List.drop_eq_nil_of_le (by omega), ccmCmac_nil, hd,
    xorInto_block out _ ho, xorInto_block out (fld ++ ad) ho, l]
  rw [List.take_of_length_le (by omega : _ ≤ 16)]
  simp

theorem ccmLenField_eq (n : Nat) : (ccmLenField n).length ≤ 16 ∧ ccmLenField n =
    (if n < 2 ^ 16 - 2 ^ 8 then natBe 2 n else if n < 2 ^ 32 then [0xff, 0xfe] ++ natBe 4 n
      else [0xff, 0xff] ++ natBe 8 n) := by
  unfold ccmLenField
  constructor
  · split
    · rw [Mode.natBe_len]; decide
    · split <;> simp only [List.length_cons, Mode.natBe_len] <;> decide
  · by_cases h : n ≤ 0xfeff
    · rw [if_pos h, if_pos (by omega)]
    · rw [if_neg h, if_neg (show ¬ n < 2 ^ 16 - 2 ^ 8 by omega)]; rfl

theorem cbcMac_append (E : Bytes → Bytes) (s x y : Bytes) (h : 16 ∣ x.length) :
    Spec.cbcMac E s (x ++ y) = Spec.cbcMac E (Spec.cbcMac E s x) y := by
  unfold Spec.cbcMac
  rw [Mode.chunks_append 16 (by decide) _ _ h, List.foldl_append]

theorem padZero_dvd (x : Bytes) : 16 ∣ (Spec.padZero 16 x).length := by
  unfold Spec.padZero
  rw [List.length_append, List.length_replicate]
  omega

theorem cbcMac_one (E : Bytes → Bytes) (s x : Bytes) (h : x.length = 16) : Spec.cbcMac E s x = E (xorb s x) := by
  have nx : x ≠ [] := by intro h0; rw [h0] at h; simp at h
  unfold Spec.cbcMac
  rw [Mode.chunks_cons 16 (by decide) x nx, List.take_of_length_le (by omega), List.drop_eq_nil_of_le (by omega)]
  rfl

/-- The flag octet. -/
theorem ccm_flags (a ns ts : Nat) (h1 : 7 ≤ ns) (h2 : ns ≤ 13) (h3 : 4 ≤ ts) (h4 : ts ≤ 16) (h5 : ts % 2 = 0) :
    ((if 0 < a then (64 : Byte) else 0) ||| (byteOf (ts - 2) <<< 2)) ||| byteOf (14 - ns) =
      BitVec.ofNat 8 ((if 0 < a then 64 else 0) + 8 * ((ts - 2) / 2) + (15 - ns - 1)) := by
  have key : ∀ b : Bool, ∀ n : Fin 7, ∀ t : Fin 7,
      (((if b then (64 : Byte) else 0) ||| (byteOf (2 * t.val + 4 - 2) <<< 2)) ||| byteOf (14 - (n.val + 7)) : Byte) =
      BitVec.ofNat 8 ((if b then 64 else 0) + 8 * ((2 * t.val + 4 - 2) / 2) + (15 - (n.val + 7) - 1)) := by
    decide +kernel
  have := key (decide (0 < a)) ⟨ns - 7, by omega⟩ ⟨(ts - 4) / 2, by omega⟩
  simp only [decide_eq_true_eq] at this
  rw [show 2 * ((ts - 4) / 2) + 4 = ts by omega, show ns - 7 + 7 = ns by omega] at this
  exact this

theorem ccmB0_eq (f : Byte) (N : Bytes) (n : Nat) (h1 : 7 ≤ N.length) (h2 : N.length ≤ 13)
    (hn : n < 256 ^ (15 - N.length)) :
    copyAt (copyAt (f :: List.replicate 15 0) 8 (natBe 8 n)) 1 N = f :: (N ++ natBe (15 - N.length) n) := by
  have l8 : (natBe 8 n).length = 8 := Mode.natBe_len _ _
  have e1 : copyAt (f :: List.replicate 15 0) 8 (natBe 8 n) = f :: (List.replicate 7 0 ++ natBe 8 n) := by
    unfold copyAt
    rw [copyInto_eq_left _ _ (by rw [l8]; rfl)]
    rfl
  have e2 : natBe 8 n = List.replicate (8 - (15 - N.length)) 0 ++ natBe (15 - N.length) n := by
    have := natBe_split (8 - (15 - N.length)) (15 - N.length) 0 n hn
    rw [Nat.zero_mul, Nat.zero_add, natBe_zero, show 8 - (15 - N.length) + (15 - N.length) = 8 by omega] at this
    exact this
  rw [e1, e2]
  unfold copyAt copyInto
  simp only [List.take_succ_cons, List.take_zero, List.drop_succ_cons, List.drop_zero, List.cons_append, List.nil_append]
  rw [← List.append_assoc, List.replicate_append_replicate, List.take_of_length_le (by simp [Mode.natBe_len]; omega),
    List.drop_left' (by simp; omega)]

theorem ccmCounter_eq (N : Bytes) (h2 : N.length ≤ 13) : ccmCounter N.length N = Spec.ccmA N 0 := by
  unfold ccmCounter Spec.ccmA copyAt copyInto
  simp only [List.take_succ_cons, List.take_zero, List.drop_succ_cons, List.drop_zero, List.cons_append, List.nil_append]
  rw [natBe_zero, List.length_replicate, List.take_of_length_le (by omega), List.drop_replicate]
  unfold byteOf
  rw [show 15 - N.length - 1 = 14 - N.length by omega]

theorem ccmA_length (N : Bytes) (h2 : N.length ≤ 13) (i : Nat) : (Spec.ccmA N i).length = 16 := by
  unfold Spec.ccmA; simp [Mode.natBe_len]; omega

theorem ccmCounter1_eq (N : Bytes) (h2 : N.length ≤ 13) : ccmCounter1 (Spec.ccmA N 0) = Spec.ccmA N 1 := by
  unfold ccmCounter1 Spec.ccmA
  obtain ⟨L, hL⟩ : ∃ L, 15 - N.length = L + 1 := ⟨14 - N.length, by omega⟩
  rw [hL, natBe_zero, natBe_one, List.replicate_succ']
  have hl : (BitVec.ofNat 8 (L + 1 - 1) :: (N ++ List.replicate L (0 : Byte))).length = 15 := by simp; omega
  have e : ∀ b : Byte, BitVec.ofNat 8 (L + 1 - 1) :: (N ++ (List.replicate L 0 ++ [b])) =
      (BitVec.ofNat 8 (L + 1 - 1) :: (N ++ List.replicate L 0)) ++ [b] := by intro b; simp
  rw [e, e]
  generalize BitVec.ofNat 8 (L + 1 - 1) :: (N ++ List.replicate L (0 : Byte)) = v at hl ⊢
  rw [List.set_append_right _ _ (by omega), List.getD_eq_getElem?_getD, List.getElem?_append_right (by omega), hl]
  rfl

/-- The CTR key stream of the code is the RFC's. -/
theorem ccm_ks (h16 : c.bs = 16) (N : Bytes) (h1 : 7 ≤ N.length) (h2 : N.length ≤ 13) (n : Nat) (hn : n < 256 ^ (15 - N.length)) :
    ctrKs c.E c.bs (Spec.ccmA N 1) n = keyBytes (streamOf 16 (fun j => c.E (Spec.ccmA N (j + 1)))) 0 n := by
  unfold ctrKs
  rw [h16]
  apply keyBytes_congr
  intro i hi
  apply streamOf_congr
  refine congrArg c.E ?_
  have := ctrBlock (BitVec.ofNat 8 (15 - N.length - 1) :: N) (15 - N.length) 1 (i / 16) (by omega)
  rw [List.length_cons, show N.length + 1 + (15 - N.length) = 16 by omega] at this
  unfold Spec.ccmA
  rw [← List.cons_append, this, Nat.add_comm 1]
  rfl

theorem ccmAuth_eq (h16 : c.bs = 16) (x : Ccm) (N P A : Bytes) (hN : N.length = x.nonceSize) (h1 : 7 ≤ x.nonceSize)
    (h2 : x.nonceSize ≤ 13) (h3 : 4 ≤ x.tagSize) (h4 : x.tagSize ≤ 16) (h5 : x.tagSize % 2 = 0)
    (hP : P.length < 256 ^ (15 - x.nonceSize)) :
    ccmAuth c x N P A (c.E (Spec.ccmA N 0)) = Spec.ccmTag c.E x.tagSize N P A := by
  have lb : (Spec.ccmB0 x.tagSize N P.length A.length).length = 16 := by
    unfold Spec.ccmB0; simp [Mode.natBe_len]; omega
  unfold ccmAuth Spec.ccmTag
  simp only
  rw [ccmB0_eq _ N P.length (by omega) (by omega) (by rw [hN]; exact hP), ← hN,
    ccm_flags A.length N.length x.tagSize (by omega) (by omega) h3 h4 h5]
  rw [show BitVec.ofNat 8 ((if 0 < A.length then 64 else 0) + 8 * ((x.tagSize - 2) / 2) + (15 - N.length - 1)) ::
    (N ++ natBe (15 - N.length) P.length) = Spec.ccmB0 x.tagSize N P.length A.length from rfl]
  have lE : (c.E (Spec.ccmB0 x.tagSize N P.length A.length)).length = 16 := by rw [c.lenE _ (by rw [lb, h16]), h16]
  have e1 : c.E (Spec.ccmB0 x.tagSize N P.length A.length) =
      Spec.cbcMac c.E (List.replicate 16 0) (Spec.ccmB0 x.tagSize N P.length A.length) := by
    rw [cbcMac_one _ _ _ lb, xorb_zeros_left _ _ (by omega)]
  have e2 : (if 0 < A.length then
        ccmCmac c (ccmCmac c (c.E (Spec.ccmB0 x.tagSize N P.length A.length))
          (copyAt (ccmLenField A.length ++ List.replicate (16 - (ccmLenField A.length).length) 0)
            (ccmLenField A.length).length A)) (A.drop (min (16 - (ccmLenField A.length).length) A.length))
      else c.E (Spec.ccmB0 x.tagSize N P.length A.length)) =
      ccmCmac c (c.E (Spec.ccmB0 x.tagSize N P.length A.length)) (Spec.ccmAd A) := by
    obtain ⟨k1, k2⟩ := ccmLenField_eq A.length
    unfold Spec.ccmAd
    by_cases hA : 0 < A.length
    · rw [if_pos hA, if_neg (by omega), ccmCmac_first c _ _ _ lE k1 hA, k2]
    · rw [if_neg hA, if_pos (by omega), ccmCmac_nil]
  rw [e2]
  have e3 : ∀ o, (if 0 < P.length then ccmCmac c o P else o) = ccmCmac c o P := by
    intro o
    split
    · rfl
    · rw [List.eq_nil_of_length_eq_zero (show P.length = 0 by omega), ccmCmac_nil]
  rw [e3]
  obtain ⟨g1, g2⟩ := ccmCmac_eq c h16 _ (Spec.ccmAd A) lE
  rw [(ccmCmac_eq c h16 _ P g2).1, g1, e1, cbcMac_append _ _ _ _ (by
      rw [List.length_append, lb]; have := padZero_dvd (Spec.ccmAd A); omega),
    cbcMac_append _ _ _ _ (by rw [lb]; exact Nat.dvd_refl 16)]

end Verif.Aead
