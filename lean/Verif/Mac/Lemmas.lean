import Verif.Mac.Model
import Verif.Mac.Spec
import Verif.Aead.Ocb3Lemmas
import Verif.Aead.OcbLemmas
/-
The CMAC code computes CMAC.
-/
namespace Verif.Mac
open Verif.Mode (chunks)
open Verif.Mode.Spec (natBe beNat)
open Verif.Aead (xorInto natBe_cons beNat_cons beNat_lt natBe_congr)

theorem shiftC_eq (x : Bytes) : (shiftC x).1 = natBe x.length (2 * beNat x) ∧
    (shiftC x).2.toNat = 2 * beNat x / 256 ^ x.length := by
  induction x with
  | nil => exact ⟨rfl, by decide⟩
  | cons a t ih =>
    obtain ⟨h1, h2⟩ := ih
    have hlt := beNat_lt t
    have hp : 0 < 256 ^ t.length := Nat.pos_of_ne_zero (by simp)
    have hc : (shiftC t).2.toNat < 2 := by rw [h2]; exact Nat.div_lt_of_lt_mul (by omega)
    have key : ∀ a : Byte, (a <<< 1) ||| 0#8 = BitVec.ofNat 8 (2 * a.toNat) ∧ (a <<< 1) ||| 1#8 = BitVec.ofNat 8 (2 * a.toNat + 1) ∧
        (a >>> 7).toNat = a.toNat / 128 := by decide +kernel
    have e : (a <<< 1) ||| (shiftC t).2 = BitVec.ofNat 8 (2 * a.toNat + (shiftC t).2.toNat) := by
      rcases Nat.lt_or_ge (shiftC t).2.toNat 1 with h | h
      · have : (shiftC t).2 = 0#8 := BitVec.eq_of_toNat_eq (by simp; omega)
        rw [this, (key a).1]; rfl
      · have : (shiftC t).2 = 1#8 := BitVec.eq_of_toNat_eq (by simp; omega)
        rw [this, (key a).2.1]; rfl
    have e2 : 2 * beNat (a :: t) = 2 * beNat t + 256 ^ t.length * (2 * a.toNat) := by
      rw [beNat_cons]; ring
    constructor
    · show ((a <<< 1) ||| (shiftC t).2) :: (shiftC t).1 = _
      rw [List.length_cons, natBe_cons, e, h1, h2]
      refine congr (congrArg _ (congrArg _ ?_)) ?_
      · rw [e2, Nat.add_mul_div_left _ _ hp]; omega
      · apply natBe_congr; rw [e2, Nat.add_mul_mod_self_left]
    · show (a >>> 7).toNat = _
      rw [(key a).2.2, List.length_cons, Nat.pow_succ, e2]
      rw [← Nat.div_div_eq_div_mul, Nat.add_mul_div_left _ _ hp]
      have : 2 * beNat t / 256 ^ t.length < 2 := Nat.div_lt_of_lt_mul (by omega)
      omega

theorem natBe_xor_low (n v r : Nat) : natBe (n + 1) (v ^^^ (r % 256)) =
    (natBe (n + 1) v).set n ((natBe (n + 1) v).getD n 0 ^^^ byteOf r) := by
  have l : (natBe n (v / 256)).length = n := Mode.natBe_len _ _
  rw [natBe, natBe, List.getD_eq_getElem?_getD, List.getElem?_append_right (by omega), List.set_append_right _ _ (by omega), l]
  have e1 : (v ^^^ (r % 256)) / 256 = v / 256 := by
    have : ∀ k, k / 256 = k >>> 8 := fun k => (Nat.shiftRight_eq_div_pow k 8).symm
    have hz : (r % 256) >>> 8 = 0 := by rw [← this]; omega
    rw [this, this, Nat.shiftRight_xor_distrib, hz, Nat.xor_zero]
  rw [e1]
  have : BitVec.ofNat 8 (r % 256) = byteOf r := by unfold byteOf; apply BitVec.eq_of_toNat_eq; simp
  simp only [BitVec.ofNat_xor, this, Nat.sub_self]
  simp

theorem dbl_length (n r : Nat) (x : Bytes) : (Spec.dbl n r x).length = n := Mode.natBe_len _ _

/-- The code's doubling uses the low byte of the constant. -/
theorem dblM_eq (p : Nat) (x : Bytes) (h : 1 ≤ x.length) : dblM p x = Spec.dbl x.length (p % 256) x := by
  obtain ⟨h1, h2⟩ := shiftC_eq x
  obtain ⟨n, hn⟩ : ∃ n, x.length = n + 1 := ⟨x.length - 1, by omega⟩
  have hlt := beNat_lt x
  have hp : 256 ^ x.length = 2 ^ (8 * x.length) := by rw [show 256 = 2 ^ 8 from rfl, ← Nat.pow_mul]
  have hh : 2 ^ (8 * x.length) = 2 * 2 ^ (8 * x.length - 1) := by rw [← Nat.pow_succ']; congr 1; omega
  rw [hp] at h2 hlt
  have hpos : 0 < 2 ^ (8 * x.length - 1) := Nat.pos_of_ne_zero (by simp)
  unfold dblM Spec.dbl
  simp only
  rw [h1]
  by_cases hc : beNat x < 2 ^ (8 * x.length - 1)
  · rw [if_pos hc]
    have : (shiftC x).2 ≠ 1 := by
      intro e
      rw [e, Nat.div_eq_of_lt (by omega)] at h2
      exact absurd h2 (by decide)
    rw [if_neg this, show byteOf 0 = 0#8 from rfl, BitVec.xor_zero]
    have hl := Mode.natBe_len x.length (2 * beNat x)
    rw [List.getD_eq_getElem?_getD, List.getElem?_eq_getElem (by omega)]
    simp
  · rw [if_neg hc]
    have hq : 2 * beNat x / 2 ^ (8 * x.length) = 1 := Nat.div_eq_of_lt_le (by omega) (by omega)
    have : (shiftC x).2 = 1 := BitVec.eq_of_toNat_eq (by rw [h2, hq]; rfl)
    rw [if_pos this]
    rw [hn, Nat.add_sub_cancel, natBe_xor_low]
    have : natBe (n + 1) (2 * beNat x - 2 ^ (8 * (n + 1))) = natBe (n + 1) (2 * beNat x) := by
      apply natBe_congr
      rw [← hn, hp]
      conv_rhs => rw [Nat.mod_eq_sub_mod (by omega)]
    rw [this]

theorem dbl_16 (x : Bytes) : Spec.dbl 16 0x87 x = Aead.Spec.gfDouble x := rfl

theorem xorInto_length (a b : Bytes) : (xorInto a b).length = a.length := Aead.xorInto_length a b

theorem xorInto_eq {a b : Bytes} (h : a.length = b.length) : xorInto a b = xorb a b := by
  unfold xorInto
  rw [List.drop_of_length_le (by omega), List.append_nil]

theorem xorInto_nil (a : Bytes) : xorInto a [] = a := by simp [xorInto]

theorem xorInto_cons (a b : Byte) (S T : Bytes) : xorInto (a :: S) (b :: T) = (a ^^^ b) :: xorInto S T := by
  simp [xorInto]

/-- XOR of a short string, then of a further one behind it. -/
theorem xorAt_xorInto (S T x : Bytes) (h : T.length ≤ S.length) : xorAt (xorInto S T) T.length x = xorInto S (T ++ x) := by
  induction T generalizing S with
  | nil => rw [xorInto_nil]; simp [xorAt]
  | cons b T ih =>
    cases S with
    | nil => simp at h
    | cons a S =>
      have := ih S (by simpa using h)
      rw [xorInto_cons, List.cons_append, xorInto_cons, ← this]
      simp [xorAt]

variable {c : BlockCipher}

theorem lenE' {x : Bytes} (h : x.length = c.bs) : (c.E x).length = c.bs := c.lenE x h

theorem cbc_nil (E : Bytes → Bytes) (n : Nat) (s : Bytes) : Spec.cbc E n s [] = s := rfl

theorem cbc_append (E : Bytes → Bytes) (n : Nat) (hn : 0 < n) (s x y : Bytes) (h : n ∣ x.length) :
    Spec.cbc E n s (x ++ y) = Spec.cbc E n (Spec.cbc E n s x) y := by
  unfold Spec.cbc; rw [Mode.chunks_append n hn _ _ h, List.foldl_append]

theorem cbc_one (E : Bytes → Bytes) (n : Nat) (hn : 0 < n) (s x : Bytes) (h : x.length = n) :
    Spec.cbc E n s x = E (xorb s x) := by
  unfold Spec.cbc
  rw [Mode.chunks_cons n hn x (by intro e; rw [e] at h; simp at h; omega)]
  rw [List.take_of_length_le (by omega), List.drop_of_length_le (by omega)]; simp

theorem cbc_length (s x : Bytes) (hs : s.length = c.bs) (h : c.bs ∣ x.length) : (Spec.cbc c.E c.bs s x).length = c.bs := by
  unfold Spec.cbc
  have := Mode.chunks_all_len c.bs c.bs_pos x h
  generalize chunks c.bs x = l at this
  induction l generalizing s with
  | nil => exact hs
  | cons b l ih =>
    refine ih _ ?_ (fun b hb => this b (by simp [hb]))
    apply c.lenE; rw [xorb_length, this b (by simp), hs]; omega

theorem cmacBlocks_eq (k : Nat) (buf msg : Bytes) (hb : buf.length = c.bs) (h : k * c.bs ≤ msg.length) :
    cmacBlocks c k buf msg = Spec.cbc c.E c.bs buf (msg.take (k * c.bs)) := by
  induction k generalizing buf msg with
  | zero => simp [cmacBlocks, cbc_nil]
  | succ k ih =>
    rw [Nat.add_mul, Nat.one_mul] at h
    have l : (msg.take c.bs).length = c.bs := by rw [List.length_take]; omega
    unfold cmacBlocks
    rw [xorInto_eq (by omega), ih _ _ (by apply c.lenE; rw [xorb_length]; omega) (by rw [List.length_drop]; omega)]
    rw [Nat.add_mul, Nat.one_mul, Nat.add_comm, List.take_add, cbc_append _ _ c.bs_pos _ _ _ (by rw [l]), cbc_one _ _ c.bs_pos _ _ l]

/-- The state holds message `M`: everything but the last (at most `bs`) bytes has been chained, the rest is mixed into
the buffer. -/
def CmacHolds (c : BlockCipher) (s : CmacSt) (M : Bytes) : Prop :=
  ∃ A T : Bytes, M = A ++ T ∧ c.bs ∣ A.length ∧ T.length ≤ c.bs ∧ (T = [] → A = []) ∧ s.off = T.length ∧
    s.buf = xorInto (Spec.cbc c.E c.bs (Spec.zero c.bs) A) T

theorem cmac_tail (hn : ∃ k, c.bs = 2 ^ k) (A msg : Bytes) (hA : c.bs ∣ A.length) (hne : msg = [] → A = []) :
    CmacHolds c (cmacWriteTail c ⟨Spec.cbc c.E c.bs (Spec.zero c.bs) A, 0⟩ msg) (A ++ msg) := by
  obtain ⟨k, hk⟩ := hn
  have hb := c.bs_pos
  have hz : (Spec.zero c.bs).length = c.bs := by simp [Spec.zero]
  have hmod : msg.length &&& (c.bs - 1) = msg.length % c.bs := by rw [hk, Nat.and_two_pow_sub_one_eq_mod]
  have hcl := cbc_length (c := c) _ A hz hA
  unfold cmacWriteTail
  simp only
  by_cases h : msg.length > c.bs
  · rw [if_pos h, hmod]
    generalize hnn : (if msg.length = msg.length - msg.length % c.bs then msg.length - msg.length % c.bs - c.bs
      else msg.length - msg.length % c.bs) = nn
    have hdm := Nat.div_add_mod msg.length c.bs
    have hml := Nat.mod_lt msg.length hb
    have hnn' : ∃ j, nn = j * c.bs ∧ nn < msg.length ∧ msg.length ≤ nn + c.bs := by
      split at hnn
      · refine ⟨msg.length / c.bs - 1, ?_, by omega, by omega⟩
        rw [Nat.sub_mul, Nat.one_mul, Nat.mul_comm]; omega
      · refine ⟨msg.length / c.bs, ?_, by omega, by omega⟩
        rw [Nat.mul_comm]; omega
    obtain ⟨j, hj, h1, h2⟩ := hnn'
    simp only
    rw [if_pos (by rw [List.length_drop]; omega)]
    rw [hj, Nat.mul_div_cancel _ hb, cmacBlocks_eq _ _ _ hcl (by omega), ← hj]
    refine ⟨A ++ msg.take nn, msg.drop nn, by rw [List.append_assoc, List.take_append_drop], ?_, by rw [List.length_drop]; omega, ?_, ?_, ?_⟩
    · rw [List.length_append, List.length_take, Nat.min_eq_left (by omega), hj]
      exact Nat.dvd_add hA (Nat.dvd_mul_left _ _)
    · intro e; have := congrArg List.length e; rw [List.length_drop] at this; simp at this; omega
    · simp
    · simp only [xorAt, List.take_zero, List.drop_zero, List.nil_append]
      rw [cbc_append _ _ hb _ _ _ hA]
  · rw [if_neg h]
    simp only
    refine ⟨A, msg, rfl, hA, by omega, hne, ?_, ?_⟩
    · split
      · simp
      · simp; omega
    · split
      · simp [xorAt]
      · have : msg = [] := List.eq_nil_of_length_eq_zero (by omega)
        rw [this, xorInto_nil]

theorem cmac_write (hn : ∃ k, c.bs = 2 ^ k) (s : CmacSt) (M x : Bytes) (h : CmacHolds c s M) :
    CmacHolds c (cmacWrite c s x) (M ++ x) := by
  obtain ⟨A, T, rfl, hA, hT, hne, ho, hbuf⟩ := h
  have hb := c.bs_pos
  have hz : (Spec.zero c.bs).length = c.bs := by simp [Spec.zero]
  have hcl := cbc_length (c := c) _ A hz hA
  unfold cmacWrite
  simp only
  rw [ho]
  by_cases h0 : T.length > 0
  · rw [if_pos h0]
    by_cases h1 : x.length > c.bs - T.length
    · rw [if_pos h1]
      rw [hbuf, xorAt_xorInto _ _ _ (by omega)]
      have hl : (T ++ x.take (c.bs - T.length)).length = c.bs := by rw [List.length_append, List.length_take]; omega
      rw [xorInto_eq (by rw [hcl, hl]), ← cbc_one c.E c.bs hb _ _ hl, ← cbc_append _ _ hb _ _ _ hA]
      have := cmac_tail hn (A ++ (T ++ x.take (c.bs - T.length))) (x.drop (c.bs - T.length))
        (by rw [List.length_append, hl]; exact Nat.dvd_add hA (Nat.dvd_refl _))
        (by intro e; have := congrArg List.length e; rw [List.length_drop] at this; simp at this; omega)
      simpa [List.append_assoc] using this
    · rw [if_neg h1]
      refine ⟨A, T ++ x, by simp, hA, by rw [List.length_append]; omega, ?_, by simp, ?_⟩
      · intro e; have := congrArg List.length e; simp at this; simp [this.1] at h0
      · simp only; rw [hbuf, xorAt_xorInto _ _ _ (by omega)]
  · rw [if_neg h0]
    have hT0 : T = [] := List.eq_nil_of_length_eq_zero (by omega)
    have hA0 := hne hT0
    subst hT0 hA0
    have hs : s = ⟨Spec.cbc c.E c.bs (Spec.zero c.bs) [], 0⟩ := by
      cases s; simp only at ho hbuf; rw [ho, hbuf, xorInto_nil]; rfl
    rw [hs]
    exact cmac_tail hn [] x (by simp) (fun _ => rfl)

theorem xorInto_set (S T : Bytes) (h : T.length < S.length) :
    (xorInto S T).set T.length ((xorInto S T).getD T.length 0 ^^^ 0x80) =
      xorb S (T ++ 0x80 :: List.replicate (S.length - 1 - T.length) 0) := by
  induction T generalizing S with
  | nil =>
    cases S with
    | nil => simp at h
    | cons a S =>
      rw [xorInto_nil]
      simp only [List.length_nil, List.set_cons_zero, List.getD_cons_zero, List.nil_append, xorb_cons, List.length_cons,
        Nat.add_sub_cancel, Nat.sub_zero]
      rw [xorb_zeros_right _ _ (Nat.le_refl _)]
  | cons b T ih =>
    cases S with
    | nil => simp at h
    | cons a S =>
      have := ih S (by simpa using h)
      rw [xorInto_cons, List.cons_append, xorb_cons, List.length_cons, List.set_cons_succ, List.getD_cons_succ, this]
      congr 5
      simp only [List.length_cons]; omega

theorem xorInto_comm_front (K S T : Bytes) (h : K.length = S.length) (hT : T.length ≤ S.length) :
    xorInto K (xorInto S T) = xorInto (xorb K S) T := by
  induction T generalizing K S with
  | nil => rw [xorInto_nil, xorInto_nil, xorInto_eq h]
  | cons b T ih =>
    cases S with
    | nil => simp at hT
    | cons a S =>
      cases K with
      | nil => simp at h
      | cons k K =>
        rw [xorInto_cons, xorInto_cons, xorb_cons, xorInto_cons, ih K S (by simpa using h) (by simpa using hT), BitVec.xor_assoc]

theorem pad2_append (n : Nat) (A T : Bytes) (hA : n ∣ A.length) (hT : T.length < n) :
    Spec.pad2 n (A ++ T) = A ++ (T ++ 0x80 :: List.replicate (n - 1 - T.length) 0) := by
  unfold Spec.pad2
  obtain ⟨q, hq⟩ := hA
  rw [List.length_append, hq, Nat.mul_add_mod, Nat.mod_eq_of_lt hT, List.append_assoc]

theorem xorEnd_append (n : Nat) (A T Y : Bytes) (hT : T.length = n) : Spec.xorEnd n (A ++ T) Y = A ++ xorb T Y := by
  unfold Spec.xorEnd
  rw [List.length_append, hT, Nat.add_sub_cancel, List.take_left, List.drop_left]

/-- The tag of a state that holds `M`. -/
theorem cmac_sum (p : Nat) (s : CmacSt) (M : Bytes) (h : CmacHolds c s M) (ts : Nat) :
    cmacCheckSum c ⟨Spec.dbl c.bs p (c.E (Spec.zero c.bs)), Spec.dbl c.bs p (Spec.dbl c.bs p (c.E (Spec.zero c.bs))), ts⟩ s =
      (Spec.cmac c.E c.bs p M).take ts := by
  obtain ⟨A, T, rfl, hA, hT, hne, ho, hbuf⟩ := h
  have hb := c.bs_pos
  have hz : (Spec.zero c.bs).length = c.bs := by simp [Spec.zero]
  have hcl := cbc_length (c := c) _ A hz hA
  have hl : ∀ x, (Spec.dbl c.bs p x).length = c.bs := dbl_length c.bs p
  unfold cmacCheckSum Spec.cmac
  simp only
  refine congrArg (List.take ts) ?_
  rw [ho, hbuf]
  have hK2 := hl (Spec.dbl c.bs p (c.E (Spec.zero c.bs)))
  have hK1 := hl (c.E (Spec.zero c.bs))
  generalize Spec.dbl c.bs p (Spec.dbl c.bs p (c.E (Spec.zero c.bs))) = K2 at hK2 ⊢
  generalize Spec.dbl c.bs p (c.E (Spec.zero c.bs)) = K1 at hK1 ⊢
  by_cases hw : T.length = c.bs
  · have hW : Spec.Whole c.bs (A ++ T) := by
      refine ⟨?_, by rw [List.length_append, hw]; exact Nat.dvd_add hA (Nat.dvd_refl _)⟩
      intro e; have := congrArg List.length e; simp at this; rw [this.2] at hw; simp at hw; omega
    rw [if_neg (by omega), if_neg (by omega), if_pos hW, xorEnd_append _ _ _ _ hw]
    have l1 : (xorb T K1).length = c.bs := by rw [xorb_length]; omega
    rw [cbc_append _ _ hb _ _ _ hA, cbc_one _ _ hb _ _ l1, xorInto_eq (a := Spec.cbc _ _ _ _) (by omega),
      xorInto_eq (by rw [xorb_length]; omega), xorb_comm K1, xorb_assoc]
  · have hW : ¬ Spec.Whole c.bs (A ++ T) := by
      rintro ⟨h1, h2⟩
      rw [List.length_append, Nat.dvd_add_right hA] at h2
      have := Nat.le_of_dvd (Nat.pos_of_ne_zero ?_) h2
      · omega
      · intro e
        have e := List.eq_nil_of_length_eq_zero e
        exact h1 (by rw [hne e, e]; rfl)
    have hT' : T.length < c.bs := by omega
    rw [if_pos hT', if_pos hT', if_neg hW, pad2_append _ _ _ hA hT']
    have l0 : (T ++ 0x80 :: List.replicate (c.bs - 1 - T.length) (0 : Byte)).length = c.bs := by simp; omega
    have l1 : (xorb (T ++ 0x80 :: List.replicate (c.bs - 1 - T.length) 0) K2).length = c.bs := by rw [xorb_length]; omega
    have l2 : (xorb K2 (Spec.cbc c.E c.bs (Spec.zero c.bs) A)).length = c.bs := by rw [xorb_length]; omega
    rw [xorEnd_append _ _ _ _ l0, cbc_append _ _ hb _ _ _ hA, cbc_one _ _ hb _ _ l1, xorInto_comm_front _ _ _ (by omega) (by omega),
      xorInto_set _ _ (by omega), l2, xorb_comm K2, xorb_assoc, xorb_comm K2]

end Verif.Mac
