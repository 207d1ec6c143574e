import Verif.Mac.OneShotModel
import Verif.Mac.OneShotSpec
import Verif.Mac.PmacLemmas
import Verif.Padding.HeapProps
/-
Property C46 : the one-shot MACs of package mac compute the ISO/IEC 9797-1 (GB/T 15852.1) algorithms.
-/
namespace Verif.Mac
open Verif.Mode.Spec (natBe beNat)
open Verif.Aead (xorInto natBe_cons beNat_cons beNat_lt natBe_congr)

variable {c : BlockCipher}

theorem pad2_eq (bs : Nat) (hb : 1 ≤ bs) (M : Bytes) : Padding.iso7816Pad M bs = Spec.pad2 bs M := by
  rw [Padding.iso7816Pad_eq M bs hb]
  unfold Spec.pad2 Padding.padSize
  rw [Nat.sub_right_comm]

theorem pad2_dvd (n : Nat) (hn : 0 < n) (M : Bytes) : n ∣ (Spec.pad2 n M).length ∧ n ≤ (Spec.pad2 n M).length := by
  unfold Spec.pad2
  have h1 := Nat.mod_lt M.length hn
  have h2 := Nat.div_add_mod M.length n
  have e : (M ++ 0x80 :: List.replicate (n - 1 - M.length % n) (0 : Byte)).length = n * (M.length / n) + n := by
    simp only [List.length_append, List.length_cons, List.length_replicate]; omega
  rw [e]
  exact ⟨Nat.dvd_add (Nat.dvd_mul_right _ _) (Nat.dvd_refl _), by omega⟩

/-- What padding does to the caller's slice. -/
theorem isoPad_ok (slack : Nat → Nat) (h : Heap) (src : Slice) (hv : src.Valid h) (bs : Nat) (hb : 1 ≤ bs) :
    (isoPad slack h src bs).2 = Spec.pad2 bs (h.bytes src) ∧
    FrameExcept h (isoPad slack h src bs).1 (src.ptr + src.len) (src.ptr + src.cap) := by
  have g := (Padding.C10_only_spare_capacity slack (fun _ => 0) "" h src bs hv).2.2.2.2.1
  refine ⟨?_, g.frame⟩
  have := g.bytes
  rw [pad2_eq bs hb] at this
  exact this

theorem macLoop_zero (fuel : Nat) (tag src : Bytes) (ht : tag.length = c.bs) (hs : c.bs ∣ src.length) (hf : src.length ≤ fuel) :
    macLoop c 0 fuel tag src = .ok (Spec.cbc c.E c.bs tag src, []) := by
  have hb := c.bs_pos
  induction fuel generalizing tag src with
  | zero =>
    have : src = [] := List.eq_nil_of_length_eq_zero (by omega)
    subst this; rfl
  | succ fuel ih =>
    unfold macLoop
    by_cases h0 : src.length > 0
    · have hle := Nat.le_of_dvd h0 hs
      have hl : (src.take c.bs).length = c.bs := by rw [List.length_take]; omega
      rw [if_pos h0, if_neg (by omega), xorInto_eq (by omega), ih _ _ (c.lenE _ (by rw [xorb_length]; omega))
        (by rw [List.length_drop]; exact Nat.dvd_sub hs (Nat.dvd_refl _)) (by rw [List.length_drop]; omega)]
      conv_rhs => rw [← List.take_append_drop c.bs src]
      rw [cbc_append _ _ hb _ _ _ (by rw [hl]), cbc_one _ _ hb _ _ hl]
    · rw [if_neg h0]
      have : src = [] := List.eq_nil_of_length_eq_zero (by omega)
      subst this; rfl

theorem macLoop_last (fuel : Nat) (tag src : Bytes) (ht : tag.length = c.bs) (hs : c.bs ∣ src.length) (hn : c.bs ≤ src.length)
    (hf : src.length ≤ fuel) :
    macLoop c c.bs fuel tag src = .ok (Spec.cbc c.E c.bs tag (Spec.initPart c.bs src), Spec.lastBlk c.bs src) := by
  have hb := c.bs_pos
  induction fuel generalizing tag src with
  | zero => omega
  | succ fuel ih =>
    unfold macLoop
    by_cases h0 : src.length > c.bs
    · have hl : (src.take c.bs).length = c.bs := by rw [List.length_take]; omega
      have hd : c.bs ∣ (src.drop c.bs).length := by rw [List.length_drop]; exact Nat.dvd_sub hs (Nat.dvd_refl _)
      have hd2 : c.bs ≤ (src.drop c.bs).length := Nat.le_of_dvd (by rw [List.length_drop]; omega) hd
      rw [if_pos h0, if_neg (by omega), xorInto_eq (by omega), ih _ _ (c.lenE _ (by rw [xorb_length]; omega)) hd hd2
        (by rw [List.length_drop]; omega)]
      rw [List.length_drop] at hd2
      have e1 : Spec.initPart c.bs src = src.take c.bs ++ Spec.initPart c.bs (src.drop c.bs) := by
        unfold Spec.initPart
        rw [List.length_drop, List.take_drop, show c.bs + (src.length - c.bs - c.bs) = src.length - c.bs by omega]
        conv_lhs => rw [← List.take_append_drop c.bs (src.take (src.length - c.bs))]
        rw [List.take_take, Nat.min_eq_left (by omega)]
      have e2 : Spec.lastBlk c.bs (src.drop c.bs) = Spec.lastBlk c.bs src := by
        unfold Spec.lastBlk
        rw [List.length_drop, List.drop_drop]
        congr 1; omega
      rw [e1, e2, cbc_append _ _ hb _ _ _ (by rw [hl]), cbc_one _ _ hb _ _ hl]
    · rw [if_neg h0]
      have : src.length = c.bs := by omega
      unfold Spec.initPart Spec.lastBlk
      rw [this, Nat.sub_self]; rfl

/-- A `MAC` call that returns `tag` and changes no memory but, possibly, the spare capacity behind `src`. -/
def Returns (r : Res (Heap × Bytes)) (h : Heap) (src : Slice) (tag : Bytes) : Prop :=
  ∃ h', r = .ok (h', tag) ∧ FrameExcept h h' (src.ptr + src.len) (src.ptr + src.cap)

/-- CBC-MAC, EMAC, ANSI retail MAC and MAC-DES compute algorithms 1–4 of ISO/IEC 9797-1 with padding method 2, truncated
to the requested size, for every message and every block ciphers of one block size.  Partial: the bytes behind the message
may be overwritten when its slice has spare capacity (`C46_clobbers_violated`). -/
theorem C46_alg1234_partial (slack : Nat → Nat) (b1 b2 b3 : BlockCipher) (h3 : b3.bs = b1.bs)
    (size : Nat) (h : Heap) (src : Slice) (hv : src.Valid h) :
    Returns (cbcMacM slack b1 size h src) h src ((Spec.cbcMac b1.E b1.bs (h.bytes src)).take size) ∧
    Returns (emacM slack b1 b2 size h src) h src ((Spec.emac b1.E b2.E b1.bs (h.bytes src)).take size) ∧
    Returns (retailM slack b1 b2 size h src) h src ((Spec.retail b1.E b2.D b1.bs (h.bytes src)).take size) ∧
    Returns (macDesM slack b1 b2 b3 size h src) h src ((Spec.macDes b1.E b2.E b3.E b1.bs (h.bytes src)).take size) := by
  have hb := b1.bs_pos
  obtain ⟨hp, hf⟩ := isoPad_ok slack h src hv b1.bs hb
  obtain ⟨hd, hle⟩ := pad2_dvd b1.bs hb (h.bytes src)
  have hz : (List.replicate b1.bs (0 : Byte)).length = b1.bs := by simp
  have hloop := macLoop_zero (c := b1) _ _ (Spec.pad2 b1.bs (h.bytes src)) hz hd (Nat.le_refl _)
  refine ⟨⟨_, ?_, hf⟩, ⟨_, ?_, hf⟩, ⟨_, ?_, hf⟩, ⟨_, ?_, hf⟩⟩
  · unfold cbcMacM; simp only [hp, hloop, Res.bind_ok]; rfl
  · unfold emacM; simp only [hp, hloop, Res.bind_ok]; rfl
  · unfold retailM; simp only [hp, hloop, Res.bind_ok]; rfl
  · unfold macDesM
    simp only [hp]
    rw [if_neg (by omega)]
    have hl : ((Spec.pad2 b1.bs (h.bytes src)).take b1.bs).length = b1.bs := by rw [List.length_take]; omega
    have hc : copyInto (List.replicate b1.bs 0) ((Spec.pad2 b1.bs (h.bytes src)).take b1.bs) = (Spec.pad2 b1.bs (h.bytes src)).take b1.bs := by
      unfold copyInto
      rw [hz, hl, List.take_of_length_le (by omega), List.drop_of_length_le (by omega), List.append_nil]
    have ht : (b3.E (b1.E ((Spec.pad2 b1.bs (h.bytes src)).take b1.bs))).length = b1.bs := by
      rw [b3.lenE _ (by rw [b1.lenE _ hl, h3]), h3]
    rw [hc, macLoop_zero (c := b1) _ _ _ ht (by rw [List.length_drop]; exact Nat.dvd_sub hd (Nat.dvd_refl _)) (by rw [List.length_drop]; omega)]
    rfl

/-- LMAC computes algorithm 6.  Partial: the whole block is returned whatever size was requested
(`C46_lmac_size_violated`), and spare capacity may be overwritten. -/
theorem C46_lmac_partial (slack : Nat → Nat) (b1 b2 : BlockCipher) (size : Nat) (h : Heap) (src : Slice) (hv : src.Valid h) :
    Returns (lmacM slack b1 b2 size h src) h src (Spec.lmac b1.E b2.E b1.bs (h.bytes src)) := by
  have hb := b1.bs_pos
  obtain ⟨hp, hf⟩ := isoPad_ok slack h src hv b1.bs hb
  obtain ⟨hd, hle⟩ := pad2_dvd b1.bs hb (h.bytes src)
  have hz : (List.replicate b1.bs (0 : Byte)).length = b1.bs := by simp
  refine ⟨_, ?_, hf⟩
  unfold lmacM
  simp only [hp, macLoop_last (c := b1) _ _ (Spec.pad2 b1.bs (h.bytes src)) hz hd hle (Nat.le_refl _), Res.bind_ok]
  have hl : (Spec.lastBlk b1.bs (Spec.pad2 b1.bs (h.bytes src))).length = b1.bs := by
    unfold Spec.lastBlk; rw [List.length_drop]; omega
  have hi : b1.bs ∣ (Spec.initPart b1.bs (Spec.pad2 b1.bs (h.bytes src))).length := by
    unfold Spec.initPart; rw [List.length_take, Nat.min_eq_left (by omega)]; exact Nat.dvd_sub hd (Nat.dvd_refl _)
  rw [if_neg (by omega), List.take_of_length_le (by omega), xorInto_eq (by rw [cbc_length _ _ hz hi, hl])]
  rfl

/-- TrCBC computes algorithm 7 for every size up to the block size. Partial as above. -/
theorem C46_trcbc_partial (slack : Nat → Nat) (c : BlockCipher) (size : Nat) (h : Heap) (src : Slice) (hv : src.Valid h) :
    Returns (trCbcM slack c size h src) h src (Spec.trCbc c.E c.bs size (h.bytes src)) := by
  have hb := c.bs_pos
  have hz : (List.replicate c.bs (0 : Byte)).length = c.bs := by simp
  have hlen : (h.bytes src).length = src.len := by simp [Heap.bytes]
  unfold trCbcM Spec.trCbc
  simp only
  by_cases hw : Spec.Whole c.bs (h.bytes src)
  · have hnp : ¬ (src.len = 0 ∨ src.len % c.bs ≠ 0) := by
      rw [← hlen]
      rintro (h0 | h0)
      · exact hw.1 (List.eq_nil_of_length_eq_zero h0)
      · exact h0 (Nat.mod_eq_zero_of_dvd hw.2)
    refine ⟨h, ?_, FrameExcept.refl _ _ _⟩
    rw [if_pos hw, if_neg hnp]
    simp only [if_neg hnp, macLoop_zero (c := c) _ _ _ hz hw.2 (Nat.le_refl _), Res.bind_ok]
    rfl
  · have hp' : (src.len = 0 ∨ src.len % c.bs ≠ 0) := by
      rw [← hlen]
      by_contra hn
      refine hw ⟨?_, Nat.dvd_of_mod_eq_zero (by omega)⟩
      intro e; rw [e] at hn; simp at hn
    obtain ⟨hp, hf⟩ := isoPad_ok slack h src hv c.bs hb
    obtain ⟨hd, hle⟩ := pad2_dvd c.bs hb (h.bytes src)
    refine ⟨_, ?_, hf⟩
    rw [if_neg hw, if_pos hp']
    simp only [if_pos hp', hp, macLoop_zero (c := c) _ _ _ hz hd (Nat.le_refl _), Res.bind_ok]
    rfl

/-- `k` whole rounds of the CMAC loop. -/
theorem cmacLoop1_eq (k1 : Bytes) (hk : k1.length = c.bs) (fuel : Nat) (tag src : Bytes) (ht : tag.length = c.bs) (hf : src.length ≤ fuel)
    (hne : src ≠ []) :
    cmacLoop1 c k1 fuel tag src =
      if c.bs ∣ src.length then (Spec.cbc c.E c.bs tag (Spec.xorEnd c.bs src k1), [])
      else (Spec.cbc c.E c.bs tag (src.take (src.length - src.length % c.bs)), src.drop (src.length - src.length % c.bs)) := by
  have hb := c.bs_pos
  induction fuel generalizing tag src with
  | zero => exact absurd (List.eq_nil_of_length_eq_zero (by omega)) hne
  | succ fuel ih =>
    have hpos : 0 < src.length := List.length_pos_iff.mpr hne
    unfold cmacLoop1
    by_cases hge : src.length ≥ c.bs
    · rw [if_pos hge]
      have hl : (src.take c.bs).length = c.bs := by rw [List.length_take]; omega
      by_cases heq : src.length = c.bs
      · simp only [heq, if_true]
        rw [if_pos (Nat.dvd_refl _), List.take_of_length_le (by omega), List.drop_of_length_le (by omega)]
        have e : Spec.xorEnd c.bs src k1 = xorb src k1 := by
          have := xorEnd_append c.bs [] src k1 heq; simpa using this
        rw [e, cbc_one _ _ hb _ _ (by rw [xorb_length]; omega)]
        have : c.E (xorb k1 (xorb src tag)) = c.E (xorb tag (xorb src k1)) := by
          rw [xorb_comm k1, xorb_comm src tag, xorb_assoc]
        rw [this]
        cases fuel with
        | zero => rfl
        | succ f => unfold cmacLoop1; rw [if_neg (by simp; omega)]
      · simp only [heq, if_false]
        have hdne : src.drop c.bs ≠ [] := by
          intro e; have := congrArg List.length e; rw [List.length_drop] at this; simp at this; omega
        rw [ih _ _ (c.lenE _ (by rw [xorb_length]; omega)) (by rw [List.length_drop]; omega) hdne]
        rw [List.length_drop]
        have hmod : (src.length - c.bs) % c.bs = src.length % c.bs := (Nat.mod_eq_sub_mod hge).symm
        have hone : c.E (xorb (src.take c.bs) tag) = Spec.cbc c.E c.bs tag (src.take c.bs) := by
          rw [cbc_one _ _ hb _ _ hl, xorb_comm]
        by_cases hdv : c.bs ∣ src.length
        · rw [if_pos (Nat.dvd_sub hdv (Nat.dvd_refl _)), if_pos hdv]
          have hd2 : c.bs ≤ src.length - c.bs := Nat.le_of_dvd (by omega) (Nat.dvd_sub hdv (Nat.dvd_refl _))
          have e : Spec.xorEnd c.bs src k1 = src.take c.bs ++ Spec.xorEnd c.bs (src.drop c.bs) k1 := by
            unfold Spec.xorEnd
            rw [List.length_drop, List.drop_drop, List.take_drop, ← List.append_assoc,
              show c.bs + (src.length - c.bs - c.bs) = src.length - c.bs by omega]
            congr 1
            conv_lhs => rw [← List.take_append_drop c.bs (src.take (src.length - c.bs))]
            rw [List.take_take, Nat.min_eq_left (by omega)]
          rw [e, cbc_append _ _ hb _ _ _ (by rw [hl]), hone]
        · rw [if_neg (by intro hx; exact hdv (by have := Nat.dvd_add hx (Nat.dvd_refl c.bs); rwa [Nat.sub_add_cancel hge] at this)), if_neg hdv]
          rw [hmod]
          have hml := Nat.mod_lt src.length hb
          have hmle : src.length % c.bs ≤ src.length - c.bs := by
            have h := Nat.mod_le (src.length - c.bs) c.bs
            omega
          have e : src.take (src.length - src.length % c.bs) = src.take c.bs ++ (src.drop c.bs).take (src.length - c.bs - src.length % c.bs) := by
            rw [List.take_drop, show c.bs + (src.length - c.bs - src.length % c.bs) = src.length - src.length % c.bs by omega]
            conv_lhs => rw [← List.take_append_drop c.bs (src.take (src.length - src.length % c.bs))]
            rw [List.take_take, Nat.min_eq_left (by omega)]
          rw [e, cbc_append _ _ hb _ _ _ (by rw [hl]), hone, List.drop_drop]
          congr 2; omega
    · rw [if_neg hge]
      have : ¬ c.bs ∣ src.length := fun hx => hge (Nat.le_of_dvd hpos hx)
      rw [if_neg this, Nat.mod_eq_of_lt (by omega), Nat.sub_self]
      rfl

/-- Package mac's CMAC computes algorithm 5 (CMAC) for 128-bit blocks and every non-empty message. Partial: the tag of
the empty message is not truncated (`C46_cmac_empty_violated`), and the constant 0x87 is used for every block size
(`C46_cmac_64_violated`). -/
theorem C46_cmac_partial (c : BlockCipher) (hc : c.bs = 16) (size : Int) (k1 k2 : Bytes) (n : Nat)
    (hnew : newCmac c size = .ok (k1, k2, n)) (M : Bytes) :
    cmac1M c k1 k2 n M = if M = [] then Spec.cmac c.E 16 0x87 M else (Spec.cmac c.E 16 0x87 M).take size.toNat := by
  have hb := c.bs_pos
  unfold newCmac at hnew
  split at hnew
  · simp at hnew
  have hz : (List.replicate c.bs (0 : Byte)).length = c.bs := by simp
  have hE : (c.E (List.replicate c.bs 0)).length = c.bs := c.lenE _ hz
  have e1 : dblM 0x87 (c.E (List.replicate c.bs 0)) = Spec.dbl 16 0x87 (c.E (Spec.zero 16)) := by
    rw [dblM_eq _ _ (by rw [hE]; exact c.bs_pos), hE, hc]; rfl
  have l1 : (Spec.dbl 16 0x87 (c.E (Spec.zero 16))).length = 16 := dbl_length _ _ _
  have e2 : dblM 0x87 (Spec.dbl 16 0x87 (c.E (Spec.zero 16))) = Spec.dbl 16 0x87 (Spec.dbl 16 0x87 (c.E (Spec.zero 16))) := by
    rw [dblM_eq _ _ (by rw [l1]; omega), l1]
  simp only [e1, e2, Res.ok.injEq, Prod.mk.injEq] at hnew
  obtain ⟨rfl, rfl, rfl⟩ := hnew
  have l2 : (Spec.dbl 16 0x87 (Spec.dbl 16 0x87 (c.E (Spec.zero 16)))).length = 16 := dbl_length _ _ _
  unfold cmac1M Spec.cmac
  simp only
  generalize Spec.dbl 16 0x87 (Spec.dbl 16 0x87 (c.E (Spec.zero 16))) = K2 at l2 ⊢
  generalize Spec.dbl 16 0x87 (c.E (Spec.zero 16)) = K1 at l1 ⊢
  by_cases hM : M = []
  · subst hM
    rw [if_pos (show ([] : Bytes).length = 0 from rfl), if_neg (show ¬ Spec.Whole 16 [] by rintro ⟨h1, -⟩; exact h1 rfl)]
    have hc1 : copyInto (List.replicate c.bs 0) K2 = K2 := by
      unfold copyInto
      rw [hz, List.take_of_length_le (by omega), List.drop_of_length_le (by omega), List.append_nil]
    have hs := xorInto_set K2 [] (by rw [l2]; simp)
    rw [xorInto_nil] at hs
    have hp : Spec.pad2 16 [] = [] ++ 0x80 :: List.replicate (16 - 1 - 0) (0 : Byte) := rfl
    rw [hc1, hs, l2, show Spec.xorEnd 16 (Spec.pad2 16 []) K2 = xorb (Spec.pad2 16 []) K2 from ?_, cbc_one _ _ (by omega) _ _ ?_]
    · unfold Spec.zero
      rw [xorb_zeros_left _ _ (by rw [xorb_length]; omega), hp, xorb_comm]; rfl
    · rw [xorb_length, l2]; rfl
    · have := xorEnd_append 16 [] (Spec.pad2 16 []) K2 rfl
      simpa using this
  · have hpos : 0 < M.length := List.length_pos_iff.mpr hM
    rw [if_neg (show ¬ M.length = 0 by omega), if_neg hM, cmacLoop1_eq K1 (by omega) _ _ _ hz (Nat.le_refl _) hM, hc]
    refine congrArg (List.take size.toNat) ?_
    by_cases hd : 16 ∣ M.length
    · rw [if_pos hd, if_pos (show Spec.Whole 16 M from ⟨hM, hd⟩)]
      rfl
    · rw [if_neg hd, if_neg (show ¬ Spec.Whole 16 M from fun hw => hd hw.2)]
      have hml := Nat.mod_lt M.length (show 0 < 16 by omega)
      have hm0 : 0 < M.length % 16 := Nat.pos_of_ne_zero (fun e => hd (Nat.dvd_of_mod_eq_zero e))
      have hA : 16 ∣ (M.take (M.length - M.length % 16)).length := by rw [List.length_take]; omega
      have hT : (M.drop (M.length - M.length % 16)).length = M.length % 16 := by rw [List.length_drop]; have := Nat.mod_le M.length 16; omega
      generalize hAe : M.take (M.length - M.length % 16) = A at hA
      generalize hTe : M.drop (M.length - M.length % 16) = T at hT
      have hMe : M = A ++ T := by rw [← hAe, ← hTe, List.take_append_drop]
      have hTl : T.length < 16 := by omega
      simp only
      rw [if_pos (by omega), hMe, pad2_append _ _ _ hA hTl]
      have l0 : (T ++ 0x80 :: List.replicate (16 - 1 - T.length) (0 : Byte)).length = 16 := by simp; omega
      have hcl : (Spec.cbc c.E 16 (List.replicate 16 0) A).length = 16 := by
        have := cbc_length (c := c) (List.replicate 16 0) A (by simp [hc]) (by rw [hc]; exact hA)
        rwa [hc] at this
      rw [xorEnd_append _ _ _ _ l0, cbc_append _ _ (by omega) _ _ _ hA,
        cbc_one _ _ (by omega) _ (xorb (T ++ 0x80 :: List.replicate (16 - 1 - T.length) (0 : Byte)) K2) (by rw [xorb_length]; omega)]
      have hx : xorb K2 (xorInto (Spec.cbc c.E 16 (List.replicate 16 0) A) T) =
          xorInto (xorb K2 (Spec.cbc c.E 16 (List.replicate 16 0) A)) T := by
        rw [← xorInto_comm_front _ _ _ (by omega) (by omega), xorInto_eq (a := K2) (by rw [xorInto_length]; omega)]
      rw [hx, xorInto_set _ _ (by rw [xorb_length]; omega)]
      have : (xorb K2 (Spec.cbc c.E 16 (List.replicate 16 0) A)).length = 16 := by rw [xorb_length]; omega
      rw [this, xorb_comm K2 (Spec.cbc c.E 16 (List.replicate 16 0) A), xorb_assoc, xorb_comm K2]
      rfl

theorem shiftRC_eq (p : Byte) (x : Bytes) : shiftRC (p <<< 7) x = (shrC p x, (p :: x).getLast (by simp) <<< 7) := by
  have k : ∀ p : Byte, p <<< 7 = if p &&& 1 = 1 then 0x80 else 0 := by decide +kernel
  induction x generalizing p with
  | nil => rfl
  | cons a t ih =>
    unfold shiftRC shrC
    rw [ih, ← k]
    simp

/-- The right shift is a rotation. -/
theorem shiftRight_rotr (x : Bytes) (h : 1 ≤ x.length) : shiftRightM x = Spec.rotr x.length x := by
  obtain ⟨n, hn⟩ : ∃ n, x.length = n + 1 := ⟨x.length - 1, by omega⟩
  have hx : x ≠ [] := by intro e; rw [e] at h; simp at h
  have hlast : (0 :: x).getLast (by simp) = x.getD (x.length - 1) 0 := by
    rw [List.getLast_cons hx, List.getLast_eq_getElem]
    simp [List.getD, hn]
  have e0 : shiftRC 0 x = (shrC 0 x, x.getD (x.length - 1) 0 <<< 7) := by
    have := shiftRC_eq 0 x
    rw [hlast] at this
    exact this
  have k : ∀ p : Byte, p <<< 7 = if p &&& 1 = 1 then 0x80 else 0 := by decide +kernel
  have hlt := beNat_lt x
  have hs : shrC 0 x = natBe x.length (beNat x / 2) := by rw [shrC_eq]; simp
  unfold shiftRightM Spec.rotr
  simp only [e0, hs, k]
  have hp : 256 ^ (n + 1) = 2 * 2 ^ (8 * n + 7) := by
    rw [show 256 = 2 ^ 8 from rfl, ← Nat.pow_mul, ← Nat.pow_succ']; congr 1
  rw [hn] at hlt ⊢
  rw [hp] at hlt
  by_cases hb : x.getD (x.length - 1) 0 &&& 1 = 1
  · have hb' := (lastBit x h).1 hb
    rw [hn] at hb
    rw [if_pos hb, hb', Nat.one_mul, show 8 * (n + 1) - 1 = 8 * n + 7 by omega, ← natBe_xor_top]
    refine congrArg _ ?_
    rw [Nat.xor_comm]
    have := Nat.two_pow_add_eq_or_of_lt (show beNat x / 2 < 2 ^ (8 * n + 7) by omega) 1
    rw [Nat.mul_one] at this
    rw [Nat.add_comm (beNat x / 2), this]
    apply Nat.eq_of_testBit_eq
    intro i
    rw [Nat.testBit_xor, Nat.testBit_or, Nat.testBit_two_pow]
    by_cases hi : 8 * n + 7 = i
    · subst hi; rw [Nat.testBit_lt_two_pow (by omega)]; simp
    · simp [hi]
  · have hb' : beNat x % 2 = 0 := by
      have := mt (lastBit x h).2 hb; omega
    rw [hn] at hb
    rw [if_neg hb, hb', Nat.zero_mul, Nat.add_zero]
    rw [natBe_cons, Nat.add_zero, natBe_cons]
    simp

/-- What `CBCRMAC.MAC` computes. -/
theorem cbcr_value (slack : Nat → Nat) (c : BlockCipher) (size : Nat) (h : Heap) (src : Slice) (hv : src.Valid h) :
    Returns (cbcrM slack c size h src) h src ((c.E
      (if Spec.Whole c.bs (h.bytes src) then
        Spec.rotr c.bs (xorb (Spec.cbc c.E c.bs (c.E (Spec.zero c.bs)) (Spec.initPart c.bs (h.bytes src))) (Spec.lastBlk c.bs (h.bytes src)))
      else (shiftC (xorb (Spec.cbc c.E c.bs (c.E (Spec.zero c.bs)) (Spec.initPart c.bs (Spec.pad2 c.bs (h.bytes src))))
        (Spec.lastBlk c.bs (Spec.pad2 c.bs (h.bytes src))))).1)).take size) := by
  have hb := c.bs_pos
  have hz : (c.E (List.replicate c.bs (0 : Byte))).length = c.bs := c.lenE _ (by simp)
  have hlen : (h.bytes src).length = src.len := by simp [Heap.bytes]
  have hlast : ∀ X : Bytes, c.bs ≤ X.length → (Spec.lastBlk c.bs X).length = c.bs := by
    intro X hX; unfold Spec.lastBlk; rw [List.length_drop]; omega
  have hinit : ∀ X : Bytes, c.bs ≤ X.length → c.bs ∣ X.length → c.bs ∣ (Spec.initPart c.bs X).length := by
    intro X hX hd; unfold Spec.initPart; rw [List.length_take, Nat.min_eq_left (by omega)]; exact Nat.dvd_sub hd (Nat.dvd_refl _)
  have hx : ∀ X : Bytes, c.bs ≤ X.length → c.bs ∣ X.length →
      xorInto (Spec.cbc c.E c.bs (c.E (List.replicate c.bs 0)) (Spec.initPart c.bs X)) ((Spec.lastBlk c.bs X).take c.bs) =
      xorb (Spec.cbc c.E c.bs (c.E (Spec.zero c.bs)) (Spec.initPart c.bs X)) (Spec.lastBlk c.bs X) := by
    intro X hX hd
    have h1 := hlast X hX
    rw [List.take_of_length_le (by omega), xorInto_eq (by rw [cbc_length _ _ hz (hinit X hX hd), h1])]
    rfl
  unfold cbcrM
  simp only
  by_cases hw : Spec.Whole c.bs (h.bytes src)
  · have hnp : ¬ (src.len = 0 ∨ src.len % c.bs ≠ 0) := by
      rw [← hlen]
      rintro (h0 | h0)
      · exact hw.1 (List.eq_nil_of_length_eq_zero h0)
      · exact h0 (Nat.mod_eq_zero_of_dvd hw.2)
    have hle := Nat.le_of_dvd (List.length_pos_iff.mpr hw.1) hw.2
    refine ⟨h, ?_, FrameExcept.refl _ _ _⟩
    simp only [if_neg hnp, if_pos hw, macLoop_last (c := c) _ _ _ hz hw.2 hle (Nat.le_refl _), Res.bind_ok]
    have hl := hlast _ hle
    rw [if_neg (by omega), hx _ hle hw.2]
    have hy : (xorb (Spec.cbc c.E c.bs (c.E (Spec.zero c.bs)) (Spec.initPart c.bs (h.bytes src))) (Spec.lastBlk c.bs (h.bytes src))).length = c.bs := by
      have := cbc_length (c := c) (c.E (Spec.zero c.bs)) _ hz (hinit _ hle hw.2)
      rw [xorb_length]; omega
    rw [shiftRight_rotr _ (by omega), hy]
  · have hp' : (src.len = 0 ∨ src.len % c.bs ≠ 0) := by
      rw [← hlen]
      by_contra hn
      refine hw ⟨?_, Nat.dvd_of_mod_eq_zero (by omega)⟩
      intro e; rw [e] at hn; simp at hn
    obtain ⟨hp, hf⟩ := isoPad_ok slack h src hv c.bs hb
    obtain ⟨hd, hle⟩ := pad2_dvd c.bs hb (h.bytes src)
    refine ⟨_, ?_, hf⟩
    simp only [if_pos hp', if_neg hw, hp, macLoop_last (c := c) _ _ _ hz hd hle (Nat.le_refl _), Res.bind_ok]
    have hl := hlast _ hle
    rw [if_neg (by omega), hx _ hle hd]

/-- CBCR computes algorithm 8 for every message of one or more whole blocks. Partial: other messages lose a bit
(`C46_cbcr_collision_violated`). -/
theorem C46_cbcr_partial (slack : Nat → Nat) (c : BlockCipher) (size : Nat) (h : Heap) (src : Slice) (hv : src.Valid h)
    (hw : Spec.Whole c.bs (h.bytes src)) :
    Returns (cbcrM slack c size h src) h src ((Spec.cbcr c.E c.bs (h.bytes src)).take size) := by
  have := cbcr_value slack c size h src hv
  unfold Spec.cbcr
  simp only [if_pos hw] at this ⊢
  exact this

/-- For every block cipher and key, two different messages — equal but for the top bit of the first byte of the
unfinished last block — have the same CBCR MAC. -/
theorem C46_cbcr_collision_violated (slack : Nat → Nat) (c : BlockCipher) (size : Nat) (h h' : Heap) (src : Slice)
    (hv : src.Valid h) (hv' : src.Valid h') (A T : Bytes) (b : Byte) (hA : c.bs ∣ A.length) (hT : T.length + 1 < c.bs)
    (hM : h.bytes src = A ++ b :: T) (hM' : h'.bytes src = A ++ (b ^^^ 0x80) :: T) :
    h.bytes src ≠ h'.bytes src ∧
    ∃ tag, Returns (cbcrM slack c size h src) h src tag ∧ Returns (cbcrM slack c size h' src) h' src tag := by
  have hb := c.bs_pos
  have knot : ∀ b : Byte, b ≠ b ^^^ 0x80 := by decide +kernel
  refine ⟨?_, ?_⟩
  · rw [hM, hM']; intro e
    have := (List.append_right_inj _).1 e
    injection this with h1 _
    exact knot b h1
  · have hr := cbcr_value slack c size h src hv
    have hr' := cbcr_value slack c size h' src hv'
    rw [hM] at hr
    rw [hM'] at hr'
    have nw : ∀ x : Byte, ¬ Spec.Whole c.bs (A ++ x :: T) := by
      rintro x ⟨-, hd⟩
      rw [List.length_append] at hd
      have := Nat.le_of_dvd (by simp) ((Nat.dvd_add_right hA).1 hd)
      simp at this; omega
    have hp : ∀ x : Byte, Spec.pad2 c.bs (A ++ x :: T) = A ++ (x :: (T ++ 0x80 :: List.replicate (c.bs - 1 - (T.length + 1)) (0 : Byte))) := by
      intro x; rw [pad2_append _ _ _ hA (by simp; omega)]; simp
    have hl : ∀ x : Byte, (x :: (T ++ 0x80 :: List.replicate (c.bs - 1 - (T.length + 1)) (0 : Byte))).length = c.bs := by
      intro x; simp; omega
    have hi : ∀ x : Byte, Spec.initPart c.bs (Spec.pad2 c.bs (A ++ x :: T)) = A := by
      intro x; rw [hp]; unfold Spec.initPart; rw [List.length_append, hl, Nat.add_sub_cancel, List.take_left]
    have hla : ∀ x : Byte, Spec.lastBlk c.bs (Spec.pad2 c.bs (A ++ x :: T)) = x :: (T ++ 0x80 :: List.replicate (c.bs - 1 - (T.length + 1)) (0 : Byte)) := by
      intro x; rw [hp]; unfold Spec.lastBlk; rw [List.length_append, hl, Nat.add_sub_cancel, List.drop_left]
    rw [if_neg (nw _), hi, hla] at hr hr'
    have hS : (Spec.cbc c.E c.bs (c.E (Spec.zero c.bs)) A).length = c.bs := cbc_length (c := c) _ _ (c.lenE _ (by simp [Spec.zero])) hA
    obtain ⟨s0, S, hSe⟩ := List.exists_cons_of_length_pos (by omega : 0 < (Spec.cbc c.E c.bs (c.E (Spec.zero c.bs)) A).length)
    rw [hSe] at hr hr'
    have : ∀ U : Bytes, (shiftC (xorb (s0 :: S) ((b ^^^ 0x80) :: U))).1 = (shiftC (xorb (s0 :: S) (b :: U))).1 := by
      intro U
      have k : ∀ x : Byte, (x ^^^ 0x80) <<< 1 = x <<< 1 := by decide +kernel
      rw [xorb_cons, xorb_cons]
      unfold shiftC
      simp only
      rw [show s0 ^^^ (b ^^^ 0x80) = (s0 ^^^ b) ^^^ 0x80 by rw [BitVec.xor_assoc], k]
    rw [this] at hr'
    exact ⟨_, hr, hr'⟩

/-- The tag of a call, if it returned. -/
def tagOf : Res (Heap × Bytes) → Option Bytes
  | .ok r => some r.2
  | _ => none

/-- The CBCR MAC of a message with an unfinished block is not the one of the standard. -/
theorem C46_cbcr_rotation_violated :
    let h : Heap := ⟨fun a => if a = 10 then 0x80 else 0, 100⟩
    h.bytes ⟨10, 1, 1⟩ = [0x80] ∧
    tagOf (cbcrM (fun _ => 0) (toyCipher 4 (by decide)) 4 h ⟨10, 1, 1⟩) = some [3, 3, 3, 4] ∧
    Spec.cbcr (toyCipher 4 (by decide)).E 4 [0x80] = [4, 3, 3, 4] := by
  decide +kernel

/-- `MAC` writes into memory behind the message it was given: here the caller's buffer holds a message of one byte and,
after it, other data of the caller. -/
theorem C46_clobbers_violated :
    let h : Heap := ⟨fun a => BitVec.ofNat 8 a, 100⟩
    ∃ h' tag, cbcMacM (fun _ => 0) (toyCipher 4 (by decide)) 4 h ⟨10, 1, 8⟩ = .ok (h', tag) ∧
      h.bytes ⟨11, 4, 4⟩ = [11, 12, 13, 14] ∧ h'.bytes ⟨11, 4, 4⟩ = [0x80, 0, 0, 14] := by
  refine ⟨_, _, rfl, ?_, ?_⟩ <;> decide +kernel

/-- With the full block as tag size, which the constructor accepts, a TrCBC MAC of a message that is not a whole number
of blocks is also the MAC of the padded message: for every cipher and key. -/
theorem C46_trcbc_collision_violated (slack : Nat → Nat) (c : BlockCipher) (h h' : Heap) (src src' : Slice)
    (hv : src.Valid h) (hv' : src'.Valid h') (hw : ¬ Spec.Whole c.bs (h.bytes src))
    (hM' : h'.bytes src' = Spec.pad2 c.bs (h.bytes src)) :
    newSized c c.bs = .ok c.bs ∧ h'.bytes src' ≠ h.bytes src ∧
    ∃ tag, Returns (trCbcM slack c c.bs h src) h src tag ∧ Returns (trCbcM slack c c.bs h' src') h' src' tag := by
  have hb := c.bs_pos
  obtain ⟨hd, hle⟩ := pad2_dvd c.bs hb (h.bytes src)
  have hw' : Spec.Whole c.bs (h'.bytes src') := by
    rw [hM']; exact ⟨by intro e; rw [e] at hle; simp at hle; omega, hd⟩
  refine ⟨?_, ?_, _, C46_trcbc_partial slack c c.bs h src hv, ?_⟩
  · unfold newSized; rw [if_neg (by unfold badSize; omega)]; simp
  · intro e; rw [e] at hw'; exact hw hw'
  · have := C46_trcbc_partial slack c c.bs h' src' hv'
    unfold Spec.trCbc at this ⊢
    rw [if_pos hw', hM'] at this
    rw [if_neg hw, Nat.sub_self, List.drop_zero]
    rwa [List.take_of_length_le (by rw [cbc_length (c := c) _ _ (by simp [Spec.zero]) hd])] at this

/-- LMAC ignores the tag size it was asked for: every tag is a whole block, and so says `Size`. -/
theorem C46_lmac_size_violated (slack : Nat → Nat) (b1 b2 : BlockCipher) (h2 : b2.bs = b1.bs) (size : Nat) (h : Heap) (src : Slice)
    (hv : src.Valid h) :
    lmacSize b1 size = b1.bs ∧ ∃ h' tag, lmacM slack b1 b2 size h src = .ok (h', tag) ∧ tag.length = b1.bs := by
  obtain ⟨h', he, -⟩ := C46_lmac_partial slack b1 b2 size h src hv
  refine ⟨rfl, h', _, he, ?_⟩
  obtain ⟨hd, hle⟩ := pad2_dvd b1.bs b1.bs_pos (h.bytes src)
  unfold Spec.lmac
  simp only
  have h1 : (Spec.cbc b1.E b1.bs (Spec.zero b1.bs) (Spec.initPart b1.bs (Spec.pad2 b1.bs (h.bytes src)))).length = b1.bs := by
    refine cbc_length (c := b1) _ _ (by simp [Spec.zero]) ?_
    unfold Spec.initPart; rw [List.length_take, Nat.min_eq_left (by omega)]; exact Nat.dvd_sub hd (Nat.dvd_refl _)
  have h3 : (Spec.lastBlk b1.bs (Spec.pad2 b1.bs (h.bytes src))).length = b1.bs := by
    unfold Spec.lastBlk; rw [List.length_drop]; omega
  rw [b2.lenE _ (by rw [xorb_length]; omega), h2]

/-- The CMAC of the empty message is a whole block whatever size was requested. -/
theorem C46_cmac_empty_violated (c : BlockCipher) (hc : c.bs = 16) (size : Int) (hs : ¬ badSize c size) (hlt : size < 16) :
    ∃ k1 k2 n, newCmac c size = .ok (k1, k2, n) ∧ (cmac1M c k1 k2 n []).length = 16 ∧ size ≠ 16 := by
  obtain ⟨k, hk⟩ : ∃ k, newCmac c size = .ok k := by unfold newCmac; rw [if_neg hs]; exact ⟨_, rfl⟩
  obtain ⟨k1, k2, n⟩ := k
  refine ⟨k1, k2, n, hk, ?_, by omega⟩
  rw [C46_cmac_partial c hc size k1 k2 n hk [], if_pos rfl]
  unfold Spec.cmac
  simp only
  have hl : (Spec.xorEnd 16 (Spec.pad2 16 []) (Spec.dbl 16 0x87 (Spec.dbl 16 0x87 (c.E (Spec.zero 16))))).length = 16 := by
    have := xorEnd_append 16 [] (Spec.pad2 16 []) (Spec.dbl 16 0x87 (Spec.dbl 16 0x87 (c.E (Spec.zero 16)))) rfl
    rw [List.nil_append] at this
    rw [this, List.nil_append, xorb_length, dbl_length]; rfl
  rw [if_neg (show ¬ Spec.Whole 16 [] by rintro ⟨h1, -⟩; exact h1 rfl)]
  have := cbc_length (c := c) (Spec.zero 16) (Spec.xorEnd 16 (Spec.pad2 16 []) (Spec.dbl 16 0x87 (Spec.dbl 16 0x87 (c.E (Spec.zero 16)))))
    (by rw [hc]; rfl) (by rw [hl, hc])
  rwa [hc] at this

/-- 64-bit block ciphers get the constant of 128-bit ones: the CMAC is not the standard one. -/
theorem C46_cmac_64_violated :
    ∃ k1 k2, newCmac (xorCipher [0x80, 0, 0, 0, 0, 0, 0, 0] (by decide)) 8 = .ok (k1, k2, 8) ∧
      cmac1M (xorCipher [0x80, 0, 0, 0, 0, 0, 0, 0] (by decide)) k1 k2 8 (List.replicate 8 0) ≠ Spec.cmac (xorCipher [0x80, 0, 0, 0, 0, 0, 0, 0] (by decide)).E 8 0x1B (List.replicate 8 0) := by
  refine ⟨_, _, rfl, ?_⟩
  decide +kernel

/-! Constructors. -/

/-- `NewCBCMAC`, `NewCMAC`, `NewTRCBCMAC` and `NewCBCRMAC` panic exactly for sizes outside 1 … block size. -/
theorem C46_new_iff (c : BlockCipher) (size : Int) :
    (newSized c size = .panic ↔ ¬ (1 ≤ size ∧ size ≤ c.bs)) ∧
    (newSized c size ≠ .panic → newSized c size = .ok size.toNat) ∧
    (newCmac c size = .panic ↔ ¬ (1 ≤ size ∧ size ≤ c.bs)) := by
  unfold newSized newCmac
  by_cases h : badSize c size
  · rw [if_pos h, if_pos h]; unfold badSize at h
    exact ⟨⟨fun _ => by omega, fun _ => rfl⟩, fun e => absurd rfl e, ⟨fun _ => by omega, fun _ => rfl⟩⟩
  · rw [if_neg h, if_neg h]; unfold badSize at h
    exact ⟨⟨fun e => by simp at e, fun e => by omega⟩, fun _ => rfl, ⟨fun e => by simp at e, fun e => by omega⟩⟩

/-- `NewEMAC` and `NewANSIRetailMAC` use the ciphers of the two keys in the order given and panic exactly when one of them
cannot be made or the size is outside 1 … block size. -/
theorem C46_new_two_iff (creator : Bytes → Option BlockCipher) (key1 key2 : Bytes) (size : Int) (b1 b2 : BlockCipher) (n : Nat) :
    (newTwo creator key1 key2 size = .ok (b1, b2, n) ↔
      creator key1 = some b1 ∧ creator key2 = some b2 ∧ 1 ≤ size ∧ size ≤ b1.bs ∧ (n : Int) = size) ∧
    (newTwo creator key1 key2 size = .panic ↔ ∀ b1 b2 n, newTwo creator key1 key2 size ≠ .ok (b1, b2, n)) := by
  unfold newTwo
  constructor
  · constructor
    · intro h
      split at h
      · simp at h
      · rename_i b hb
        split at h
        · simp at h
        · rename_i hs
          unfold badSize at hs
          split at h
          · simp at h
          · rename_i b' hb'
            simp only [Res.ok.injEq, Prod.mk.injEq] at h
            obtain ⟨rfl, rfl, rfl⟩ := h
            exact ⟨hb, hb', by omega, by omega, by omega⟩
    · rintro ⟨h1, h2, h3, h4, h5⟩
      simp only [h1, h2]
      rw [if_neg (by unfold badSize; omega), ← h5]; simp
  · constructor
    · intro h _ _ _; rw [h]; simp
    · intro h
      split at h
      · rfl
      · split at h
        · rename_i h1 h2; simp only [if_pos h2]
        · rename_i h1 h2
          split at h
          · simp only [if_neg h2]
          · exact absurd rfl (h _ _ _)

/-- The third key of MAC-DES is the second one with every second nibble complemented (ISO/IEC 9797-1, 7.4). -/
theorem C46_new_macdes_iff (creator : Bytes → Option BlockCipher) (key1 key2 : Bytes) (size : Int) (b1 b2 b3 : BlockCipher) (n : Nat) :
    newMacDes creator key1 key2 size = .ok (b1, b2, b3, n) ↔
      creator key1 = some b1 ∧ creator key2 = some b2 ∧ creator (key2.map (· ^^^ 0xF0)) = some b3 ∧
        1 ≤ size ∧ size ≤ b1.bs ∧ (n : Int) = size := by
  unfold newMacDes
  constructor
  · intro h
    split at h
    · simp at h
    · rename_i b hb
      split at h
      · simp at h
      · rename_i hs
        unfold badSize at hs
        split at h
        · simp at h
        · rename_i b' hb'
          split at h
          · simp at h
          · rename_i b'' hb''
            simp only [Res.ok.injEq, Prod.mk.injEq] at h
            obtain ⟨rfl, rfl, rfl, rfl⟩ := h
            exact ⟨hb, hb', hb'', by omega, by omega, by omega⟩
  · rintro ⟨h1, h2, h2', h3, h4, h5⟩
    simp only [h1, h2, h2']
    rw [if_neg (by unfold badSize; omega), ← h5]; simp

/-- The two keys of LMAC are the encryptions of the block numbers 1 and 2 under the given key. -/
theorem C46_new_lmac_iff (creator : Bytes → Option BlockCipher) (key : Bytes) (size : Int) (b1 b2 : BlockCipher) (n : Nat) :
    newLmac creator key size = .ok (b1, b2, n) ↔
      ∃ b, creator key = some b ∧ creator (b.E (natBe b.bs 1)) = some b1 ∧ creator (b.E (natBe b.bs 2)) = some b2 ∧
        1 ≤ size ∧ size ≤ b.bs ∧ (n : Int) = size := by
  have e : ∀ (m k : Nat), 0 < m → k < 256 → (List.replicate m (0 : Byte)).set (m - 1) (BitVec.ofNat 8 k) = natBe m k := by
    intro m k hm hk
    obtain ⟨m, rfl⟩ : ∃ j, m = j + 1 := ⟨m - 1, by omega⟩
    rw [Nat.add_sub_cancel]
    clear hm
    induction m with
    | zero => rw [natBe_cons]; simp; rfl
    | succ m ih =>
      rw [natBe_cons, ← ih]
      rw [List.replicate_succ, List.set_cons_succ]
      have : k / 256 ^ (m + 1) = 0 := Nat.div_eq_of_lt (by rw [Nat.pow_succ]; have := Nat.pos_of_ne_zero (show 256 ^ m ≠ 0 by simp); nlinarith)
      rw [this]; rfl
  have e1 := fun b : BlockCipher => e b.bs 1 b.bs_pos (by omega)
  have e2 := fun b : BlockCipher => e b.bs 2 b.bs_pos (by omega)
  unfold newLmac
  constructor
  · intro h
    split at h
    · simp at h
    · rename_i b hb
      split at h
      · simp at h
      · rename_i hs
        unfold badSize at hs
        split at h
        · simp at h
        · rename_i b' hb'
          split at h
          · simp at h
          · rename_i b'' hb''
            simp only [Res.ok.injEq, Prod.mk.injEq] at h
            obtain ⟨rfl, rfl, rfl⟩ := h
            refine ⟨b, hb, ?_, ?_, by omega, by omega, by omega⟩
            · rw [← e1]; exact hb'
            · rw [← e2]; exact hb''
  · rintro ⟨b, h1, h2, h2', h3, h4, h5⟩
    rw [← e1] at h2
    rw [← e2] at h2'
    simp only [h1]
    rw [if_neg (by unfold badSize; omega)]
    rw [show (1 : Byte) = BitVec.ofNat 8 1 from rfl, show (2 : Byte) = BitVec.ofNat 8 2 from rfl]
    simp only [h2, h2']
    rw [← h5]; simp

/-! Non-vacuity: concrete ciphers, keys and messages. -/

example : ∃ b1 b2 n, newTwo (toyKeyed 4) [1, 2, 3, 4] [5, 6, 7, 8] 3 = .ok (b1, b2, n) := ⟨_, _, _, rfl⟩
example : ∃ b1 b2 b3 n, newMacDes (toyKeyed 4) [1, 2, 3, 4] [5, 6, 7, 8] 3 = .ok (b1, b2, b3, n) := ⟨_, _, _, _, rfl⟩
example : ∃ b1 b2 n, newLmac (toyKeyed 4) [1, 2, 3, 4] 3 = .ok (b1, b2, n) := ⟨_, _, _, rfl⟩
example : newTwo (toyKeyed 4) [1, 2, 3] [5, 6, 7, 8] 3 = .panic := rfl
example : tagOf (emacM (fun _ => 0) (toyCipher 4 (by decide)) (toyCipher 4 (by decide)) 3 ⟨fun a => BitVec.ofNat 8 a, 100⟩ ⟨10, 6, 6⟩) =
    some ((Spec.emac (toyCipher 4 (by decide)).E (toyCipher 4 (by decide)).E 4 [10, 11, 12, 13, 14, 15]).take 3) := by decide +kernel
example : Spec.Whole 4 ((⟨fun a => BitVec.ofNat 8 a, 100⟩ : Heap).bytes ⟨10, 8, 8⟩) := by decide +kernel
example : (⟨10, 8, 8⟩ : Slice).Valid ⟨fun a => BitVec.ofNat 8 a, 100⟩ := ⟨by decide, by decide⟩
/-- Two heaps as in `C46_cbcr_collision_violated`. -/
example : (⟨fun a => BitVec.ofNat 8 a, 100⟩ : Heap).bytes ⟨10, 6, 6⟩ = [10, 11, 12, 13] ++ 14 :: [15] ∧
    (⟨fun a => if a = 14 then 0x8e else BitVec.ofNat 8 a, 100⟩ : Heap).bytes ⟨10, 6, 6⟩ = [10, 11, 12, 13] ++ (14 ^^^ 0x80) :: [15] := by
  decide +kernel
/-- Two heaps as in `C46_trcbc_collision_violated`. -/
example : (⟨fun a => if a = 16 then 0x80 else if a = 17 then 0 else BitVec.ofNat 8 a, 100⟩ : Heap).bytes ⟨10, 8, 8⟩ =
    Spec.pad2 4 ((⟨fun a => BitVec.ofNat 8 a, 100⟩ : Heap).bytes ⟨10, 6, 6⟩) := by decide +kernel

end Verif.Mac
