import Verif.Hctr.Model
import Verif.Hctr.Spec
import Verif.Aead.CcmLemmas
/-
Lemmas for C38 and C47 (HCTR): the counter mode and the two passes.
-/
namespace Verif.Hctr
open Verif.Mode.Spec (natBe beNat)

/-! Key stream. -/

theorem ctrBlk_length (base : Bytes) (i : Nat) (h : base.length = 16) : (ctrBlk base i).length = 16 := by
  unfold ctrBlk
  rw [xorb_length, List.length_append, List.length_replicate, Mode.natBe_len, h]; rfl

theorem stream_length (c : BlockCipher) (h16 : c.bs = 16) (S : Bytes) (hS : S.length = 16) (i n : Nat) :
    (Spec.stream c.E S i n).length = 16 * n := by
  induction n generalizing i with
  | zero => rfl
  | succ n ih =>
    rw [Spec.stream, List.length_append, ih, c.lenE, h16]
    · omega
    · have := ctrBlk_length S i hS; unfold ctrBlk at this; rw [h16]; exact this

theorem stream_add (E : Bytes → Bytes) (S : Bytes) (i a b : Nat) :
    Spec.stream E S i (a + b) = Spec.stream E S i a ++ Spec.stream E S (i + a) b := by
  induction a generalizing i with
  | zero => simp [Spec.stream]
  | succ a ih =>
    rw [show a + 1 + b = (a + b) + 1 by omega, Spec.stream, Spec.stream, ih, List.append_assoc, show i + 1 + a = i + (a + 1) by omega]

theorem stream_range (E : Bytes → Bytes) (S : Bytes) (i n : Nat) :
    ((List.range n).map fun j => E (ctrBlk S (i + j))).flatten = Spec.stream E S i n := by
  induction n with
  | zero => rfl
  | succ n ih =>
    rw [List.range_succ, List.map_append, List.flatten_append, ih, stream_add]
    simp [Spec.stream, ctrBlk]

theorem blkOp_16 (c : BlockCipher) (h16 : c.bs = 16) (f : Bytes → Bytes) (hf : ∀ x : Bytes, x.length = 16 → (f x).length = 16)
    (dst src : Bytes) (hd : dst.length = 16) (hs : src.length = 16) : blkOp c f dst src = .ok (f src) := by
  unfold blkOp
  rw [if_neg (by omega), h16, List.take_of_length_le (by omega)]
  unfold copyInto
  have := hf src hs
  rw [List.take_of_length_le (by omega), List.drop_of_length_le (by omega), List.append_nil]

/-- Two slices are the same place, or do not meet. -/
def Sep (p q n : Nat) : Prop := p = q ∨ p + n ≤ q ∨ q + n ≤ p ∨ n = 0

theorem ctrLoop_eq (c : BlockCipher) (h16 : c.bs = 16) (base : Bytes) (hb : base.length = 16) (fuel : Nat) (m : Mem) (dst src : Slice)
    (i : Nat) (hf : src.len ≤ fuel) (hl : src.len ≤ dst.len) (hsep : Sep dst.ptr src.ptr src.len) :
    ctrLoop c base fuel m dst src i =
      .ok (m.write dst.ptr (xorb (m.read src.ptr src.len) (Spec.stream c.E base i ((src.len + 15) / 16)))) := by
  induction fuel generalizing m dst src i with
  | zero =>
    have h0 : src.len = 0 := by omega
    unfold ctrLoop
    rw [h0]
    simp [Mem.read, xorb, Mem.write_nil]
  | succ fuel ih =>
    unfold ctrLoop
    by_cases h0 : src.len > 0
    · rw [if_pos h0, blkOp_16 c h16 c.E (by rw [← h16]; exact c.lenE) _ _ (ctrBlk_length _ _ hb) (ctrBlk_length _ _ hb)]
      simp only [Res.bind_ok]
      rw [if_neg (by omega)]
      have hk : (c.E (ctrBlk base i)).length = 16 := by
        have := c.lenE (ctrBlk base i) (by rw [ctrBlk_length _ _ hb, h16]); rw [this, h16]
      obtain ⟨n, hn⟩ : ∃ n, n = min src.len 16 := ⟨_, rfl⟩
      rw [← hn]
      have hx : (xorb (m.read src.ptr n) (c.E (ctrBlk base i))).length = n := by
        rw [xorb_length, Mem.read_length, hk]; omega
      rw [ih _ _ _ _ (by simp only; omega) (by simp only; omega) (by unfold Sep at hsep ⊢; simp only; omega)]
      simp only
      rw [Mem.read_write_disjoint _ _ _ _ _ (by unfold Sep at hsep; omega)]
      have hr : m.read src.ptr src.len = m.read src.ptr n ++ m.read (src.ptr + n) (src.len - n) := by
        rw [← Mem.read_append]; congr 1; omega
      have hst : Spec.stream c.E base i ((src.len + 15) / 16) =
          c.E (ctrBlk base i) ++ Spec.stream c.E base (i + 1) ((src.len - n + 15) / 16) := by
        have : (src.len + 15) / 16 = (src.len - n + 15) / 16 + 1 := by omega
        rw [this]; rfl
      rw [hr, hst]
      by_cases hc : n = 16
      · rw [xorb_append _ _ _ _ (by rw [Mem.read_length, hk, hc]), Mem.write_append, hx]
      · have hz : src.len - n = 0 := by omega
        rw [hz]
        simp only [Mem.read, List.map_nil, List.append_nil, List.range_zero, xorb, List.zipWith_nil_left, Mem.write_nil]
        have e := List.append_nil (c.E (ctrBlk base i))
        simp [Spec.stream, e]
    · rw [if_neg h0]
      have h0 : src.len = 0 := by omega
      rw [h0]
      simp [Mem.read, xorb, Mem.write_nil]

theorem batch_eq (c : BlockCipher) (h16 : c.bs = 16) (base : Bytes) (hb : base.length = 16) (n : Nat) (hn : 0 < n) (fuel : Nat)
    (m : Mem) (dst src : Slice) (i : Nat) (hl : src.len ≤ dst.len) (hsep : Sep dst.ptr src.ptr src.len) :
    (batchLoop c base n fuel m dst src i >>= fun r => ctrLoop c base r.2.2.1.len r.1 r.2.1 r.2.2.1 r.2.2.2) =
      .ok (m.write dst.ptr (xorb (m.read src.ptr src.len) (Spec.stream c.E base i ((src.len + 15) / 16)))) := by
  induction fuel generalizing m dst src i with
  | zero => exact ctrLoop_eq c h16 base hb _ m dst src i (Nat.le_refl _) hl hsep
  | succ fuel ih =>
    unfold batchLoop
    by_cases h0 : src.len ≥ n * 16
    · rw [if_pos h0]
      simp only
      rw [if_neg (by omega), stream_range]
      have hk := stream_length c h16 base hb i n
      have hx : (xorb (m.read src.ptr (n * 16)) (Spec.stream c.E base i n)).length = n * 16 := by
        rw [xorb_length, Mem.read_length, hk]; omega
      rw [ih _ _ _ _ (by simp only; omega) (by unfold Sep at hsep ⊢; simp only; omega)]
      simp only
      rw [Mem.read_write_disjoint _ _ _ _ _ (by unfold Sep at hsep; omega)]
      have hr : m.read src.ptr src.len = m.read src.ptr (n * 16) ++ m.read (src.ptr + n * 16) (src.len - n * 16) := by
        rw [← Mem.read_append]; congr 1; omega
      have hq : (src.len + 15) / 16 = n + (src.len - n * 16 + 15) / 16 := by omega
      rw [hr, hq, stream_add, xorb_append _ _ _ _ (by rw [Mem.read_length, hk]; omega), Mem.write_append, hx]
    · rw [if_neg h0]
      exact ctrLoop_eq c h16 base hb _ m dst src i (Nat.le_refl _) hl hsep

theorem ctr_eq (s : St) (h16 : s.c.bs = 16) (hc : s.conc ≠ some 0) (base : Bytes) (hb : base.length = 16) (m : Mem) (dst src : Slice)
    (hl : src.len ≤ dst.len) (hsep : Sep dst.ptr src.ptr src.len) :
    ctr s base m dst src = .ok (m.write dst.ptr (Spec.ctr s.c.E base (m.read src.ptr src.len))) := by
  unfold ctr Spec.ctr
  rw [Mem.read_length]
  match h : s.conc with
  | none => exact ctrLoop_eq s.c h16 base hb _ m dst src 1 (Nat.le_refl _) hl hsep
  | some 0 => exact absurd h hc
  | some (n + 1) => exact batch_eq s.c h16 base hb (n + 1) (by omega) _ m dst src 1 hl hsep

theorem ctr_length (c : BlockCipher) (h16 : c.bs = 16) (S : Bytes) (hS : S.length = 16) (X : Bytes) : (Spec.ctr c.E S X).length = X.length := by
  unfold Spec.ctr
  rw [xorb_length, stream_length c h16 S hS]; omega

theorem ctr_ctr (c : BlockCipher) (h16 : c.bs = 16) (S : Bytes) (hS : S.length = 16) (X : Bytes) :
    Spec.ctr c.E S (Spec.ctr c.E S X) = X := by
  have hl := ctr_length c h16 S hS X
  unfold Spec.ctr at hl ⊢
  rw [hl]
  have := stream_length c h16 S hS 1 ((X.length + 15) / 16)
  apply List.ext_getElem
  · rw [xorb_length, hl, this]; omega
  · intro i h1 h2
    rw [xorb_getElem, xorb_getElem, BitVec.xor_assoc, BitVec.xor_self, BitVec.xor_zero]

end Verif.Hctr
