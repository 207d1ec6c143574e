import Verif.Aead.OcbCore
import Verif.Aead.Ocb3Props
/-
C35: OCB (mode/ocb).  The specification is OcbSpec.lean (RFC 7253); the vocabulary is in Base.lean.  `ocbNew` is
`NewWithNonceAndTagSize`, `ocbSeal`/`ocbOpen` are `Seal`/`Open` with the object they leave behind.
-/
namespace Verif.Aead
open Verif.Mode.Spec (natBe beNat)

/-! Vocabulary. -/

/-- The bytes between the length and the capacity of a slice. -/
def spareOf (s : Slice) : Slice := ⟨s.ptr + s.len, s.cap - s.len, s.cap - s.len⟩

/-- Two slices have no byte in common. -/
def Disj (x y : Slice) : Prop := x.len = 0 ∨ y.len = 0 ∨ x.ptr + x.len ≤ y.ptr ∨ y.ptr + y.len ≤ x.ptr

/-- The objects that the constructor and any sequence of calls on any buffers can produce. -/
inductive OcbReach (c : BlockCipher) (ns ts : Nat) : Ocb → Prop
  | new {o} : ocbNew c ns ts = .ok o → OcbReach c ns ts o
  | sealed {o slack h dst nonce pt ad h' r o'} : OcbReach c ns ts o →
      ocbSeal slack c o h dst nonce pt ad = .ok (h', r, o') → OcbReach c ns ts o'
  | opened {o slack h dst nonce ct ad h' r o'} : OcbReach c ns ts o →
      ocbOpen slack c o h dst nonce ct ad = .ok (h', r, o') → OcbReach c ns ts o'

/-- `Appended`, but the call also wrote on `[lo, hi)`. -/
structure AppendedBut (h : Heap) (dst : Slice) (X : Bytes) (h' : Heap) (r : Slice) (lo hi : Nat) : Prop where
  valid : r.Valid h'
  bytes : h'.bytes r = h.bytes dst ++ X
  frame : ∀ a, a < h.brk → (dst.len + X.length ≤ dst.cap → a < dst.ptr + dst.len ∨ dst.ptr + dst.len + X.length ≤ a) →
    (a < lo ∨ hi ≤ a) → h'.mem a = h.mem a
  brk : h.brk ≤ h'.brk

/-! Reachable objects are sound. -/

theorem OcbReach.ok {c : BlockCipher} {ns ts : Nat} {o : Ocb} (hr : OcbReach c ns ts o) : o.OK c ns ts := by
  induction hr with
  | new h => have := ocbNew_ok h (by omega); simpa using this
  | sealed hr h ih =>
    rename_i o slack h0 dst nonce pt ad h' r o'
    unfold ocbSeal at h
    split at h
    · simp at h
    · rename_i hn
      split at h
      · simp at h
      · simp only at h
        by_cases hn1 : nonce.len = 0
        · unfold ocbCryptM ocbInit at h
          rw [if_pos (by unfold Heap.bytes; rw [Mem.read_length]; exact hn1)] at h
          simp [Res.bind_panic] at h
        · obtain ⟨h1, o1, g1, g2⟩ := ocbCryptM_state slack false ih (sliceForAppend h0 dst (pt.len + o.tagSize.toNat)).1
            (sliceForAppend h0 dst (pt.len + o.tagSize.toNat)).2.2 nonce pt ad (by omega) (by have := ih.nonce; omega)
          rw [g1, Res.bind_ok] at h
          simp only [Res.ok.injEq, Prod.mk.injEq] at h
          rw [← h.2.2]; exact g2
  | opened hr h ih =>
    rename_i o slack h0 dst nonce ct ad h' r o'
    unfold ocbOpen at h
    split at h
    · simp at h
    · rename_i hn
      split at h
      · simp at h
      · split at h
        · simp only [Res.ok.injEq, Prod.mk.injEq] at h
          rw [← h.2.2]; exact ih
        · simp only at h
          by_cases hn1 : nonce.len = 0
          · unfold ocbCryptM ocbInit at h
            rw [if_pos (by unfold Heap.bytes; rw [Mem.read_length]; exact hn1)] at h
            simp [Res.bind_panic] at h
          · obtain ⟨h1, o1, g1, g2⟩ := ocbCryptM_state slack true ih (sliceForAppend h0 dst ct.len).1
              (sliceForAppend h0 dst ct.len).2.2 nonce ⟨ct.ptr, ct.len - o.tagSize.toNat, ct.cap⟩ ad (by omega) (by have := ih.nonce; omega)
            rw [g1, Res.bind_ok] at h
            split at h <;>
            · simp only [Res.ok.injEq, Prod.mk.injEq] at h
              rw [← h.2.2]; exact g2

/-! The properties. -/

/-- C35: the constructor accepts exactly 16-byte block ciphers, nonces of 1 to 15 bytes and tags of at most 16 bytes. -/
theorem C35_new_ok_iff (c : BlockCipher) (ns ts : Int) :
    (∃ o, ocbNew c ns ts = .ok o) ↔ c.bs = 16 ∧ 1 ≤ ns ∧ ns ≤ 15 ∧ ts ≤ 16 := by
  unfold ocbNew
  by_cases h1 : c.bs ≠ 16
  · rw [if_pos h1]; simp; intro h; exact absurd h h1
  · have h16 : c.bs = 16 := by omega
    rw [if_neg h1]
    split
    · simp; omega
    · split
      · simp; omega
      · split
        · simp; omega
        · simp only
          rw [h16, gfnDouble_eq _ (lenE16 h16 _ (by simp)), Res.bind_ok, gfnDouble_eq _ (gfDouble_length _), Res.bind_ok]
          simp; omega

section
variable {c : BlockCipher} {o : Ocb} {ns ts : Nat}

theorem sfa_tail_cap (h : Heap) (dst : Slice) (n : Nat) :
    (sliceForAppend h dst n).2.2.cap = if dst.len + n ≤ dst.cap then dst.cap - dst.len else n := by
  unfold sliceForAppend; split <;> rfl

theorem sfa_tail_valid {h : Heap} {dst : Slice} {n : Nat} (vd : dst.Valid h) :
    (sliceForAppend h dst n).2.2.Valid (sliceForAppend h dst n).1 := by
  obtain ⟨h1, h2⟩ := vd
  unfold sliceForAppend Slice.Valid
  split
  · simp only; omega
  · simp only; omega

theorem _root_.Verif.Slice.Valid.mono {s : Slice} {h h' : Heap} (v : s.Valid h) (hb : h.brk ≤ h'.brk) : s.Valid h' :=
  ⟨v.1, Nat.le_trans v.2 hb⟩

/-- C35 (partial: the buffers must not overlap, see `C35_seal_inplace_violated`; and the spare capacity of the plaintext
is written, see `C35_seal_clobbers_violated`): on every reachable object, `Seal` with a nonce of 1 to `ns` bytes appends
the RFC 7253 ciphertext and tag to dst, whatever calls were made before. -/
theorem C35_seal_spec_partial (hr : OcbReach c ns ts o) (slack : Nat → Nat) (h : Heap) (dst nonce pt ad : Slice)
    (vd : dst.Valid h) (vn : nonce.Valid h) (vp : pt.Valid h) (va : ad.Valid h) (hn1 : 1 ≤ nonce.len) (hn : nonce.len ≤ ns)
    (ap : Apart dst (pt.len + ts) pt) (aa : Apart dst (pt.len + ts) ad)
    (sp : 16 ∣ pt.len ∨ (Disj ad (spareOf pt) ∧ Disj dst (spareOf pt) ∧ Apart dst (pt.len + ts) (spareOf pt))) :
    ∃ h' r o', ocbSeal slack c o h dst nonce pt ad = .ok (h', r, o') ∧
      AppendedBut h dst (Spec.ocb c.E ts (h.bytes nonce) (h.bytes pt) (h.bytes ad)) h' r
        (pt.ptr + pt.len) (if 16 ∣ pt.len then 0 else pt.ptr + pt.cap) := by
  have ho := hr.ok
  have hts : o.tagSize.toNat = ts := by rw [ho.tag]; rfl
  have hns := ho.nonce
  have b0 := @sfa_brk h dst (pt.len + ts)
  have b1 : (sliceForAppend h dst (pt.len + ts)).1.bytes nonce = h.bytes nonce := sfa_bytes vn
  have b2 : (sliceForAppend h dst (pt.len + ts)).1.bytes pt = h.bytes pt := sfa_bytes vp
  have b3 : (sliceForAppend h dst (pt.len + ts)).1.bytes ad = h.bytes ad := sfa_bytes va
  obtain ⟨t1, t2⟩ := @sfa_tail h dst (pt.len + ts)
  obtain ⟨u1, u2⟩ := @sfa_head h dst (pt.len + ts)
  have x1 := sfa_apart vp ap
  have x2 := sfa_apart va aa
  have hpl : (h.bytes pt).length = pt.len := Mem.read_length ..
  have hX : (Spec.ocb c.E ts (h.bytes nonce) (h.bytes pt) (h.bytes ad)).length = pt.len + ts := by
    rw [ocb_length ho.h16 ts ho.tag16, hpl]
  have happ := sfa_appended vd (Spec.ocb c.E ts (h.bytes nonce) (h.bytes pt) (h.bytes ad)) hX
  have hvp := vp
  have hva := va
  obtain ⟨vp1, vp2⟩ := hvp
  obtain ⟨va1, va2⟩ := hva
  unfold ocbSeal
  rw [if_neg (by omega), if_neg (by have := ho.tag; omega), hts]
  simp only
  obtain ⟨h', o', g1, g2, g3⟩ := ocbCryptM_eq slack false ho (sliceForAppend h dst (pt.len + ts)).1
    (sliceForAppend h dst (pt.len + ts)).2.2 nonce pt ad (vp.mono b0) (sfa_tail_valid vd) t2 (va.mono b0) hn1 hn
    (by rw [t1]; omega) (by rw [t1]; omega) (by
      simp only [Bool.false_eq_true, if_false]
      rcases sp with sp | ⟨sp, _, _⟩
      · left; omega
      · unfold Disj spareOf at sp; simp only at sp; omega)
  simp only [Bool.false_eq_true, if_false] at g3
  rw [g1, Res.bind_ok]
  rw [b1, b2, b3, t1] at g3
  refine ⟨h', _, o', rfl, ?_⟩
  obtain ⟨w1, w2⟩ := g3
  have w2' : ∀ a, a < (sliceForAppend h dst (pt.len + ts)).1.brk →
      (a < pt.ptr + pt.len ∨ (if pt.len % 16 = 0 then 0 else pt.ptr + pt.cap) ≤ a) →
      h'.mem a = (sliceForAppend h dst (pt.len + ts)).1.mem.write (tailAt h dst (pt.len + ts))
        (Spec.ocb c.E ts (h.bytes nonce) (h.bytes pt) (h.bytes ad)) a := fun a ha hor => w2 a ha (Or.inl hor)
  have hdv : (16 ∣ pt.len) ↔ pt.len % 16 = 0 := Nat.dvd_iff_mod_eq_zero
  refine ⟨happ.valid.mono w1, ?_, ?_, Nat.le_trans b0 w1⟩
  · rw [← happ.bytes]
    unfold Heap.bytes
    apply Mem.read_congr
    intro a ha1 ha2
    have hv := happ.valid
    unfold Slice.Valid at hv
    simp only at hv
    apply w2' a (by omega)
    rcases sp with sp | ⟨_, sp, sp2⟩
    · rw [if_pos (hdv.mp sp)]; right; omega
    · by_cases hz : pt.len % 16 = 0
      · rw [if_pos hz]; right; omega
      · rw [if_neg hz]
        have sp2 := sp2
        unfold Apart spareOf at sp2
        unfold Disj spareOf at sp
        simp only at sp2 sp
        unfold tailAt at u1
        by_cases hf : dst.len + (pt.len + ts) ≤ dst.cap
        · rw [if_pos hf] at u1
          have := sp2 hf
          have hp : (sliceForAppend h dst (pt.len + ts)).2.1.ptr = dst.ptr := by omega
          rw [hp, u2] at ha2
          rw [hp] at ha1
          by_cases ha3 : a < dst.ptr + dst.len
          · omega
          · omega
        · rw [if_neg hf] at u1
          right; omega
  · intro a ha hor hor2
    rw [w2' a (by omega) (by
      by_cases hz : pt.len % 16 = 0
      · rw [if_pos hz]; right; omega
      · rw [if_neg hz]; rw [if_neg (fun hh => hz (hdv.mp hh))] at hor2; exact hor2)]
    exact happ.frame a ha hor

/-- C35: if the plaintext has no spare capacity or is a whole number of blocks, `Seal` writes nothing but its result. -/
theorem C35_seal_exact_partial (hr : OcbReach c ns ts o) (slack : Nat → Nat) (h : Heap) (dst nonce pt ad : Slice)
    (vd : dst.Valid h) (vn : nonce.Valid h) (vp : pt.Valid h) (va : ad.Valid h) (hn1 : 1 ≤ nonce.len) (hn : nonce.len ≤ ns)
    (ap : Apart dst (pt.len + ts) pt) (aa : Apart dst (pt.len + ts) ad) (sp : 16 ∣ pt.len ∨ pt.cap = pt.len) :
    ∃ h' r o', ocbSeal slack c o h dst nonce pt ad = .ok (h', r, o') ∧
      Appended h dst (Spec.ocb c.E ts (h.bytes nonce) (h.bytes pt) (h.bytes ad)) h' r := by
  obtain ⟨h', r, o', g1, g2⟩ := C35_seal_spec_partial hr slack h dst nonce pt ad vd vn vp va hn1 hn ap aa (by
    rcases sp with sp | sp
    · exact Or.inl sp
    · refine Or.inr ⟨Or.inr (Or.inl ?_), Or.inr (Or.inl ?_), fun _ => Or.inl ?_⟩ <;> (unfold spareOf; simp only; omega))
  refine ⟨h', r, o', g1, g2.valid, g2.bytes, fun a ha hor => g2.frame a ha hor ?_, g2.brk⟩
  split
  · right; omega
  · rename_i hh
    rcases sp with sp | sp
    · exact absurd sp hh
    · rw [sp]; omega

/-- C35: which calls of `Seal` panic. -/
theorem C35_seal_panics_iff (hr : OcbReach c ns ts o) (slack : Nat → Nat) (h : Heap) (dst nonce pt ad : Slice) :
    ocbSeal slack c o h dst nonce pt ad = .panic ↔ nonce.len = 0 ∨ ns < nonce.len := by
  have ho := hr.ok
  have hns := ho.nonce
  unfold ocbSeal
  by_cases h1 : nonce.len > o.nonceSize
  · rw [if_pos h1]; simp only [true_iff]; omega
  · rw [if_neg h1, if_neg (by have := ho.tag; omega)]
    simp only
    by_cases h2 : nonce.len = 0
    · unfold ocbCryptM ocbInit
      rw [if_pos (by unfold Heap.bytes; rw [Mem.read_length]; exact h2)]
      simp only [Res.bind_panic, true_iff]; exact Or.inl h2
    · obtain ⟨h', o', g1, g2⟩ := ocbCryptM_state slack false ho (sliceForAppend h dst (pt.len + o.tagSize.toNat)).1
        (sliceForAppend h dst (pt.len + o.tagSize.toNat)).2.2 nonce pt ad (by omega) (by omega)
      rw [g1, Res.bind_ok]
      simp only [reduceCtorEq, false_iff]; omega

/-- What `Open` does with an empty dst whose capacity is apart from the inputs. -/
theorem ocbOpen_core (hr : OcbReach c ns ts o) (slack : Nat → Nat) (h : Heap) (dst nonce ct ad : Slice)
    (vd : dst.Valid h) (vn : nonce.Valid h) (vc : ct.Valid h) (va : ad.Valid h) (hn1 : 1 ≤ nonce.len) (hn : nonce.len ≤ ns)
    (hd0 : dst.len = 0) (hl : ts ≤ ct.len) (ap : ct.len ≤ dst.cap → Disj ⟨dst.ptr, dst.cap, dst.cap⟩ ct)
    (aa : ct.len ≤ dst.cap → Disj ⟨dst.ptr, dst.cap, dst.cap⟩ ad) :
    let P := Spec.ocbCrypt c.D c.E ts (h.bytes nonce) ((h.bytes ct).take (ct.len - ts))
    ∃ h' r o', ocbOpen slack c o h dst nonce ct ad = .ok (h', r, o') ∧ h.brk ≤ h'.brk ∧
      (∀ a, a < h.brk → (ct.len ≤ dst.cap → a < dst.ptr ∨ dst.ptr + dst.cap ≤ a) → h'.mem a = h.mem a) ∧
      (if (h.bytes ct).drop (ct.len - ts) = Spec.ocbTag c.E ts (h.bytes nonce) (h.bytes ad) P
        then ∃ s : Slice, r = some s ∧ s.Valid h' ∧ h'.bytes s = P
        else r = none ∧ (ct.len ≤ dst.cap → h'.mem.read dst.ptr ct.len = List.replicate ct.len 0)) := by
  intro P
  have ho := hr.ok
  have hts : o.tagSize.toNat = ts := by rw [ho.tag]; rfl
  have hns := ho.nonce
  have b0 := @sfa_brk h dst ct.len
  have b1 : (sliceForAppend h dst ct.len).1.bytes nonce = h.bytes nonce := sfa_bytes vn
  have b2 : (sliceForAppend h dst ct.len).1.bytes ⟨ct.ptr, ct.len - ts, ct.cap⟩ = (h.bytes ct).take (ct.len - ts) := by
    unfold Heap.bytes
    have := vc.1; have := vc.2
    rw [Mem.read_take, Nat.min_eq_left (by omega)]
    exact sfa_read (by simp only; omega)
  have b3 : (sliceForAppend h dst ct.len).1.bytes ad = h.bytes ad := sfa_bytes va
  obtain ⟨t1, t2⟩ := @sfa_tail h dst ct.len
  obtain ⟨u1, u2⟩ := @sfa_head h dst ct.len
  have t3 := sfa_tail_cap h dst ct.len
  have hvv := @sfa_tail_valid h dst ct.len vd
  have hC : (h.bytes ct).length = ct.len := Mem.read_length ..
  have hPl : P.length = ct.len - ts := by
    have := ocbCrypt_length ho.h16 c.D (lenD16 ho.h16) ts (h.bytes nonce) ((h.bytes ct).take (ct.len - ts))
    rw [List.length_take, hC, Nat.min_eq_left (by omega)] at this
    exact this
  have htl := ocbTag_length ho.h16 ts ho.tag16 (h.bytes nonce) (h.bytes ad) P
  have hvc := vc
  have hva := va
  obtain ⟨vc1, vc2⟩ := hvc
  obtain ⟨va1, va2⟩ := hva
  obtain ⟨vd1, vd2⟩ := vd
  rw [hd0] at u1 u2
  have hT : tailAt h dst ct.len = if ct.len ≤ dst.cap then dst.ptr else h.brk := by
    unfold tailAt; rw [hd0, Nat.zero_add, Nat.add_zero, Nat.add_zero]
  rw [hd0, Nat.zero_add, Nat.sub_zero] at t3
  -- places
  have hdc : ct.len = 0 ∨ ct.ptr + ct.len ≤ tailAt h dst ct.len ∨
      tailAt h dst ct.len + (sliceForAppend h dst ct.len).2.2.cap ≤ ct.ptr := by
    rw [hT, t3]
    split
    · rename_i hf; have := ap hf; unfold Disj at this; simp only at this; omega
    · omega
  have hda : ad.len = 0 ∨ (sliceForAppend h dst ct.len).2.2.cap = 0 ∨ ad.ptr + ad.len ≤ tailAt h dst ct.len ∨
      tailAt h dst ct.len + (sliceForAppend h dst ct.len).2.2.cap ≤ ad.ptr := by
    rw [hT, t3]
    split
    · rename_i hf; have := aa hf; unfold Disj at this; simp only at this; omega
    · omega
  have hcap : ct.len ≤ (sliceForAppend h dst ct.len).2.2.cap := by have := hvv.1; rw [t2] at this; exact this
  unfold ocbOpen
  rw [if_neg (by omega), if_neg (by have := ho.tag; omega), hts, if_neg (by omega)]
  simp only
  obtain ⟨h1, o1, g1, g2, g3⟩ := ocbCryptM_eq slack true ho (sliceForAppend h dst ct.len).1
    (sliceForAppend h dst ct.len).2.2 nonce ⟨ct.ptr, ct.len - ts, ct.cap⟩ ad (Slice.Valid.mono (h := h) ⟨by simp only; omega, vc2⟩ b0) hvv
    (by rw [t2]; simp only; omega) (va.mono b0) hn1 hn
    (by rw [t1]; simp only; omega) (by rw [t1]; simp only; omega) (by
      simp only [if_true]
      rw [t1]
      omega)
  simp only [if_true] at g3
  rw [g1, Res.bind_ok]
  simp only
  rw [b1, b2, b3, t1] at g3
  obtain ⟨w1, w2⟩ := g3
  have hW : ∀ p n, (p + n ≤ (sliceForAppend h dst ct.len).1.brk) →
      (p + n ≤ tailAt h dst ct.len + ct.len ∨ tailAt h dst ct.len + (sliceForAppend h dst ct.len).2.2.cap ≤ p) →
      h1.mem.read p n = ((sliceForAppend h dst ct.len).1.mem.write (tailAt h dst ct.len)
        (P ++ Spec.ocbTag c.E ts (h.bytes nonce) (h.bytes ad) P)).read p n := by
    intro p n hp hor
    apply Mem.read_congr
    intro a ha1 ha2
    apply w2 a (by omega)
    by_cases hz : (ct.len - ts) % 16 = 0
    · rw [if_pos hz]; left; right; omega
    · rw [if_neg hz]; omega
  have hpt : (sliceForAppend h dst ct.len).2.1.ptr = tailAt h dst ct.len := by omega
  have hTb : tailAt h dst ct.len + (sliceForAppend h dst ct.len).2.2.cap ≤ (sliceForAppend h dst ct.len).1.brk := by
    have := hvv.2; rw [t1] at this; exact this
  have e1 : h1.mem.read ((sliceForAppend h dst ct.len).2.1.ptr + (ct.len - ts)) ((sliceForAppend h dst ct.len).2.1.len - (ct.len - ts)) =
      Spec.ocbTag c.E ts (h.bytes nonce) (h.bytes ad) P := by
    rw [hpt, u2, Nat.zero_add, show ct.len - (ct.len - ts) = ts by omega, hW _ _ (by omega) (by omega), Mem.write_append, hPl,
      Mem.read_write_self' _ _ _ _ htl]
  have e2 : h1.mem.read (ct.ptr + (ct.len - ts)) ts = (h.bytes ct).drop (ct.len - ts) := by
    unfold Heap.bytes
    rw [Mem.read_drop, show ct.len - (ct.len - ts) = ts by omega]
    by_cases h0 : ts = 0
    · rw [h0]; rfl
    · rw [hW _ _ (by omega) (by omega), Mem.read_write_disjoint _ _ _ _ _ (by
        rw [List.length_append, hPl, htl]; omega)]
      exact sfa_read (by omega)
  have hfr : ∀ a, a < h.brk → (ct.len ≤ dst.cap → a < dst.ptr ∨ dst.ptr + dst.cap ≤ a) → h1.mem a = h.mem a := by
    intro a ha hor
    rw [w2 a (by omega) ?_]
    · rw [hT]
      by_cases hf : ct.len ≤ dst.cap
      · rw [if_pos hf]
        rw [← @sfa_frame h dst ct.len a ha]
        rcases hor hf with h2 | h2
        · exact Mem.write_of_lt _ _ _ _ h2
        · exact Mem.write_of_ge _ _ _ _ (by rw [List.length_append, hPl, htl]; omega)
      · rw [if_neg hf, Mem.write_of_lt _ _ _ _ (by omega)]
        exact sfa_frame a ha
    · rw [hT, t3]
      by_cases hf : ct.len ≤ dst.cap
      · rw [if_pos hf, if_pos hf]
        have := hor hf
        by_cases hz : (ct.len - ts) % 16 = 0
        · rw [if_pos hz]; left; right; omega
        · rw [if_neg hz]; omega
      · rw [if_neg hf]; left; left; omega
  rw [e1, e2, t1]
  by_cases hc : (h.bytes ct).drop (ct.len - ts) = Spec.ocbTag c.E ts (h.bytes nonce) (h.bytes ad) P
  · rw [if_pos hc.symm]
    refine ⟨_, _, _, rfl, by omega, hfr, ?_⟩
    rw [if_pos hc]
    refine ⟨_, rfl, ⟨?_, ?_⟩, ?_⟩
    · have : (sliceForAppend h dst ct.len).2.1.len ≤ (sliceForAppend h dst ct.len).2.1.cap := by
        unfold sliceForAppend; split <;> simp only <;> omega
      simp only; omega
    · have : (sliceForAppend h dst ct.len).2.1.ptr + (sliceForAppend h dst ct.len).2.1.cap ≤ (sliceForAppend h dst ct.len).1.brk := by
        unfold sliceForAppend; split <;> simp only <;> omega
      simp only; omega
    · unfold Heap.bytes
      simp only
      rw [hpt, hW _ _ (by omega) (by omega), ← hPl]
      rw [Mem.write_append, Mem.read_write_disjoint _ _ _ _ _ (Or.inl (Nat.le_refl _)), Mem.read_write_self]
  · rw [if_neg (fun hh => hc hh.symm)]
    refine ⟨_, _, _, rfl, by simp only; omega, ?_, ?_⟩
    · intro a ha hor
      rw [t2, ← hfr a ha hor, hT]
      simp only
      by_cases hf : ct.len ≤ dst.cap
      · rw [if_pos hf]
        rcases hor hf with h2 | h2
        · exact Mem.write_of_lt _ _ _ _ h2
        · exact Mem.write_of_ge _ _ _ _ (by rw [List.length_replicate]; omega)
      · rw [if_neg hf]
        exact Mem.write_of_lt _ _ _ _ (by omega)
    · rw [if_neg hc]
      refine ⟨rfl, fun hf => ?_⟩
      simp only
      rw [hT, if_pos hf, t2, Mem.read_write_self' _ _ _ _ (List.length_replicate ..)]

/-- C35 (partial: dst empty and its capacity apart from the inputs; see the violations below): `Open` accepts the RFC 7253
ciphertext of `P` and returns `P`; no memory but dst's capacity is touched. -/
theorem C35_open_accepts_partial (hr : OcbReach c ns ts o) (slack : Nat → Nat) (h : Heap) (dst nonce ct ad : Slice)
    (vd : dst.Valid h) (vn : nonce.Valid h) (vc : ct.Valid h) (va : ad.Valid h) (hn1 : 1 ≤ nonce.len) (hn : nonce.len ≤ ns)
    (hd0 : dst.len = 0) (ap : ct.len ≤ dst.cap → Disj ⟨dst.ptr, dst.cap, dst.cap⟩ ct)
    (aa : ct.len ≤ dst.cap → Disj ⟨dst.ptr, dst.cap, dst.cap⟩ ad) (P : Bytes)
    (hct : h.bytes ct = Spec.ocb c.E ts (h.bytes nonce) P (h.bytes ad)) :
    ∃ h' r o', ocbOpen slack c o h dst nonce ct ad = .ok (h', some r, o') ∧ r.Valid h' ∧ h'.bytes r = P ∧ h.brk ≤ h'.brk ∧
      (∀ a, a < h.brk → (ct.len ≤ dst.cap → a < dst.ptr ∨ dst.ptr + dst.cap ≤ a) → h'.mem a = h.mem a) := by
  have ho := hr.ok
  have hC : (h.bytes ct).length = ct.len := Mem.read_length ..
  have hlen : ct.len = P.length + ts := by
    have := congrArg List.length hct
    rw [ocb_length ho.h16 _ ho.tag16, hC] at this
    exact this
  have hsplit : (h.bytes ct).take P.length ++ (h.bytes ct).drop P.length = Spec.ocb c.E ts (h.bytes nonce) P (h.bytes ad) := by
    rw [List.take_append_drop, hct]
  obtain ⟨g1, g2⟩ := (ocb_iff ho.h16 _ ho.tag16 _ _ P _ _ (by rw [List.length_take, hC]; omega)).mp hsplit
  obtain ⟨h', r, o', k1, k2, k3, k4⟩ := ocbOpen_core hr slack h dst nonce ct ad vd vn vc va hn1 hn hd0 (by omega) ap aa
  rw [show ct.len - ts = P.length by omega, ← g1, if_pos g2] at k4
  obtain ⟨s, rfl, k5, k6⟩ := k4
  exact ⟨h', s, o', k1, k5, k6, k2, k3⟩

/-- C35: a ciphertext shorter than the tag is rejected, nothing is written. -/
theorem C35_open_short_rejects (hr : OcbReach c ns ts o) (slack : Nat → Nat) (h : Heap) (dst nonce ct ad : Slice) (hn : nonce.len ≤ ns)
    (hl : ct.len < ts) : ocbOpen slack c o h dst nonce ct ad = .ok (h, none, o) := by
  have ho := hr.ok
  have hns := ho.nonce
  have htg := ho.tag
  unfold ocbOpen
  rw [if_neg (by omega), if_neg (by omega), if_pos (by omega)]

/-- C35 (partial as above): every other ciphertext is rejected with an error, no memory but dst's capacity is touched and
the output bytes are zero, so that no plaintext is released. -/
theorem C35_open_rejects_partial (hr : OcbReach c ns ts o) (slack : Nat → Nat) (h : Heap) (dst nonce ct ad : Slice)
    (vd : dst.Valid h) (vn : nonce.Valid h) (vc : ct.Valid h) (va : ad.Valid h) (hn1 : 1 ≤ nonce.len) (hn : nonce.len ≤ ns)
    (hd0 : dst.len = 0) (hl : ts ≤ ct.len) (ap : ct.len ≤ dst.cap → Disj ⟨dst.ptr, dst.cap, dst.cap⟩ ct)
    (aa : ct.len ≤ dst.cap → Disj ⟨dst.ptr, dst.cap, dst.cap⟩ ad)
    (hct : ¬ ∃ P, h.bytes ct = Spec.ocb c.E ts (h.bytes nonce) P (h.bytes ad)) :
    ∃ h' o', ocbOpen slack c o h dst nonce ct ad = .ok (h', none, o') ∧
      (ct.len ≤ dst.cap → h'.mem.read dst.ptr ct.len = List.replicate ct.len 0) ∧
      (∀ a, a < h.brk → (ct.len ≤ dst.cap → a < dst.ptr ∨ dst.ptr + dst.cap ≤ a) → h'.mem a = h.mem a) := by
  have ho := hr.ok
  have hC : (h.bytes ct).length = ct.len := Mem.read_length ..
  have hPl := ocbCrypt_length ho.h16 c.D (lenD16 ho.h16) ts (h.bytes nonce) ((h.bytes ct).take (ct.len - ts))
  obtain ⟨h', r, o', k1, k2, k3, k4⟩ := ocbOpen_core hr slack h dst nonce ct ad vd vn vc va hn1 hn hd0 hl ap aa
  rw [if_neg (by
    intro h0
    refine hct ⟨Spec.ocbCrypt c.D c.E ts (h.bytes nonce) ((h.bytes ct).take (ct.len - ts)), ?_⟩
    have := (ocb_iff ho.h16 ts ho.tag16 (h.bytes nonce) (h.bytes ad)
      (Spec.ocbCrypt c.D c.E ts (h.bytes nonce) ((h.bytes ct).take (ct.len - ts))) ((h.bytes ct).take (ct.len - ts))
      ((h.bytes ct).drop (ct.len - ts)) hPl).mpr ⟨rfl, h0⟩
    rwa [List.take_append_drop] at this)] at k4
  obtain ⟨rfl, k5⟩ := k4
  exact ⟨h', o', k1, k5, k3⟩

/-- C35: which calls of `Open` panic. -/
theorem C35_open_panics_iff (hr : OcbReach c ns ts o) (slack : Nat → Nat) (h : Heap) (dst nonce ct ad : Slice) :
    ocbOpen slack c o h dst nonce ct ad = .panic ↔ ns < nonce.len ∨ (nonce.len = 0 ∧ ts ≤ ct.len) := by
  have ho := hr.ok
  have hns := ho.nonce
  have htg := ho.tag
  unfold ocbOpen
  by_cases h1 : nonce.len > o.nonceSize
  · rw [if_pos h1]; simp only [true_iff]; omega
  · rw [if_neg h1, if_neg (by omega)]
    by_cases h3 : ct.len < o.tagSize.toNat
    · rw [if_pos h3]; simp only [reduceCtorEq, false_iff]; omega
    · rw [if_neg h3]
      simp only
      by_cases h2 : nonce.len = 0
      · unfold ocbCryptM ocbInit
        rw [if_pos (by unfold Heap.bytes; rw [Mem.read_length]; exact h2)]
        simp only [Res.bind_panic, true_iff]; omega
      · obtain ⟨h', o', g1, g2⟩ := ocbCryptM_state slack true ho (sliceForAppend h dst ct.len).1
          (sliceForAppend h dst ct.len).2.2 nonce ⟨ct.ptr, ct.len - o.tagSize.toNat, ct.cap⟩ ad (by omega) (by omega)
        rw [g1, Res.bind_ok]
        split <;> (simp only [reduceCtorEq, false_iff]; omega)

/-- C35: opening what `Seal` returned gives the plaintext back, on any two objects for the same cipher and sizes. -/
theorem C35_roundtrip_partial (hr : OcbReach c ns ts o) {o2 : Ocb} (hr2 : OcbReach c ns ts o2) (slack : Nat → Nat) (h : Heap)
    (nonce pt ad : Slice) (vn : nonce.Valid h) (vp : pt.Valid h) (va : ad.Valid h)
    (hn1 : 1 ≤ nonce.len) (hn : nonce.len ≤ ns) (sp : 16 ∣ pt.len ∨ pt.cap = pt.len) (hpos : 0 < pt.len + ts) :
    ∃ h1 ct o1, ocbSeal slack c o h ⟨0, 0, 0⟩ nonce pt ad = .ok (h1, ct, o1) ∧
      ∃ h2 r o3, ocbOpen slack c o2 h1 ⟨0, 0, 0⟩ nonce ct ad = .ok (h2, some r, o3) ∧ h2.bytes r = h.bytes pt := by
  have ho := hr.ok
  have hPl : (h.bytes pt).length = pt.len := Mem.read_length ..
  have hX := ocb_length ho.h16 ts ho.tag16 (h.bytes nonce) (h.bytes pt) (h.bytes ad)
  rw [hPl] at hX
  have hap : ∀ (n : Nat) x, 0 < n → Apart ⟨0, 0, 0⟩ n x := by intro n x hn hh; simp only at hh; omega
  obtain ⟨h1, ct, o1, g1, g2⟩ := C35_seal_exact_partial hr slack h ⟨0, 0, 0⟩ nonce pt ad ⟨Nat.le_refl _, Nat.zero_le _⟩ vn vp va
    hn1 hn (hap _ _ hpos) (hap _ _ hpos) sp
  refine ⟨h1, ct, o1, g1, ?_⟩
  obtain ⟨wn, bn⟩ := g2.keeps vn (by rw [hX]; exact hap _ _ hpos)
  obtain ⟨wa, ba⟩ := g2.keeps va (by rw [hX]; exact hap _ _ hpos)
  have hb : h1.bytes ct = Spec.ocb c.E ts (h.bytes nonce) (h.bytes pt) (h.bytes ad) := by
    rw [g2.bytes]; rfl
  have hcl : ct.len = pt.len + ts := by
    have := congrArg List.length hb
    rw [hX] at this
    unfold Heap.bytes at this
    rwa [Mem.read_length] at this
  obtain ⟨h2, r, o3, k1, _, k3, _⟩ := C35_open_accepts_partial hr2 slack h1 ⟨0, 0, 0⟩ nonce ct ad ⟨Nat.le_refl _, Nat.zero_le _⟩ wn
    g2.valid wa hn1 hn rfl (by intro hh; simp only at hh; omega) (by intro hh; simp only at hh; omega) (h.bytes pt) (by rw [hb, bn, ba])
  exact ⟨h2, r, o3, k1, k3⟩

/-- C35 violated: `Open(ct[:0], nonce, ct, ad)` accepts every ciphertext that is not shorter than the tag: the received
tag is overwritten with the computed one before the comparison. -/
theorem C35_open_inplace_violated (hr : OcbReach c ns ts o) (slack : Nat → Nat) (h : Heap) (nonce ct ad : Slice)
    (vc : ct.Valid h) (hn1 : 1 ≤ nonce.len) (hn : nonce.len ≤ ns) (hl : ts ≤ ct.len) :
    ∃ h' r o', ocbOpen slack c o h ⟨ct.ptr, 0, ct.cap⟩ nonce ct ad = .ok (h', some r, o') := by
  have ho := hr.ok
  have hns := ho.nonce
  have htg := ho.tag
  have hv := vc.1
  obtain ⟨h', o', g1, g2⟩ := ocbCryptM_state slack true ho (sliceForAppend h ⟨ct.ptr, 0, ct.cap⟩ ct.len).1
    (sliceForAppend h ⟨ct.ptr, 0, ct.cap⟩ ct.len).2.2 nonce ⟨ct.ptr, ct.len - o.tagSize.toNat, ct.cap⟩ ad (by omega) (by omega)
  unfold ocbOpen
  rw [if_neg (by omega), if_neg (by omega), if_neg (by omega)]
  simp only
  rw [g1, Res.bind_ok]
  have : (sliceForAppend h ⟨ct.ptr, 0, ct.cap⟩ ct.len).2.1 = ⟨ct.ptr, ct.len, ct.cap⟩ := by
    unfold sliceForAppend; rw [if_pos (by simp only; omega)]; simp
  rw [this]
  simp only
  rw [show ct.len - (ct.len - o.tagSize.toNat) = o.tagSize.toNat by omega, if_pos rfl]
  exact ⟨_, _, _, rfl⟩

/-- C35 violated: with a non-empty dst, `Open` never accepts: it compares the tag with more bytes than the tag has. -/
theorem C35_open_dst_violated (hr : OcbReach c ns ts o) (slack : Nat → Nat) (h : Heap) (dst nonce ct ad : Slice)
    (hd : 0 < dst.len) : ¬ ∃ h' r o', ocbOpen slack c o h dst nonce ct ad = .ok (h', some r, o') := by
  have ho := hr.ok
  have htg := ho.tag
  rintro ⟨h', r, o', hh⟩
  unfold ocbOpen at hh
  split at hh
  · simp at hh
  · rename_i hn
    split at hh
    · simp at hh
    · split at hh
      · simp at hh
      · simp only at hh
        by_cases hn1 : nonce.len = 0
        · unfold ocbCryptM ocbInit at hh
          rw [if_pos (by unfold Heap.bytes; rw [Mem.read_length]; exact hn1)] at hh
          simp [Res.bind_panic] at hh
        · obtain ⟨h1, o1, g1, g2⟩ := ocbCryptM_state slack true ho (sliceForAppend h dst ct.len).1
            (sliceForAppend h dst ct.len).2.2 nonce ⟨ct.ptr, ct.len - o.tagSize.toNat, ct.cap⟩ ad (by omega) (by have := ho.nonce; omega)
          rw [g1, Res.bind_ok] at hh
          split at hh
          · rename_i he
            have := congrArg List.length he
            rw [Mem.read_length, Mem.read_length, (@sfa_head h dst ct.len).2] at this
            omega
          · simp at hh
end

/-! Non-vacuity and violations. -/

/-- The default sizes are accepted. -/
example : ∃ o, OcbReach demoCipher 15 16 o := by
  obtain ⟨o, ho⟩ := (C35_new_ok_iff demoCipher (15 : Nat) (16 : Nat)).mpr (by decide)
  exact ⟨o, .new ho⟩

/-- A 12-byte nonce, a 21-byte text with spare capacity, and 5 bytes of additional data meet the hypotheses of
`C35_seal_spec_partial`. -/
example : Slice.Valid ⟨40, 2, 50⟩ demoHeap ∧ Slice.Valid ⟨0, 12, 12⟩ demoHeap ∧ Slice.Valid ⟨12, 21, 23⟩ demoHeap ∧
    Slice.Valid ⟨35, 5, 5⟩ demoHeap ∧ Apart ⟨40, 2, 50⟩ (21 + 16) ⟨12, 21, 23⟩ ∧ Apart ⟨40, 2, 50⟩ (21 + 16) ⟨35, 5, 5⟩ ∧
    Disj ⟨35, 5, 5⟩ (spareOf ⟨12, 21, 23⟩) ∧ Disj ⟨40, 2, 50⟩ (spareOf ⟨12, 21, 23⟩) ∧
    Apart ⟨40, 2, 50⟩ (21 + 16) (spareOf ⟨12, 21, 23⟩) := by
  refine ⟨?_, ?_, ?_, ?_, ?_, ?_, ?_, ?_, ?_⟩
  all_goals first | (unfold Slice.Valid demoHeap; simp; done) | (unfold Apart spareOf; simp; done) | (unfold Apart; simp; done) | (unfold Disj spareOf; simp; done)

/-- The object with default sizes over the demo cipher. -/
def demoOcb : Ocb :=
  let l := demoCipher.E (List.replicate 16 0)
  ⟨16, 12, l, Spec.gfDouble l, [Spec.gfDouble (Spec.gfDouble l)], [], []⟩

theorem demoOcb_new : ocbNew demoCipher (12 : Nat) (16 : Nat) = .ok demoOcb := by
  unfold ocbNew
  rw [if_neg (by decide), if_neg (by decide), if_neg (by decide), if_neg (by decide)]
  have h16 : demoCipher.bs = 16 := rfl
  simp only
  rw [h16, gfnDouble_eq _ (lenE16 h16 _ (by simp)), Res.bind_ok, gfnDouble_eq _ (gfDouble_length _), Res.bind_ok]
  rfl

/-- Drop the object. -/
def noObj {α : Type} (r : Res (Heap × α × Ocb)) : Res (Heap × α) := match r with
  | .ok (h, a, _) => .ok (h, a)
  | .err => .err
  | .panic => .panic
  | .hang => .hang

theorem noObj_ok {α : Type} {r : Res (Heap × α × Ocb)} {h : Heap} {a : α} (hh : noObj r = .ok (h, a)) : ∃ o, r = .ok (h, a, o) := by
  unfold noObj at hh
  split at hh
  · simp only [Res.ok.injEq, Prod.mk.injEq] at hh
    obtain ⟨rfl, rfl⟩ := hh
    exact ⟨_, rfl⟩
  all_goals simp at hh

/-- C35 violated: `Seal(p[:0], nonce, p, ad)` (exact overlap) gives a ciphertext that `Open` rejects, because the checksum
is taken from the already overwritten plaintext. -/
theorem C35_seal_inplace_violated :
    ∃ (c : BlockCipher) (o : Ocb) (slack : Nat → Nat) (h : Heap) (dst nonce pt ad : Slice), OcbReach c 12 16 o ∧
      nonce.Valid h ∧ pt.Valid h ∧ ad.Valid h ∧ dst.Valid h ∧ nonce.len = 12 ∧ pt.len = 16 ∧
      InPlace dst (pt.len + 16) pt ∧
      ∃ h1 ct o1 h2 o2, ocbSeal slack c o h dst nonce pt ad = .ok (h1, ct, o1) ∧
        ocbOpen slack c o h1 ⟨0, 0, 0⟩ nonce ct ad = .ok (h2, none, o2) := by
  refine ⟨demoCipher, demoOcb, fun _ => 0, demoHeap, ⟨20, 0, 48⟩, ⟨0, 12, 12⟩, ⟨20, 16, 48⟩, ⟨70, 5, 5⟩, .new demoOcb_new, ?_, ?_, ?_, ?_, rfl, rfl, ?_, ?_⟩
  all_goals first | (unfold Slice.Valid demoHeap; simp; done) | (unfold InPlace; simp; done) | skip
  obtain ⟨h1, ct, h2, e1, e2⟩ := sealThenOpen_rejects
    (s := noObj (ocbSeal (fun _ => 0) demoCipher demoOcb demoHeap ⟨20, 0, 48⟩ ⟨0, 12, 12⟩ ⟨20, 16, 48⟩ ⟨70, 5, 5⟩))
    (o := fun h ct => noObj (ocbOpen (fun _ => 0) demoCipher demoOcb h ⟨0, 0, 0⟩ ⟨0, 12, 12⟩ ct ⟨70, 5, 5⟩)) (by decide +kernel)
  obtain ⟨o1, e1⟩ := noObj_ok e1
  obtain ⟨o2, e2⟩ := noObj_ok e2
  exact ⟨h1, ct, o1, h2, o2, e1, e2⟩

/-- Byte at an address after a call. -/
def byteAfter {α : Type} (r : Res (Heap × α × Ocb)) (a : Nat) : Option Byte := match r with
  | .ok (h, _, _) => some (h.mem a)
  | _ => none

/-- C35 violated: `Seal` overwrites the caller's bytes behind the plaintext, when the plaintext is a part of a longer
buffer. -/
theorem C35_seal_clobbers_violated :
    ∃ (c : BlockCipher) (o : Ocb) (slack : Nat → Nat) (h : Heap) (nonce pt ad : Slice), OcbReach c 12 16 o ∧
      nonce.Valid h ∧ pt.Valid h ∧ ad.Valid h ∧ nonce.len = 12 ∧ pt.len = 5 ∧
      ∃ h1 ct o1, ocbSeal slack c o h ⟨0, 0, 0⟩ nonce pt ad = .ok (h1, ct, o1) ∧
        h1.mem (pt.ptr + pt.len) ≠ h.mem (pt.ptr + pt.len) := by
  refine ⟨demoCipher, demoOcb, fun _ => 0, demoHeap, ⟨0, 12, 12⟩, ⟨20, 5, 48⟩, ⟨70, 5, 5⟩, .new demoOcb_new, ?_, ?_, ?_, rfl, rfl, ?_⟩
  all_goals first | (unfold Slice.Valid demoHeap; simp; done) | skip
  have hb : byteAfter (ocbSeal (fun _ => 0) demoCipher demoOcb demoHeap ⟨0, 0, 0⟩ ⟨0, 12, 12⟩ ⟨20, 5, 48⟩ ⟨70, 5, 5⟩) 25 = some 128 := by
    decide +kernel
  unfold byteAfter at hb
  split at hb
  · rename_i h1 ct o1 he
    refine ⟨h1, ct, o1, he, ?_⟩
    have h2 : h1.mem 25 = 128 := by simpa using hb
    show h1.mem 25 ≠ demoHeap.mem 25
    rw [h2]
    decide
  · simp at hb

end Verif.Aead
