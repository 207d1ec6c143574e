import Verif.Aead.EaxLemmas
import Verif.Aead.CcmProps
/-
C33: EAX.  The specification is EaxSpec.lean; the vocabulary is in Base.lean.  `eaxNew` is the constructor,
`eaxSeal`/`eaxOpen` are `Seal`/`Open`.
-/
namespace Verif.Aead

/-- C33: which parameters the constructor accepts (any block size, and any tag size up to it, even 0 or less). -/
theorem C33_new_ok_iff (c : BlockCipher) (ns ts : Int) :
    (∃ x, eaxNew c ns ts = .ok x) ↔ 1 ≤ ns ∧ ts ≤ c.bs := by
  unfold eaxNew
  constructor
  · rintro ⟨x, hx⟩
    split at hx
    · simp at hx
    · split at hx
      · simp at hx
      · omega
  · intro hh
    rw [if_neg (by omega), if_neg (by omega)]
    exact ⟨_, rfl⟩

theorem eaxNew_ok {c : BlockCipher} {ns ts : Int} {x : Eax} (h : eaxNew c ns ts = .ok x) :
    x.nonceSize = ns.toNat ∧ x.tagSize = ts.toNat ∧ 1 ≤ ns ∧ ts ≤ c.bs := by
  have hh := (C33_new_ok_iff c ns ts).mp ⟨x, h⟩
  unfold eaxNew at h
  rw [if_neg (by omega), if_neg (by omega)] at h
  injection h with h
  subst h
  exact ⟨rfl, rfl, hh⟩

theorem ctr128_length (E : Bytes → Bytes) (iv P : Bytes) : (Spec.ctr128 E iv P).length = P.length := by
  unfold Spec.ctr128; rw [xorb_length]; simp [Mode.Spec.keyBytes]

theorem ctr128_invol (E : Bytes → Bytes) (iv P : Bytes) : Spec.ctr128 E iv (Spec.ctr128 E iv P) = P := by
  have := ctr128_length E iv P
  unfold Spec.ctr128 at this ⊢
  rw [this]
  exact xorb_xorb_cancel_right _ _ (by simp [Mode.Spec.keyBytes])

theorem eaxTagOf_eq (c : BlockCipher) (tau : Nat) (N A C : Bytes) :
    eaxTagOf tau (Spec.omacT c.E 2 C) (Spec.omacT c.E 0 N) (Spec.omacT c.E 1 A) = Spec.eaxTag c.E tau N A C := by
  unfold eaxTagOf Spec.eaxTag
  rw [xorb_comm (Spec.omacT c.E 2 C)]

theorem eaxTag_length (c : BlockCipher) (h16 : c.bs = 16) (tau : Nat) (ht : tau ≤ 16) (N A C : Bytes) :
    (Spec.eaxTag c.E tau N A C).length = tau := by
  unfold Spec.eaxTag
  rw [List.length_take, xorb_length, xorb_length, (eaxOmacT_eq c h16 0 N).2, (eaxOmacT_eq c h16 1 A).2,
    (eaxOmacT_eq c h16 2 C).2]
  omega

section
variable {c : BlockCipher} {ns ts : Int} {x : Eax}

/-- C33: `Seal` appends the EAX ciphertext to dst, whether dst is apart from the plaintext or exactly over it;
nonce and header may lie anywhere. -/
theorem C33_seal_spec (hnew : eaxNew c ns ts = .ok x) (h16 : c.bs = 16) (ht : 0 ≤ ts) (h : Heap)
    (dst nonce pt ad : Slice) (vd : dst.Valid h) (vn : nonce.Valid h) (vp : pt.Valid h) (va : ad.Valid h)
    (hn : nonce.len ≤ ns)
    (ap : Apart dst (pt.len + ts.toNat) pt ∨ InPlace dst (pt.len + ts.toNat) pt) :
    ∃ h' r, eaxSeal c x h dst nonce pt ad = .ok (h', r) ∧
      Appended h dst (Spec.eax c.E ts.toNat (h.bytes nonce) (h.bytes pt) (h.bytes ad)) h' r := by
  obtain ⟨k1, k2, k3, k4⟩ := eaxNew_ok hnew
  have hP : (h.bytes pt).length = pt.len := Mem.read_length ..
  rw [← k2] at ap ⊢
  obtain ⟨e1, e2⟩ := @sfa_tail h dst (pt.len + x.tagSize)
  have hno : ¬ PartialOverlap dst (pt.len + x.tagSize) pt := by
    rcases ap with ap | ap
    · exact not_partial_of_apart ap
    · exact not_partial_of_inPlace ap
  have hov : inexactOverlap (sliceForAppend h dst (pt.len + x.tagSize)).2.2 pt = false := by
    rw [Bool.eq_false_iff]
    intro h0
    exact hno ((inexact_sfa vp).mp h0)
  have hC : (Spec.ctr128 c.E (Spec.omacT c.E 0 (h.bytes nonce)) (h.bytes pt)).length = pt.len := by
    rw [ctr128_length, hP]
  unfold eaxSeal
  rw [if_neg (by omega)]
  simp only
  have b1 : (sliceForAppend h dst (pt.len + x.tagSize)).1.bytes nonce = h.bytes nonce := sfa_bytes vn
  have b2 : (sliceForAppend h dst (pt.len + x.tagSize)).1.bytes ad = h.bytes ad := sfa_bytes va
  rw [b1, b2, (eaxOmacT_eq c h16 0 _).1, Res.bind_ok, (eaxOmacT_eq c h16 1 _).1, Res.bind_ok,
    ctrXor_ok c _ (by rw [(eaxOmacT_eq c h16 0 _).2, h16]) _
      ⟨(sliceForAppend h dst (pt.len + x.tagSize)).2.2.ptr, pt.len, (sliceForAppend h dst (pt.len + x.tagSize)).2.2.cap⟩ pt
      (Nat.le_refl _) (inexact_mono (k := (sliceForAppend h dst (pt.len + x.tagSize)).2.2.len)
            (cp := (sliceForAppend h dst (pt.len + x.tagSize)).2.2.cap) (by rw [e2]; omega) hov), Res.bind_ok]
  simp only
  rw [e1, sfa_bytes vp]
  have e3 : xorb (h.bytes pt) (ctrKs c.E c.bs (Spec.omacT c.E 0 (h.bytes nonce)) pt.len) =
      Spec.ctr128 c.E (Spec.omacT c.E 0 (h.bytes nonce)) (h.bytes pt) := by
    unfold Spec.ctr128 ctrKs; rw [h16, hP]
  rw [e3, Mem.read_write_self' _ _ _ _ hC, (eaxOmacT_eq c h16 2 _).1, Res.bind_ok, eaxTagOf_eq]
  refine ⟨_, _, rfl, ?_⟩
  have := sfa_appended (n := pt.len + x.tagSize) vd
    (Spec.eax c.E x.tagSize (h.bytes nonce) (h.bytes pt) (h.bytes ad)) (by
      unfold Spec.eax
      simp only
      rw [List.length_append, hC, eaxTag_length c h16 _ (by omega)])
  unfold Spec.eax at this ⊢
  simp only at this
  rw [Mem.write_append, hC] at this
  exact this

/-- C33: which calls of `Seal` panic: a cipher whose block size is not 16 (the constructor accepts it), a nonce that
is too long, a plaintext partly overlapped by the place of its ciphertext. -/
theorem C33_seal_panics_iff (hnew : eaxNew c ns ts = .ok x) (h : Heap) (dst nonce pt ad : Slice)
    (vn : nonce.Valid h) (vp : pt.Valid h) (va : ad.Valid h) :
    eaxSeal c x h dst nonce pt ad = .panic ↔ c.bs ≠ 16 ∨ ns < nonce.len ∨
      (dst.len + (pt.len + ts.toNat) ≤ dst.cap ∧ PartialOverlap dst pt.len pt) := by
  obtain ⟨k1, k2, k3, k4⟩ := eaxNew_ok hnew
  obtain ⟨e1, e2⟩ := @sfa_tail h dst (pt.len + x.tagSize)
  rw [← k2]
  unfold eaxSeal
  by_cases c1 : nonce.len > x.nonceSize
  · rw [if_pos c1]; simp only [true_iff]; omega
  · rw [if_neg c1]
    simp only
    by_cases h16 : c.bs = 16
    · have b1 : (sliceForAppend h dst (pt.len + x.tagSize)).1.bytes nonce = h.bytes nonce := sfa_bytes vn
      have b2 : (sliceForAppend h dst (pt.len + x.tagSize)).1.bytes ad = h.bytes ad := sfa_bytes va
      rw [b1, b2, (eaxOmacT_eq c h16 0 _).1, Res.bind_ok, (eaxOmacT_eq c h16 1 _).1, Res.bind_ok]
      unfold ctrXor
      rw [if_neg (by rw [(eaxOmacT_eq c h16 0 _).2, h16]; simp), if_neg (by simp)]
      simp only
      have hiff : inexactOverlap ⟨(sliceForAppend h dst (pt.len + x.tagSize)).2.2.ptr, pt.len,
          (sliceForAppend h dst (pt.len + x.tagSize)).2.2.cap⟩ pt = true ↔
          (dst.len + (pt.len + x.tagSize) ≤ dst.cap ∧ PartialOverlap dst pt.len pt) := by
        have hx1 := vp.1; have hx2 := vp.2
        rw [e1]
        unfold inexactOverlap PartialOverlap anyOverlap tailAt
        by_cases hf : dst.len + (pt.len + x.tagSize) ≤ dst.cap
        · rw [if_pos hf]
          simp only
          by_cases h0 : pt.len = 0 ∨ pt.len = 0 ∨ dst.ptr + dst.len = pt.ptr
          · rw [if_pos h0]; simp only [Bool.false_eq_true, false_iff]; omega
          · rw [if_neg h0]; simp only [Bool.and_eq_true, decide_eq_true_eq]; omega
        · rw [if_neg hf]
          simp only
          by_cases h0 : pt.len = 0 ∨ pt.len = 0 ∨ h.brk + dst.len = pt.ptr
          · rw [if_pos h0]; simp only [Bool.false_eq_true, false_iff]; omega
          · rw [if_neg h0]; simp only [Bool.and_eq_true, decide_eq_true_eq]; omega
      by_cases c3 : inexactOverlap ⟨(sliceForAppend h dst (pt.len + x.tagSize)).2.2.ptr, pt.len,
          (sliceForAppend h dst (pt.len + x.tagSize)).2.2.cap⟩ pt = true
      · rw [if_pos c3, Res.bind_panic]
        simp only [true_iff]
        exact Or.inr (Or.inr (hiff.mp c3))
      · rw [if_neg c3, Res.bind_ok, (eaxOmacT_eq c h16 2 _).1, Res.bind_ok]
        simp only [reduceCtorEq, false_iff]
        rintro (h0 | h0 | h0)
        · exact h0 h16
        · omega
        · exact c3 (hiff.mpr h0)
    · rw [eaxOmacT_panic c h16, Res.bind_panic]
      simp only [true_iff]
      exact Or.inl h16

/-- What `Open` does. -/
theorem eaxOpen_core (hnew : eaxNew c ns ts = .ok x) (h16 : c.bs = 16) (ht : 0 ≤ ts) (h : Heap)
    (dst nonce ct ad : Slice) (hn : nonce.len ≤ ns) (n : Nat) (hl : ct.len = n + x.tagSize) :
    eaxOpen c x h dst nonce ct ad =
      if (h.bytes ct).drop n ≠ Spec.eaxTag c.E x.tagSize (h.bytes nonce) (h.bytes ad) ((h.bytes ct).take n) then .ok (h, none)
      else (ctrXor c (Spec.omacT c.E 0 (h.bytes nonce)) (sliceForAppend h dst ct.len).1.mem
          (sliceForAppend h dst ct.len).2.2 ⟨ct.ptr, n, ct.cap⟩) >>= fun m =>
        .ok (⟨m, (sliceForAppend h dst ct.len).1.brk⟩, some { (sliceForAppend h dst ct.len).2.1 with len := n }) := by
  obtain ⟨k1, k2, k3, k4⟩ := eaxNew_ok hnew
  have hct : (h.bytes ct).take n = h.mem.read ct.ptr n := by
    unfold Heap.bytes; rw [Mem.read_take, hl, Nat.min_eq_left (by omega)]
  have hctd : (h.bytes ct).drop n = h.mem.read (ct.ptr + n) x.tagSize := by
    unfold Heap.bytes; rw [Mem.read_drop, hl, Nat.add_sub_cancel_left]
  unfold eaxOpen
  rw [if_neg (by omega), if_neg (by omega)]
  simp only
  rw [show ct.len - x.tagSize = n by omega, (eaxOmacT_eq c h16 0 _).1, Res.bind_ok, (eaxOmacT_eq c h16 1 _).1, Res.bind_ok,
    (eaxOmacT_eq c h16 2 _).1, Res.bind_ok, eaxTagOf_eq, hct, hctd]

/-- C33 (exact behaviour of a successful `Open` for every dst): the returned slice holds the first `|P|` bytes of
`dst ‖ P`, not `dst ‖ P`. -/
theorem C33_open_exact (hnew : eaxNew c ns ts = .ok x) (h16 : c.bs = 16) (ht : 0 ≤ ts) (h : Heap)
    (dst nonce ct ad : Slice) (vd : dst.Valid h) (vc : ct.Valid h)
    (hn : nonce.len ≤ ns) (P : Bytes)
    (hct : h.bytes ct = Spec.eax c.E ts.toNat (h.bytes nonce) P (h.bytes ad))
    (ap : Apart dst P.length ct ∨ InPlace dst P.length ct) :
    ∃ h' r, eaxOpen c x h dst nonce ct ad = .ok (h', some r) ∧ r.Valid h' ∧
      h'.bytes r = (h.bytes dst ++ P).take P.length ∧ h.brk ≤ h'.brk ∧
      ∀ a, a < h.brk → (dst.len + P.length ≤ dst.cap → a < dst.ptr + dst.len ∨ dst.ptr + dst.len + P.length ≤ a) →
        h'.mem a = h.mem a := by
  obtain ⟨k1, k2, k3, k4⟩ := eaxNew_ok hnew
  rw [← k2] at hct
  have hNl : (h.bytes nonce).length = nonce.len := Mem.read_length ..
  have hcl := ctr128_length c.E (Spec.omacT c.E 0 (h.bytes nonce)) P
  have hlen : ct.len = P.length + x.tagSize := by
    have := congrArg List.length hct
    unfold Spec.eax at this
    simp only at this
    rw [List.length_append, hcl, eaxTag_length c h16 _ (by omega)] at this
    unfold Heap.bytes at this
    rw [Mem.read_length] at this
    exact this
  have htk : (h.bytes ct).take P.length = Spec.ctr128 c.E (Spec.omacT c.E 0 (h.bytes nonce)) P := by
    rw [hct]; exact List.take_left' hcl
  have hd : (h.bytes ct).drop P.length = Spec.eaxTag c.E x.tagSize (h.bytes nonce) (h.bytes ad) ((h.bytes ct).take P.length) := by
    rw [htk, hct]; exact List.drop_left' hcl
  have vc' : Slice.Valid ⟨ct.ptr, P.length, ct.cap⟩ h := ⟨by have := vc.1; simp only; omega, vc.2⟩
  obtain ⟨e1, e2⟩ := @sfa_tail h dst ct.len
  have hov : inexactOverlap ⟨(sliceForAppend h dst ct.len).2.2.ptr, P.length, (sliceForAppend h dst ct.len).2.2.cap⟩
      ⟨ct.ptr, P.length, ct.cap⟩ = false := by
    rw [e1]
    unfold tailAt
    by_cases hf : dst.len + ct.len ≤ dst.cap
    · rw [if_pos hf]
      refine inexact_false_of (k := P.length) (Nat.le_refl _) ?_
      rcases ap with ap | ap
      · right
        have := ap (by omega)
        simp only
        omega
      · left; exact ap.2
    · rw [if_neg hf]
      refine inexact_false_of (k := P.length) (Nat.le_refl _) ?_
      have := vc.1; have := vc.2
      simp only
      omega
  rw [eaxOpen_core hnew h16 ht h dst nonce ct ad hn P.length hlen, if_neg (by rw [hd]; simp), ctrXor_ok c _ (by
    rw [(eaxOmacT_eq c h16 0 _).2, h16]) _ _ _ (by rw [e2, hlen]; exact Nat.le_add_right _ _) hov, Res.bind_ok]
  simp only
  have hread : (sliceForAppend h dst ct.len).1.mem.read ct.ptr P.length = (h.bytes ct).take P.length := by
    rw [sfa_read (by have := vc.1; have := vc.2; omega)]
    unfold Heap.bytes; rw [Mem.read_take, Nat.min_eq_left (by omega)]
  have hx : xorb (Spec.ctr128 c.E (Spec.omacT c.E 0 (h.bytes nonce)) P)
      (ctrKs c.E c.bs (Spec.omacT c.E 0 (h.bytes nonce)) P.length) = P := by
    have e3 := ctr128_invol c.E (Spec.omacT c.E 0 (h.bytes nonce)) P
    unfold ctrKs
    rw [h16]
    conv at e3 => lhs; unfold Spec.ctr128
    rw [← ctr128_length c.E (Spec.omacT c.E 0 (h.bytes nonce)) P]
    exact e3
  rw [hread, htk, hx, e1]
  obtain ⟨g1, g2, g3, g4⟩ := sfa_appended (n := ct.len) vd (P ++ List.replicate x.tagSize 0) (by simp; omega)
  obtain ⟨f1, f2⟩ := @sfa_head h dst ct.len
  refine ⟨_, _, rfl, ?_, ?_, g4, ?_⟩
  · have := g1.1; have := g1.2
    exact ⟨by rw [f2] at *; simp only; omega, by assumption⟩
  · have hb : (h.bytes dst).length = dst.len := Mem.read_length ..
    have q1 : Mem.read ((sliceForAppend h dst ct.len).1.mem.write (tailAt h dst ct.len) P)
        (sliceForAppend h dst ct.len).2.1.ptr (dst.len + P.length) = h.bytes dst ++ P := by
      have := g2
      unfold Heap.bytes at this
      simp only at this
      rw [f2, hlen, ← Nat.add_assoc, Mem.read_append, Mem.read_append, Mem.write_append, ← hlen, f1] at this
      rw [Mem.read_append, f1, Mem.read_write_self' _ _ _ _ rfl]
      have t1 := congrArg (List.take dst.len) this
      rw [Mem.read_write_disjoint _ _ _ _ _ (Or.inl (by omega))] at t1
      rw [List.append_assoc, List.take_left' (Mem.read_length ..), List.take_left' (Mem.read_length ..)] at t1
      rw [t1]; rfl
    unfold Heap.bytes at q1 ⊢
    simp only
    rw [← q1, Mem.read_take, Nat.min_eq_left (by omega)]
  · intro a ha hor
    by_cases hf : dst.len + ct.len ≤ dst.cap
    · have := hor (by omega)
      simp only
      have et : tailAt h dst ct.len = dst.ptr + dst.len := by unfold tailAt; rw [if_pos hf]
      rw [et]
      rcases this with h0 | h0
      · rw [Mem.write_of_lt _ _ _ _ h0, sfa_frame a ha]
      · rw [Mem.write_of_ge _ _ _ _ h0, sfa_frame a ha]
    · have et : tailAt h dst ct.len = h.brk + dst.len := by unfold tailAt; rw [if_neg hf]
      simp only
      rw [et, Mem.write_of_lt _ _ _ _ (by omega), sfa_frame a ha]

/-- C33 (partial: dst empty): `Open` returns the plaintext. What is missing: a non-empty dst, see
`C33_open_exact` and `C33_open_append_violated`. -/
theorem C33_open_accepts_partial (hnew : eaxNew c ns ts = .ok x) (h16 : c.bs = 16) (ht : 0 ≤ ts) (h : Heap)
    (dst nonce ct ad : Slice) (vd : dst.Valid h) (vc : ct.Valid h) (hd0 : dst.len = 0)
    (hn : nonce.len ≤ ns) (P : Bytes)
    (hct : h.bytes ct = Spec.eax c.E ts.toNat (h.bytes nonce) P (h.bytes ad))
    (ap : Apart dst P.length ct ∨ InPlace dst P.length ct) :
    ∃ h' r, eaxOpen c x h dst nonce ct ad = .ok (h', some r) ∧ Appended h dst P h' r := by
  obtain ⟨h', r, g1, g2, g3, g4, g5⟩ := C33_open_exact hnew h16 ht h dst nonce ct ad vd vc hn P hct ap
  have hb : h.bytes dst = [] := by unfold Heap.bytes; rw [hd0]; rfl
  refine ⟨h', r, g1, g2, ?_, g5, g4⟩
  rw [g3, hb, List.nil_append, List.take_of_length_le (Nat.le_refl _)]

/-- C33: every other ciphertext is rejected with an error and nothing at all is written. -/
theorem C33_open_rejects (hnew : eaxNew c ns ts = .ok x) (h16 : c.bs = 16) (ht : 0 ≤ ts) (h : Heap)
    (dst nonce ct ad : Slice) (hn : nonce.len ≤ ns)
    (hct : ¬ ∃ P, h.bytes ct = Spec.eax c.E ts.toNat (h.bytes nonce) P (h.bytes ad)) :
    eaxOpen c x h dst nonce ct ad = .ok (h, none) := by
  obtain ⟨k1, k2, k3, k4⟩ := eaxNew_ok hnew
  rw [← k2] at hct
  by_cases c1 : ct.len < x.tagSize
  · unfold eaxOpen
    rw [if_neg (by omega), if_pos c1]
  · rw [eaxOpen_core hnew h16 ht h dst nonce ct ad hn (ct.len - x.tagSize) (by omega), if_pos]
    intro h0
    refine hct ⟨Spec.ctr128 c.E (Spec.omacT c.E 0 (h.bytes nonce)) ((h.bytes ct).take (ct.len - x.tagSize)), ?_⟩
    unfold Spec.eax
    simp only
    rw [ctr128_invol, ← h0, List.take_append_drop]

/-- C33: opening what `Seal` returned gives the plaintext back (dst2 empty, apart from the ciphertext or over it). -/
theorem C33_roundtrip_partial (hnew : eaxNew c ns ts = .ok x) (h16 : c.bs = 16) (ht : 0 ≤ ts) (h : Heap)
    (dst nonce pt ad : Slice) (vd : dst.Valid h) (vn : nonce.Valid h) (vp : pt.Valid h) (va : ad.Valid h)
    (hd0 : dst.len = 0) (hn : nonce.len ≤ ns)
    (ap : Apart dst (pt.len + ts.toNat) pt ∨ InPlace dst (pt.len + ts.toNat) pt)
    (an : Apart dst (pt.len + ts.toNat) nonce) (aa : Apart dst (pt.len + ts.toNat) ad) :
    ∃ h1 ct, eaxSeal c x h dst nonce pt ad = .ok (h1, ct) ∧
      ∀ dst2 : Slice, dst2.Valid h1 → dst2.len = 0 → (Apart dst2 pt.len ct ∨ InPlace dst2 pt.len ct) →
        ∃ h2 r, eaxOpen c x h1 dst2 nonce ct ad = .ok (h2, some r) ∧ Appended h1 dst2 (h.bytes pt) h2 r := by
  obtain ⟨k1, k2, k3, k4⟩ := eaxNew_ok hnew
  obtain ⟨h1, ct, g1, g2⟩ := C33_seal_spec hnew h16 ht h dst nonce pt ad vd vn vp va hn ap
  refine ⟨h1, ct, g1, ?_⟩
  intro dst2 vd2 hd2 ap2
  have hPl : (h.bytes pt).length = pt.len := Mem.read_length ..
  have hX : (Spec.eax c.E ts.toNat (h.bytes nonce) (h.bytes pt) (h.bytes ad)).length = pt.len + ts.toNat := by
    unfold Spec.eax
    simp only
    rw [List.length_append, ctr128_length, hPl, eaxTag_length c h16 _ (by omega)]
  obtain ⟨wn, bn⟩ := g2.keeps vn (by rw [hX]; exact an)
  obtain ⟨wa, ba⟩ := g2.keeps va (by rw [hX]; exact aa)
  refine C33_open_accepts_partial hnew h16 ht h1 dst2 nonce ct ad vd2 g2.valid hd2 hn (h.bytes pt) ?_
    (by rw [hPl]; exact ap2)
  rw [g2.bytes, bn, ba]
  unfold Heap.bytes
  rw [hd0]
  rfl

/-- C33: with tag size 0 (accepted by the constructor) every ciphertext is accepted. -/
theorem C33_tag_size_zero_accepts_all (hnew : eaxNew c ns 0 = .ok x) (h16 : c.bs = 16) (h : Heap)
    (nonce ct ad : Slice) (vc : ct.Valid h) (hn : nonce.len ≤ ns) :
    ∃ h' r, eaxOpen c x h ⟨0, 0, 0⟩ nonce ct ad = .ok (h', some r) := by
  have hC : (h.bytes ct).length = ct.len := Mem.read_length ..
  obtain ⟨h', r, g, _⟩ := C33_open_accepts_partial hnew h16 (Int.le_refl 0) h ⟨0, 0, 0⟩ nonce ct ad
    ⟨Nat.le_refl _, Nat.zero_le _⟩ vc rfl hn (Spec.ctr128 c.E (Spec.omacT c.E 0 (h.bytes nonce)) (h.bytes ct)) (by
      unfold Spec.eax Spec.eaxTag
      simp only
      rw [ctr128_invol]
      simp) (Or.inl (by
        intro hf
        simp only [ctr128_length, hC] at hf ⊢
        omega))
  exact ⟨h', r, g⟩
end

/-! Non-vacuity and violations. -/

/-- A 16-byte nonce, a text of 21 and a header of 5 bytes meet the hypotheses of `C33_seal_spec` in place. -/
example : ∃ x, eaxNew demoCipher 16 12 = .ok x ∧ demoCipher.bs = 16 ∧ Slice.Valid ⟨20, 0, 40⟩ demoHeap ∧
    Slice.Valid ⟨0, 16, 16⟩ demoHeap ∧ Slice.Valid ⟨20, 21, 40⟩ demoHeap ∧ Slice.Valid ⟨70, 5, 5⟩ demoHeap ∧
    InPlace ⟨20, 0, 40⟩ (21 + (12 : Int).toNat) ⟨20, 21, 40⟩ := by
  refine ⟨⟨16, 12⟩, rfl, rfl, ?_, ?_, ?_, ?_, ?_⟩
  all_goals first | (unfold Slice.Valid demoHeap; simp; done) | (unfold InPlace; simp)

/-- C33 violated: the constructor accepts an 8-byte cipher, with which every `Seal` panics. -/
theorem C33_blocksize_violated : ∃ (c : BlockCipher) (x : Eax), eaxNew c 16 8 = .ok x ∧
    ∀ (h : Heap) (dst nonce pt ad : Slice), nonce.Valid h → pt.Valid h → ad.Valid h →
      eaxSeal c x h dst nonce pt ad = .panic := by
  refine ⟨toyCipher 8 (by decide), ⟨16, 8⟩, rfl, ?_⟩
  intro h dst nonce pt ad vn vp va
  exact (C33_seal_panics_iff (ns := 16) (ts := 8) rfl h dst nonce pt ad vn vp va).mpr (Or.inl (by decide))

/-- What a successful `Open` returned. -/
def openedBytes (s : Res (Heap × Slice)) (o : Heap → Slice → Res (Heap × Option Slice)) : Option Bytes :=
  match s with
  | .ok (h1, ct) => match o h1 ct with
    | .ok (h2, some r) => some (h2.bytes r)
    | _ => none
  | _ => none

theorem openedBytes_some {s : Res (Heap × Slice)} {o : Heap → Slice → Res (Heap × Option Slice)} {b : Bytes}
    (h : openedBytes s o = some b) : ∃ h1 ct h2 r, s = .ok (h1, ct) ∧ o h1 ct = .ok (h2, some r) ∧ h2.bytes r = b := by
  unfold openedBytes at h
  split at h
  · rename_i h1 ct
    split at h
    · rename_i h2 r e; exact ⟨h1, ct, h2, r, rfl, e, by simpa using h⟩
    · simp at h
  · simp at h

/-- C33 violated: with `dst = [3, 10]` and a one-byte plaintext `143`, `Open(dst, …)` returns `[3]` instead of
`[3, 10, 143]`: both a byte of dst and the plaintext are lost. -/
theorem C33_open_append_violated :
    ∃ (c : BlockCipher) (x : Eax) (h : Heap) (nonce pt ad dst : Slice),
      eaxNew c 16 8 = .ok x ∧ c.bs = 16 ∧ nonce.Valid h ∧ pt.Valid h ∧ ad.Valid h ∧ dst.Valid h ∧
      h.bytes dst = [3, 10] ∧ h.bytes pt = [143] ∧
      ∃ h1 ct h2 r, eaxSeal c x h ⟨0, 0, 0⟩ nonce pt ad = .ok (h1, ct) ∧
        eaxOpen c x h1 dst nonce ct ad = .ok (h2, some r) ∧ h2.bytes r = [3] := by
  refine ⟨demoCipher, ⟨16, 8⟩, demoHeap, ⟨0, 12, 12⟩, ⟨20, 1, 1⟩, ⟨70, 0, 0⟩, ⟨0, 2, 2⟩, rfl, rfl, ?_, ?_, ?_, ?_, ?_, ?_, ?_⟩
  all_goals first | (unfold Slice.Valid demoHeap; simp; done) | (decide +kernel) | skip
  exact openedBytes_some (by decide +kernel)

end Verif.Aead
