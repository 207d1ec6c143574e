import Verif.Aead.SivModel
import Verif.Aead.SivSpec
import Verif.Aead.CcmProps
import Verif.Mac.CmacProps
import Verif.Mac.PmacProps
/-
Lemmas for C37 (SIV).
-/
namespace Verif.Aead
open Verif.Mac (dblM dblM_eq dbl_length xorInto_eq pad2_append)

variable {σ : Type}

/-- The object `o` computes the 16-byte function `F` of messages whose length satisfies `ok`; `I` holds of every state
a caller can leave it in. -/
structure Prf (o : Hash.Obj σ) (I : σ → Prop) (R : σ → Bytes → Prop) (F : Bytes → Bytes) (ok : Nat → Prop) : Prop where
  len : ∀ M, (F M).length = 16
  reset : ∀ s, I s → R (o.reset s) []
  write : ∀ s M x, R s M → ok (M.length + x.length) → ∃ s', o.write s x = .ok s' ∧ R s' (M ++ x)
  long : ∀ s M x, R s M → ¬ ok (M.length + x.length) → o.write s x = .panic
  mono : ∀ a b, a ≤ b → ok b → ok a
  ok16 : ok 16
  sum : ∀ s M p, R s M → ∃ s', o.sum s p = .ok (s', p ++ F M) ∧ I s'

section
variable {o : Hash.Obj σ} {I : σ → Prop} {R : σ → Bytes → Prop} {F : Bytes → Bytes} {ok : Nat → Prop}

theorem copyInto_all (a b : Bytes) (h : b.length = a.length) : copyInto a b = b := by
  unfold copyInto
  rw [List.take_of_length_le (by omega), List.drop_of_length_le (by omega), List.append_nil]

theorem dblM_16 (d : Bytes) (h : d.length = 16) : dblM 0x87 d = Mac.Spec.dbl 16 0x87 d := by
  rw [dblM_eq _ _ (by omega), h]

theorem siv_items (P : Prf o I R F ok) (items : List Bytes) (hok : ∀ v ∈ items, ok v.length) (s : σ) (d : Bytes) (hs : R s []) (hd : d.length = 16) :
    ∃ s', sivItems o s d items = .ok (s', items.foldl (fun d v => xorb (Mac.Spec.dbl 16 0x87 d) (F v)) d) ∧ R s' [] ∧
      (items.foldl (fun d v => xorb (Mac.Spec.dbl 16 0x87 d) (F v)) d).length = 16 := by
  induction items generalizing s d with
  | nil => exact ⟨s, rfl, hs, hd⟩
  | cons v items ih =>
    obtain ⟨s1, e1, h1⟩ := P.write s [] v hs (by simpa using hok v (by simp))
    obtain ⟨s2, e2, h2⟩ := P.sum s1 _ [] h1
    have hl := dbl_length 16 0x87 d
    have hF := P.len v
    obtain ⟨s3, e3, h3, h4⟩ := ih (fun w hw => hok w (by simp [hw])) (o.reset s2) (xorb (Mac.Spec.dbl 16 0x87 d) (F v)) (P.reset _ h2)
      (by rw [xorb_length]; omega)
    refine ⟨s3, ?_, h3, h4⟩
    simp only [sivItems, e1, e2, Res.bind_ok, List.nil_append, List.foldl_cons]
    rw [dblM_16 d hd, xorInto_eq (by omega)]
    exact e3

/-- `s2v` computes S2V. -/
theorem siv_s2v (P : Prf o I R F ok) (items : List Bytes) (sn : Bytes) (hok : ∀ v ∈ items, ok v.length) (h16 : ok 16)
    (hsn : 16 ≤ sn.length → ok (sn.length - 16) ∧ ok sn.length) (s : σ) (hs : I s) :
    ∃ s', sivS2v o 16 s items sn = .ok (s', Spec.s2v F items sn) ∧ I s' := by
  obtain ⟨s1, e1, h1⟩ := P.write _ [] (List.replicate 16 0) (P.reset s hs) (by simpa using h16)
  obtain ⟨s2, e2, h2⟩ := P.sum s1 _ [] h1
  have hF := P.len ([] ++ List.replicate 16 0)
  obtain ⟨s3, e3, h3, h4⟩ := siv_items P items hok (o.reset s2) (F ([] ++ List.replicate 16 0)) (P.reset _ h2) hF
  have hc : copyInto (List.replicate 16 0) (F ([] ++ List.replicate 16 0)) = F ([] ++ List.replicate 16 0) :=
    copyInto_all _ _ (by rw [hF, List.length_replicate])
  unfold sivS2v
  simp only [e1, e2, Res.bind_ok, List.nil_append] at *
  rw [hc, e3]
  simp only [Res.bind_ok]
  unfold Spec.s2v
  have hd : Spec.s2vItems F items = items.foldl (fun d v => xorb (Mac.Spec.dbl 16 0x87 d) (F v)) (F (List.replicate 16 0)) := rfl
  rw [← hd] at h4 ⊢
  generalize Spec.s2vItems F items = D at h4
  by_cases hl : 16 ≤ sn.length
  · rw [if_pos hl]
    simp only [if_pos hl, h4]
    obtain ⟨k1, k2⟩ := hsn hl
    have htl : (sn.drop (sn.length - 16)).length = 16 := by rw [List.length_drop]; omega
    have hc2 : copyInto (List.replicate 16 0) (sn.drop (sn.length - 16)) = sn.drop (sn.length - 16) :=
      copyInto_all _ _ (by rw [htl, List.length_replicate])
    rw [hc2, xorInto_eq (by omega)]
    have hx : (xorb (sn.drop (sn.length - 16)) D).length = 16 := by rw [xorb_length]; omega
    obtain ⟨s4, e4, h5⟩ := P.write s3 [] (sn.take (sn.length - 16)) h3 (by
      rw [List.length_take, Nat.min_eq_left (by omega)]; simpa using k1)
    obtain ⟨s5, e5, h6⟩ := P.write s4 _ (xorb (sn.drop (sn.length - 16)) D) h5 (by
      rw [List.nil_append, List.length_take, Nat.min_eq_left (by omega), hx, Nat.sub_add_cancel hl]; exact k2)
    obtain ⟨s6, e6, h7⟩ := P.sum s5 _ [] h6
    simp only [e4, e5, Res.bind_ok]
    exact ⟨s6, e6, h7⟩
  · rw [if_neg hl]
    simp only [if_neg hl]
    have hpad : (copyInto (List.replicate 16 0) sn).set sn.length 0x80 = Mac.Spec.pad2 16 sn := by
      have := pad2_append 16 [] sn (by simp) (by omega)
      rw [List.nil_append, List.nil_append] at this
      rw [this]
      unfold copyInto
      rw [List.length_replicate, List.take_of_length_le (by omega), List.drop_replicate, List.set_append_right _ _ (by omega), Nat.sub_self]
      obtain ⟨k, hk⟩ : ∃ k, 16 - sn.length = k + 1 := ⟨15 - sn.length, by omega⟩
      rw [hk, List.replicate_succ, List.set_cons_zero, show 16 - 1 - sn.length = k by omega]
    have hpl : (Mac.Spec.pad2 16 sn).length = 16 := by
      unfold Mac.Spec.pad2
      simp only [List.length_append, List.length_cons, List.length_replicate]
      rw [Nat.mod_eq_of_lt (by omega)]; omega
    have hl2 := dbl_length 16 0x87 D
    rw [hpad, dblM_16 D h4, xorInto_eq (by omega), xorb_comm (Mac.Spec.pad2 16 sn)]
    have hx : (xorb (Mac.Spec.dbl 16 0x87 D) (Mac.Spec.pad2 16 sn)).length = 16 := by rw [xorb_length]; omega
    obtain ⟨s4, e4, h5⟩ := P.write s3 [] (xorb (Mac.Spec.dbl 16 0x87 D) (Mac.Spec.pad2 16 sn)) h3 (by
      rw [hx, List.length_nil, Nat.zero_add]; exact h16)
    obtain ⟨s6, e6, h7⟩ := P.sum s4 _ [] h5
    simp only [e4, Res.bind_ok]
    rw [List.nil_append, List.nil_append] at e6
    exact ⟨s6, e6, h7⟩

/-- Whatever it is given, `s2v` leaves the object ready for the next call if it returns. -/
theorem siv_s2v_pres (P : Prf o I R F ok) (items : List Bytes) (sn : Bytes) (s s' : σ) (v : Bytes) (hs : I s)
    (h : sivS2v o 16 s items sn = .ok (s', v)) : I s' := by
  by_cases hall : ∀ x ∈ items, ok x.length
  · by_cases hsn : ok sn.length
    · obtain ⟨t, e, ht⟩ := siv_s2v P items sn hall P.ok16 (fun _ => ⟨P.mono _ _ (Nat.sub_le _ _) hsn, hsn⟩) s hs
      rw [e] at h
      simp only [Res.ok.injEq, Prod.mk.injEq] at h
      exact h.1 ▸ ht
    · exfalso
      have h16 : 16 ≤ sn.length := by
        rcases Nat.lt_or_ge sn.length 16 with h0 | h0
        · exact absurd (P.mono _ _ (Nat.le_of_lt h0) P.ok16) hsn
        · exact h0
      obtain ⟨s1, e1, h1⟩ := P.write _ [] (List.replicate 16 0) (P.reset s hs) (by simpa using P.ok16)
      obtain ⟨s2, e2, h2⟩ := P.sum s1 _ [] h1
      have hF := P.len ([] ++ List.replicate 16 0)
      obtain ⟨s3, e3, h3, h4⟩ := siv_items P items hall (o.reset s2) (F ([] ++ List.replicate 16 0)) (P.reset _ h2) hF
      have hc : copyInto (List.replicate 16 0) (F ([] ++ List.replicate 16 0)) = F ([] ++ List.replicate 16 0) :=
        copyInto_all _ _ (by rw [hF, List.length_replicate])
      unfold sivS2v at h
      simp only [e1, e2, Res.bind_ok, List.nil_append] at *
      rw [hc, e3] at h
      simp only [Res.bind_ok, h4] at h
      rw [if_pos h16] at h
      have htl : (sn.drop (sn.length - 16)).length = 16 := by rw [List.length_drop]; omega
      have hc2 : copyInto (List.replicate 16 0) (sn.drop (sn.length - 16)) = sn.drop (sn.length - 16) :=
        copyInto_all _ _ (by rw [htl, List.length_replicate])
      rw [hc2] at h
      by_cases hk : ok (sn.length - 16)
      · obtain ⟨s4, e4, h5⟩ := P.write s3 [] (sn.take (sn.length - 16)) h3 (by
          rw [List.length_take, Nat.min_eq_left (by omega)]; simpa using hk)
        rw [e4] at h
        simp only [Res.bind_ok] at h
        rw [P.long s4 _ _ h5 (by
          rw [Mac.xorInto_length, htl, List.nil_append, List.length_take, Nat.min_eq_left (by omega), Nat.sub_add_cancel h16]; exact hsn)] at h
        simp at h
      · rw [P.long s3 _ _ h3 (by rw [List.length_take, Nat.min_eq_left (by omega)]; simpa using hk)] at h
        simp at h
  · exfalso
    obtain ⟨s1, e1, h1⟩ := P.write _ [] (List.replicate 16 0) (P.reset s hs) (by simpa using P.ok16)
    obtain ⟨s2, e2, h2⟩ := P.sum s1 _ [] h1
    have bad : ∀ (items : List Bytes) (s : σ) (d : Bytes), R s [] → (¬ ∀ x ∈ items, ok x.length) → sivItems o s d items = .panic := by
      intro items
      induction items with
      | nil => intro s d _ h; simp at h
      | cons v items ih =>
        intro s d hs hno
        unfold sivItems
        by_cases hv : ok v.length
        · obtain ⟨s1, e1, h1⟩ := P.write s [] v hs (by simpa using hv)
          obtain ⟨s2, e2, h2⟩ := P.sum s1 _ [] h1
          simp only [e1, e2, Res.bind_ok]
          exact ih _ _ (P.reset _ h2) (fun h => hno (by simpa [hv] using h))
        · rw [P.long s [] v hs (by simpa using hv)]; simp
    unfold sivS2v at h
    simp only [e1, e2, Res.bind_ok] at h
    rw [bad items _ _ (P.reset _ h2) hall] at h
    simp at h

theorem zeroIV_eq (V : Bytes) (h : V.length = 16) : zeroIVBits V = Spec.sivQ V := by
  have e : ∀ b : Byte, b &&& 255#8 = b := by decide
  match V, h with
  | [a0, a1, a2, a3, a4, a5, a6, a7, a8, a9, a10, a11, a12, a13, a14, a15], _ =>
    simp only [zeroIVBits, Spec.sivQ, Spec.sivMask, List.zipWith, List.length_cons, List.length_nil]
    simp [List.set, e]

theorem s2v_length (P : Prf o I R F ok) (items : List Bytes) (sn : Bytes) : (Spec.s2v F items sn).length = 16 := by
  unfold Spec.s2v; simp only; split <;> exact P.len _

theorem siv_length (P : Prf o I R F ok) (c : BlockCipher) (items : List Bytes) (M : Bytes) :
    (Spec.siv F c.E items M).length = 16 + M.length := by
  unfold Spec.siv; simp only
  rw [List.length_append, s2v_length P, xorb_length, ctrKs_length, Nat.min_self]

theorem sivQ_length (V : Bytes) (h : V.length = 16) : (Spec.sivQ V).length = 16 := by
  unfold Spec.sivQ; rw [List.length_zipWith, h]; rfl

variable {c : BlockCipher}

/-- Lengths the MAC can digest. -/
def Fits (ok : Nat → Prop) (items : List Slice) (n : Nat) : Prop := (∀ x ∈ items, ok x.len) ∧ ok n

theorem siv_s2v_heap (P : Prf o I R F ok) (items : List Slice) (f : Slice → Bytes) (hf : ∀ x ∈ items, (f x).length = x.len) (sn : Bytes)
    (hfit : Fits ok items sn.length) (s : σ) (hs : I s) :
    ∃ s', sivS2v o 16 s (items.map f) sn = .ok (s', Spec.s2v F (items.map f) sn) ∧ I s' := by
  refine siv_s2v P _ _ ?_ P.ok16 (fun _ => ⟨P.mono _ _ (Nat.sub_le _ _) hfit.2, hfit.2⟩) s hs
  intro v hv
  obtain ⟨x, hx, rfl⟩ := List.mem_map.1 hv
  rw [hf x hx]; exact hfit.1 x hx

/-- `Cipher.Seal`, dst apart from the plaintext. -/
theorem siv_seal_items (P : Prf o I R F ok) (h16 : c.bs = 16) (s : σ) (hs : I s) (h : Heap) (dst pt : Slice) (items : List Slice)
    (vd : dst.Valid h) (vp : pt.Valid h) (hi : items.length ≤ 126) (hfit : Fits ok items pt.len) (ap : Apart dst (16 + pt.len) pt) :
    ∃ h' r s', sivSealItems o 16 c s h dst pt items = .ok (h', some r, s') ∧ I s' ∧
      Appended h dst (Spec.siv F c.E (items.map h.bytes) (h.bytes pt)) h' r := by
  have hPl : (h.bytes pt).length = pt.len := Mem.read_length ..
  obtain ⟨s', e, hs'⟩ := siv_s2v_heap P items h.bytes (fun x _ => Mem.read_length ..) (h.bytes pt) (by rw [hPl]; exact hfit) s hs
  have hV := s2v_length P (items.map h.bytes) (h.bytes pt)
  have hsl := siv_length P c (items.map h.bytes) (h.bytes pt)
  unfold sivSealItems
  rw [if_neg (by omega), e]
  simp only [Res.bind_ok]
  rw [hV]
  obtain ⟨e1, e2⟩ := @sfa_tail h dst (16 + pt.len)
  rw [e1, e2]
  unfold Spec.siv at hsl ⊢
  simp only at hsl ⊢
  generalize Spec.s2v F (items.map h.bytes) (h.bytes pt) = V at hV hsl ⊢
  have hq := sivQ_length V hV
  have hrd := sfa_apart_read vp ap V (by omega)
  have hap := sfa_apart vp ap
  rw [zeroIV_eq V hV, ctrXor_ok c _ (by omega) _ _ _ (by simp) (inexact_false_of (k := pt.len) (Nat.le_refl _) (by
    rcases hap with h0 | h0 | h0 | h0
    · exact .inr (.inl h0)
    · exact .inr (.inl (by omega))
    · exact .inr (.inr (.inr (.inl (by simp only; omega))))
    · exact .inr (.inr (.inr (.inr (by simp only; omega))))))]
  simp only [Res.bind_ok]
  rw [hrd]
  refine ⟨_, _, s', rfl, hs', ?_⟩
  have := sfa_appended (n := 16 + pt.len) vd (V ++ xorb (h.bytes pt) (ctrKs c.E 16 (Spec.sivQ V) (h.bytes pt).length)) (by rw [hsl, hPl])
  rw [Mem.write_append, hV] at this
  rw [hPl, ← h16] at this
  rw [h16] at this ⊢
  rw [hPl]
  exact this

/-- `Cipher.Seal` with the output exactly over the plaintext: up to 16 bytes the IV is encrypted in place of the
plaintext, more make it panic. -/
theorem siv_seal_inplace (P : Prf o I R F ok) (h16 : c.bs = 16) (s : σ) (hs : I s) (h : Heap) (dst pt : Slice) (items : List Slice)
    (vd : dst.Valid h) (hi : items.length ≤ 126) (hfit : Fits ok items pt.len) (ip : InPlace dst (16 + pt.len) pt) :
    (pt.len ≤ 16 → ∃ h' r s', sivSealItems o 16 c s h dst pt items = .ok (h', some r, s') ∧
      h'.bytes r = h.bytes dst ++ (Spec.s2v F (items.map h.bytes) (h.bytes pt) ++
        xorb ((Spec.s2v F (items.map h.bytes) (h.bytes pt)).take pt.len)
          (ctrKs c.E 16 (Spec.sivQ (Spec.s2v F (items.map h.bytes) (h.bytes pt))) pt.len))) ∧
    (16 < pt.len → sivSealItems o 16 c s h dst pt items = .panic) := by
  have hPl : (h.bytes pt).length = pt.len := Mem.read_length ..
  obtain ⟨s', e, hs'⟩ := siv_s2v_heap P items h.bytes (fun x _ => Mem.read_length ..) (h.bytes pt) (by rw [hPl]; exact hfit) s hs
  have hV := s2v_length P (items.map h.bytes) (h.bytes pt)
  unfold sivSealItems
  rw [if_neg (by omega), e]
  simp only [Res.bind_ok]
  rw [hV]
  obtain ⟨e1, e2⟩ := @sfa_tail h dst (16 + pt.len)
  have ht : tailAt h dst (16 + pt.len) = pt.ptr := tailAt_inPlace ip
  rw [e1, e2, ht]
  generalize Spec.s2v F (items.map h.bytes) (h.bytes pt) = V at hV ⊢
  have hq := sivQ_length V hV
  constructor
  · intro hle
    have hrd : Mem.read ((sliceForAppend h dst (16 + pt.len)).1.mem.write pt.ptr V) pt.ptr pt.len = V.take pt.len := by
      have := Mem.read_write_self' (sliceForAppend h dst (16 + pt.len)).1.mem pt.ptr 16 V hV
      rw [← this, Mem.read_take, this, Nat.min_eq_left hle]
    rw [zeroIV_eq V hV, ctrXor_ok c _ (by omega) _ _ _ (by simp) (inexact_false_of (k := pt.len) (Nat.le_refl _)
      (.inr (.inr (.inr (.inl (by simp only; omega))))))]
    simp only [Res.bind_ok]
    rw [hrd]
    refine ⟨_, _, s', rfl, ?_⟩
    have := sfa_appended (n := 16 + pt.len) vd (V ++ xorb (V.take pt.len) (ctrKs c.E 16 (Spec.sivQ V) pt.len)) (by
      rw [List.length_append, hV, xorb_length, ctrKs_length, List.length_take, hV]; omega)
    rw [ht, Mem.write_append, hV] at this
    rw [h16]
    exact this.bytes
  · intro hgt
    unfold ctrXor
    rw [zeroIV_eq V hV, if_neg (by omega), if_neg (by simp)]
    have : inexactOverlap ⟨pt.ptr + 16, pt.len, (sliceForAppend h dst (16 + pt.len)).2.2.cap - 16⟩ pt = true := by
      unfold inexactOverlap anyOverlap
      simp only
      rw [if_neg (by omega)]
      simp only [Bool.and_eq_true, decide_eq_true_eq]
      omega
    simp only [this, if_true]
    rfl

/-- What `Cipher.Open` does when the output is apart from the ciphertext, or exactly over its encrypted part. -/
theorem siv_open_core (P : Prf o I R F ok) (h16 : c.bs = 16) (s : σ) (hs : I s) (h : Heap) (dst ct : Slice) (items : List Slice) (n : Nat)
    (vc : ct.Valid h) (vi : ∀ x ∈ items, x.Valid h) (hi : items.length ≤ 126) (hl : ct.len = 16 + n) (hfit : Fits ok items n)
    (ap : Apart dst n ct ∨ InPlace dst n ⟨ct.ptr + 16, n, ct.cap - 16⟩) (aa : ∀ x ∈ items, Apart dst n x) :
    ∃ s', I s' ∧ ∀ D, D = xorb ((h.bytes ct).drop 16) (ctrKs c.E 16 (Spec.sivQ ((h.bytes ct).take 16)) n) →
      sivOpenItems o 16 c s h dst ct items =
        .ok (⟨(sliceForAppend h dst n).1.mem.write (tailAt h dst n) D, (sliceForAppend h dst n).1.brk⟩,
          if (h.bytes ct).take 16 ≠ Spec.s2v F (items.map h.bytes) D then none else some (sliceForAppend h dst n).2.1, s') := by
  have hcl : (h.bytes ct).length = ct.len := Mem.read_length ..
  obtain ⟨e1, e2⟩ := @sfa_tail h dst n
  have hb : ct.ptr + ct.len ≤ h.brk := by have := vc.1; have := vc.2; omega
  have vb : Slice.Valid ⟨ct.ptr + 16, n, ct.cap - 16⟩ h := ⟨by have := vc.1; simp only; omega, by have := vc.1; have := vc.2; simp only; omega⟩
  have hc : copyInto (List.replicate 16 0) (h.bytes ct) = (h.bytes ct).take 16 := by
    unfold copyInto
    rw [List.length_replicate, List.drop_of_length_le (by rw [List.length_replicate]; omega), List.append_nil]
  have hV : ((h.bytes ct).take 16).length = 16 := by rw [List.length_take]; omega
  have hq := sivQ_length _ hV
  have hbody : (sliceForAppend h dst n).1.mem.read (ct.ptr + 16) n = (h.bytes ct).drop 16 := by
    rw [sfa_read (by omega)]; unfold Heap.bytes; rw [Mem.read_drop, hl, Nat.add_sub_cancel_left]
  have hdl : ((h.bytes ct).drop 16).length = n := by rw [List.length_drop]; omega
  have hDl : (xorb ((h.bytes ct).drop 16) (ctrKs c.E 16 (Spec.sivQ ((h.bytes ct).take 16)) n)).length = n := by
    rw [xorb_length, ctrKs_length, hdl, Nat.min_self]
  have hov : inexactOverlap ⟨tailAt h dst n, n, (sliceForAppend h dst n).2.2.cap⟩ ⟨ct.ptr + 16, n, ct.cap - 16⟩ = false := by
    refine inexact_false_of (Nat.le_refl _) ?_
    rcases ap with ap | ap
    · have := sfa_apart vb (ap.sub (y := ⟨ct.ptr + 16, n, ct.cap - 16⟩) (by simp) (by simp; omega))
      simp only at this ⊢; omega
    · exact .inl (tailAt_inPlace ap).symm
  have hitems : ∀ D : Bytes, D.length = n → (items.map fun x => Mem.read ((sliceForAppend h dst n).1.mem.write (tailAt h dst n) D) x.ptr x.len) = items.map h.bytes := by
    intro D hD
    apply List.map_congr_left
    intro x hx
    exact sfa_apart_read (vi x hx) (aa x hx) D (by omega)
  have htag : ∀ D : Bytes, D.length = n → Mem.read ((sliceForAppend h dst n).1.mem.write (tailAt h dst n) D) ct.ptr 16 = (h.bytes ct).take 16 := by
    intro D hD
    have e3 : (h.bytes ct).take 16 = h.mem.read ct.ptr 16 := by
      unfold Heap.bytes; rw [Mem.read_take, hl, Nat.min_eq_left (by omega)]
    rw [e3]
    rcases ap with ap | ap
    · have v3 : Slice.Valid ⟨ct.ptr, 16, 16⟩ h := ⟨Nat.le_refl _, by simp only; omega⟩
      exact sfa_apart_read v3 (ap.sub (by simp) (by simp; omega)) D (by omega)
    · rw [tailAt_inPlace ap, Mem.read_write_disjoint _ _ _ _ _ (.inl (by simp only; omega)), sfa_read (by omega)]
  obtain ⟨s', e, hs'⟩ := siv_s2v_heap P items h.bytes (fun x _ => Mem.read_length ..)
    (xorb ((h.bytes ct).drop 16) (ctrKs c.E 16 (Spec.sivQ ((h.bytes ct).take 16)) n)) (by rw [hDl]; exact hfit) s hs
  refine ⟨s', hs', ?_⟩
  rintro D rfl
  unfold sivOpenItems
  rw [if_neg (by omega), if_neg (by omega)]
  simp only [show ct.len - 16 = n by omega]
  rw [e1, e2, hc, zeroIV_eq _ hV]
  have hctr := ctrXor_ok c (Spec.sivQ ((h.bytes ct).take 16)) (by omega) (sliceForAppend h dst n).1.mem (sliceForAppend h dst n).2.2
    ⟨ct.ptr + 16, n, ct.cap - 16⟩ (by rw [e2]) (by rw [e1]; exact hov)
  rw [e1, h16, hbody] at hctr
  rw [hctr]
  simp only [Res.bind_ok]
  rw [hitems _ hDl, Mem.read_write_self' _ _ _ _ hDl, e]
  simp only [Res.bind_ok]
  rw [htag _ hDl]
  split <;> rfl

theorem bind_eq_ok {α β : Type} {x : Res α} {f : α → Res β} {b : β} (h : (x >>= f) = .ok b) : ∃ a, x = .ok a ∧ f a = .ok b := by
  cases x with
  | ok a => exact ⟨a, rfl, h⟩
  | err => simp at h
  | panic => simp at h
  | hang => simp at h

/-- `Cipher.Seal` and `Cipher.Open` leave the MAC object ready for the next call. -/
theorem siv_seal_pres (P : Prf o I R F ok) (s s' : σ) (hs : I s) (h h' : Heap) (dst pt : Slice) (items : List Slice) (r : Option Slice)
    (e : sivSealItems o 16 c s h dst pt items = .ok (h', r, s')) : I s' := by
  unfold sivSealItems at e
  split at e
  · simp only [Res.ok.injEq, Prod.mk.injEq] at e; exact e.2.2 ▸ hs
  · obtain ⟨p, e1, e⟩ := bind_eq_ok e
    obtain ⟨m, -, e⟩ := bind_eq_ok e
    have := siv_s2v_pres P _ _ s p.1 p.2 hs e1
    simp only [Res.ok.injEq, Prod.mk.injEq] at e
    exact e.2.2 ▸ this

@[inherit_doc siv_seal_pres]
theorem siv_open_pres (P : Prf o I R F ok) (s s' : σ) (hs : I s) (h h' : Heap) (dst ct : Slice) (items : List Slice) (r : Option Slice)
    (e : sivOpenItems o 16 c s h dst ct items = .ok (h', r, s')) : I s' := by
  unfold sivOpenItems at e
  split at e
  · simp only [Res.ok.injEq, Prod.mk.injEq] at e; exact e.2.2 ▸ hs
  · split at e
    · simp only [Res.ok.injEq, Prod.mk.injEq] at e; exact e.2.2 ▸ hs
    · obtain ⟨m, -, e⟩ := bind_eq_ok e
      obtain ⟨p, e1, e⟩ := bind_eq_ok e
      have := siv_s2v_pres P _ _ s p.1 p.2 hs e1
      split at e <;> (simp only [Res.ok.injEq, Prod.mk.injEq] at e; exact e.2.2 ▸ this)

/-! The two MACs. -/

theorem xorEnd_len (n : Nat) (X Y : Bytes) (hX : n ≤ X.length) (hY : Y.length = n) : (Mac.Spec.xorEnd n X Y).length = X.length := by
  unfold Mac.Spec.xorEnd
  rw [List.length_append, xorb_length, List.length_take, List.length_drop]; omega

theorem pad2_len (n : Nat) (hn : 0 < n) (M : Bytes) : (Mac.Spec.pad2 n M).length = n * (M.length / n + 1) := by
  unfold Mac.Spec.pad2
  simp only [List.length_append, List.length_cons, List.length_replicate]
  have h1 := Nat.div_add_mod M.length n
  have h2 := Nat.mod_lt M.length hn
  rw [Nat.mul_add]; omega

theorem cmac_len (c : BlockCipher) (r : Nat) (M : Bytes) : (Mac.Spec.cmac c.E c.bs r M).length = c.bs := by
  unfold Mac.Spec.cmac
  simp only
  apply Mac.cbc_length
  · simp [Mac.Spec.zero]
  · split
    · rename_i h
      rw [xorEnd_len _ _ _ ?_ (dbl_length ..)]
      · exact h.2
      · exact Nat.le_of_dvd (List.length_pos_iff.mpr h.1) h.2
    · rw [xorEnd_len _ _ _ ?_ (dbl_length ..)]
      · rw [pad2_len _ c.bs_pos]; exact Nat.dvd_mul_right ..
      · rw [pad2_len _ c.bs_pos]; exact Nat.le_mul_of_pos_right _ (Nat.succ_pos _)

theorem pmac_len (c : BlockCipher) (Linv : Bytes) (hL : Linv.length = c.bs) (M : Bytes) :
    (Mac.Spec.pmac c.E c.bs 0x87 Linv M).length = c.bs := by
  have hb := c.bs_pos
  have ht : Mac.Spec.tailLen c.bs M ≤ M.length ∧ Mac.Spec.tailLen c.bs M ≤ c.bs ∧ c.bs ∣ M.length - Mac.Spec.tailLen c.bs M := by
    unfold Mac.Spec.tailLen
    split
    · rename_i h; subst h; simp
    · rename_i h
      have hp : 0 < M.length := List.length_pos_iff.mpr h
      have h1 := Nat.div_add_mod (M.length - 1) c.bs
      have h2 := Nat.mod_lt (M.length - 1) hb
      exact ⟨by omega, by omega, ⟨(M.length - 1) / c.bs, by omega⟩⟩
  obtain ⟨h1, h2, h3⟩ := ht
  unfold Mac.Spec.pmac
  simp only
  apply c.lenE
  rw [xorb_length, Mac.pmacSum_length]
  · split
    · rw [xorb_length, List.length_drop]; omega
    · rename_i h
      rw [pad2_len _ hb, List.length_drop, show M.length - (M.length - Mac.Spec.tailLen c.bs M) = Mac.Spec.tailLen c.bs M by omega,
        Nat.div_eq_of_lt (by omega)]
      omega
  · apply Mode.chunks_all_len _ hb
    rw [List.length_take, Nat.min_eq_left (Nat.sub_le _ _)]; exact h3

theorem cmac_prf (mac : BlockCipher) (h16 : mac.bs = 16) (d : Mac.Cmac) (s : Mac.CmacSt) (h : sivNewCmac mac = .ok (d, s)) :
    Prf (Mac.cmacObj mac d) (fun s => s.buf.length = mac.bs) (fun s M => Mac.CmacHolds mac s M ∧ s.buf.length = mac.bs)
      (Mac.Spec.cmac mac.E 16 0x87) (fun _ => True) ∧ s.buf.length = mac.bs := by
  have hz : (List.replicate mac.bs (0 : Byte)).length = mac.bs := by simp
  have hE : (mac.E (List.replicate mac.bs 0)).length = mac.bs := mac.lenE _ hz
  have e1 : dblM 0x87 (mac.E (List.replicate mac.bs 0)) = Mac.Spec.dbl mac.bs 0x87 (mac.E (Mac.Spec.zero mac.bs)) := by
    rw [dblM_eq _ _ (by rw [hE]; exact mac.bs_pos), hE]; rfl
  have l1 : (Mac.Spec.dbl mac.bs 0x87 (mac.E (Mac.Spec.zero mac.bs))).length = mac.bs := dbl_length _ _ _
  have e2 : dblM 0x87 (Mac.Spec.dbl mac.bs 0x87 (mac.E (Mac.Spec.zero mac.bs))) =
      Mac.Spec.dbl mac.bs 0x87 (Mac.Spec.dbl mac.bs 0x87 (mac.E (Mac.Spec.zero mac.bs))) := by
    rw [dblM_eq _ _ (by rw [l1]; exact mac.bs_pos), l1]
  have hp : Mac.cmacP mac.bs = some 0x87 := by rw [h16]; rfl
  unfold sivNewCmac Mac.cmacNew at h
  rw [if_neg (by omega), hp] at h
  simp only [e1, e2, Res.ok.injEq, Prod.mk.injEq] at h
  obtain ⟨rfl, rfl⟩ := h
  refine ⟨⟨?_, ?_, ?_, ?_, ?_, trivial, ?_⟩, hz⟩
  · intro M; have := cmac_len mac 0x87 M; rwa [h16] at this
  · intro s hl
    refine ⟨⟨[], [], rfl, by simp, by simp, fun _ => rfl, rfl, ?_⟩, ?_⟩
    · show List.replicate s.buf.length 0 = _
      rw [hl, Mac.xorInto_nil]; rfl
    · show (List.replicate s.buf.length (0 : Byte)).length = _
      rw [hl]; simp
  · rintro s M x ⟨hs, -⟩ -
    have := Mac.cmac_write ⟨4, h16⟩ s M x hs
    refine ⟨_, rfl, this, ?_⟩
    obtain ⟨A, T, _, hA, _, _, _, hbuf⟩ := this
    rw [hbuf, Mac.xorInto_length]
    exact Mac.cbc_length _ _ hz hA
  · intro s M x _ h; exact absurd trivial h
  · intro _ _ _ _; trivial
  · rintro s M q ⟨hs, hl⟩
    refine ⟨s, ?_, hl⟩
    have hlen := cmac_len mac 0x87 M
    simp only [Mac.cmacObj]
    rw [Mac.cmac_sum _ _ _ hs, List.take_of_length_le (by rw [hlen]; simp), h16]

theorem pmac_prf (mac : BlockCipher) (h16 : mac.bs = 16) (d : Mac.Pmac) (s : Mac.PmacSt) (h : sivNewPmac mac = .ok (d, s))
    (Linv : Bytes) (hlen : Linv.length = 16) (hinv : Mac.Spec.dbl 16 0x87 Linv = mac.E (Mac.Spec.zero 16)) :
    Prf (Mac.pmacObj mac d) (fun s => s.buf.length = mac.bs ∧ s.digest.length = mac.bs ∧ s.offset.length = mac.bs)
      (Mac.PmacHolds mac)
      (Mac.Spec.pmac mac.E 16 0x87 Linv) (fun k => k ≤ 2 ^ 35) ∧ (s.buf.length = mac.bs ∧ s.digest.length = mac.bs ∧ s.offset.length = mac.bs) := by
  obtain ⟨hd, hs, hl1, hl2⟩ := Mac.pmac_ok mac _ d s h
  have hE : (mac.E (Mac.Spec.zero mac.bs)).length = mac.bs := mac.lenE _ (by simp [Mac.Spec.zero])
  have hL : Linv = Mac.pmacInv (mac.E (Mac.Spec.zero mac.bs)) := by
    apply Mac.dbl_inj mac.bs mac.bs_pos _ _ (by omega) (by rw [Mac.pmacInv_length, hE])
    have := Mac.dbl_pmacInv (mac.E (Mac.Spec.zero mac.bs)) (by rw [hE]; exact mac.bs_pos)
    rw [hE] at this
    rw [this, h16, hinv]
  have hlim : mac.bs * Mac.pmacLimit mac.bs = 2 ^ 35 := by rw [h16]; rfl
  have hlens : ∀ s M, Mac.PmacHolds mac s M → s.buf.length = mac.bs ∧ s.digest.length = mac.bs ∧ s.offset.length = mac.bs := by
    rintro s M ⟨A, T, _, hm, _⟩
    exact ⟨hm.buf, by rw [hm.digest]; exact Mac.pmacSum_length _ (Mode.chunks_all_len _ mac.bs_pos _ hm.dvd),
      by rw [hm.offset]; exact Mac.pmacZ_length _⟩
  refine ⟨⟨?_, ?_, ?_, ?_, ?_, ?_, ?_⟩, hlens _ _ hs⟩
  · intro M; have := pmac_len mac Linv (by omega) M; rwa [h16] at this
  · rintro s ⟨hb, h1, h2⟩
    have e : (Mac.pmacReset s) = ⟨Mac.Spec.zero mac.bs, Mac.Spec.zero mac.bs, Mac.Spec.zero mac.bs, 0, 0⟩ := by
      unfold Mac.pmacReset; rw [h1, h2, hb]; rfl
    have hz : (Mac.Spec.zero mac.bs).length = mac.bs := by simp [Mac.Spec.zero]
    show Mac.PmacHolds mac (Mac.pmacReset s) []
    rw [e]
    refine ⟨[], [], rfl, ⟨by simp, by simp, ?_, rfl, hz⟩, by simp, fun _ => rfl, rfl, by simp, by simp⟩
    simp [Mac.Spec.pmacZ]
  · intro s M x hs hk
    exact (Mac.pmac_write hd s M x hs).1 (by rw [hlim]; exact hk)
  · intro s M x hs hk
    exact (Mac.pmac_write hd s M x hs).2 (by rw [hlim]; omega)
  · intro a b hab hb; exact Nat.le_trans hab hb
  · decide
  · intro s M p hs
    have e := Mac.pmac_sum hd s M hs
    rw [← hL] at e
    have hl := pmac_len mac Linv (by omega) M
    refine ⟨{ s with digest := Mac.pmacCheckSum mac d s }, ?_, (hlens _ _ hs).1, ?_, (hlens _ _ hs).2.2⟩
    · show Res.ok (_, p ++ (Mac.pmacCheckSum mac d s).take d.tagsize) = _
      rw [e, hd.ts, List.take_of_length_le (by rw [hl]; simp), h16]
    · show (Mac.pmacCheckSum mac d s).length = _
      rw [e]; exact hl

end
end Verif.Aead
