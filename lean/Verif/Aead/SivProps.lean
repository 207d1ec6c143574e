import Verif.Aead.SivLemmas
/-
C37: SIV.  The specification is SivSpec.lean (RFC 5297); the vocabulary is in Base.lean.
-/
namespace Verif.Aead

/-- `SivMac mac σ o s F ok`: `o` is the MAC object, with initial state `s`, that `NewCMACCipher` or `NewPMACCipher`
makes from `mac`; `F` is the standard MAC it should compute (CMAC; PMAC, with `Linv` the block such that
`Linv · x = E(0)`) and `ok` the message lengths it supports (PMAC: 2^35 bytes, see `C45_write_panics_iff`). -/
inductive SivMac (mac : BlockCipher) : (σ : Type) → Hash.Obj σ → σ → (Bytes → Bytes) → (Nat → Prop) → Prop
  | cmac (d : Mac.Cmac) (s : Mac.CmacSt) (h : sivNewCmac mac = .ok (d, s)) :
      SivMac mac Mac.CmacSt (Mac.cmacObj mac d) s (Mac.Spec.cmac mac.E 16 0x87) (fun _ => True)
  | pmac (d : Mac.Pmac) (s : Mac.PmacSt) (h : sivNewPmac mac = .ok (d, s)) (Linv : Bytes) (hlen : Linv.length = 16)
      (hinv : Mac.Spec.dbl 16 0x87 Linv = mac.E (Mac.Spec.zero 16)) :
      SivMac mac Mac.PmacSt (Mac.pmacObj mac d) s (Mac.Spec.pmac mac.E 16 0x87 Linv) (fun k => k ≤ 2 ^ 35)

/-- The states of the MAC object after any history of `Seal` and `Open` calls, with whatever arguments and outcomes. -/
inductive SivReach {σ : Type} (o : Hash.Obj σ) (c : BlockCipher) (s0 : σ) : σ → Prop
  | new : SivReach o c s0 s0
  | sealed {s s' : σ} (h h' : Heap) (dst pt : Slice) (items : List Slice) (r : Option Slice) : SivReach o c s0 s →
      sivSealItems o 16 c s h dst pt items = .ok (h', r, s') → SivReach o c s0 s'
  | opened {s s' : σ} (h h' : Heap) (dst ct : Slice) (items : List Slice) (r : Option Slice) : SivReach o c s0 s →
      sivOpenItems o 16 c s h dst ct items = .ok (h', r, s') → SivReach o c s0 s'

section
variable {mac c : BlockCipher} {σ : Type} {o : Hash.Obj σ} {s0 s : σ} {F : Bytes → Bytes} {ok : Nat → Prop}

theorem siv_ready (hm : mac.bs = 16) (hi : SivMac mac σ o s0 F ok) (hr : SivReach o c s0 s) : ∃ I R, Prf o I R F ok ∧ I s := by
  have key : ∀ (I : σ → Prop) (R : σ → Bytes → Prop), Prf o I R F ok → I s0 → I s := by
    intro I R P h0
    induction hr with
    | new => exact h0
    | sealed h h' dst pt items r _ e ih => exact siv_seal_pres P _ _ ih _ _ _ _ _ _ e
    | opened h h' dst pt items r _ e ih => exact siv_open_pres P _ _ ih _ _ _ _ _ _ e
  cases hi with
  | cmac d s h => obtain ⟨P, h0⟩ := cmac_prf mac hm d _ h; exact ⟨_, _, P, key _ _ P h0⟩
  | pmac d s h Linv hlen hinv => obtain ⟨P, h0⟩ := pmac_prf mac hm d _ h Linv hlen hinv; exact ⟨_, _, P, key _ _ P h0⟩

/-- `Seal` after any history: the output is SIV of the items and the plaintext, appended to `dst`, if the output does not
overlap the plaintext. Missing: `dst` and the plaintext aliasing exactly, which the documentation allows (false, see
`C37_seal_inplace_violated`). -/
theorem C37_seal_spec_partial (hm : mac.bs = 16) (hc : c.bs = 16) (hi : SivMac mac σ o s0 F ok) (hr : SivReach o c s0 s)
    (h : Heap) (dst pt : Slice) (items : List Slice) (vd : dst.Valid h) (vp : pt.Valid h) (hn : items.length ≤ 126)
    (hfit : Fits ok items pt.len) (ap : Apart dst (16 + pt.len) pt) :
    ∃ h' r s', sivSealItems o 16 c s h dst pt items = .ok (h', some r, s') ∧ SivReach o c s0 s' ∧
      Appended h dst (Spec.siv F c.E (items.map h.bytes) (h.bytes pt)) h' r := by
  obtain ⟨I, R, P, hs⟩ := siv_ready hm hi hr
  obtain ⟨h', r, s', e, -, ha⟩ := siv_seal_items P hc s hs h dst pt items vd vp hn hfit ap
  exact ⟨h', r, s', e, .sealed _ _ _ _ _ _ hr e, ha⟩

/-- `Open` of the SIV encryption of `P` returns `P`, if the output does not overlap the ciphertext (or lies exactly over
its encrypted part) and the items. Missing: `dst` and the ciphertext aliasing exactly (false, see
`C37_open_inplace_violated`). -/
theorem C37_open_accepts_partial (hm : mac.bs = 16) (hc : c.bs = 16) (hi : SivMac mac σ o s0 F ok) (hr : SivReach o c s0 s)
    (h : Heap) (dst ct : Slice) (items : List Slice) (P : Bytes) (vd : dst.Valid h) (vc : ct.Valid h) (vi : ∀ x ∈ items, x.Valid h)
    (hn : items.length ≤ 126) (hfit : Fits ok items P.length) (hct : h.bytes ct = Spec.siv F c.E (items.map h.bytes) P)
    (ap : Apart dst P.length ct ∨ InPlace dst P.length ⟨ct.ptr + 16, P.length, ct.cap - 16⟩) (aa : ∀ x ∈ items, Apart dst P.length x) :
    ∃ h' r s', sivOpenItems o 16 c s h dst ct items = .ok (h', some r, s') ∧ SivReach o c s0 s' ∧ Appended h dst P h' r := by
  obtain ⟨I, R, Q, hs⟩ := siv_ready hm hi hr
  have hl : ct.len = 16 + P.length := by
    have := congrArg List.length hct
    rw [siv_length Q] at this
    unfold Heap.bytes at this
    rwa [Mem.read_length] at this
  have hV := s2v_length Q (items.map h.bytes) P
  obtain ⟨s', -, e⟩ := siv_open_core Q hc s hs h dst ct items P.length vc vi hn hl hfit ap aa
  have ht : (h.bytes ct).take 16 = Spec.s2v F (items.map h.bytes) P := by
    rw [hct]; unfold Spec.siv; simp only; rw [List.take_left' hV]
  have hdr : (h.bytes ct).drop 16 = xorb P (ctrKs c.E 16 (Spec.sivQ (Spec.s2v F (items.map h.bytes) P)) P.length) := by
    rw [hct]; unfold Spec.siv; simp only; rw [List.drop_left' hV]
  have hD : P = xorb ((h.bytes ct).drop 16) (ctrKs c.E 16 (Spec.sivQ ((h.bytes ct).take 16)) P.length) := by
    rw [ht, hdr, xorb_assoc, xorb_self, xorb_zeros_right]
    rw [ctrKs_length]
  have := e P hD
  rw [if_neg (by rw [ht]; simp)] at this
  exact ⟨_, _, s', this, .opened _ _ _ _ _ _ hr this, sfa_appended vd P rfl⟩

/-- `Open` of anything of 16 bytes or more that is not the SIV encryption of some plaintext under these items returns an
error, and changes nothing but the spare capacity of `dst`. -/
theorem C37_open_rejects_partial (hm : mac.bs = 16) (hc : c.bs = 16) (hi : SivMac mac σ o s0 F ok) (hr : SivReach o c s0 s)
    (h : Heap) (dst ct : Slice) (items : List Slice) (vc : ct.Valid h) (vi : ∀ x ∈ items, x.Valid h)
    (hn : items.length ≤ 126) (hl : 16 ≤ ct.len) (hfit : Fits ok items (ct.len - 16))
    (hct : ¬ ∃ P, h.bytes ct = Spec.siv F c.E (items.map h.bytes) P)
    (ap : Apart dst (ct.len - 16) ct ∨ InPlace dst (ct.len - 16) ⟨ct.ptr + 16, ct.len - 16, ct.cap - 16⟩)
    (aa : ∀ x ∈ items, Apart dst (ct.len - 16) x) :
    ∃ h' s', sivOpenItems o 16 c s h dst ct items = .ok (h', none, s') ∧ SivReach o c s0 s' ∧
      ∀ a, a < h.brk → (dst.len + (ct.len - 16) ≤ dst.cap → a < dst.ptr + dst.len ∨ dst.ptr + dst.len + (ct.len - 16) ≤ a) →
        h'.mem a = h.mem a := by
  obtain ⟨I, R, Q, hs⟩ := siv_ready hm hi hr
  have hcl : (h.bytes ct).length = ct.len := Mem.read_length ..
  obtain ⟨s', -, e⟩ := siv_open_core Q hc s hs h dst ct items (ct.len - 16) vc vi hn (by omega) hfit ap aa
  have hdl : ((h.bytes ct).drop 16).length = ct.len - 16 := by rw [List.length_drop, hcl]
  have := e _ rfl
  generalize hD : xorb ((h.bytes ct).drop 16) (ctrKs c.E 16 (Spec.sivQ ((h.bytes ct).take 16)) (ct.len - 16)) = D at this
  have hDl : D.length = ct.len - 16 := by rw [← hD, xorb_length, ctrKs_length, hdl, Nat.min_self]
  rw [if_pos] at this
  · refine ⟨_, s', this, .opened _ _ _ _ _ _ hr this, ?_⟩
    intro a ha hout
    show Mem.write _ _ _ a = _
    have hf := sfa_frame (dst := dst) (n := ct.len - 16) a ha
    unfold tailAt
    by_cases hfits : dst.len + (ct.len - 16) ≤ dst.cap
    · rw [if_pos hfits]
      rcases hout hfits with h1 | h1
      · rw [Mem.write_of_lt _ _ _ _ h1, hf]
      · rw [Mem.write_of_ge _ _ _ _ (by omega), hf]
    · rw [if_neg hfits, Mem.write_of_lt _ _ _ _ (by omega), hf]
  · intro h0
    refine hct ⟨D, ?_⟩
    unfold Spec.siv
    simp only
    rw [← h0, hDl, ← hD, xorb_assoc, xorb_self, xorb_zeros_right _ _ (by rw [ctrKs_length, hdl])]
    exact (List.take_append_drop 16 _).symm

/-- More than 126 items, or a ciphertext shorter than the tag: an error, and nothing is written. -/
theorem C37_errors (o : Hash.Obj σ) (c : BlockCipher) (s : σ) (h : Heap) (dst x : Slice) (items : List Slice) :
    (126 < items.length → sivSealItems o 16 c s h dst x items = .ok (h, none, s)) ∧
    (126 < items.length ∨ x.len < 16 → sivOpenItems o 16 c s h dst x items = .ok (h, none, s)) := by
  unfold sivSealItems sivOpenItems
  constructor
  · intro h0; rw [if_pos h0]
  · intro h0
    by_cases h1 : items.length > 126
    · rw [if_pos h1]
    · rw [if_neg h1, if_pos (by omega)]

/-- The AEAD wrapper: a nonce of the wrong length panics. -/
theorem C37_nonce_panics (o : Hash.Obj σ) (c : BlockCipher) (ns : Int) (s : σ) (h : Heap) (dst nonce x : Slice) (ad : Option Slice)
    (hns : 0 ≤ ns) (hne : (nonce.len : Int) ≠ ns) :
    sivSeal o 16 c ns s h dst nonce x ad = .panic ∧ sivOpen o 16 c ns s h dst nonce x ad = .panic := by
  unfold sivSeal sivOpen
  rw [if_pos ⟨hne, hns⟩, if_pos ⟨hne, hns⟩]
  exact ⟨rfl, rfl⟩

/-- The AEAD: after any history of calls, what `Seal` wrote for a nonce, a plaintext and associated data `Open` turns back
into the plaintext, whatever happens in between on the same object (`s2`), if outputs do not overlap the inputs. -/
theorem C37_roundtrip_partial (hm : mac.bs = 16) (hc : c.bs = 16) (hi : SivMac mac σ o s0 F ok) (hr : SivReach o c s0 s)
    (ns : Int) (h : Heap) (dst nonce pt : Slice) (ad : Option Slice) (vd : dst.Valid h) (vn : nonce.Valid h) (vp : pt.Valid h)
    (va : ∀ a ∈ ad, a.Valid h) (hd0 : dst.len = 0) (hns : ns < 0 ∨ (nonce.len : Int) = ns)
    (hfit : Fits ok (ad.toList ++ [nonce]) pt.len)
    (ap : Apart dst (16 + pt.len) pt) (an : Apart dst (16 + pt.len) nonce) (aa : ∀ a ∈ ad, Apart dst (16 + pt.len) a) :
    ∃ h1 ct s1, sivSeal o 16 c ns s h dst nonce pt ad = .ok (h1, ct, s1) ∧ SivReach o c s0 s1 ∧
      Appended h dst (Spec.siv F c.E ((ad.toList ++ [nonce]).map h.bytes) (h.bytes pt)) h1 ct ∧
      ∀ s2, SivReach o c s0 s2 → ∀ dst2 : Slice, dst2.Valid h1 →
        (Apart dst2 pt.len ct ∨ InPlace dst2 pt.len ⟨ct.ptr + 16, pt.len, ct.cap - 16⟩) → Apart dst2 pt.len nonce →
        (∀ a ∈ ad, Apart dst2 pt.len a) →
        ∃ h2 r s3, sivOpen o 16 c ns s2 h1 dst2 nonce ct ad = .ok (h2, some r, s3) ∧ Appended h1 dst2 (h.bytes pt) h2 r := by
  have hno : ¬ ((nonce.len : Int) ≠ ns ∧ ns ≥ 0) := by omega
  have hlen : (ad.toList ++ [nonce]).length ≤ 126 := by cases ad <;> simp
  have hmem : ∀ x ∈ ad.toList ++ [nonce], x = nonce ∨ x ∈ ad := by
    intro x hx
    rcases List.mem_append.1 hx with h0 | h0
    · exact .inr (Option.mem_toList.1 h0)
    · exact .inl (List.mem_singleton.1 h0)
  obtain ⟨h1, ct, s1, e, r1, g⟩ := C37_seal_spec_partial hm hc hi hr h dst pt (ad.toList ++ [nonce]) vd vp hlen hfit ap
  refine ⟨h1, ct, s1, ?_, r1, g, ?_⟩
  · unfold sivSeal; rw [if_neg hno, e]; rfl
  · intro s2 r2 dst2 vd2 ap2 an2 aa2
    obtain ⟨I, R, Q, -⟩ := siv_ready hm hi hr
    have hPl : (h.bytes pt).length = pt.len := Mem.read_length ..
    have hX := siv_length Q c ((ad.toList ++ [nonce]).map h.bytes) (h.bytes pt)
    rw [hPl] at hX
    have keep : ∀ x ∈ ad.toList ++ [nonce], x.Valid h1 ∧ h1.bytes x = h.bytes x := by
      intro x hx
      rcases hmem x hx with rfl | hx
      · exact g.keeps vn (by rw [hX]; exact an)
      · exact g.keeps (va x hx) (by rw [hX]; exact aa x hx)
    have hmap : (ad.toList ++ [nonce]).map h1.bytes = (ad.toList ++ [nonce]).map h.bytes :=
      List.map_congr_left (fun x hx => (keep x hx).2)
    obtain ⟨h2, r, s3, e2, -, g2⟩ := C37_open_accepts_partial hm hc hi r2 h1 dst2 ct (ad.toList ++ [nonce]) (h.bytes pt) vd2 g.valid
      (fun x hx => (keep x hx).1) hlen (by rw [hPl]; exact hfit)
      (by
        rw [g.bytes, hmap]
        have : h.bytes dst = [] := by unfold Heap.bytes; rw [hd0]; rfl
        rw [this, List.nil_append])
      (by rw [hPl]; exact ap2)
      (by
        intro x hx
        rw [hPl]
        rcases hmem x hx with rfl | hx
        · exact an2
        · exact aa2 x hx)
    refine ⟨h2, r, s3, ?_, g2⟩
    unfold sivOpen; rw [if_neg hno, e2]

/-- C37 violated: with `dst` exactly over the plaintext (`Seal(p[:0], p)`, which the documentation of `Seal` allows) and
1 to 16 bytes of plaintext, the synthetic IV overwrites the plaintext before it is encrypted: the output contains
the encryption of the IV's first bytes and depends on the plaintext only through the IV. Longer plaintexts panic. -/
theorem C37_seal_inplace_violated (hm : mac.bs = 16) (hc : c.bs = 16) (hi : SivMac mac σ o s0 F ok) (hr : SivReach o c s0 s)
    (h : Heap) (dst pt : Slice) (items : List Slice) (vd : dst.Valid h) (hn : items.length ≤ 126)
    (hfit : Fits ok items pt.len) (ip : InPlace dst (16 + pt.len) pt) (V : Bytes) (hV : V = Spec.s2v F (items.map h.bytes) (h.bytes pt)) :
    (pt.len ≤ 16 → ∃ h' r s', sivSealItems o 16 c s h dst pt items = .ok (h', some r, s') ∧
      h'.bytes r = h.bytes dst ++ (V ++ xorb (V.take pt.len) (ctrKs c.E 16 (Spec.sivQ V) pt.len))) ∧
    (16 < pt.len → sivSealItems o 16 c s h dst pt items = .panic) := by
  obtain ⟨I, R, P, hs⟩ := siv_ready hm hi hr
  subst hV
  exact siv_seal_inplace P hc s hs h dst pt items vd hn hfit ip

/-- C37 violated: `Open(ct[:0], ct)`, which the documentation of `Open` allows. An authentic message of more than 16
bytes panics; one of 1 to 16 bytes is rejected (unless the plaintext happens to be the beginning of the synthetic IV),
because the decrypted bytes overwrite the received IV before it is compared. -/
theorem C37_open_inplace_violated (hm : mac.bs = 16) (hc : c.bs = 16) (hi : SivMac mac σ o s0 F ok) (hr : SivReach o c s0 s)
    (h : Heap) (dst ct : Slice) (items : List Slice) (P : Bytes) (vc : ct.Valid h) (vi : ∀ x ∈ items, x.Valid h)
    (hn : items.length ≤ 126) (hfit : Fits ok items P.length) (hct : h.bytes ct = Spec.siv F c.E (items.map h.bytes) P)
    (ip : InPlace dst P.length ct) (aa : ∀ x ∈ items, Apart dst P.length x) :
    (16 < P.length → sivOpenItems o 16 c s h dst ct items = .panic) ∧
    (P.length ≤ 16 → (Spec.s2v F (items.map h.bytes) P).take P.length ≠ P →
      ∃ h' s', sivOpenItems o 16 c s h dst ct items = .ok (h', none, s')) := by
  obtain ⟨I, R, Q, hs⟩ := siv_ready hm hi hr
  have hcl : (h.bytes ct).length = ct.len := Mem.read_length ..
  have hl : ct.len = 16 + P.length := by
    have := congrArg List.length hct
    rwa [siv_length Q, hcl] at this
  have hV := s2v_length Q (items.map h.bytes) P
  obtain ⟨e1, e2⟩ := @sfa_tail h dst P.length
  have ht : tailAt h dst P.length = ct.ptr := tailAt_inPlace ip
  have hb : ct.ptr + ct.len ≤ h.brk := by have := vc.1; have := vc.2; omega
  have hc16 : copyInto (List.replicate 16 0) (h.bytes ct) = Spec.s2v F (items.map h.bytes) P := by
    unfold copyInto
    rw [List.length_replicate, List.drop_of_length_le (by rw [List.length_replicate]; omega), List.append_nil, hct]
    unfold Spec.siv; simp only; rw [List.take_left' hV]
  have hdr : (h.bytes ct).drop 16 = xorb P (ctrKs c.E 16 (Spec.sivQ (Spec.s2v F (items.map h.bytes) P)) P.length) := by
    rw [hct]; unfold Spec.siv; simp only; rw [List.drop_left' hV]
  have htk : h.mem.read ct.ptr 16 = Spec.s2v F (items.map h.bytes) P := by
    have : h.mem.read ct.ptr 16 = (h.bytes ct).take 16 := by
      unfold Heap.bytes; rw [Mem.read_take, hl, Nat.min_eq_left (by omega)]
    rw [this, hct]; unfold Spec.siv; simp only; rw [List.take_left' hV]
  obtain ⟨s', e, -⟩ := siv_s2v_heap Q items h.bytes (fun x _ => Mem.read_length ..) P hfit s hs
  generalize Spec.s2v F (items.map h.bytes) P = V at *
  have hq := sivQ_length V hV
  unfold sivOpenItems
  rw [if_neg (by omega), if_neg (by omega)]
  simp only [show ct.len - 16 = P.length by omega]
  rw [hc16, zeroIV_eq V hV]
  constructor
  · intro hgt
    unfold ctrXor
    rw [if_neg (by omega), if_neg (by simp; omega)]
    have : inexactOverlap ⟨(sliceForAppend h dst P.length).2.2.ptr, P.length, (sliceForAppend h dst P.length).2.2.cap⟩
        ⟨ct.ptr + 16, P.length, ct.cap - 16⟩ = true := by
      unfold inexactOverlap anyOverlap
      rw [e1, ht]
      simp only
      rw [if_neg (by omega)]
      simp only [Bool.and_eq_true, decide_eq_true_eq]
      omega
    simp only [this, if_true]
    rfl
  · intro hle hne
    have hov : inexactOverlap ⟨(sliceForAppend h dst P.length).2.2.ptr, P.length, (sliceForAppend h dst P.length).2.2.cap⟩
        ⟨ct.ptr + 16, P.length, ct.cap - 16⟩ = false := by
      unfold inexactOverlap anyOverlap
      rw [e1, ht]
      simp only
      split
      · rfl
      · simp only [Bool.and_eq_false_iff, decide_eq_false_iff_not]; omega
    have hctr := ctrXor_ok c (Spec.sivQ V) (by omega) (sliceForAppend h dst P.length).1.mem (sliceForAppend h dst P.length).2.2
      ⟨ct.ptr + 16, P.length, ct.cap - 16⟩ (by rw [e2]) hov
    rw [e1, ht, hc, sfa_read (by simp only; omega)] at hctr
    simp only at hctr
    have hbody : h.mem.read (ct.ptr + 16) P.length = (h.bytes ct).drop 16 := by
      unfold Heap.bytes; rw [Mem.read_drop, hl, Nat.add_sub_cancel_left]
    rw [hbody, hdr, xorb_assoc, xorb_self, xorb_zeros_right _ _ (by rw [ctrKs_length])] at hctr
    rw [hctr]
    simp only [Res.bind_ok]
    rw [e1, e2, ht]
    have hitems : (items.map fun x => Mem.read ((sliceForAppend h dst P.length).1.mem.write ct.ptr P) x.ptr x.len) = items.map h.bytes := by
      apply List.map_congr_left
      intro x hx
      have := sfa_apart_read (vi x hx) (aa x hx) P (Nat.le_refl _)
      rwa [ht] at this
    rw [hitems, Mem.read_write_self, e]
    simp only [Res.bind_ok]
    rw [if_pos]
    · exact ⟨_, _, rfl⟩
    · intro h0
      apply hne
      rw [← h0, Mem.read_take, Nat.min_eq_left hle, Mem.read_write_self]
end

/-! Non-vacuity, and the release of unauthenticated plaintext. -/

/-- A keyed CMAC object exists for 16-byte blocks; so does a PMAC object. -/
theorem siv_exists (mac : BlockCipher) (hm : mac.bs = 16) :
    (∃ d s, SivMac mac Mac.CmacSt (Mac.cmacObj mac d) s (Mac.Spec.cmac mac.E 16 0x87) (fun _ => True)) ∧
    (∃ d s Linv, SivMac mac Mac.PmacSt (Mac.pmacObj mac d) s (Mac.Spec.pmac mac.E 16 0x87 Linv) (fun k => k ≤ 2 ^ 35)) := by
  constructor
  · obtain ⟨⟨d, s⟩, h⟩ := (Mac.C44_new_ok_iff mac mac.bs).2.mpr ⟨by omega, by omega, by omega⟩
    exact ⟨d, s, .cmac d s h⟩
  · obtain ⟨⟨d, s⟩, h⟩ := (Mac.C45_new_ok_iff mac mac.bs).2.mpr ⟨by omega, by omega, by omega⟩
    have hl : (mac.E (Mac.Spec.zero 16)).length = 16 := by rw [mac.lenE _ (by simp [Mac.Spec.zero, hm]), hm]
    obtain ⟨y, ⟨h1, h2⟩, -⟩ := Mac.C45_inverse (mac.E (Mac.Spec.zero 16)) (by omega)
    exact ⟨d, s, y, .pmac d s h y (by omega) (by rw [hl] at h2; exact h2)⟩

/-- A 16-byte nonce, 21 bytes of text and 5 of associated data meet the hypotheses of `C37_roundtrip_partial`. -/
example : demoCipher.bs = 16 ∧ Slice.Valid ⟨20, 0, 40⟩ demoHeap ∧
    Slice.Valid ⟨0, 16, 16⟩ demoHeap ∧ Slice.Valid ⟨60, 21, 21⟩ demoHeap ∧ Slice.Valid ⟨90, 5, 5⟩ demoHeap ∧
    Apart ⟨20, 0, 40⟩ (16 + 21) ⟨60, 21, 21⟩ ∧ Apart ⟨20, 0, 40⟩ (16 + 21) ⟨90, 5, 5⟩ ∧
    Apart ⟨20, 0, 40⟩ (16 + 21) ⟨0, 16, 16⟩ ∧ Fits (fun k => k ≤ 2 ^ 35) [⟨90, 5, 5⟩, ⟨0, 16, 16⟩] 21 := by
  refine ⟨rfl, ?_, ?_, ?_, ?_, ?_, ?_, ?_, ?_⟩
  all_goals first | (unfold Slice.Valid demoHeap; simp; done) | (unfold Apart; simp; done) | (unfold Fits; simp; done)

/-- In-place arguments exist for the two violations. -/
example : InPlace ⟨20, 0, 40⟩ (16 + 5) ⟨20, 5, 40⟩ ∧ InPlace ⟨20, 0, 40⟩ 5 ⟨20, 21, 40⟩ := by
  constructor <;> (unfold InPlace; simp)

section
variable {mac c : BlockCipher} {σ : Type} {o : Hash.Obj σ} {s0 s : σ} {F : Bytes → Bytes} {ok : Nat → Prop}

/-- C37 violated: whenever `dst` has room, the CTR decryption of the received bytes is in the memory behind `dst` when
`Open` returns, whether or not authentication failed. -/
theorem C37_release_violated (hm : mac.bs = 16) (hc : c.bs = 16) (hi : SivMac mac σ o s0 F ok) (hr : SivReach o c s0 s)
    (h : Heap) (dst ct : Slice) (items : List Slice) (vc : ct.Valid h) (vi : ∀ x ∈ items, x.Valid h)
    (hn : items.length ≤ 126) (hl : 16 ≤ ct.len) (hfit : Fits ok items (ct.len - 16))
    (ap : Apart dst (ct.len - 16) ct) (aa : ∀ x ∈ items, Apart dst (ct.len - 16) x) (hroom : dst.len + (ct.len - 16) ≤ dst.cap) :
    ∃ h' r s', sivOpenItems o 16 c s h dst ct items = .ok (h', r, s') ∧
      h'.mem.read (dst.ptr + dst.len) (ct.len - 16) =
        xorb ((h.bytes ct).drop 16) (ctrKs c.E 16 (Spec.sivQ ((h.bytes ct).take 16)) (ct.len - 16)) := by
  obtain ⟨I, R, Q, hs⟩ := siv_ready hm hi hr
  have hcl : (h.bytes ct).length = ct.len := Mem.read_length ..
  obtain ⟨s', -, e⟩ := siv_open_core Q hc s hs h dst ct items (ct.len - 16) vc vi hn (by omega) hfit (.inl ap) aa
  refine ⟨_, _, s', e _ rfl, ?_⟩
  have ht : tailAt h dst (ct.len - 16) = dst.ptr + dst.len := by unfold tailAt; rw [if_pos hroom]
  rw [ht]
  exact Mem.read_write_self' _ _ _ _ (by rw [xorb_length, ctrKs_length, List.length_drop, hcl, Nat.min_self])
end

end Verif.Aead
