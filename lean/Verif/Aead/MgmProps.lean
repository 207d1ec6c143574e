import Verif.Aead.MgmLemmas
import Verif.Aead.EaxProps
/-
C34: MGM.  The specification is MgmSpec.lean (RFC 9058, multiplication as polynomials over GF(2)); the vocabulary is in
Base.lean.  `mgmNew` is the constructor, `mgmSeal`/`mgmOpen` are `Seal`/`Open`.
-/
namespace Verif.Aead
open Verif.Mode.Spec (natBe beNat)

/-- C34: the constructor accepts exactly the ciphers with 16-byte blocks. -/
theorem C34_new_ok_iff (c : BlockCipher) : mgmNew c = .ok () ↔ c.bs = 16 := by
  unfold mgmNew; split <;> simp_all

/-- A nonce: 16 bytes whose first bit is 0. -/
def MgmNonce (N : Bytes) : Prop := N.length = 16 ∧ (N.getD 0 0).toNat < 128

theorem mgmNonce_iff (h : Heap) (nonce : Slice) :
    ¬ (nonce.len ≠ 16 ∨ (h.bytes nonce).getD 0 0 &&& 0x80 ≠ 0) ↔ MgmNonce (h.bytes nonce) := by
  have hb : ∀ b : Byte, b &&& 0x80 = 0 ↔ b.toNat < 128 := by decide
  unfold MgmNonce
  rw [← hb]
  have : (h.bytes nonce).length = nonce.len := Mem.read_length ..
  rw [this]
  constructor
  · intro h0; exact ⟨Classical.byContradiction fun h1 => h0 (Or.inl h1), Classical.byContradiction fun h1 => h0 (Or.inr h1)⟩
  · rintro ⟨h1, h2⟩ (h3 | h3)
    · exact h3 h1
    · exact h3 h2

/-- The multiplication in the code is multiplication of polynomials modulo `x^128 + x^7 + x^2 + x + 1`. -/
theorem C34_mul_is_field_mul (x y : Bytes) (hx : x.length = 16) : mgmMul x y = Spec.gfMul x y := mgmMul_eq x y hx

theorem mgmTag_set (E : Bytes → Bytes) (N A C : Bytes) (hN : N.length = 16) :
    Spec.mgmTag E (N.set 0 (N.getD 0 0 &&& 0x7F)) A C = Spec.mgmTag E N A C := by
  unfold Spec.mgmTag; rw [(mgmIcn_set N hN 1).1]

theorem mgmCrypt_set (E : Bytes → Bytes) (N P : Bytes) (hN : N.length = 16) :
    Spec.mgmCrypt E (N.set 0 (N.getD 0 0 ||| 0x80)) P = Spec.mgmCrypt E N P := by
  unfold Spec.mgmCrypt; rw [(mgmIcn_set N hN 0).2]

theorem mgm_length (c : BlockCipher) (h16 : c.bs = 16) (N P A : Bytes) : (Spec.mgm c.E N P A).length = P.length + 16 := by
  unfold Spec.mgm
  simp only
  rw [List.length_append, mgmCrypt_length, mgmTag_length c h16]

section
variable {c : BlockCipher}

theorem sameOrApart_of {h : Heap} {dst x : Slice} {n k : Nat} (hx : x.Valid h) (hk : k ≤ n) (hxl : k ≤ x.len)
    (ap : Apart dst n x ∨ InPlace dst n x) : SameOrApart (tailAt h dst n) x.ptr k := by
  unfold SameOrApart
  rcases ap with ap | ap
  · have := sfa_apart hx ap; omega
  · rw [tailAt_inPlace ap]; omega

/-- C34: `Seal` appends the RFC 9058 ciphertext and tag to dst; dst may be apart from the plaintext or exactly over
it. -/
theorem C34_seal_spec (hnew : mgmNew c = .ok ()) (h : Heap) (dst nonce pt ad : Slice)
    (vd : dst.Valid h) (vn : nonce.Valid h) (vp : pt.Valid h) (va : ad.Valid h)
    (hn : MgmNonce (h.bytes nonce)) (hne : ¬ (pt.len = 0 ∧ ad.len = 0))
    (ap : Apart dst (pt.len + 16) pt ∨ InPlace dst (pt.len + 16) pt) (aa : Apart dst (pt.len + 16) ad) :
    ∃ h' r, mgmSeal c h dst nonce pt ad = .ok (h', r) ∧
      Appended h dst (Spec.mgm c.E (h.bytes nonce) (h.bytes pt) (h.bytes ad)) h' r := by
  have h16 := (C34_new_ok_iff c).mp hnew
  have hPl : (h.bytes pt).length = pt.len := Mem.read_length ..
  obtain ⟨e1, e2⟩ := @sfa_tail h dst (pt.len + 16)
  have b1 : (sliceForAppend h dst (pt.len + 16)).1.bytes nonce = h.bytes nonce := sfa_bytes vn
  have hcl : (Spec.mgmCrypt c.E (h.bytes nonce) (h.bytes pt)).length = pt.len := by rw [mgmCrypt_length, hPl]
  unfold mgmSeal
  rw [if_neg ((mgmNonce_iff h nonce).mpr hn), if_neg hne]
  simp only
  rw [b1, e1, mgmCryptM_eq c h16 _ _ _ _ _ hn.1 (sameOrApart_of vp (by omega) (Nat.le_refl _) ap), sfa_bytes vp,
    Mem.read_write_self' _ _ _ _ hcl, sfa_apart_read va aa _ (by omega),
    mgmAuth_eq c h16 _ _ _ (by rw [List.length_set]; exact hn.1), mgmTag_set _ _ _ _ hn.1]
  refine ⟨_, _, rfl, ?_⟩
  have := sfa_appended (n := pt.len + 16) vd (Spec.mgm c.E (h.bytes nonce) (h.bytes pt) (h.bytes ad)) (by
    rw [mgm_length c h16, hPl])
  unfold Spec.mgm at this ⊢
  simp only at this
  rw [Mem.write_append, hcl] at this
  exact this

/-- C34: which calls of `Seal` panic. -/
theorem C34_seal_panics_iff (h : Heap) (dst nonce pt ad : Slice) :
    mgmSeal c h dst nonce pt ad = .panic ↔ ¬ MgmNonce (h.bytes nonce) ∨ (pt.len = 0 ∧ ad.len = 0) := by
  unfold mgmSeal
  rw [← mgmNonce_iff h nonce]
  split
  · rename_i h0; simp only [true_iff]; exact Or.inl (fun h1 => h1 h0)
  · rename_i h0
    split
    · rename_i h1; simp only [true_iff]; exact Or.inr h1
    · rename_i h1
      simp only [reduceCtorEq, false_iff]
      rintro (h2 | h2)
      · exact h2 h0
      · exact h1 h2

/-- What `Open` does. -/
theorem mgmOpen_core (h16 : c.bs = 16) (h : Heap) (dst nonce ct ad : Slice) (n : Nat)
    (vn : nonce.Valid h) (vc : ct.Valid h) (va : ad.Valid h)
    (hn : MgmNonce (h.bytes nonce)) (hl : ct.len = n + 16)
    (ap : Apart dst n ct ∨ InPlace dst n ct) :
    mgmOpen c h dst nonce ct ad =
      if Spec.mgmTag c.E (h.bytes nonce) (h.bytes ad) ((h.bytes ct).take n) ≠ (h.bytes ct).drop n then
        .ok ((sliceForAppend h dst n).1, none)
      else .ok (⟨(sliceForAppend h dst n).1.mem.write (tailAt h dst n)
          (Spec.mgmCrypt c.E (h.bytes nonce) ((h.bytes ct).take n)), (sliceForAppend h dst n).1.brk⟩,
        some (sliceForAppend h dst n).2.1) := by
  obtain ⟨e1, e2⟩ := @sfa_tail h dst n
  have hb : ct.ptr + ct.len ≤ h.brk := by have := vc.1; have := vc.2; omega
  have hct : (h.bytes ct).take n = h.mem.read ct.ptr n := by
    unfold Heap.bytes; rw [Mem.read_take, hl, Nat.min_eq_left (by omega)]
  have hctd : (h.bytes ct).drop n = h.mem.read (ct.ptr + n) 16 := by
    unfold Heap.bytes; rw [Mem.read_drop, hl, Nat.add_sub_cancel_left]
  have b1 : (sliceForAppend h dst n).1.bytes nonce = h.bytes nonce := sfa_bytes vn
  have b2 : (sliceForAppend h dst n).1.bytes ad = h.bytes ad := sfa_bytes va
  have hs : SameOrApart (tailAt h dst n) ct.ptr n := sameOrApart_of vc (Nat.le_refl _) (by omega) ap
  unfold mgmOpen
  rw [if_neg ((mgmNonce_iff h nonce).mpr hn), if_neg (by omega), if_neg (by omega)]
  simp only
  rw [show ct.len - 16 = n by omega, b1, b2, sfa_read (by omega), sfa_read (by omega), mgmAuth_eq c h16 _ _ _ hn.1,
    e1, mgmCryptM_eq c h16 _ _ _ _ _ (by rw [List.length_set]; exact hn.1) hs, sfa_read (by omega),
    mgmCrypt_set _ _ _ hn.1, hct, hctd]

/-- C34: `Open` accepts the RFC 9058 ciphertext of `P` and appends `P` to dst, apart or in place. -/
theorem C34_open_accepts (hnew : mgmNew c = .ok ()) (h : Heap) (dst nonce ct ad : Slice)
    (vd : dst.Valid h) (vn : nonce.Valid h) (vc : ct.Valid h) (va : ad.Valid h)
    (hn : MgmNonce (h.bytes nonce)) (P : Bytes)
    (hct : h.bytes ct = Spec.mgm c.E (h.bytes nonce) P (h.bytes ad))
    (ap : Apart dst P.length ct ∨ InPlace dst P.length ct) :
    ∃ h' r, mgmOpen c h dst nonce ct ad = .ok (h', some r) ∧ Appended h dst P h' r := by
  have h16 := (C34_new_ok_iff c).mp hnew
  have hlen : ct.len = P.length + 16 := by
    have := congrArg List.length hct
    rw [mgm_length c h16] at this
    unfold Heap.bytes at this
    rwa [Mem.read_length] at this
  have hcl := mgmCrypt_length c.E (h.bytes nonce) P
  have htk : (h.bytes ct).take P.length = Spec.mgmCrypt c.E (h.bytes nonce) P := by
    rw [hct]; exact List.take_left' hcl
  have hd : (h.bytes ct).drop P.length = Spec.mgmTag c.E (h.bytes nonce) (h.bytes ad) ((h.bytes ct).take P.length) := by
    rw [htk, hct]; exact List.drop_left' hcl
  rw [mgmOpen_core h16 h dst nonce ct ad P.length vn vc va hn hlen ap, if_neg (by rw [hd]; simp), htk, mgmCrypt_invol]
  exact ⟨_, _, rfl, sfa_appended vd P rfl⟩

/-- C34: every other ciphertext of at least 16 bytes is rejected with an error, and nothing that was visible is
changed. -/
theorem C34_open_rejects (hnew : mgmNew c = .ok ()) (h : Heap) (dst nonce ct ad : Slice)
    (vn : nonce.Valid h) (vc : ct.Valid h) (va : ad.Valid h)
    (hn : MgmNonce (h.bytes nonce)) (hl : 16 ≤ ct.len)
    (hct : ¬ ∃ P, h.bytes ct = Spec.mgm c.E (h.bytes nonce) P (h.bytes ad))
    (ap : Apart dst (ct.len - 16) ct ∨ InPlace dst (ct.len - 16) ct) :
    ∃ h', mgmOpen c h dst nonce ct ad = .ok (h', none) ∧ ∀ a, a < h.brk → h'.mem a = h.mem a := by
  have h16 := (C34_new_ok_iff c).mp hnew
  rw [mgmOpen_core h16 h dst nonce ct ad (ct.len - 16) vn vc va hn (by omega) ap, if_pos]
  · exact ⟨_, rfl, fun a ha => sfa_frame a ha⟩
  · intro h0
    refine hct ⟨Spec.mgmCrypt c.E (h.bytes nonce) ((h.bytes ct).take (ct.len - 16)), ?_⟩
    unfold Spec.mgm
    simp only
    rw [mgmCrypt_invol, h0, List.take_append_drop]

/-- C34 (the rest): which calls of `Open` panic instead of returning an error. -/
theorem C34_open_panics_iff (h : Heap) (dst nonce ct ad : Slice) :
    mgmOpen c h dst nonce ct ad = .panic ↔ ¬ MgmNonce (h.bytes nonce) ∨ ct.len < 16 := by
  unfold mgmOpen
  rw [← mgmNonce_iff h nonce]
  split
  · rename_i h0; simp only [true_iff]; exact Or.inl (fun h1 => h1 h0)
  · rename_i h0
    split
    · rename_i h1; simp only [true_iff]; exact Or.inr (by omega)
    · split
      · rename_i h1; simp only [true_iff]; exact Or.inr h1
      · rename_i h1 h2
        simp only
        have : ∀ (p : Prop) [Decidable p] (a b : Heap × Option Slice), (if p then Res.ok a else Res.ok b) ≠ Res.panic := by
          intro p _ a b; split <;> simp
        simp only [this, false_iff]
        rintro (h3 | h3)
        · exact h3 h0
        · exact h2 h3

/-- C34: opening what `Seal` returned gives the plaintext back, whether dst is apart from it or exactly over it. -/
theorem C34_roundtrip (hnew : mgmNew c = .ok ()) (h : Heap) (dst nonce pt ad : Slice)
    (vd : dst.Valid h) (vn : nonce.Valid h) (vp : pt.Valid h) (va : ad.Valid h) (hd0 : dst.len = 0)
    (hn : MgmNonce (h.bytes nonce)) (hne : ¬ (pt.len = 0 ∧ ad.len = 0))
    (ap : Apart dst (pt.len + 16) pt ∨ InPlace dst (pt.len + 16) pt) (an : Apart dst (pt.len + 16) nonce)
    (aa : Apart dst (pt.len + 16) ad) :
    ∃ h1 ct, mgmSeal c h dst nonce pt ad = .ok (h1, ct) ∧
      ∀ dst2 : Slice, dst2.Valid h1 → (Apart dst2 pt.len ct ∨ InPlace dst2 pt.len ct) →
        ∃ h2 r, mgmOpen c h1 dst2 nonce ct ad = .ok (h2, some r) ∧ Appended h1 dst2 (h.bytes pt) h2 r := by
  have h16 := (C34_new_ok_iff c).mp hnew
  obtain ⟨h1, ct, g1, g2⟩ := C34_seal_spec hnew h dst nonce pt ad vd vn vp va hn hne ap aa
  refine ⟨h1, ct, g1, ?_⟩
  intro dst2 vd2 ap2
  have hPl : (h.bytes pt).length = pt.len := Mem.read_length ..
  have hX := mgm_length c h16 (h.bytes nonce) (h.bytes pt) (h.bytes ad)
  rw [hPl] at hX
  obtain ⟨wn, bn⟩ := g2.keeps vn (by rw [hX]; exact an)
  obtain ⟨wa, ba⟩ := g2.keeps va (by rw [hX]; exact aa)
  refine C34_open_accepts hnew h1 dst2 nonce ct ad vd2 wn g2.valid wa (by rw [bn]; exact hn) (h.bytes pt) ?_
    (by rw [hPl]; exact ap2)
  rw [g2.bytes, bn, ba]
  unfold Heap.bytes
  rw [hd0]
  rfl
end

/-! Non-vacuity and the violation. -/

/-- A nonce of 16 bytes, a text of 21 (in place) and additional data of 5 bytes meet the hypotheses of
`C34_roundtrip`. -/
example : mgmNew demoCipher = .ok () ∧ MgmNonce (demoHeap.bytes ⟨0, 16, 16⟩) ∧ Slice.Valid ⟨20, 0, 40⟩ demoHeap ∧
    Slice.Valid ⟨0, 16, 16⟩ demoHeap ∧ Slice.Valid ⟨20, 21, 40⟩ demoHeap ∧ Slice.Valid ⟨70, 5, 5⟩ demoHeap ∧
    InPlace ⟨20, 0, 40⟩ (21 + 16) ⟨20, 21, 40⟩ ∧ Apart ⟨20, 0, 40⟩ (21 + 16) ⟨70, 5, 5⟩ ∧
    Apart ⟨20, 0, 40⟩ (21 + 16) ⟨0, 16, 16⟩ := by
  refine ⟨rfl, ?_, ?_, ?_, ?_, ?_, ?_, ?_, ?_⟩
  all_goals first | (unfold Slice.Valid demoHeap; simp; done) | (unfold InPlace; simp; done) | (unfold Apart; simp; done) |
    (unfold MgmNonce; decide +kernel)

/-- C34 violated: a received ciphertext shorter than the tag makes `Open` panic; no error is returned. -/
theorem C34_open_short_violated : ∃ (c : BlockCipher) (h : Heap) (nonce ct ad : Slice), mgmNew c = .ok () ∧
    nonce.Valid h ∧ ct.Valid h ∧ ad.Valid h ∧ MgmNonce (h.bytes nonce) ∧ ct.len = 15 ∧
    mgmOpen c h ⟨0, 0, 0⟩ nonce ct ad = .panic := by
  refine ⟨demoCipher, demoHeap, ⟨0, 16, 16⟩, ⟨20, 15, 15⟩, ⟨70, 5, 5⟩, rfl, ?_, ?_, ?_, ?_, rfl, ?_⟩
  all_goals first | (unfold Slice.Valid demoHeap; simp; done) | (unfold MgmNonce; decide +kernel) | skip
  exact (C34_open_panics_iff ..).mpr (Or.inr (by decide))

end Verif.Aead
