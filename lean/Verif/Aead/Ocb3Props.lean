import Verif.Aead.Ocb3Core
/-
C36: OCB3 (mode/ocb3).  The specification is OcbSpec.lean (RFC 7253); the vocabulary is in Base.lean.  `ocb3New` is
`NewWithNonceAndTagSize`, `ocb3Seal`/`ocb3Open` are `Seal`/`Open`.
-/
namespace Verif.Aead
open Verif.Mode.Spec (natBe beNat)

/-- C36: the constructor accepts exactly 16-byte block ciphers, tags of 12 to 16 bytes and any positive nonce size. -/
theorem C36_new_ok_iff (c : BlockCipher) (ns ts : Int) :
    (∃ x, ocb3New c ns ts = .ok x) ↔ c.bs = 16 ∧ 12 ≤ ts ∧ ts ≤ 16 ∧ 1 ≤ ns := by
  unfold ocb3New
  split
  · simp; omega
  · split
    · simp; omega
    · split
      · rename_i h; simp; intro h1; exact absurd h1 h
      · simp; omega

section
variable {c : BlockCipher} {x : Ocb3} {ns ts : Nat}

/-- C36: `Seal` appends the RFC 7253 ciphertext and tag to dst. dst may be apart from the plaintext, or exactly over it if
the plaintext is a whole number of blocks (for other lengths see `C36_seal_inplace_violated`). Nothing in the result
depends on earlier calls. -/
theorem C36_seal_spec_partial (hnew : ocb3New c ns ts = .ok x) (hns : ns ≤ 15) (h : Heap) (dst nonce pt ad : Slice)
    (vd : dst.Valid h) (vn : nonce.Valid h) (vp : pt.Valid h) (va : ad.Valid h) (hn : nonce.len = ns)
    (hs : pt.len + ad.len ≤ 2 ^ 52)
    (ap : Apart dst (pt.len + ts) pt ∨ (InPlace dst (pt.len + ts) pt ∧ 16 ∣ pt.len)) (aa : Apart dst (pt.len + ts) ad) :
    ∃ h' r, ocb3Seal c x h dst nonce pt ad = .ok (h', r) ∧
      Appended h dst (Spec.ocb c.E ts (h.bytes nonce) (h.bytes pt) (h.bytes ad)) h' r := by
  obtain ⟨hx, t1, t2, t3, t4, t5⟩ := ocb3New_ok hnew
  obtain rfl : x.tagSize = ts := by omega
  refine ⟨_, _, ocb3Seal_core hx t2 h dst nonce pt ad vn vp va (by omega) (by omega) hs ap aa, sfa_appended vd _ ?_⟩
  rw [ocb_length hx.h16 _ t2]
  unfold Heap.bytes; rw [Mem.read_length]

/-- C36: which calls of `Seal` panic. -/
theorem C36_seal_panics_iff (hnew : ocb3New c ns ts = .ok x) (h : Heap) (dst nonce pt ad : Slice)
    (vn : nonce.Valid h) (vp : pt.Valid h) :
    ocb3Seal c x h dst nonce pt ad = .panic ↔
      nonce.len ≠ ns ∨ 2 ^ 52 < pt.len + ad.len ∨ PartialOverlap dst (pt.len + ts) pt ∨ 15 < ns := by
  obtain ⟨hx, t1, t2, t3, t4, t5⟩ := ocb3New_ok hnew
  obtain rfl : x.tagSize = ts := by omega
  obtain rfl : x.nonceSize = ns := by omega
  have b1 : (sliceForAppend h dst (pt.len + x.tagSize)).1.bytes nonce = h.bytes nonce := sfa_bytes vn
  have hl : (h.bytes nonce).length = nonce.len := Mem.read_length ..
  unfold ocb3Seal
  by_cases h1 : nonce.len ≠ x.nonceSize
  · rw [if_pos h1]; simp only [true_iff]; exact Or.inl h1
  · rw [if_neg h1]
    by_cases h2 : pt.len > 2 ^ 52 ∨ 2 ^ 52 - pt.len < ad.len
    · rw [if_pos h2]; simp only [true_iff]; right; left; omega
    · rw [if_neg h2]
      simp only
      by_cases h3 : inexactOverlap (sliceForAppend h dst (pt.len + x.tagSize)).2.2 pt = true
      · rw [if_pos h3]; simp only [true_iff]; right; right; left; exact (inexact_sfa vp).mp h3
      · rw [if_neg h3, b1]
        by_cases h4 : nonce.len > 15
        · unfold ocb3Init
          rw [hl, if_pos h4]
          simp only [Res.bind_panic, true_iff]; omega
        · obtain ⟨off, i1, _⟩ := ocb3Init_eq c x hx.h16 t2 (h.bytes nonce) (by omega)
          rw [i1, Res.bind_ok]
          have hf : ¬ (nonce.len ≠ x.nonceSize ∨ 2 ^ 52 < pt.len + ad.len ∨ PartialOverlap dst (pt.len + x.tagSize) pt ∨ 15 < x.nonceSize) := by
            rintro (h5 | h5 | h5 | h5)
            · exact h1 h5
            · omega
            · exact h3 ((inexact_sfa vp).mpr h5)
            · omega
          simp only [hf, iff_false]
          split <;> simp

/-- C36: `Open` accepts the RFC 7253 ciphertext of `P` and appends `P` to dst, apart or in place. -/
theorem C36_open_accepts (hnew : ocb3New c ns ts = .ok x) (hns : ns ≤ 15) (h : Heap) (dst nonce ct ad : Slice)
    (vd : dst.Valid h) (vn : nonce.Valid h) (vc : ct.Valid h) (va : ad.Valid h) (hn : nonce.len = ns) (P : Bytes)
    (hs : ct.len ≤ 2 ^ 52 ∧ P.length + ad.len ≤ 2 ^ 52)
    (hct : h.bytes ct = Spec.ocb c.E ts (h.bytes nonce) P (h.bytes ad))
    (ap : Apart dst P.length ct ∨ InPlace dst P.length ct) (aa : Apart dst P.length ad) :
    ∃ h' r, ocb3Open c x h dst nonce ct ad = .ok (h', some r) ∧ Appended h dst P h' r := by
  obtain ⟨hx, t1, t2, t3, t4, t5⟩ := ocb3New_ok hnew
  obtain rfl : x.tagSize = ts := by omega
  have hlen : ct.len = P.length + x.tagSize := by
    have := congrArg List.length hct
    rw [ocb_length hx.h16 _ t2] at this
    unfold Heap.bytes at this
    rwa [Mem.read_length] at this
  have hC : (h.bytes ct).length = ct.len := Mem.read_length ..
  have hsplit : (h.bytes ct).take P.length ++ (h.bytes ct).drop P.length = Spec.ocb c.E x.tagSize (h.bytes nonce) P (h.bytes ad) := by
    rw [List.take_append_drop, hct]
  obtain ⟨g1, g2⟩ := (ocb_iff hx.h16 _ t2 _ _ P _ _ (by rw [List.length_take, hC]; omega)).mp hsplit
  have := ocb3Open_core hx t2 h dst nonce ct ad P.length vn vc va (by omega) (by omega) hlen hs ap aa
  simp only at this
  rw [← g1, if_neg (by rw [g2]; simp)] at this
  exact ⟨_, _, this, sfa_appended vd P rfl⟩

/-- C36: a ciphertext shorter than the tag is rejected, nothing is written. -/
theorem C36_open_short_rejects (hnew : ocb3New c ns ts = .ok x) (h : Heap) (dst nonce ct ad : Slice) (hn : nonce.len = ns)
    (hl : ct.len < ts) : ocb3Open c x h dst nonce ct ad = .ok (h, none) := by
  obtain ⟨hx, t1, t2, t3, t4, t5⟩ := ocb3New_ok hnew
  unfold ocb3Open
  rw [if_neg (by omega), if_pos (by omega)]

/-- C36 (what is missing: that no plaintext is released, see `C36_open_release_violated`): every other ciphertext is
rejected with an error, and the only visible memory that may have changed is the space behind dst. What is left there
is the deciphered whole blocks, followed by zeros. -/
theorem C36_open_rejects_partial (hnew : ocb3New c ns ts = .ok x) (hns : ns ≤ 15) (h : Heap) (dst nonce ct ad : Slice)
    (vd : dst.Valid h) (vn : nonce.Valid h) (vc : ct.Valid h) (va : ad.Valid h) (hn : nonce.len = ns) (n : Nat)
    (hl : ct.len = n + ts) (hs : ct.len ≤ 2 ^ 52 ∧ n + ad.len ≤ 2 ^ 52)
    (hct : ¬ ∃ P, h.bytes ct = Spec.ocb c.E ts (h.bytes nonce) P (h.bytes ad))
    (ap : Apart dst n ct ∨ InPlace dst n ct) (aa : Apart dst n ad) :
    ∃ h' r, ocb3Open c x h dst nonce ct ad = .ok (h', none) ∧
      Appended h dst ((Spec.ocbCrypt c.D c.E ts (h.bytes nonce) ((h.bytes ct).take n)).take (16 * (n / 16)) ++
        List.replicate (n % 16) 0) h' r := by
  obtain ⟨hx, t1, t2, t3, t4, t5⟩ := ocb3New_ok hnew
  obtain rfl : x.tagSize = ts := by omega
  have hC : (h.bytes ct).length = ct.len := Mem.read_length ..
  have hCl : ((h.bytes ct).take n).length = n := by rw [List.length_take, hC]; omega
  have hPl := ocbCrypt_length hx.h16 c.D (lenD16 hx.h16) x.tagSize (h.bytes nonce) ((h.bytes ct).take n)
  have := ocb3Open_core hx t2 h dst nonce ct ad n vn vc va (by omega) (by omega) hl hs ap aa
  simp only at this
  rw [if_pos (by
    intro h0
    refine hct ⟨Spec.ocbCrypt c.D c.E x.tagSize (h.bytes nonce) ((h.bytes ct).take n), ?_⟩
    have := (ocb_iff hx.h16 x.tagSize t2 (h.bytes nonce) (h.bytes ad)
      (Spec.ocbCrypt c.D c.E x.tagSize (h.bytes nonce) ((h.bytes ct).take n)) ((h.bytes ct).take n) ((h.bytes ct).drop n) hPl).mpr
      ⟨rfl, h0.symm⟩
    rwa [List.take_append_drop] at this)] at this
  exact ⟨_, _, this, sfa_appended vd _ (by
    rw [List.length_append, List.length_take, hPl, hCl, List.length_replicate]; omega)⟩

/-- C36: which calls of `Open` panic. -/
theorem C36_open_panics_iff (hnew : ocb3New c ns ts = .ok x) (h : Heap) (dst nonce ct ad : Slice)
    (vn : nonce.Valid h) (vc : ct.Valid h) :
    ocb3Open c x h dst nonce ct ad = .panic ↔
      nonce.len ≠ ns ∨ (ts ≤ ct.len ∧ (2 ^ 52 < ct.len ∨ 2 ^ 52 + ts < ct.len + ad.len ∨ PartialOverlap dst (ct.len - ts) ct ∨ 15 < ns)) := by
  obtain ⟨hx, t1, t2, t3, t4, t5⟩ := ocb3New_ok hnew
  obtain rfl : x.tagSize = ts := by omega
  obtain rfl : x.nonceSize = ns := by omega
  have b1 : (sliceForAppend h dst (ct.len - x.tagSize)).1.bytes nonce = h.bytes nonce := sfa_bytes vn
  have hl : (h.bytes nonce).length = nonce.len := Mem.read_length ..
  unfold ocb3Open
  by_cases h1 : nonce.len ≠ x.nonceSize
  · rw [if_pos h1]; simp only [true_iff]; exact Or.inl h1
  · rw [if_neg h1]
    by_cases h0 : ct.len < x.tagSize
    · rw [if_pos h0]; simp only [reduceCtorEq, false_iff]; omega
    · rw [if_neg h0]
      by_cases h2 : ct.len > 2 ^ 52 ∨ 2 ^ 52 + x.tagSize - ct.len < ad.len
      · rw [if_pos h2]; simp only [true_iff]; omega
      · rw [if_neg h2]
        simp only
        by_cases h3 : inexactOverlap (sliceForAppend h dst (ct.len - x.tagSize)).2.2 ct = true
        · rw [if_pos h3]; simp only [true_iff]; have := (inexact_sfa vc).mp h3; exact Or.inr ⟨by omega, Or.inr (Or.inr (Or.inl this))⟩
        · rw [if_neg h3, b1]
          by_cases h4 : nonce.len > 15
          · unfold ocb3Init
            rw [hl, if_pos h4]
            simp only [Res.bind_panic, true_iff]; omega
          · obtain ⟨off, i1, _⟩ := ocb3Init_eq c x hx.h16 t2 (h.bytes nonce) (by omega)
            rw [i1, Res.bind_ok]
            have hf : ¬ (nonce.len ≠ x.nonceSize ∨ (x.tagSize ≤ ct.len ∧ (2 ^ 52 < ct.len ∨ 2 ^ 52 + x.tagSize < ct.len + ad.len ∨
                PartialOverlap dst (ct.len - x.tagSize) ct ∨ 15 < x.nonceSize))) := by
              rintro (h5 | ⟨_, h5 | h5 | h5 | h5⟩)
              · exact h1 h5
              · omega
              · omega
              · exact h3 ((inexact_sfa vc).mpr h5)
              · omega
            simp only [hf, iff_false]
            unfold ocb3Finish
            split <;> split <;> simp

/-- C36: opening what `Seal` returned gives the plaintext back. -/
theorem C36_roundtrip_partial (hnew : ocb3New c ns ts = .ok x) (hns : ns ≤ 15) (h : Heap) (dst nonce pt ad : Slice)
    (vd : dst.Valid h) (vn : nonce.Valid h) (vp : pt.Valid h) (va : ad.Valid h) (hd0 : dst.len = 0) (hn : nonce.len = ns)
    (hs : pt.len + ts ≤ 2 ^ 52 ∧ pt.len + ad.len ≤ 2 ^ 52)
    (ap : Apart dst (pt.len + ts) pt ∨ (InPlace dst (pt.len + ts) pt ∧ 16 ∣ pt.len))
    (an : Apart dst (pt.len + ts) nonce) (aa : Apart dst (pt.len + ts) ad) :
    ∃ h1 ct, ocb3Seal c x h dst nonce pt ad = .ok (h1, ct) ∧
      ∀ dst2 : Slice, dst2.Valid h1 → (Apart dst2 pt.len ct ∨ InPlace dst2 pt.len ct) → Apart dst2 pt.len ad →
        ∃ h2 r, ocb3Open c x h1 dst2 nonce ct ad = .ok (h2, some r) ∧ Appended h1 dst2 (h.bytes pt) h2 r := by
  obtain ⟨hx, t1, t2, t3, t4, t5⟩ := ocb3New_ok hnew
  have t6 : ts ≤ 16 := by omega
  obtain ⟨h1, ct, g1, g2⟩ := C36_seal_spec_partial hnew hns h dst nonce pt ad vd vn vp va hn hs.2 ap aa
  refine ⟨h1, ct, g1, ?_⟩
  intro dst2 vd2 ap2 aa2
  have hPl : (h.bytes pt).length = pt.len := Mem.read_length ..
  have hX := ocb_length hx.h16 ts t6 (h.bytes nonce) (h.bytes pt) (h.bytes ad)
  rw [hPl] at hX
  obtain ⟨wn, bn⟩ := g2.keeps vn (by rw [hX]; exact an)
  obtain ⟨wa, ba⟩ := g2.keeps va (by rw [hX]; exact aa)
  have hb : h1.bytes ct = Spec.ocb c.E ts (h.bytes nonce) (h.bytes pt) (h.bytes ad) := by
    rw [g2.bytes]
    unfold Heap.bytes
    rw [hd0]
    rfl
  have hcl : ct.len = pt.len + ts := by
    have := congrArg List.length hb
    rw [hX] at this
    unfold Heap.bytes at this
    rwa [Mem.read_length] at this
  exact C36_open_accepts hnew hns h1 dst2 nonce ct ad vd2 wn g2.valid wa hn (h.bytes pt)
    (by rw [hPl]; omega) (by rw [hb, bn, ba]) (by rw [hPl]; exact ap2) (by rw [hPl]; exact aa2)

/-- C36 violated: a plaintext of the maximal size can be sealed, but opening any ciphertext of that length panics. -/
theorem C36_open_max_violated (hnew : ocb3New c ns ts = .ok x) (h : Heap) (dst nonce ct ad : Slice)
    (vn : nonce.Valid h) (vc : ct.Valid h) (hl : ct.len = 2 ^ 52 + ts) :
    ocb3Open c x h dst nonce ct ad = .panic := by
  obtain ⟨hx, t1, t2, t3, t4, t5⟩ := ocb3New_ok hnew
  exact (C36_open_panics_iff hnew h dst nonce ct ad vn vc).mpr (Or.inr ⟨by omega, Or.inl (by omega)⟩)

/-- C36 violated: the constructor accepts a nonce size above 15, and then `Seal` panics for every input. -/
theorem C36_nonce_size_violated (hnew : ocb3New c ns ts = .ok x) (hns : 15 < ns) (h : Heap) (dst nonce pt ad : Slice)
    (vn : nonce.Valid h) (vp : pt.Valid h) : ocb3Seal c x h dst nonce pt ad = .panic :=
  (C36_seal_panics_iff hnew h dst nonce pt ad vn vp).mpr (Or.inr (Or.inr (Or.inr hns)))
end

/-! Non-vacuity and violations. -/

/-- A nonce size of 16 is accepted by the constructor. -/
example : ∃ x, ocb3New demoCipher (16 : Nat) (16 : Nat) = .ok x := (C36_new_ok_iff _ _ _).mpr (by decide)

/-- A nonce of 12 bytes, a text of 32 (in place) and additional data of 5 bytes meet the hypotheses of
`C36_roundtrip_partial`. -/
example : (∃ x, ocb3New demoCipher (12 : Nat) (16 : Nat) = .ok x) ∧ Slice.Valid ⟨20, 0, 48⟩ demoHeap ∧
    Slice.Valid ⟨0, 12, 12⟩ demoHeap ∧ Slice.Valid ⟨20, 32, 48⟩ demoHeap ∧ Slice.Valid ⟨70, 5, 5⟩ demoHeap ∧
    (InPlace ⟨20, 0, 48⟩ (32 + 16) ⟨20, 32, 48⟩ ∧ 16 ∣ 32) ∧ Apart ⟨20, 0, 48⟩ (32 + 16) ⟨70, 5, 5⟩ ∧
    Apart ⟨20, 0, 48⟩ (32 + 16) ⟨0, 12, 12⟩ := by
  refine ⟨(C36_new_ok_iff _ _ _).mpr (by decide), ?_, ?_, ?_, ?_, ?_, ?_, ?_⟩
  all_goals first | (unfold Slice.Valid demoHeap; simp; done) | (unfold InPlace; simp; done) | (unfold Apart; simp; done)

/-- The object with default sizes over the demo cipher. -/
def demoOcb3 : Ocb3 :=
  let ls := U128.cipher demoCipher.E ⟨0, 0⟩
  ⟨12, 16, ls, ls.double, ocb3Table 58 ls.double.double⟩

theorem demoOcb3_new : ocb3New demoCipher (12 : Nat) (16 : Nat) = .ok demoOcb3 := rfl

/-- C36 violated: `Seal(p[:0], nonce, p, ad)` (exact overlap) of a five-byte plaintext gives a ciphertext that `Open`
rejects, because the checksum is taken from the already overwritten plaintext. -/
theorem C36_seal_inplace_violated :
    ∃ (c : BlockCipher) (x : Ocb3) (h : Heap) (dst nonce pt ad : Slice), ocb3New c (12 : Nat) (16 : Nat) = .ok x ∧
      nonce.Valid h ∧ pt.Valid h ∧ ad.Valid h ∧ dst.Valid h ∧ nonce.len = 12 ∧ pt.len = 5 ∧
      InPlace dst (pt.len + 16) pt ∧
      ∃ h1 ct h2, ocb3Seal c x h dst nonce pt ad = .ok (h1, ct) ∧ ocb3Open c x h1 ⟨0, 0, 0⟩ nonce ct ad = .ok (h2, none) := by
  refine ⟨demoCipher, demoOcb3, demoHeap, ⟨20, 0, 48⟩, ⟨0, 12, 12⟩, ⟨20, 5, 48⟩, ⟨70, 5, 5⟩, demoOcb3_new, ?_, ?_, ?_, ?_, rfl, rfl, ?_, ?_⟩
  all_goals first | (unfold Slice.Valid demoHeap; simp; done) | (unfold InPlace; simp; done) | skip
  exact sealThenOpen_rejects (by decide +kernel)

/-- Change the last byte of a slice. -/
def flipLast (h : Heap) (s : Slice) : Heap :=
  ⟨h.mem.write (s.ptr + s.len - 1) [h.mem (s.ptr + s.len - 1) ^^^ 1], h.brk⟩

/-- What `Open` of a forged ciphertext left in the memory at `dst`, when it returned an error. -/
def leftBehind (s : Res (Heap × Slice)) (o : Heap → Slice → Res (Heap × Option Slice)) (p n : Nat) : Option Bytes :=
  match s with
  | .ok (h1, ct) => match o (flipLast h1 ct) ct with
    | .ok (h2, none) => some (h2.mem.read p n)
    | _ => none
  | _ => none

theorem leftBehind_some {s : Res (Heap × Slice)} {o : Heap → Slice → Res (Heap × Option Slice)} {p n : Nat} {b : Bytes}
    (h : leftBehind s o p n = some b) :
    ∃ h1 ct h2, s = .ok (h1, ct) ∧ o (flipLast h1 ct) ct = .ok (h2, none) ∧ h2.mem.read p n = b := by
  unfold leftBehind at h
  split at h
  · rename_i h1 ct
    split at h
    · rename_i h2 e; exact ⟨h1, ct, h2, rfl, e, by simpa using h⟩
    · simp at h
  · simp at h

/-- C36 violated: `Open` of a ciphertext with a wrong tag returns an error, but the plaintext blocks are left in the
memory behind dst. -/
theorem C36_open_release_violated :
    ∃ (c : BlockCipher) (x : Ocb3) (h : Heap) (nonce pt ad dst : Slice), ocb3New c (12 : Nat) (16 : Nat) = .ok x ∧
      nonce.Valid h ∧ pt.Valid h ∧ ad.Valid h ∧ dst.Valid h ∧ dst.len = 0 ∧ pt.len = 16 ∧
      ∃ h1 ct h2, ocb3Seal c x h ⟨0, 0, 0⟩ nonce pt ad = .ok (h1, ct) ∧
        ocb3Open c x (flipLast h1 ct) dst nonce ct ad = .ok (h2, none) ∧ h2.mem.read dst.ptr 16 = h.bytes pt := by
  refine ⟨demoCipher, demoOcb3, demoHeap, ⟨0, 12, 12⟩, ⟨20, 16, 16⟩, ⟨70, 5, 5⟩, ⟨40, 0, 16⟩, demoOcb3_new, ?_, ?_, ?_, ?_, rfl, rfl, ?_⟩
  all_goals first | (unfold Slice.Valid demoHeap; simp; done) | skip
  exact leftBehind_some (o := fun h ct => ocb3Open demoCipher demoOcb3 h ⟨40, 0, 16⟩ ⟨0, 12, 12⟩ ct ⟨70, 5, 5⟩)
    (s := ocb3Seal demoCipher demoOcb3 demoHeap ⟨0, 0, 0⟩ ⟨0, 12, 12⟩ ⟨20, 16, 16⟩ ⟨70, 5, 5⟩) (p := 40) (n := 16) (by decide +kernel)

end Verif.Aead
