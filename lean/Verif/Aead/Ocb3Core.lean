import Verif.Aead.OcbSpecLemmas
import Verif.Aead.MgmProps
/-
What `Seal` and `Open` of OCB3 compute.
-/
namespace Verif.Aead
open Verif.Mode (chunks mapAcc)
open Verif.Mode.Spec (natBe beNat)

section
variable {c : BlockCipher} {x : Ocb3}

theorem sealStep_len (s : U128 × U128 × Nat) (b : Bytes) : (ocb3SealStep c x s b).1.length = 16 := U128.bytes_length _
theorem openStep_len (s : U128 × U128 × Nat) (b : Bytes) : (ocb3OpenStep c x s b).1.length = 16 := U128.bytes_length _

theorem fullBlocks_read (m : Mem) (p n : Nat) : chunks 16 (m.read p (16 * (n / 16))) = Spec.fullBlocks (m.read p n) := by
  unfold Spec.fullBlocks
  rw [Mem.read_length, Mem.read_take, Nat.min_eq_left (by omega)]

theorem lastPart_read (m : Mem) (p n : Nat) : m.read (p + 16 * (n / 16)) (n % 16) = Spec.lastPart (m.read p n) := by
  unfold Spec.lastPart
  rw [Mem.read_length, Mem.read_drop]
  congr 1; omega

theorem ocb3Tag_eq (hx : x.OK c) (off ck : U128) (A : Bytes) (hA : A.length ≤ 2 ^ 52) :
    ocb3Tag c x off ck A = xorb (c.E (xorb (xorb ck.bytes off.bytes) (Spec.ocbLdollar c.E))) (Spec.ocbHash c.E A) := by
  unfold ocb3Tag
  rw [U128.bytes_xor, U128.bytes_cipher _ (lenE16 hx.h16), U128.bytes_xor, U128.bytes_xor, hx.ldollar, ocb3Hash_eq hx A hA, xorb_assoc]

theorem ocb3Seal_core (hx : x.OK c) (ht : x.tagSize ≤ 16) (h : Heap) (dst nonce pt ad : Slice)
    (vn : nonce.Valid h) (vp : pt.Valid h) (va : ad.Valid h) (hn : nonce.len = x.nonceSize) (hn15 : nonce.len ≤ 15)
    (hs : pt.len + ad.len ≤ 2 ^ 52)
    (ap : Apart dst (pt.len + x.tagSize) pt ∨ (InPlace dst (pt.len + x.tagSize) pt ∧ 16 ∣ pt.len))
    (aa : Apart dst (pt.len + x.tagSize) ad) :
    ocb3Seal c x h dst nonce pt ad = .ok (⟨(sliceForAppend h dst (pt.len + x.tagSize)).1.mem.write
        (tailAt h dst (pt.len + x.tagSize)) (Spec.ocb c.E x.tagSize (h.bytes nonce) (h.bytes pt) (h.bytes ad)),
        (sliceForAppend h dst (pt.len + x.tagSize)).1.brk⟩, (sliceForAppend h dst (pt.len + x.tagSize)).2.1) := by
  have h16 := hx.h16
  have hPl : (h.bytes pt).length = pt.len := Mem.read_length ..
  have hAl : (h.bytes ad).length = ad.len := Mem.read_length ..
  obtain ⟨e1, e2⟩ := @sfa_tail h dst (pt.len + x.tagSize)
  have hov : ¬ inexactOverlap (sliceForAppend h dst (pt.len + x.tagSize)).2.2 pt = true := by
    rw [inexact_sfa vp]
    rcases ap with ap | ap
    · exact not_partial_of_apart ap
    · exact not_partial_of_inPlace ap.1
  have hso : SameOrApart (tailAt h dst (pt.len + x.tagSize)) pt.ptr (16 * (pt.len / 16)) :=
    sameOrApart_of vp (by omega) (by omega) (ap.imp id And.left)
  have b1 : (sliceForAppend h dst (pt.len + x.tagSize)).1.bytes nonce = h.bytes nonce := sfa_bytes vn
  have bp : (sliceForAppend h dst (pt.len + x.tagSize)).1.mem.read pt.ptr pt.len = h.bytes pt := sfa_bytes vp
  obtain ⟨off, i1, i2⟩ := ocb3Init_eq c x h16 ht (h.bytes nonce) (by unfold Heap.bytes; rw [Mem.read_length]; exact hn15)
  have hO := ocbStart_length c.E x.tagSize (h.bytes nonce)
  have hfb := fullBlocks_length (h.bytes pt)
  rw [hPl] at hfb
  obtain ⟨l1, l2, l3⟩ := ocb3Seal_loop hx (Spec.ocbStart c.E x.tagSize (h.bytes nonce)) (Spec.fullBlocks (h.bytes pt))
    (fullBlocks_all _) off ⟨0, 0⟩ 0 i2 (by rw [hfb]; omega)
  simp only [Nat.zero_add, hfb] at l1 l2 l3
  have hcl := ocbCrypt_length h16 c.E (lenE16 h16) x.tagSize (h.bytes nonce) (h.bytes pt)
  rw [hPl] at hcl
  have hfl : (ocbMap c.E c.E (Spec.ocbStart c.E x.tagSize (h.bytes nonce)) 1 (Spec.fullBlocks (h.bytes pt))).flatten.length =
      16 * (pt.len / 16) := by
    rw [Mode.flatten_length_of_all 16 _ (ocbMap_all _ _ (lenE16 h16) _ hO 1 _ (fullBlocks_all _)), ocbMap_length, hfb]
  unfold ocb3Seal
  rw [if_neg (by omega), if_neg (by omega)]
  simp only
  rw [if_neg hov, b1, i1, Res.bind_ok, memBlocks_eq _ sealStep_len _ _ _ _ _ (by rw [e1]; exact hso), fullBlocks_read, bp, e1]
  simp only
  rw [l1]
  have hcrypt := ocbCrypt_eq c.E c.E x.tagSize (h.bytes nonce) (h.bytes pt)
  have hlp := lastPart_length (h.bytes pt)
  rw [hPl] at hlp hcrypt
  by_cases hr : 0 < pt.len % 16
  · rw [if_pos hr]
    have ap1 : Apart dst (pt.len + x.tagSize) pt := by
      rcases ap with ap | ap
      · exact ap
      · have := ap.2; omega
    have hpad : (U128.cipher c.E ((mapAcc (ocb3SealStep c x) (off, ⟨0, 0⟩, 1) (Spec.fullBlocks (h.bytes pt))).2.1.xor x.Lstar)).bytes =
        c.E (xorb (Spec.ocbOffset c.E (Spec.ocbStart c.E x.tagSize (h.bytes nonce)) (pt.len / 16)) (Spec.ocbLstar c.E)) := by
      rw [U128.bytes_cipher _ (lenE16 h16), U128.bytes_xor, l2, hx.lstar]
    have rd : ∀ W : Bytes, W.length ≤ pt.len + x.tagSize →
        Mem.read ((sliceForAppend h dst (pt.len + x.tagSize)).1.mem.write (tailAt h dst (pt.len + x.tagSize)) W)
          (pt.ptr + 16 * (pt.len / 16)) (pt.len % 16) = Spec.lastPart (h.bytes pt) := by
      intro W hW
      rw [lastPart_read, sfa_apart_read vp ap1 W hW]
    rw [rd _ (by rw [hfl]; omega), hpad]
    have hw : ∀ m : Mem, (m.write (tailAt h dst (pt.len + x.tagSize))
        (ocbMap c.E c.E (Spec.ocbStart c.E x.tagSize (h.bytes nonce)) 1 (Spec.fullBlocks (h.bytes pt))).flatten).write
          (tailAt h dst (pt.len + x.tagSize) + 16 * (pt.len / 16))
          (xorb (Spec.lastPart (h.bytes pt))
            (c.E (xorb (Spec.ocbOffset c.E (Spec.ocbStart c.E x.tagSize (h.bytes nonce)) (pt.len / 16)) (Spec.ocbLstar c.E)))) =
        m.write (tailAt h dst (pt.len + x.tagSize)) (Spec.ocbCrypt c.E c.E x.tagSize (h.bytes nonce) (h.bytes pt)) := by
      intro m
      rw [hcrypt, Mem.write_append, hfl]
    rw [hw, rd _ (by rw [hcl]; omega), sfa_apart_read va aa _ (by rw [hcl]; omega), ocb3Tag_eq hx _ _ _ (by rw [hAl]; omega),
      U128.bytes_xor, U128.bytes_xor, l2, l3, hx.lstar, ocb3Pad_eq _ (by rw [hlp]; omega),
      U128.bytes_of _ (pad10_length _ (by rw [hlp]; omega)), U128.bytes_zero]
    have htag : Spec.ocbTag c.E x.tagSize (h.bytes nonce) (h.bytes ad) (h.bytes pt) =
        (xorb (c.E (xorb (xorb (xorb (List.foldl xorb (List.replicate 16 0) (Spec.fullBlocks (h.bytes pt)))
          (Spec.pad10 (Spec.lastPart (h.bytes pt))))
          (xorb (Spec.ocbOffset c.E (Spec.ocbStart c.E x.tagSize (h.bytes nonce)) (pt.len / 16)) (Spec.ocbLstar c.E)))
          (Spec.ocbLdollar c.E))) (Spec.ocbHash c.E (h.bytes ad))).take x.tagSize := by
      unfold Spec.ocbTag
      simp only
      rw [if_neg (by intro h0; rw [h0] at hlp; simp at hlp; omega), hPl]
      rfl
    rw [← htag]
    unfold Spec.ocb
    rw [Mem.write_append, hcl]
  · rw [if_neg hr]
    have hl0 : Spec.lastPart (h.bytes pt) = [] := List.eq_nil_of_length_eq_zero (by omega)
    have hc2 : (ocbMap c.E c.E (Spec.ocbStart c.E x.tagSize (h.bytes nonce)) 1 (Spec.fullBlocks (h.bytes pt))).flatten =
        Spec.ocbCrypt c.E c.E x.tagSize (h.bytes nonce) (h.bytes pt) := by
      rw [hcrypt, hl0]; simp
    rw [hc2, sfa_apart_read va aa _ (by rw [hcl]; omega), ocb3Tag_eq hx _ _ _ (by rw [hAl]; omega), l2, l3, U128.bytes_zero]
    have htag : Spec.ocbTag c.E x.tagSize (h.bytes nonce) (h.bytes ad) (h.bytes pt) =
        (xorb (c.E (xorb (xorb (List.foldl xorb (List.replicate 16 0) (Spec.fullBlocks (h.bytes pt)))
          (Spec.ocbOffset c.E (Spec.ocbStart c.E x.tagSize (h.bytes nonce)) (pt.len / 16)))
          (Spec.ocbLdollar c.E))) (Spec.ocbHash c.E (h.bytes ad))).take x.tagSize := by
      unfold Spec.ocbTag
      simp only
      rw [if_pos hl0, hPl]
      rfl
    rw [← htag]
    unfold Spec.ocb
    rw [Mem.write_append, hcl]

theorem ocb3Open_core (hx : x.OK c) (ht : x.tagSize ≤ 16) (h : Heap) (dst nonce ct ad : Slice) (n : Nat)
    (vn : nonce.Valid h) (vc : ct.Valid h) (va : ad.Valid h) (hn : nonce.len = x.nonceSize) (hn15 : nonce.len ≤ 15)
    (hl : ct.len = n + x.tagSize) (hs : ct.len ≤ 2 ^ 52 ∧ n + ad.len ≤ 2 ^ 52)
    (ap : Apart dst n ct ∨ InPlace dst n ct) (aa : Apart dst n ad) :
    let P := Spec.ocbCrypt c.D c.E x.tagSize (h.bytes nonce) ((h.bytes ct).take n)
    ocb3Open c x h dst nonce ct ad =
      if Spec.ocbTag c.E x.tagSize (h.bytes nonce) (h.bytes ad) P ≠ (h.bytes ct).drop n then
        .ok (⟨(sliceForAppend h dst n).1.mem.write (tailAt h dst n) (P.take (16 * (n / 16)) ++ List.replicate (n % 16) 0),
          (sliceForAppend h dst n).1.brk⟩, none)
      else .ok (⟨(sliceForAppend h dst n).1.mem.write (tailAt h dst n) P, (sliceForAppend h dst n).1.brk⟩,
        some (sliceForAppend h dst n).2.1) := by
  intro P
  have h16 := hx.h16
  have hAl : (h.bytes ad).length = ad.len := Mem.read_length ..
  obtain ⟨e1, e2⟩ := @sfa_tail h dst n
  have hb : ct.ptr + ct.len ≤ h.brk := by have := vc.1; have := vc.2; omega
  have hct : (h.bytes ct).take n = h.mem.read ct.ptr n := by
    unfold Heap.bytes; rw [Mem.read_take, hl, Nat.min_eq_left (by omega)]
  have hctd : (h.bytes ct).drop n = h.mem.read (ct.ptr + n) x.tagSize := by
    unfold Heap.bytes; rw [Mem.read_drop, hl, Nat.add_sub_cancel_left]
  have hov : ¬ inexactOverlap (sliceForAppend h dst n).2.2 ct = true := by
    rw [inexact_sfa vc]
    rcases ap with ap | ap
    · exact not_partial_of_apart ap
    · exact not_partial_of_inPlace ap
  have hson : SameOrApart (tailAt h dst n) ct.ptr n := sameOrApart_of vc (Nat.le_refl _) (by omega) ap
  have hso : SameOrApart (tailAt h dst n) ct.ptr (16 * (n / 16)) :=
    sameOrApart_of vc (by omega) (by omega) ap
  have b1 : (sliceForAppend h dst n).1.bytes nonce = h.bytes nonce := sfa_bytes vn
  have bp : (sliceForAppend h dst n).1.mem.read ct.ptr n = (h.bytes ct).take n := by rw [hct]; exact sfa_read (by omega)
  have hCl : ((h.bytes ct).take n).length = n := by rw [hct, Mem.read_length]
  obtain ⟨off, i1, i2⟩ := ocb3Init_eq c x h16 ht (h.bytes nonce) (by unfold Heap.bytes; rw [Mem.read_length]; exact hn15)
  have hO := ocbStart_length c.E x.tagSize (h.bytes nonce)
  have hfb := fullBlocks_length ((h.bytes ct).take n)
  rw [hCl] at hfb
  obtain ⟨l1, l2, l3⟩ := ocb3Open_loop hx (Spec.ocbStart c.E x.tagSize (h.bytes nonce)) (Spec.fullBlocks ((h.bytes ct).take n))
    (fullBlocks_all _) off ⟨0, 0⟩ 0 i2 (by rw [hfb]; omega)
  simp only [Nat.zero_add, hfb] at l1 l2 l3
  have hcl : P.length = n := by
    have := ocbCrypt_length h16 c.D (lenD16 h16) x.tagSize (h.bytes nonce) ((h.bytes ct).take n)
    rwa [hCl] at this
  obtain ⟨p1, p2⟩ := ocbCrypt_parts h16 c.D (lenD16 h16) x.tagSize (h.bytes nonce) ((h.bytes ct).take n)
  rw [show Spec.ocbCrypt c.D c.E x.tagSize (h.bytes nonce) ((h.bytes ct).take n) = P from rfl] at p1 p2
  have hfl : (ocbMap c.D c.E (Spec.ocbStart c.E x.tagSize (h.bytes nonce)) 1 (Spec.fullBlocks ((h.bytes ct).take n))).flatten.length =
      16 * (n / 16) := by
    rw [Mode.flatten_length_of_all 16 _ (ocbMap_all _ _ (lenD16 h16) _ hO 1 _ (fullBlocks_all _)), ocbMap_length, hfb]
  have hcrypt : P = (Spec.fullBlocks P).flatten ++ Spec.lastPart P := (full_last P).symm
  have htake : (Spec.fullBlocks P).flatten = P.take (16 * (n / 16)) := by rw [fullBlocks_flatten, hcl]
  have hlp := lastPart_length P
  rw [hcl] at hlp
  rw [← p1] at l1 l3 hfl
  unfold ocb3Open
  rw [if_neg (by omega), if_neg (by omega), if_neg (by omega)]
  simp only
  rw [show ct.len - x.tagSize = n by omega, if_neg hov, b1, i1, Res.bind_ok,
    memBlocks_eq _ openStep_len _ _ _ _ _ (by rw [e1]; exact hso), fullBlocks_read, bp, e1]
  simp only
  rw [l1]
  have tagrd : ∀ W : Bytes, W.length = n → Mem.read ((sliceForAppend h dst n).1.mem.write (tailAt h dst n) W)
      (ct.ptr + n) x.tagSize = (h.bytes ct).drop n := by
    intro W hW
    rw [hctd]
    rcases ap with ap | ap
    · have h0 := sfa_apart vc ap
      by_cases hz : n = 0 ∨ x.tagSize = 0
      · rcases hz with hz | hz
        · rw [List.eq_nil_of_length_eq_zero (show W.length = 0 by omega), Mem.write_nil]; exact sfa_read (by omega)
        · rw [hz]; rfl
      · rw [Mem.read_write_disjoint _ _ _ _ _ (by rw [hW]; omega)]; exact sfa_read (by omega)
    · rw [tailAt_inPlace ap, Mem.read_write_disjoint _ _ _ _ _ (by rw [hW]; omega)]; exact sfa_read (by omega)
  by_cases hr : 0 < n % 16
  · rw [if_pos hr]
    have hpad : (U128.cipher c.E ((mapAcc (ocb3OpenStep c x) (off, ⟨0, 0⟩, 1) (Spec.fullBlocks ((h.bytes ct).take n))).2.1.xor x.Lstar)).bytes =
        c.E (xorb (Spec.ocbOffset c.E (Spec.ocbStart c.E x.tagSize (h.bytes nonce)) (n / 16)) (Spec.ocbLstar c.E)) := by
      rw [U128.bytes_cipher _ (lenE16 h16), U128.bytes_xor, l2, hx.lstar]
    have rd : Mem.read ((sliceForAppend h dst n).1.mem.write (tailAt h dst n) (Spec.fullBlocks P).flatten)
          (ct.ptr + 16 * (n / 16)) (n % 16) = Spec.lastPart ((h.bytes ct).take n) := by
      rw [Mem.read_write_disjoint _ _ _ _ _ (by
        rw [hfl]; unfold SameOrApart at hson; omega), lastPart_read, bp]
    rw [rd, hpad]
    rw [hCl] at p2
    rw [← p2]
    have hw : ∀ m : Mem, (m.write (tailAt h dst n) (Spec.fullBlocks P).flatten).write
          (tailAt h dst n + 16 * (n / 16)) (Spec.lastPart P) = m.write (tailAt h dst n) P := by
      intro m
      conv_rhs => rw [hcrypt, Mem.write_append, hfl]
    have rd2 : ∀ m : Mem, (m.write (tailAt h dst n) P).read (tailAt h dst n + 16 * (n / 16)) (n % 16) = Spec.lastPart P := by
      intro m
      rw [← hw, Mem.read_write_self' _ _ _ _ hlp]
    rw [hw, rd2, tagrd _ hcl, sfa_apart_read va aa _ (by omega), ocb3Tag_eq hx _ _ _ (by rw [hAl]; omega),
      U128.bytes_xor, U128.bytes_xor, l2, l3, hx.lstar, ocb3Pad_eq _ (by rw [hlp]; omega),
      U128.bytes_of _ (pad10_length _ (by rw [hlp]; omega)), U128.bytes_zero]
    have htag : Spec.ocbTag c.E x.tagSize (h.bytes nonce) (h.bytes ad) P =
        (xorb (c.E (xorb (xorb (xorb (List.foldl xorb (List.replicate 16 0) (Spec.fullBlocks P))
          (Spec.pad10 (Spec.lastPart P)))
          (xorb (Spec.ocbOffset c.E (Spec.ocbStart c.E x.tagSize (h.bytes nonce)) (n / 16)) (Spec.ocbLstar c.E)))
          (Spec.ocbLdollar c.E))) (Spec.ocbHash c.E (h.bytes ad))).take x.tagSize := by
      unfold Spec.ocbTag
      simp only
      rw [if_neg (by intro h0; rw [h0] at hlp; simp at hlp; omega), hcl]
      rfl
    unfold ocb3Finish
    rw [← htag]
    congr 1
    rw [← htake, Mem.write_append, hfl, ← hw, Mem.write_write_same _ _ _ _ (by rw [hlp]; simp)]
  · rw [if_neg hr]
    have hl0 : Spec.lastPart P = [] := List.eq_nil_of_length_eq_zero (by omega)
    have hc2 : (Spec.fullBlocks P).flatten = P := by conv_rhs => rw [hcrypt, hl0, List.append_nil]
    rw [hc2, tagrd _ hcl, sfa_apart_read va aa _ (by omega), ocb3Tag_eq hx _ _ _ (by rw [hAl]; omega), l2, l3, U128.bytes_zero]
    have htag : Spec.ocbTag c.E x.tagSize (h.bytes nonce) (h.bytes ad) P =
        (xorb (c.E (xorb (xorb (List.foldl xorb (List.replicate 16 0) (Spec.fullBlocks P))
          (Spec.ocbOffset c.E (Spec.ocbStart c.E x.tagSize (h.bytes nonce)) (n / 16)))
          (Spec.ocbLdollar c.E))) (Spec.ocbHash c.E (h.bytes ad))).take x.tagSize := by
      unfold Spec.ocbTag
      simp only
      rw [if_pos hl0, hcl]
      rfl
    unfold ocb3Finish
    rw [← htag, ← htake, hc2, show n % 16 = 0 by omega, List.replicate_zero, List.append_nil, Mem.write_nil]

end
end Verif.Aead
