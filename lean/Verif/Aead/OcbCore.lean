import Verif.Aead.OcbLemmas
/-
Lemmas for OCB: what `crypt` leaves in memory.
-/
namespace Verif.Aead
open Verif.Mode (chunks)
open Verif.Mode.Spec (natBe beNat)

theorem Mem.read_congr {m m' : Mem} {p n : Nat} (h : ∀ a, p ≤ a → a < p + n → m' a = m a) : m'.read p n = m.read p n := by
  apply List.ext_getElem
  · simp
  · intro i h1 h2
    rw [Mem.read_length] at h1
    rw [Mem.read_getElem, Mem.read_getElem]
    exact h _ (by omega) (by omega)

/-- Two appends in a row. -/
theorem append_twice (slack : Nat → Nat) (h : Heap) (s : Slice) (hv : s.Valid h) (b1 b2 : Bytes) :
    let p1 := appendM slack h s b1
    let p2 := appendM slack p1.1 p1.2 b2
    p2.1.bytes p2.2 = h.bytes s ++ (b1 ++ b2) ∧ FrameExcept h p2.1 (s.ptr + s.len) (s.ptr + s.cap) := by
  obtain ⟨v1, e1, l1, f1, c1⟩ := appendM_spec slack h s b1 hv
  obtain ⟨v2, e2, l2, f2, c2⟩ := appendM_spec slack _ _ b2 v1
  refine ⟨by rw [e2, e1, List.append_assoc], ⟨Nat.le_trans f1.1 f2.1, ?_⟩⟩
  intro a ha hor
  have g1 := f1.2 a ha hor
  rw [← g1]
  apply f2.2 a (Nat.lt_of_lt_of_le ha f1.1)
  rcases c1 with ⟨c1, c1'⟩ | c1
  · rw [c1, c1', l1]; omega
  · left; omega

/-- `h'` holds the memory `W` wherever `h` had memory, except possibly on `[lo, hi)` outside `[t0, t1)`. -/
def OcbWritten (h h' : Heap) (W : Mem) (lo hi t0 t1 : Nat) : Prop :=
  h.brk ≤ h'.brk ∧ ∀ a, a < h.brk → (a < lo ∨ hi ≤ a) ∨ (t0 ≤ a ∧ a < t1) → h'.mem a = W a

section
variable {c : BlockCipher} {ns ts : Nat} {o : Ocb}

theorem ocbFinal_eq (slack : Nat → Nat) (dec : Bool) (ho : o.OK c ns ts) (h : Heap) (Y X ad : Slice) (N A P Xb : Bytes)
    (vx : X.Valid h) (vy : Y.Valid h) (hy : Y.len = X.len + ts) (va : ad.Valid h)
    (hPl : P.length = X.len) (hXl : Xb.length = X.len)
    (hX : h.mem.read (X.ptr + 16 * (X.len / 16)) (X.len % 16) = Spec.lastPart Xb)
    (hA : h.bytes ad = A)
    (hP : Spec.lastPart P = if dec then xorb (Spec.lastPart Xb)
      (c.E (xorb (Spec.ocbOffset c.E (Spec.ocbStart c.E ts N) (X.len / 16)) (Spec.ocbLstar c.E))) else Spec.lastPart Xb)
    (hd : X.len = 0 ∨ X.ptr + X.len ≤ Y.ptr ∨ Y.ptr + X.len ≤ X.ptr)
    (had : X.len % 16 = 0 ∨ ad.len = 0 ∨ ad.ptr + ad.len ≤ Y.ptr + 16 * (X.len / 16) ∨ Y.ptr + X.len ≤ ad.ptr)
    (hsp : X.len % 16 = 0 ∨ ad.len = 0 ∨ (if dec then Y.cap = X.len ∨ ad.ptr + ad.len ≤ Y.ptr + X.len ∨ Y.ptr + Y.cap ≤ ad.ptr
      else X.cap = X.len ∨ ad.ptr + ad.len ≤ X.ptr + X.len ∨ X.ptr + X.cap ≤ ad.ptr)) :
    ∃ h' o', ocbFinal slack c dec o h Y X ad (Spec.ocbOffset c.E (Spec.ocbStart c.E ts N) (X.len / 16))
        (Spec.xorAll (Spec.fullBlocks P)) = .ok (h', o') ∧ o'.OK c ns ts ∧
      OcbWritten h h' ((h.mem.write (Y.ptr + 16 * (X.len / 16)) (xorb (Spec.lastPart Xb)
        (c.E (xorb (Spec.ocbOffset c.E (Spec.ocbStart c.E ts N) (X.len / 16)) (Spec.ocbLstar c.E))))).write (Y.ptr + X.len)
          (Spec.ocbTag c.E ts N A P))
        (if dec then Y.ptr + X.len else X.ptr + X.len)
        (if X.len % 16 = 0 then 0 else if dec then Y.ptr + Y.cap else X.ptr + X.cap) (Y.ptr + X.len) (Y.ptr + X.len + ts) := by
  have h16 := ho.h16
  have hO := ocbStart_length c.E ts N
  have hOm := ocbOffset_length c.E _ hO (X.len / 16)
  have hpad := ocbPad_length h16 _ hO (X.len / 16)
  have htl := ocbTag_length h16 ts ho.tag16 N A P
  have hxl : (Spec.lastPart Xb).length = X.len % 16 := by rw [lastPart_length, hXl]
  have hpl : (Spec.lastPart P).length = X.len % 16 := by rw [lastPart_length, hPl]
  have hts : o.tagSize.toNat = ts := by rw [ho.tag]; rfl
  obtain ⟨vx1, vx2⟩ := vx
  obtain ⟨vy1, vy2⟩ := vy
  obtain ⟨va1, va2⟩ := va
  by_cases hr : X.len % 16 ≠ 0
  · unfold ocbFinal
    simp only
    rw [if_pos hr]
    generalize hpe : c.E (xorb (Spec.ocbOffset c.E (Spec.ocbStart c.E ts N) (X.len / 16)) (Spec.ocbLstar c.E)) = pad at *
    rw [ho.last, hpe]
    have hrd : X.len - 16 * (X.len / 16) = X.len % 16 := by omega
    rw [hrd]
    have hcx : h.bytes ⟨X.ptr + 16 * (X.len / 16), X.len % 16, X.cap - 16 * (X.len / 16)⟩ = Spec.lastPart Xb := hX
    have hxt : xorb (Spec.lastPart Xb) (pad.take (X.len % 16)) = xorb (Spec.lastPart Xb) pad := by
      have h1 := xorb_take (Spec.lastPart Xb) pad (X.len % 16)
      rw [List.take_of_length_le (l := xorb _ _) (by rw [xorb_length, hxl]; omega),
        List.take_of_length_le (l := Spec.lastPart Xb) (by omega)] at h1
      exact h1.symm
    rw [hcx, hxt]
    have hbl : (xorb (Spec.lastPart Xb) pad).length = X.len % 16 := by rw [xorb_length, hxl, hpad]; omega
    generalize hb : xorb (Spec.lastPart Xb) pad = blk at *
    generalize hh2 : (⟨h.mem.write (Y.ptr + 16 * (X.len / 16)) blk, h.brk⟩ : Heap) = h2
    have hb2 : h2.brk = h.brk := by rw [← hh2]
    have hm2 : h2.mem = h.mem.write (Y.ptr + 16 * (X.len / 16)) blk := by rw [← hh2]
    generalize hS : (if dec then (⟨Y.ptr + 16 * (X.len / 16), X.len % 16, Y.cap - 16 * (X.len / 16)⟩ : Slice)
      else ⟨X.ptr + 16 * (X.len / 16), X.len % 16, X.cap - 16 * (X.len / 16)⟩) = S
    have hSf : S.len = X.len % 16 ∧ S.ptr + S.len = (if dec then Y.ptr + X.len else X.ptr + X.len) ∧
        S.ptr + S.cap = (if dec then Y.ptr + Y.cap else X.ptr + X.cap) ∧ S.Valid h2 ∧ h2.bytes S = Spec.lastPart P := by
      rw [← hS, hP]
      unfold Slice.Valid Heap.bytes
      rw [hb2, hm2]
      cases dec
      · simp only [Bool.false_eq_true, if_false]
        refine ⟨trivial, by omega, by omega, ⟨by omega, by omega⟩, ?_⟩
        rw [Mem.read_write_disjoint _ _ _ _ _ (by omega)]
        exact hX
      · simp only [if_true]
        refine ⟨trivial, by omega, by omega, ⟨by omega, by omega⟩, ?_⟩
        rw [Mem.read_write_self' _ _ _ _ hbl]
    obtain ⟨s1, s2, s3, s4, s5⟩ := hSf
    obtain ⟨a1, a2⟩ := append_twice slack h2 S s4 [128] (List.replicate (16 - X.len % 16 - 1) 0)
    rw [a1, s5]
    generalize (appendM slack (appendM slack h2 S [128]).1 (appendM slack h2 S [128]).2 (List.replicate (16 - X.len % 16 - 1) 0)).1 = h4 at *
    have had4 : h4.bytes ad = A := by
      rw [← hA]
      unfold Heap.bytes
      have : h2.mem.read ad.ptr ad.len = h.mem.read ad.ptr ad.len := by
        rw [hm2]
        rcases had with had | had | had | had
        · omega
        · rw [had]; rfl
        · exact Mem.read_write_disjoint _ _ _ _ _ (Or.inl had)
        · exact Mem.read_write_disjoint _ _ _ _ _ (Or.inr (by omega))
      rw [← this]
      apply Mem.read_congr
      intro a h1 h2'
      apply a2.2 a (by omega)
      rw [s2, s3]
      rcases hsp with hsp | hsp | hsp
      · omega
      · omega
      · cases dec
        · simp only [Bool.false_eq_true, if_false] at hsp ⊢; omega
        · simp only [if_true] at hsp ⊢; omega
    rw [had4]
    obtain ⟨o', g1, g2⟩ := ocbHashM_eq ho A
    rw [g1, Res.bind_ok]
    refine ⟨_, _, rfl, g2, ?_⟩
    have htag : ((xorb (c.E (xorb (xorb (xorb (Spec.xorAll (Spec.fullBlocks P)) (Spec.lastPart P ++ ([128] ++ List.replicate (16 - X.len % 16 - 1) 0)))
        (xorb (Spec.ocbOffset c.E (Spec.ocbStart c.E ts N) (X.len / 16)) (Spec.ocbLstar c.E))) o.lDol)) (Spec.ocbHash c.E A)).take o.tagSize.toNat) =
        Spec.ocbTag c.E ts N A P := by
      unfold Spec.ocbTag
      simp only
      rw [if_neg (by intro h0; rw [h0] at hpl; simp at hpl; omega), hts, ho.ldol, hPl]
      have : Spec.lastPart P ++ ([128] ++ List.replicate (16 - X.len % 16 - 1) 0) = Spec.pad10 (Spec.lastPart P) := by
        unfold Spec.pad10
        rw [hpl, show 15 - X.len % 16 = 16 - X.len % 16 - 1 by omega]
        rfl
      rw [this]
    simp only
    rw [htag]
    refine ⟨by have := a2.1; rw [hb2] at this; exact this, ?_⟩
    intro a ha hor
    rw [if_neg (show ¬ X.len % 16 = 0 by omega), ← s2, ← s3] at hor
    simp only
    by_cases hin : Y.ptr + X.len ≤ a ∧ a < Y.ptr + X.len + ts
    · obtain ⟨i, rfl⟩ : ∃ i, a = Y.ptr + X.len + i := ⟨a - (Y.ptr + X.len), by omega⟩
      rw [Mem.write_at _ _ _ _ (by omega), Mem.write_at _ _ _ _ (by omega)]
    · have hout : a < Y.ptr + X.len ∨ Y.ptr + X.len + ts ≤ a := by omega
      have e1 : ∀ m : Mem, m.write (Y.ptr + X.len) (Spec.ocbTag c.E ts N A P) a = m a := by
        intro m
        rcases hout with h1 | h1
        · exact Mem.write_of_lt _ _ _ _ h1
        · exact Mem.write_of_ge _ _ _ _ (by omega)
      rw [e1, e1, ← hm2]
      rcases hor with hor | hor
      · exact a2.2 a (by omega) hor
      · exact absurd hor hin
  · have hr0 : X.len % 16 = 0 := by omega
    unfold ocbFinal
    simp only
    rw [if_neg hr, hA]
    obtain ⟨o', g1, g2⟩ := ocbHashM_eq ho A
    rw [g1, Res.bind_ok]
    refine ⟨_, _, rfl, g2, ?_⟩
    have hl0 : Spec.lastPart P = [] := List.eq_nil_of_length_eq_zero (by omega)
    have hx0 : Spec.lastPart Xb = [] := List.eq_nil_of_length_eq_zero (by omega)
    have htag : ((xorb (c.E (xorb (xorb (Spec.xorAll (Spec.fullBlocks P))
        (Spec.ocbOffset c.E (Spec.ocbStart c.E ts N) (X.len / 16))) o.lDol)) (Spec.ocbHash c.E A)).take o.tagSize.toNat) =
        Spec.ocbTag c.E ts N A P := by
      unfold Spec.ocbTag
      simp only
      rw [if_pos hl0, hts, ho.ldol, hPl]
    simp only
    rw [htag, hx0]
    refine ⟨Nat.le_refl _, fun a _ _ => ?_⟩
    rw [show xorb ([] : Bytes) _ = [] from rfl, Mem.write_nil]

set_option maxHeartbeats 1000000 in
theorem ocbCryptM_eq (slack : Nat → Nat) (dec : Bool) (ho : o.OK c ns ts) (h : Heap) (Y nonce X ad : Slice)
    (vx : X.Valid h) (vy : Y.Valid h) (hy : Y.len = X.len + ts) (va : ad.Valid h)
    (hn1 : 1 ≤ nonce.len) (hn : nonce.len ≤ ns)
    (hd : X.len = 0 ∨ X.ptr + X.len ≤ Y.ptr ∨ Y.ptr + X.len ≤ X.ptr)
    (had : X.len = 0 ∨ ad.len = 0 ∨ ad.ptr + ad.len ≤ Y.ptr ∨ Y.ptr + X.len ≤ ad.ptr)
    (hsp : X.len % 16 = 0 ∨ ad.len = 0 ∨ (if dec then Y.cap = X.len ∨ ad.ptr + ad.len ≤ Y.ptr + X.len ∨ Y.ptr + Y.cap ≤ ad.ptr
      else X.cap = X.len ∨ ad.ptr + ad.len ≤ X.ptr + X.len ∨ X.ptr + X.cap ≤ ad.ptr)) :
    let C := Spec.ocbCrypt (if dec then c.D else c.E) c.E ts (h.bytes nonce) (h.bytes X)
    let P := if dec then C else h.bytes X
    ∃ h' o', ocbCryptM slack c dec o h Y nonce ad X = .ok (h', o') ∧ o'.OK c ns ts ∧
      OcbWritten h h' (h.mem.write Y.ptr (C ++ Spec.ocbTag c.E ts (h.bytes nonce) (h.bytes ad) P))
        (if dec then Y.ptr + X.len else X.ptr + X.len)
        (if X.len % 16 = 0 then 0 else if dec then Y.ptr + Y.cap else X.ptr + X.cap) (Y.ptr + X.len) (Y.ptr + X.len + ts) := by
  intro C P
  have h16 := ho.h16
  have hnl : (h.bytes nonce).length = nonce.len := Mem.read_length ..
  have hXl : (h.bytes X).length = X.len := Mem.read_length ..
  have hO := ocbStart_length c.E ts (h.bytes nonce)
  have hf : ∀ b, b.length = 16 → ((if dec then c.D else c.E) b).length = 16 := by
    cases dec
    · exact lenE16 h16
    · exact lenD16 h16
  have hCl : C.length = X.len := by rw [ocbCrypt_length h16 _ hf, hXl]
  have hPl : P.length = X.len := by cases dec <;> simp only [P, Bool.false_eq_true, if_false, if_true] <;> assumption
  obtain ⟨o1, g1, g2, g3⟩ := ocbInit_eq ho (h.bytes nonce) (by omega) (by omega)
  have hq : X.len / 16 * 16 ≤ X.len := Nat.div_mul_le_self _ _
  obtain ⟨L', k1, k2, k3⟩ := ocbLoop_eq h16 dec (X.len / 16) 0 h.mem Y.ptr X.ptr (Spec.ocbStart c.E ts (h.bytes nonce))
    (List.replicate 16 0) o1.L g2.pos g2.tab (Spec.ocbStart c.E ts (h.bytes nonce)) hO rfl (by omega)
  unfold ocbCryptM
  rw [g1, Res.bind_ok]
  simp only
  rw [k1, Res.bind_ok]
  simp only
  have hfb : chunks 16 (h.mem.read X.ptr (16 * (X.len / 16))) = Spec.fullBlocks (h.bytes X) := fullBlocks_read _ _ _
  rw [hfb, Nat.zero_add, Nat.zero_add]
  obtain ⟨p1, p2⟩ := ocbCrypt_parts h16 (if dec then c.D else c.E) hf ts (h.bytes nonce) (h.bytes X)
  rw [hXl] at p2
  have hck : (if dec then ocbMap c.D c.E (Spec.ocbStart c.E ts (h.bytes nonce)) 1 (Spec.fullBlocks (h.bytes X))
      else Spec.fullBlocks (h.bytes X)).foldl xorb (List.replicate 16 0) = Spec.xorAll (Spec.fullBlocks P) := by
    unfold Spec.xorAll
    cases dec
    · rfl
    · simp only [if_true, P] at p1 ⊢
      simp only [C, if_true]
      rw [p1]
  rw [hck]
  have hml : (ocbMap (if dec then c.D else c.E) c.E (Spec.ocbStart c.E ts (h.bytes nonce)) 1 (Spec.fullBlocks (h.bytes X))).flatten.length = 16 * (X.len / 16) := by
    rw [Mode.flatten_length_of_all 16 _ (ocbMap_all _ c.E hf _ hO 1 _ (fullBlocks_all _)), ocbMap_length, fullBlocks_length, hXl]
  generalize hM : (ocbMap (if dec then c.D else c.E) c.E (Spec.ocbStart c.E ts (h.bytes nonce)) 1 (Spec.fullBlocks (h.bytes X))).flatten = M at *
  obtain ⟨h', o', f1, f2, f3⟩ := ocbFinal_eq slack dec (o := { o1 with L := L' })
    (ns := ns) (ts := ts) (c := c) ⟨h16, g2.tag, g2.tag16, g2.nonce, g2.nonce1, g2.nonce15, g2.last, g2.ldol, k2, k3, g2.ktop⟩
    ⟨h.mem.write Y.ptr M, h.brk⟩ Y X ad (h.bytes nonce) (h.bytes ad) P (h.bytes X) vx vy hy va hPl hXl (by
      simp only
      rw [Mem.read_write_disjoint _ _ _ _ _ (by
        rw [hml]
        by_cases h0 : X.len = 0
        · rw [h0]; omega
        · omega), lastPart_read]
      rfl) (by
      unfold Heap.bytes
      simp only
      rcases had with had | had | had | had
      · rw [List.eq_nil_of_length_eq_zero (show M.length = 0 by omega), Mem.write_nil]
      · rw [had]; rfl
      · exact Mem.read_write_disjoint _ _ _ _ _ (Or.inl had)
      · exact Mem.read_write_disjoint _ _ _ _ _ (Or.inr (by omega))) (by
      cases dec
      · rfl
      · simp only [if_true] at p2 ⊢
        simp only [P, C, if_true]
        exact p2) hd (by omega) hsp
  refine ⟨h', o', f1, f2, f3.1, ?_⟩
  intro a ha hor
  rw [f3.2 a ha hor]
  simp only
  have hCe : C = M ++ xorb (Spec.lastPart (h.bytes X))
      (c.E (xorb (Spec.ocbOffset c.E (Spec.ocbStart c.E ts (h.bytes nonce)) (X.len / 16)) (Spec.ocbLstar c.E))) := by
    simp only [C]
    rw [ocbCrypt_eq, hXl, ← hM]
  have hw : h.mem.write Y.ptr (C ++ Spec.ocbTag c.E ts (h.bytes nonce) (h.bytes ad) P) =
      ((h.mem.write Y.ptr M).write (Y.ptr + 16 * (X.len / 16)) (xorb (Spec.lastPart (h.bytes X))
        (c.E (xorb (Spec.ocbOffset c.E (Spec.ocbStart c.E ts (h.bytes nonce)) (X.len / 16)) (Spec.ocbLstar c.E))))).write (Y.ptr + X.len)
        (Spec.ocbTag c.E ts (h.bytes nonce) (h.bytes ad) P) := by
    rw [Mem.write_append, hCl, hCe, Mem.write_append, hml]
  rw [hw]

/-- Whatever the buffers, a call with an acceptable nonce ends normally and leaves a sound object. -/
theorem ocbCryptM_state (slack : Nat → Nat) (dec : Bool) (ho : o.OK c ns ts) (h : Heap) (Y nonce X ad : Slice)
    (hn1 : 1 ≤ nonce.len) (hn : nonce.len ≤ ns) :
    ∃ h' o', ocbCryptM slack c dec o h Y nonce ad X = .ok (h', o') ∧ o'.OK c ns ts := by
  have hnl : (h.bytes nonce).length = nonce.len := Mem.read_length ..
  obtain ⟨o1, g1, g2, g3⟩ := ocbInit_eq ho (h.bytes nonce) (by omega) (by omega)
  obtain ⟨r, k1, k2, k3⟩ := ocbLoop_state (c := c) dec (X.len / 16) 0 h.mem Y.ptr X.ptr (Spec.ocbStart c.E ts (h.bytes nonce))
    (List.replicate 16 0) o1.L g2.pos g2.tab
  have hok : Ocb.OK c ns ts { o1 with L := r.2.2.2 } :=
    ⟨g2.h16, g2.tag, g2.tag16, g2.nonce, g2.nonce1, g2.nonce15, g2.last, g2.ldol, k2, k3, g2.ktop⟩
  unfold ocbCryptM
  rw [g1, Res.bind_ok]
  simp only
  rw [k1, Res.bind_ok]
  unfold ocbFinal
  simp only
  split
  · obtain ⟨o', h1, h2⟩ := ocbHashM_eq hok _
    rw [h1, Res.bind_ok]
    exact ⟨_, _, rfl, h2⟩
  · obtain ⟨o', h1, h2⟩ := ocbHashM_eq hok _
    rw [h1, Res.bind_ok]
    exact ⟨_, _, rfl, h2⟩
end
end Verif.Aead
