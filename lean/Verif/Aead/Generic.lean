import Verif.Aead.Base
/-
AEADs whose `Seal` writes ciphertext and tag behind `dst`, and whose `Open` decrypts, compares the tag and wipes the output
on failure: the buffer handling of /repo/cipher/ascon and /repo/cipher/xoodoo/xoodyak, over a byte-level `E` and `D`.
-/
namespace Verif.Aead

/-- A byte-level AEAD: `E nonce ad plaintext` is ciphertext and tag, `D nonce ad ciphertext` is plaintext and expected
tag. -/
structure Core where
  nl : Nat
  tl : Nat
  E : Bytes → Bytes → Bytes → Bytes × Bytes
  D : Bytes → Bytes → Bytes → Bytes × Bytes

/-- cipher/ascon/ascon.go:85-122 `Seal`.  The plaintext is read before the byte at the same position is written, and the
additional data before anything is: as the output is the plaintext or disjoint from it, the result is that of reading
everything first. -/
def gSeal (c : Core) (h : Heap) (dst nonce pt ad : Slice) : Res (Heap × Slice) :=
  if nonce.len ≠ c.nl then .panic
  else
    let a := sliceForAppend h dst (pt.len + c.tl)
    if inexactOverlap a.2.2 pt then .panic
    else
      let r := c.E (h.bytes nonce) (h.bytes ad) (a.1.bytes pt)
      .ok (⟨a.1.mem.write a.2.2.ptr (r.1 ++ r.2), a.1.brk⟩, a.2.1)

/-- cipher/ascon/ascon.go:124-179 `Open`: `none` is the error.  The tag is compared after the output is written. -/
def gOpen (c : Core) (h : Heap) (dst nonce ct ad : Slice) : Res (Heap × Option Slice) :=
  if nonce.len ≠ c.nl then .panic
  else if ct.len < c.tl then .ok (h, none)
  else
    let n := ct.len - c.tl
    let ct' : Slice := ⟨ct.ptr, n, ct.cap⟩
    let a := sliceForAppend h dst n
    if inexactOverlap a.2.2 ct' then .panic
    else
      let r := c.D (h.bytes nonce) (h.bytes ad) (a.1.bytes ct')
      let m := a.1.mem.write a.2.2.ptr r.1
      if r.2 ≠ m.read (ct.ptr + n) c.tl then .ok (⟨m.write a.2.2.ptr (List.replicate n 0), a.1.brk⟩, none)
      else .ok (⟨m, a.1.brk⟩, some a.2.1)

/-- `E` keeps the length, the tag has `tl` bytes, and `D` undoes `E` and the other way round, with the same tag. -/
structure Core.Good (c : Core) : Prop where
  lenC : ∀ N A P, N.length = c.nl → (c.E N A P).1.length = P.length
  lenT : ∀ N A P, N.length = c.nl → (c.E N A P).2.length = c.tl
  lenD : ∀ N A C, N.length = c.nl → (c.D N A C).1.length = C.length
  de : ∀ N A P, N.length = c.nl → c.D N A (c.E N A P).1 = (P, (c.E N A P).2)
  ed : ∀ N A C, N.length = c.nl → c.E N A (c.D N A C).1 = (C, (c.D N A C).2)

/-- Ciphertext and tag. -/
def Core.aead (c : Core) (N A P : Bytes) : Bytes := (c.E N A P).1 ++ (c.E N A P).2

variable {c : Core}

theorem Core.Good.aead_length (g : c.Good) {N A P : Bytes} (hN : N.length = c.nl) : (c.aead N A P).length = P.length + c.tl := by
  unfold Core.aead
  rw [List.length_append, g.lenC N A P hN, g.lenT N A P hN]

theorem gSeal_exact (g : c.Good) (h : Heap) (dst nonce pt ad : Slice) (vd : dst.Valid h) (vp : pt.Valid h)
    (hn : nonce.len = c.nl) (ap : Apart dst (pt.len + c.tl) pt ∨ InPlace dst (pt.len + c.tl) pt) :
    ∃ h' r, gSeal c h dst nonce pt ad = .ok (h', r) ∧ Appended h dst (c.aead (h.bytes nonce) (h.bytes ad) (h.bytes pt)) h' r := by
  have hN : (h.bytes nonce).length = c.nl := by rw [← hn]; exact Mem.read_length ..
  have hP : (h.bytes pt).length = pt.len := Mem.read_length ..
  obtain ⟨e1, e2⟩ := @sfa_tail h dst (pt.len + c.tl)
  have hov : inexactOverlap (sliceForAppend h dst (pt.len + c.tl)).2.2 pt = false := by
    rw [Bool.eq_false_iff]
    intro h0
    rcases ap with ap | ap
    · exact not_partial_of_apart ap ((inexact_sfa vp).mp h0)
    · exact not_partial_of_inPlace ap ((inexact_sfa vp).mp h0)
  have hb : (sliceForAppend h dst (pt.len + c.tl)).1.bytes pt = h.bytes pt := sfa_bytes vp
  refine ⟨_, _, ?_, sfa_appended vd _ (by rw [g.aead_length hN, hP])⟩
  unfold gSeal
  rw [if_neg (by omega)]
  simp only
  rw [hov, if_neg (by simp), hb, e1]
  rfl

theorem gSeal_panics_iff (h : Heap) (dst nonce pt ad : Slice) (vp : pt.Valid h) :
    gSeal c h dst nonce pt ad = .panic ↔ nonce.len ≠ c.nl ∨ PartialOverlap dst (pt.len + c.tl) pt := by
  have hov := @inexact_sfa h dst (pt.len + c.tl) pt vp
  unfold gSeal
  by_cases c1 : nonce.len ≠ c.nl
  · rw [if_pos c1]; simp [c1]
  · rw [if_neg c1]
    simp only
    by_cases c3 : inexactOverlap (sliceForAppend h dst (pt.len + c.tl)).2.2 pt = true
    · rw [if_pos c3]; simp only [true_iff]; exact Or.inr (hov.mp c3)
    · rw [if_neg c3]
      simp only [reduceCtorEq, false_iff, not_or]
      exact ⟨c1, fun h0 => c3 (hov.mpr h0)⟩

theorem gOpen_core (g : c.Good) (h : Heap) (dst nonce ct ad : Slice) (n : Nat) (vd : dst.Valid h) (vc : ct.Valid h)
    (hn : nonce.len = c.nl) (hc : ct.len = n + c.tl) (ap : Apart dst n ct ∨ InPlace dst n ct) (r0 : Bytes × Bytes)
    (hr0 : r0 = c.D (h.bytes nonce) (h.bytes ad) ((h.bytes ct).take n)) :
    ∃ h' r, Appended h dst (if r0.2 = (h.bytes ct).drop n then r0.1 else List.replicate n 0) h' r ∧
      gOpen c h dst nonce ct ad = .ok (h', (if r0.2 = (h.bytes ct).drop n then some r else none)) := by
  have hN : (h.bytes nonce).length = c.nl := by rw [← hn]; exact Mem.read_length ..
  have hct : (h.bytes ct).take n = h.mem.read ct.ptr n := by
    unfold Heap.bytes; rw [Mem.read_take, hc, Nat.min_eq_left (by omega)]
  have hctd : (h.bytes ct).drop n = h.mem.read (ct.ptr + n) c.tl := by
    unfold Heap.bytes; rw [Mem.read_drop, hc, Nat.add_sub_cancel_left]
  have hlP : r0.1.length = n := by rw [hr0, g.lenD _ _ _ hN, hct, Mem.read_length]
  have vc' : Slice.Valid ⟨ct.ptr, n, ct.cap⟩ h := ⟨by have := vc.1; simp only; omega, vc.2⟩
  obtain ⟨e1, e2⟩ := @sfa_tail h dst n
  have hov : inexactOverlap (sliceForAppend h dst n).2.2 ⟨ct.ptr, n, ct.cap⟩ = false := by
    rw [Bool.eq_false_iff]
    intro h0
    have h1 := (inexact_sfa vc').mp h0
    rcases ap with ap | ap
    · exact not_partial_of_apart (x := ⟨ct.ptr, n, ct.cap⟩) (fun hh => by have := ap hh; simp only; omega) h1
    · exact not_partial_of_inPlace (x := ⟨ct.ptr, n, ct.cap⟩) ⟨ap.1, ap.2⟩ h1
  have htag : Mem.read ((sliceForAppend h dst n).1.mem.write (tailAt h dst n) r0.1) (ct.ptr + n) c.tl = (h.bytes ct).drop n := by
    rw [hctd]
    rcases ap with ap | ap
    · have := sfa_apart_read vc ap r0.1 (by omega)
      have := congrArg (List.drop n) this
      rw [Mem.read_drop, hctd, hc, Nat.add_sub_cancel_left] at this
      exact this
    · rw [tailAt_inPlace ap, Mem.read_write_disjoint _ _ _ _ _ (Or.inr (by omega)), sfa_read (by have := vc.1; have := vc.2; omega)]
  have hbc : (sliceForAppend h dst n).1.bytes ⟨ct.ptr, n, ct.cap⟩ = (h.bytes ct).take n := by
    rw [hct]; exact sfa_read (p := ct.ptr) (k := n) (by have := vc.1; have := vc.2; omega)
  have hopen : gOpen c h dst nonce ct ad =
      if r0.2 ≠ (h.bytes ct).drop n then
        .ok (⟨((sliceForAppend h dst n).1.mem.write (tailAt h dst n) r0.1).write (tailAt h dst n) (List.replicate n 0), (sliceForAppend h dst n).1.brk⟩, none)
      else .ok (⟨(sliceForAppend h dst n).1.mem.write (tailAt h dst n) r0.1, (sliceForAppend h dst n).1.brk⟩, some (sliceForAppend h dst n).2.1) := by
    unfold gOpen
    rw [if_neg (by omega), if_neg (by omega)]
    simp only
    rw [show ct.len - c.tl = n by omega, hov, if_neg (by simp), hbc, e1, ← hr0, htag]
  rw [hopen]
  by_cases hv : r0.2 = (h.bytes ct).drop n
  · rw [if_neg (show ¬ r0.2 ≠ (h.bytes ct).drop n from fun hne => hne hv), if_pos hv]
    refine ⟨_, _, sfa_appended vd r0.1 hlP, ?_⟩
    rw [if_pos hv]
  · rw [if_pos hv, if_neg hv]
    refine ⟨_, _, sfa_appended (n := n) vd (List.replicate n 0) List.length_replicate, ?_⟩
    rw [if_neg hv, Mem.write_write_same _ _ _ _ (by rw [List.length_replicate, hlP])]

theorem Core.Good.inv (g : c.Good) {N A C : Bytes} (n : Nat) (hN : N.length = c.nl) (hC : C.length = n + c.tl) :
    (∃ P, C = c.aead N A P) ↔ (c.D N A (C.take n)).2 = C.drop n := by
  constructor
  · rintro ⟨P, rfl⟩
    have hn : P.length = n := by rw [g.aead_length hN] at hC; omega
    have hl := g.lenC N A P hN
    unfold Core.aead
    rw [List.take_left' (by rw [hl, hn]), List.drop_left' (by rw [hl, hn]), g.de N A P hN]
  · intro h
    refine ⟨(c.D N A (C.take n)).1, ?_⟩
    unfold Core.aead
    rw [g.ed N A _ hN, h, List.take_append_drop]

theorem gOpen_accepts (g : c.Good) (h : Heap) (dst nonce ct ad : Slice) (vd : dst.Valid h) (vc : ct.Valid h)
    (hn : nonce.len = c.nl) (P : Bytes) (hct : h.bytes ct = c.aead (h.bytes nonce) (h.bytes ad) P)
    (ap : Apart dst P.length ct ∨ InPlace dst P.length ct) :
    ∃ h' r, gOpen c h dst nonce ct ad = .ok (h', some r) ∧ Appended h dst P h' r := by
  have hN : (h.bytes nonce).length = c.nl := by rw [← hn]; exact Mem.read_length ..
  have hcl : ct.len = P.length + c.tl := by
    have := congrArg List.length hct
    rw [g.aead_length hN] at this
    rw [← this]; exact (Mem.read_length ..).symm
  have hl := g.lenC (h.bytes nonce) (h.bytes ad) P hN
  have ht : (h.bytes ct).take P.length = (c.E (h.bytes nonce) (h.bytes ad) P).1 := by
    rw [hct]; exact List.take_left' hl
  have hd : (h.bytes ct).drop P.length = (c.E (h.bytes nonce) (h.bytes ad) P).2 := by
    rw [hct]; exact List.drop_left' hl
  obtain ⟨h', r, g1, g2⟩ := gOpen_core g h dst nonce ct ad P.length vd vc hn hcl ap (P, (c.E (h.bytes nonce) (h.bytes ad) P).2)
    (by rw [ht, g.de _ _ _ hN])
  rw [if_pos hd.symm] at g1 g2
  exact ⟨h', r, g2, g1⟩

theorem gOpen_rejects (g : c.Good) (h : Heap) (dst nonce ct ad : Slice) (vd : dst.Valid h) (vc : ct.Valid h)
    (hn : nonce.len = c.nl) (hct : ¬ ∃ P, h.bytes ct = c.aead (h.bytes nonce) (h.bytes ad) P)
    (ap : Apart dst (ct.len - c.tl) ct ∨ InPlace dst (ct.len - c.tl) ct) :
    ∃ h', gOpen c h dst nonce ct ad = .ok (h', none) ∧ (h' = h ∨ ∃ r, Appended h dst (List.replicate (ct.len - c.tl) 0) h' r) := by
  have hN : (h.bytes nonce).length = c.nl := by rw [← hn]; exact Mem.read_length ..
  by_cases hc : ct.len < c.tl
  · refine ⟨h, ?_, Or.inl rfl⟩
    unfold gOpen
    rw [if_neg (by omega), if_pos hc]
  · have hC : (h.bytes ct).length = (ct.len - c.tl) + c.tl := by
      have : (h.bytes ct).length = ct.len := Mem.read_length ..
      omega
    have hv := (not_congr (g.inv (A := h.bytes ad) (ct.len - c.tl) hN hC)).mp hct
    obtain ⟨h', r, g1, g2⟩ := gOpen_core g h dst nonce ct ad (ct.len - c.tl) vd vc hn (by omega) ap _ rfl
    rw [if_neg hv] at g1 g2
    exact ⟨h', g2, Or.inr ⟨r, g1⟩⟩

theorem gRoundtrip (g : c.Good) (h : Heap) (dst nonce pt ad : Slice) (vd : dst.Valid h)
    (vn : nonce.Valid h) (vp : pt.Valid h) (va : ad.Valid h) (hd0 : dst.len = 0) (hn : nonce.len = c.nl)
    (ap : Apart dst (pt.len + c.tl) pt ∨ InPlace dst (pt.len + c.tl) pt) (an : Apart dst (pt.len + c.tl) nonce)
    (aa : Apart dst (pt.len + c.tl) ad) :
    ∃ h1 ct, gSeal c h dst nonce pt ad = .ok (h1, ct) ∧
      ∀ dst2 : Slice, dst2.Valid h1 → (Apart dst2 pt.len ct ∨ InPlace dst2 pt.len ct) →
        ∃ h2 r, gOpen c h1 dst2 nonce ct ad = .ok (h2, some r) ∧ Appended h1 dst2 (h.bytes pt) h2 r := by
  obtain ⟨h1, ct, g1, g2⟩ := gSeal_exact g h dst nonce pt ad vd vp hn ap
  refine ⟨h1, ct, g1, ?_⟩
  intro dst2 vd2 ap2
  have hN : (h.bytes nonce).length = c.nl := by rw [← hn]; exact Mem.read_length ..
  have hP : (h.bytes pt).length = pt.len := Mem.read_length ..
  have kl : (c.aead (h.bytes nonce) (h.bytes ad) (h.bytes pt)).length = pt.len + c.tl := by rw [g.aead_length hN, hP]
  have kn : h1.bytes nonce = h.bytes nonce := (g2.keeps vn (by rw [kl]; exact an)).2
  have ka : h1.bytes ad = h.bytes ad := (g2.keeps va (by rw [kl]; exact aa)).2
  have hd : h.bytes dst = [] := by unfold Heap.bytes; rw [hd0]; rfl
  refine gOpen_accepts g h1 dst2 nonce ct ad vd2 g2.valid hn (h.bytes pt) ?_ (by rw [hP]; exact ap2)
  rw [g2.bytes, hd, kn, ka]; rfl

end Verif.Aead
