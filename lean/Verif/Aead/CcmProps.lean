import Verif.Aead.CcmLemmas
/-
C32: CCM.  The specification is CcmSpec.lean (RFC 3610); the vocabulary (`Appended`, `Apart`, `InPlace`,
`PartialOverlap`) is in Base.lean.  `ccmNew` is the constructor, `ccmSeal`/`ccmOpen` are `Seal`/`Open`.
-/
namespace Verif.Aead

/-- C32: which parameters the constructor accepts. -/
theorem C32_new_ok_iff (c : BlockCipher) (ns ts : Int) :
    (∃ x, ccmNew c ns ts = .ok x) ↔ c.bs = 16 ∧ 7 ≤ ns ∧ ns ≤ 13 ∧ 4 ≤ ts ∧ ts ≤ 16 ∧ 2 ∣ ts := by
  unfold ccmNew
  constructor
  · rintro ⟨x, hx⟩
    split at hx
    · simp at hx
    · split at hx
      · simp at hx
      · split at hx
        · simp at hx
        · split at hx
          · simp at hx
          · omega
  · intro hh
    rw [if_neg (by omega), if_neg (by omega), if_neg (by omega), if_neg (by omega)]
    exact ⟨_, rfl⟩

structure CcmOK (c : BlockCipher) (ns ts : Int) (x : Ccm) : Prop where
  bs : c.bs = 16
  ns : ns = x.nonceSize
  ts : ts = x.tagSize
  n1 : 7 ≤ x.nonceSize
  n2 : x.nonceSize ≤ 13
  t1 : 4 ≤ x.tagSize
  t2 : x.tagSize ≤ 16
  t3 : x.tagSize % 2 = 0

theorem ccmNew_ok {c : BlockCipher} {ns ts : Int} {x : Ccm} (h : ccmNew c ns ts = .ok x) : CcmOK c ns ts x := by
  have hh := (C32_new_ok_iff c ns ts).mp ⟨x, h⟩
  unfold ccmNew at h
  rw [if_neg (by omega), if_neg (by omega), if_neg (by omega), if_neg (by omega)] at h
  injection h with h
  subst h
  constructor <;> first | omega | (simp only; omega)

/-- The longest message: `2^(8L) - 1` octets, and the ciphertext has to have a Go length. -/
theorem ccmMaxlen_iff (L t n : Nat) (h1 : 2 ≤ L) (h2 : L ≤ 8) (h3 : t ≤ 16) :
    n ≤ ccmMaxlen L t ↔ n < 256 ^ L ∧ n + t < 2 ^ 63 := by
  unfold ccmMaxlen
  have key : ∀ L : Fin 9, 2 ^ (8 * L.val) = 256 ^ L.val := by decide
  have e := key ⟨L, by omega⟩
  simp only at e ⊢
  rw [e]
  have hb : ∀ L : Fin 9, 2 ≤ L.val → L.val < 8 → 65536 ≤ 256 ^ L.val ∧ 256 ^ L.val ≤ 2 ^ 56 := by decide
  by_cases h8 : L = 8
  · subst h8
    rw [if_pos (by right; omega)]
    omega
  · have := hb ⟨L, by omega⟩ h1 (by simp only; omega)
    simp only at this
    generalize 256 ^ L = v at *
    rw [if_neg (by omega)]
    omega

section
variable {c : BlockCipher} {ns ts : Int} {x : Ccm}

/-- The message fits: RFC 3610's `0 ≤ l(m) < 2^(8L)`, and the ciphertext length is a Go `int`. -/
def CcmFits (ns ts : Int) (n : Nat) : Prop := n < 256 ^ (15 - ns).toNat ∧ (n : Int) + ts < 2 ^ 63

theorem ccmFits_iff (k : CcmOK c ns ts x) (n : Nat) :
    n ≤ ccmMaxlen (15 - x.nonceSize) x.tagSize ↔ CcmFits ns ts n := by
  have := k.n1; have := k.n2; have := k.t2
  rw [ccmMaxlen_iff _ _ _ (by omega) (by omega) (by omega)]
  unfold CcmFits
  rw [k.ns, k.ts, show (15 - (x.nonceSize : Int)).toNat = 15 - x.nonceSize by omega]
  omega

theorem ccmCrypt_length (E : Bytes → Bytes) (N P : Bytes) : (Spec.ccmCrypt E N P).length = P.length := by
  unfold Spec.ccmCrypt; rw [xorb_length]; simp [Mode.Spec.keyBytes]

theorem cbcMac_length (h16 : c.bs = 16) (s y : Bytes) (hs : s.length = 16) (hy : 16 ∣ y.length) :
    (Spec.cbcMac c.E s y).length = 16 := by
  have hall := Mode.chunks_all_len 16 (by decide) y hy
  unfold Spec.cbcMac
  generalize Mode.chunks 16 y = l at hall
  induction l generalizing s with
  | nil => exact hs
  | cons b l ih =>
    rw [List.foldl_cons]
    refine ih _ ?_ (fun b' hb' => hall b' (List.mem_cons_of_mem _ hb'))
    have hb := hall b (by simp)
    rw [c.lenE _ (by rw [xorb_length, hs, hb, h16]; rfl), h16]

theorem ccmTag_length (h16 : c.bs = 16) (M : Nat) (hM : M ≤ 16) (N P A : Bytes) (hN : N.length ≤ 13) :
    (Spec.ccmTag c.E M N P A).length = M := by
  unfold Spec.ccmTag
  have lb : (Spec.ccmB0 M N P.length A.length).length = 16 := by
    unfold Spec.ccmB0; simp [Mode.natBe_len]; omega
  rw [List.length_take, xorb_length, cbcMac_length h16 _ _ rfl (by
    rw [List.length_append, List.length_append, lb]
    have := padZero_dvd (Spec.ccmAd A); have := padZero_dvd P; omega),
    c.lenE _ (by rw [ccmA_length N hN, h16]), h16]
  omega

/-- What `Seal` does when the output is apart from nonce and additional data, and apart from or exactly over the
plaintext: the tag is computed from what the plaintext slice holds after encryption. -/
theorem ccmSeal_core (k : CcmOK c ns ts x) (h : Heap) (dst nonce pt ad : Slice)
    (vd : dst.Valid h) (vn : nonce.Valid h) (vp : pt.Valid h) (va : ad.Valid h)
    (hns : nonce.len = x.nonceSize) (hmax : pt.len ≤ ccmMaxlen (15 - x.nonceSize) x.tagSize)
    (ap : Apart dst (pt.len + x.tagSize) pt ∨ InPlace dst (pt.len + x.tagSize) pt)
    (an : Apart dst (pt.len + x.tagSize) nonce) (aa : Apart dst (pt.len + x.tagSize) ad) (P' : Bytes)
    (hP' : Mem.read ((sliceForAppend h dst (pt.len + x.tagSize)).1.mem.write (tailAt h dst (pt.len + x.tagSize))
        (Spec.ccmCrypt c.E (h.bytes nonce) (h.bytes pt))) pt.ptr pt.len = P') :
    ∃ h' r, ccmSeal c x h dst nonce pt ad = .ok (h', r) ∧
      Appended h dst (Spec.ccmCrypt c.E (h.bytes nonce) (h.bytes pt) ++
        Spec.ccmTag c.E x.tagSize (h.bytes nonce) P' (h.bytes ad)) h' r := by
  have k1 := k.n1; have k2 := k.n2; have k3 := k.t1; have k4 := k.t2
  have hN : (h.bytes nonce).length = x.nonceSize := by rw [← hns]; exact Mem.read_length ..
  have hP : (h.bytes pt).length = pt.len := Mem.read_length ..
  have hPl : pt.len < 256 ^ (15 - x.nonceSize) := ((ccmMaxlen_iff _ _ _ (by omega) (by omega) (by omega)).mp hmax).1
  have hlP' : P'.length = pt.len := by rw [← hP']; exact Mem.read_length ..
  obtain ⟨e1, e2⟩ := @sfa_tail h dst (pt.len + x.tagSize)
  have hov : inexactOverlap (sliceForAppend h dst (pt.len + x.tagSize)).2.2 pt = false := by
    rw [Bool.eq_false_iff]
    intro h0
    rcases ap with ap | ap
    · exact not_partial_of_apart ap ((inexact_sfa vp).mp h0)
    · exact not_partial_of_inPlace ap ((inexact_sfa vp).mp h0)
  have hcl : (Spec.ccmA (h.bytes nonce) 1).length = c.bs := by rw [k.bs]; exact ccmA_length _ (by omega) 1
  have hcrypt : (Spec.ccmCrypt c.E (h.bytes nonce) (h.bytes pt)).length = pt.len := ccmCrypt_length ..|>.trans hP
  have hctr : ctrXor c (ccmCounter1 (ccmCounter x.nonceSize ((sliceForAppend h dst (pt.len + x.tagSize)).1.bytes nonce)))
      (sliceForAppend h dst (pt.len + x.tagSize)).1.mem (sliceForAppend h dst (pt.len + x.tagSize)).2.2 pt =
      .ok ((sliceForAppend h dst (pt.len + x.tagSize)).1.mem.write (tailAt h dst (pt.len + x.tagSize))
        (Spec.ccmCrypt c.E (h.bytes nonce) (h.bytes pt))) := by
    unfold Heap.bytes at *
    rw [sfa_bytes vn]
    unfold Heap.bytes
    rw [← hN, ccmCounter_eq _ (by omega), ccmCounter1_eq _ (by omega)]
    rw [ctrXor_ok c _ hcl _ _ _ (by rw [e2]; omega) (by
      rw [e1]
      apply inexact_false_of (k := pt.len + x.tagSize) (by omega)
      rcases ap with ap | ap
      · exact Or.inr (sfa_apart vp ap)
      · exact Or.inl (tailAt_inPlace ap).symm), e1, sfa_bytes vp,
      ccm_ks c k.bs _ (by omega) (by omega) _ (by rw [hN]; exact hPl)]
    unfold Spec.ccmCrypt Heap.bytes
    rw [hP]
  unfold ccmSeal
  rw [if_neg (by omega), if_neg (by omega)]
  simp only
  rw [hov, if_neg (by simp), hctr, Res.bind_ok]
  rw [sfa_apart_read vn an _ (by omega), hP', sfa_apart_read va aa _ (by omega)]
  have : (sliceForAppend h dst (pt.len + x.tagSize)).1.bytes nonce = h.bytes nonce := sfa_bytes vn
  rw [this, ← hN, ccmCounter_eq _ (by omega),
    ccmAuth_eq c k.bs x _ _ _ hN k1 k2 k3 k4 k.t3 (by rw [hlP']; exact hPl)]
  have htl := ccmTag_length k.bs x.tagSize k4 (h.bytes nonce) P' (h.bytes ad) (by omega)
  rw [e1, e2, List.take_of_length_le (by omega)]
  refine ⟨_, _, rfl, ?_⟩
  have := sfa_appended (n := pt.len + x.tagSize) vd (Spec.ccmCrypt c.E (h.bytes nonce) (h.bytes pt) ++
    Spec.ccmTag c.E x.tagSize (h.bytes nonce) P' (h.bytes ad)) (by rw [List.length_append]; omega)
  rw [Mem.write_append, hcrypt] at this
  exact this

/-- C32: `Seal` appends the RFC 3610 ciphertext to dst, when the output does not overlap an input. -/
theorem C32_seal_spec (hnew : ccmNew c ns ts = .ok x) (h : Heap) (dst nonce pt ad : Slice)
    (vd : dst.Valid h) (vn : nonce.Valid h) (vp : pt.Valid h) (va : ad.Valid h)
    (hn : nonce.len = ns) (hp : CcmFits ns ts pt.len)
    (ap : Apart dst (pt.len + ts.toNat) pt) (an : Apart dst (pt.len + ts.toNat) nonce)
    (aa : Apart dst (pt.len + ts.toNat) ad) :
    ∃ h' r, ccmSeal c x h dst nonce pt ad = .ok (h', r) ∧
      Appended h dst (Spec.ccm c.E ts.toNat (h.bytes nonce) (h.bytes pt) (h.bytes ad)) h' r := by
  have k := ccmNew_ok hnew
  have hts : ts.toNat = x.tagSize := by have := k.ts; omega
  rw [hts] at ap an aa ⊢
  exact ccmSeal_core k h dst nonce pt ad vd vn vp va (by have := k.ns; omega) ((ccmFits_iff k pt.len).mpr hp)
    (Or.inl ap) an aa _ (sfa_apart_read vp ap _ (by rw [ccmCrypt_length]; simp [Heap.bytes]))

/-- C32 (what sealing in place really gives): the text is encrypted, but the tag is that of the *ciphertext*. -/
theorem C32_seal_inplace_exact (hnew : ccmNew c ns ts = .ok x) (h : Heap) (dst nonce pt ad : Slice)
    (vd : dst.Valid h) (vn : nonce.Valid h) (vp : pt.Valid h) (va : ad.Valid h)
    (hn : nonce.len = ns) (hp : CcmFits ns ts pt.len)
    (ap : InPlace dst (pt.len + ts.toNat) pt) (an : Apart dst (pt.len + ts.toNat) nonce)
    (aa : Apart dst (pt.len + ts.toNat) ad) :
    ∃ h' r, ccmSeal c x h dst nonce pt ad = .ok (h', r) ∧
      Appended h dst (Spec.ccmCrypt c.E (h.bytes nonce) (h.bytes pt) ++
        Spec.ccmTag c.E ts.toNat (h.bytes nonce) (Spec.ccmCrypt c.E (h.bytes nonce) (h.bytes pt)) (h.bytes ad)) h' r := by
  have k := ccmNew_ok hnew
  have hts : ts.toNat = x.tagSize := by have := k.ts; omega
  rw [hts] at ap an aa ⊢
  refine ccmSeal_core k h dst nonce pt ad vd vn vp va (by have := k.ns; omega) ((ccmFits_iff k pt.len).mpr hp)
    (Or.inr ap) an aa _ ?_
  rw [tailAt_inPlace ap]
  exact Mem.read_write_self' _ _ _ _ (by rw [ccmCrypt_length]; simp [Heap.bytes])

/-- C32: which calls of `Seal` panic: a nonce of another length, a text that is too long, and a text that the
output overlaps without starting at the same place. -/
theorem C32_seal_panics_iff (hnew : ccmNew c ns ts = .ok x) (h : Heap) (dst nonce pt ad : Slice)
    (vp : pt.Valid h) :
    ccmSeal c x h dst nonce pt ad = .panic ↔
      nonce.len ≠ ns ∨ ¬ CcmFits ns ts pt.len ∨ PartialOverlap dst (pt.len + ts.toNat) pt := by
  have k := ccmNew_ok hnew
  have hts : ts.toNat = x.tagSize := by have := k.ts; omega
  have hfit := ccmFits_iff k pt.len
  have hns := k.ns
  obtain ⟨e1, e2⟩ := @sfa_tail h dst (pt.len + x.tagSize)
  have hov := @inexact_sfa h dst (pt.len + x.tagSize) pt vp
  unfold ccmSeal
  rw [hts]
  by_cases c1 : nonce.len ≠ x.nonceSize
  · rw [if_pos c1]; simp only [true_iff]; omega
  · rw [if_neg c1]
    by_cases c2 : pt.len > ccmMaxlen (15 - x.nonceSize) x.tagSize
    · rw [if_pos c2]; simp only [true_iff]
      exact Or.inr (Or.inl (fun h0 => by have := hfit.mpr h0; omega))
    · rw [if_neg c2]
      simp only
      by_cases c3 : inexactOverlap (sliceForAppend h dst (pt.len + x.tagSize)).2.2 pt = true
      · rw [if_pos c3]; simp only [true_iff]; exact Or.inr (Or.inr (hov.mp c3))
      · rw [if_neg c3, ctrXor_ok c _ (by rw [k.bs]; simp [ccmCounter1, ccmCounter, Mode.copyAt]) _ _ _ (by rw [e2]; omega)
          (inexact_mono (k := (sliceForAppend h dst (pt.len + x.tagSize)).2.2.len)
            (cp := (sliceForAppend h dst (pt.len + x.tagSize)).2.2.cap) (by rw [e2]; omega) (by simpa using c3)), Res.bind_ok]
        simp only [reduceCtorEq, false_iff]
        rintro (h0 | h0 | h0)
        · omega
        · exact h0 (hfit.mp (by omega))
        · exact c3 (hov.mpr h0)

/-- What `Open` does with a ciphertext of an acceptable length. -/
theorem ccmOpen_core (k : CcmOK c ns ts x) (h : Heap) (dst nonce ct ad : Slice) (n : Nat)
    (vd : dst.Valid h) (vn : nonce.Valid h) (vc : ct.Valid h) (va : ad.Valid h)
    (hns : nonce.len = x.nonceSize) (hl : ct.len = n + x.tagSize)
    (hmax : n ≤ ccmMaxlen (15 - x.nonceSize) x.tagSize)
    (ap : Apart dst n ct ∨ InPlace dst n ct)
    (an : Apart dst n nonce) (aa : Apart dst n ad) (P : Bytes)
    (hP : P = Spec.ccmCrypt c.E (h.bytes nonce) ((h.bytes ct).take n)) :
    ∃ h' r, Appended h dst (if Spec.ccmTag c.E x.tagSize (h.bytes nonce) P (h.bytes ad) = (h.bytes ct).drop n
          then P else List.replicate n 0) h' r ∧
      ccmOpen c x h dst nonce ct ad = .ok (h',
        if Spec.ccmTag c.E x.tagSize (h.bytes nonce) P (h.bytes ad) = (h.bytes ct).drop n then some r else none) := by
  have k1 := k.n1; have k2 := k.n2; have k3 := k.t1; have k4 := k.t2
  have hN : (h.bytes nonce).length = x.nonceSize := by rw [← hns]; exact Mem.read_length ..
  have hct : (h.bytes ct).take n = h.mem.read ct.ptr n := by
    unfold Heap.bytes; rw [Mem.read_take, hl, Nat.min_eq_left (by omega)]
  have hctd : (h.bytes ct).drop n = h.mem.read (ct.ptr + n) x.tagSize := by
    unfold Heap.bytes; rw [Mem.read_drop, hl, Nat.add_sub_cancel_left]
  have hlP : P.length = n := by rw [hP, ccmCrypt_length, hct, Mem.read_length]
  have hPl : n < 256 ^ (15 - x.nonceSize) := ((ccmMaxlen_iff _ _ _ (by omega) (by omega) (by omega)).mp hmax).1
  have vc' : Slice.Valid ⟨ct.ptr, n, ct.cap⟩ h := ⟨by have := vc.1; simp only; omega, vc.2⟩
  obtain ⟨e1, e2⟩ := @sfa_tail h dst n
  have hno : ¬ PartialOverlap dst n ⟨ct.ptr, n, ct.cap⟩ := by
    rcases ap with ap | ap
    · exact not_partial_of_apart (ap.sub (Nat.le_refl _) (by simp only; omega))
    · exact not_partial_of_inPlace ⟨ap.1, ap.2⟩
  have hov : inexactOverlap (sliceForAppend h dst n).2.2 ⟨ct.ptr, n, ct.cap⟩ = false := by
    rw [Bool.eq_false_iff]
    intro h0
    exact hno ((inexact_sfa vc').mp h0)
  have hcl : (Spec.ccmA (h.bytes nonce) 1).length = c.bs := by rw [k.bs]; exact ccmA_length _ (by omega) 1
  have hcnt : ccmCounter x.nonceSize (h.bytes nonce) = Spec.ccmA (h.bytes nonce) 0 := by
    rw [← hN]; exact ccmCounter_eq _ (by omega)
  have hctr : ctrXor c (Spec.ccmA (h.bytes nonce) 1)
      (sliceForAppend h dst n).1.mem (sliceForAppend h dst n).2.2 ⟨ct.ptr, n, ct.cap⟩ =
      .ok ((sliceForAppend h dst n).1.mem.write (tailAt h dst n) P) := by
    rw [ctrXor_ok c _ hcl _ _ _ (by rw [e2]; exact Nat.le_refl _)
      (inexact_mono (k := (sliceForAppend h dst n).2.2.len)
            (cp := (sliceForAppend h dst n).2.2.cap) (by rw [e2]; exact Nat.le_refl _) hov), e1]
    simp only
    rw [sfa_read (by have := vc.1; have := vc.2; omega), ccm_ks c k.bs _ (by omega) (by omega) _ (by rw [hN]; exact hPl), hP, hct]
    unfold Spec.ccmCrypt
    rw [Mem.read_length]
  have htag : Mem.read ((sliceForAppend h dst n).1.mem.write (tailAt h dst n) P) (ct.ptr + n) x.tagSize =
      (h.bytes ct).drop n := by
    rw [hctd]
    rcases ap with ap | ap
    · have := sfa_apart_read vc ap P (by omega)
      have := congrArg (List.drop n) this
      rw [Mem.read_drop, hctd, hl, Nat.add_sub_cancel_left] at this
      exact this
    · rw [tailAt_inPlace ap, Mem.read_write_disjoint _ _ _ _ _ (Or.inr (by omega)), sfa_read (by have := vc.1; have := vc.2; omega)]
  have hopen : ccmOpen c x h dst nonce ct ad =
      if Spec.ccmTag c.E x.tagSize (h.bytes nonce) P (h.bytes ad) ≠ (h.bytes ct).drop n then
        .ok (⟨((sliceForAppend h dst n).1.mem.write (tailAt h dst n) P).write (tailAt h dst n) (List.replicate n 0),
          (sliceForAppend h dst n).1.brk⟩, none)
      else .ok (⟨(sliceForAppend h dst n).1.mem.write (tailAt h dst n) P, (sliceForAppend h dst n).1.brk⟩,
        some (sliceForAppend h dst n).2.1) := by
    unfold ccmOpen
    rw [if_neg (by omega), if_neg (by omega), if_neg (by omega), if_neg (by omega)]
    simp only
    rw [show ct.len - x.tagSize = n by omega, hov, if_neg (by simp), hcnt, ccmCounter1_eq _ (by omega), hctr, Res.bind_ok,
      htag, sfa_apart_read vn an _ (by omega), sfa_apart_read va aa _ (by omega), e1, e2,
      Mem.read_write_self' _ _ _ _ hlP, ccmAuth_eq c k.bs x _ _ _ hN k1 k2 k3 k4 k.t3 (by rw [hlP]; exact hPl)]
  rw [hopen]
  by_cases hc : Spec.ccmTag c.E x.tagSize (h.bytes nonce) P (h.bytes ad) = (h.bytes ct).drop n
  · simp only [hc, ne_eq, not_true_eq_false, if_false, if_true]
    exact ⟨_, _, sfa_appended vd P hlP, rfl⟩
  · simp only [hc, ne_eq, not_false_eq_true, if_false, if_true]
    refine ⟨_, (sliceForAppend h dst n).2.1, ?_, rfl⟩
    rw [Mem.write_write_same _ _ _ _ (by rw [hlP, List.length_replicate])]
    exact sfa_appended vd _ (List.length_replicate ..)

theorem ccmCrypt_invol (E : Bytes → Bytes) (N P : Bytes) : Spec.ccmCrypt E N (Spec.ccmCrypt E N P) = P := by
  have := ccmCrypt_length E N P
  unfold Spec.ccmCrypt at this ⊢
  rw [this]
  exact xorb_xorb_cancel_right _ _ (by simp [Mode.Spec.keyBytes])

/-- C32: `Open` accepts exactly the RFC 3610 ciphertexts: if the ciphertext is the one of `P`, then `P` is appended
to dst. dst may be apart from the ciphertext or lie exactly over it. -/
theorem C32_open_accepts (hnew : ccmNew c ns ts = .ok x) (h : Heap) (dst nonce ct ad : Slice)
    (vd : dst.Valid h) (vn : nonce.Valid h) (vc : ct.Valid h) (va : ad.Valid h) (hn : nonce.len = ns)
    (P : Bytes) (hp : CcmFits ns ts P.length)
    (hct : h.bytes ct = Spec.ccm c.E ts.toNat (h.bytes nonce) P (h.bytes ad))
    (ap : Apart dst P.length ct ∨ InPlace dst P.length ct)
    (an : Apart dst P.length nonce) (aa : Apart dst P.length ad) :
    ∃ h' r, ccmOpen c x h dst nonce ct ad = .ok (h', some r) ∧ Appended h dst P h' r := by
  have k := ccmNew_ok hnew
  have hts : ts.toNat = x.tagSize := by have := k.ts; omega
  have hns : nonce.len = x.nonceSize := by have := k.ns; omega
  have hNl : (h.bytes nonce).length = nonce.len := Mem.read_length ..
  rw [hts] at hct
  have hcl := ccmCrypt_length c.E (h.bytes nonce) P
  have hlen : ct.len = P.length + x.tagSize := by
    have := congrArg List.length hct
    unfold Spec.ccm at this
    rw [List.length_append, ccmCrypt_length, ccmTag_length k.bs _ k.t2 _ _ _ (by have := k.n2; omega)] at this
    unfold Heap.bytes at this
    rw [Mem.read_length] at this
    exact this
  have hd : (h.bytes ct).drop P.length = Spec.ccmTag c.E x.tagSize (h.bytes nonce) P (h.bytes ad) := by
    rw [hct]; exact List.drop_left' hcl
  obtain ⟨h', r, g1, g2⟩ := ccmOpen_core k h dst nonce ct ad P.length vd vn vc va hns hlen
    ((ccmFits_iff k _).mpr hp) ap an aa P (by
      rw [hct]; unfold Spec.ccm; rw [List.take_left' hcl, ccmCrypt_invol])
  rw [if_pos hd.symm] at g1 g2
  exact ⟨h', r, g2, g1⟩

/-- C32: every other ciphertext is rejected with an error, and only zeros (or nothing at all) were written where
the plaintext would have gone. -/
theorem C32_open_rejects (hnew : ccmNew c ns ts = .ok x) (h : Heap) (dst nonce ct ad : Slice)
    (vd : dst.Valid h) (vn : nonce.Valid h) (vc : ct.Valid h) (va : ad.Valid h) (hn : nonce.len = ns)
    (hct : ¬ ∃ P, CcmFits ns ts P.length ∧ h.bytes ct = Spec.ccm c.E ts.toNat (h.bytes nonce) P (h.bytes ad))
    (ap : Apart dst (ct.len - ts.toNat) ct ∨ InPlace dst (ct.len - ts.toNat) ct)
    (an : Apart dst (ct.len - ts.toNat) nonce) (aa : Apart dst (ct.len - ts.toNat) ad) :
    ∃ h', ccmOpen c x h dst nonce ct ad = .ok (h', none) ∧
      (h' = h ∨ ∃ r, Appended h dst (List.replicate (ct.len - ts.toNat) 0) h' r) := by
  have k := ccmNew_ok hnew
  have hts : ts.toNat = x.tagSize := by have := k.ts; omega
  have hns : nonce.len = x.nonceSize := by have := k.ns; omega
  have hNl : (h.bytes nonce).length = nonce.len := Mem.read_length ..
  have hCl : (h.bytes ct).length = ct.len := Mem.read_length ..
  rw [hts] at hct ap an aa ⊢
  by_cases c1 : ct.len < x.tagSize
  · refine ⟨h, ?_, Or.inl rfl⟩
    unfold ccmOpen
    rw [if_neg (by omega), if_neg (by have := k.t1; omega), if_pos c1]
  · by_cases c2 : ct.len > ccmMaxlen (15 - x.nonceSize) x.tagSize + x.tagSize
    · refine ⟨h, ?_, Or.inl rfl⟩
      unfold ccmOpen
      rw [if_neg (by omega), if_neg (by have := k.t1; omega), if_neg c1, if_pos c2]
    · obtain ⟨h', r, g1, g2⟩ := ccmOpen_core k h dst nonce ct ad (ct.len - x.tagSize) vd vn vc va hns (by omega)
        (by omega) ap an aa _ rfl
      have hne : ¬ (Spec.ccmTag c.E x.tagSize (h.bytes nonce)
          (Spec.ccmCrypt c.E (h.bytes nonce) ((h.bytes ct).take (ct.len - x.tagSize))) (h.bytes ad) =
          (h.bytes ct).drop (ct.len - x.tagSize)) := by
        intro h0
        refine hct ⟨Spec.ccmCrypt c.E (h.bytes nonce) ((h.bytes ct).take (ct.len - x.tagSize)), ?_, ?_⟩
        · rw [ccmCrypt_length, List.length_take, hCl]
          exact (ccmFits_iff k _).mp (by omega)
        · unfold Spec.ccm
          rw [ccmCrypt_invol, h0, List.take_append_drop]
      rw [if_neg hne] at g1 g2
      exact ⟨h', g2, Or.inr ⟨r, g1⟩⟩

/-- C32: opening what `Seal` returned gives the plaintext back, whether dst is apart from it or exactly over it. -/
theorem C32_roundtrip (hnew : ccmNew c ns ts = .ok x) (h : Heap) (dst nonce pt ad : Slice)
    (vd : dst.Valid h) (vn : nonce.Valid h) (vp : pt.Valid h) (va : ad.Valid h) (hd0 : dst.len = 0)
    (hn : nonce.len = ns) (hp : CcmFits ns ts pt.len)
    (ap : Apart dst (pt.len + ts.toNat) pt) (an : Apart dst (pt.len + ts.toNat) nonce)
    (aa : Apart dst (pt.len + ts.toNat) ad) :
    ∃ h1 ct, ccmSeal c x h dst nonce pt ad = .ok (h1, ct) ∧
      ∀ dst2 : Slice, dst2.Valid h1 → (Apart dst2 pt.len ct ∨ InPlace dst2 pt.len ct) → Apart dst2 pt.len nonce →
        Apart dst2 pt.len ad →
        ∃ h2 r, ccmOpen c x h1 dst2 nonce ct ad = .ok (h2, some r) ∧ Appended h1 dst2 (h.bytes pt) h2 r := by
  obtain ⟨h1, ct, g1, g2⟩ := C32_seal_spec hnew h dst nonce pt ad vd vn vp va hn hp ap an aa
  refine ⟨h1, ct, g1, ?_⟩
  intro dst2 vd2 ap2 an2 aa2
  have k := ccmNew_ok hnew
  have hPl : (h.bytes pt).length = pt.len := Mem.read_length ..
  have hNl : (h.bytes nonce).length = nonce.len := Mem.read_length ..
  have hX : (Spec.ccm c.E ts.toNat (h.bytes nonce) (h.bytes pt) (h.bytes ad)).length = pt.len + ts.toNat := by
    unfold Spec.ccm
    rw [List.length_append, ccmCrypt_length, hPl, ccmTag_length k.bs _ (by have := k.t2; have := k.ts; omega) _ _ _ (by
      have := k.n2; have := k.ns; omega)]
  obtain ⟨wn, bn⟩ := g2.keeps vn (by rw [hX]; exact an)
  obtain ⟨wa, ba⟩ := g2.keeps va (by rw [hX]; exact aa)
  refine C32_open_accepts hnew h1 dst2 nonce ct ad vd2 wn g2.valid wa hn (h.bytes pt) (by rw [hPl]; exact hp) ?_
    (by rw [hPl]; exact ap2) (by rw [hPl]; exact an2) (by rw [hPl]; exact aa2)
  rw [g2.bytes, bn, ba]
  unfold Heap.bytes
  rw [hd0]
  rfl
end

/-! Non-vacuity and the in-place violation. -/

/-- `k` bytes of key, 1, 2, 3, … -/
def demoCipher : BlockCipher := toyCipher 16 (by decide)

def demoHeap : Heap := ⟨fun a => BitVec.ofNat 8 (7 * a + 3), 100⟩

/-- Run `s`, then `o` on what it returned, and tell whether `o` returned an error. -/
def rejects (s : Res (Heap × Slice)) (o : Heap → Slice → Res (Heap × Option Slice)) : Bool :=
  match s with
  | .ok (h1, ct) => match o h1 ct with
    | .ok (_, none) => true
    | _ => false
  | _ => false

theorem sealThenOpen_rejects {s : Res (Heap × Slice)} {o : Heap → Slice → Res (Heap × Option Slice)}
    (h : rejects s o = true) : ∃ h1 ct h2, s = .ok (h1, ct) ∧ o h1 ct = .ok (h2, none) := by
  unfold rejects at h
  split at h
  · rename_i h1 ct
    split at h
    · rename_i h2 e; exact ⟨h1, ct, h2, rfl, e⟩
    · simp at h
  · simp at h

/-- A nonce of 12 bytes, a text of 21 and additional data of 5 bytes meet the hypotheses of `C32_roundtrip`. -/
example : ∃ x, ccmNew demoCipher 12 8 = .ok x ∧ Slice.Valid ⟨0, 0, 0⟩ demoHeap ∧ Slice.Valid ⟨0, 12, 12⟩ demoHeap ∧
    Slice.Valid ⟨20, 21, 40⟩ demoHeap ∧ Slice.Valid ⟨70, 5, 5⟩ demoHeap ∧ CcmFits 12 8 21 ∧
    Apart ⟨0, 0, 0⟩ (21 + (8 : Int).toNat) ⟨20, 21, 40⟩ := by
  refine ⟨⟨12, 8⟩, rfl, ?_, ?_, ?_, ?_, ?_, ?_⟩
  all_goals first | (unfold Slice.Valid demoHeap; simp) | (unfold CcmFits; decide) | (unfold Apart; simp)

/-- C32 violated: `Seal(p[:0], nonce, p, ad)` (exact overlap, allowed by `cipher.AEAD`) produces a ciphertext that
`Open` rejects. -/
theorem C32_seal_inplace_violated :
    ∃ (c : BlockCipher) (x : Ccm) (h : Heap) (dst nonce pt ad : Slice),
      ccmNew c 12 8 = .ok x ∧ dst.Valid h ∧ nonce.Valid h ∧ pt.Valid h ∧ ad.Valid h ∧
      InPlace dst (pt.len + 8) pt ∧
      ∃ h1 ct h2, ccmSeal c x h dst nonce pt ad = .ok (h1, ct) ∧
        ccmOpen c x h1 ⟨0, 0, 0⟩ nonce ct ad = .ok (h2, none) := by
  refine ⟨demoCipher, ⟨12, 8⟩, demoHeap, ⟨20, 0, 40⟩, ⟨0, 12, 12⟩, ⟨20, 14, 40⟩, ⟨70, 0, 0⟩, rfl, ?_, ?_, ?_, ?_, ?_, ?_⟩
  all_goals first | (unfold Slice.Valid demoHeap; simp; done) | (unfold InPlace; simp; done) | skip
  exact sealThenOpen_rejects (by decide +kernel)
end Verif.Aead
