import Verif.Stream.GrainCrypt
/-
C135: Grain-128AEAD, the AEAD and the stream cipher of /repo/cipher/grain.
-/
namespace Verif.Strm.Grain
open Verif.Mode Verif.Cipher Verif.Aead GrainSpec

/-- The objects a program can have for `key`: made by `NewCipher`, then used by any `Seal` and `Open`, on any memories. -/
inductive Reach (key : Bytes) : State → Prop
  | new {s} : newCipher key = .ok s → Reach key s
  | sealed {s h dst nonce pt ad h' r s'} : Reach key s → sealA s h dst nonce pt ad = .ok (h', r, s') → Reach key s'
  | opened {s h dst nonce ct ad h' r s'} : Reach key s → openA s h dst nonce ct ad = .ok (h', r, s') → Reach key s'

theorem newCipher_ok {key : Bytes} {s : State} (h : newCipher key = .ok s) : key.length = 16 ∧ s.key = setKey key := by
  unfold newCipher at h
  by_cases hk : key.length = 16
  · rw [if_neg (by omega)] at h
    rw [← Res.ok.inj h]
    exact ⟨hk, rfl⟩
  · rw [if_pos hk] at h
    exact absurd h (by simp)

theorem pairs_key (n : Nat) : ∀ (s : State) (l : Bytes), l.length ≤ n → (pairs s l).1.key = s.key := by
  induction n using Nat.strongRecOn with
  | ind n ih =>
    intro s l hl
    match l, hl with
    | [], _ => rfl
    | [_], _ => rfl
    | a :: b :: l, hl => exact (ih (n - 2) (by simp at hl; omega) _ l (by simp at hl; omega)).trans rfl

theorem body_key (dec : Bool) (n : Nat) : ∀ (s : State) (l : Bytes), l.length ≤ n → (body dec s l).2.key = s.key := by
  induction n using Nat.strongRecOn with
  | ind n ih =>
    intro s l hl
    match l, hl with
    | [], _ => rfl
    | [_], _ => rfl
    | a :: b :: l, hl => exact (ih (n - 2) (by simp at hl; omega) _ l (by simp at hl; omega)).trans rfl

theorem warm_key (n : Nat) (s : State) : (warm n s).key = s.key := by
  induction n generalizing s with
  | zero => rfl
  | succ n ih => exact (ih _).trans rfl

theorem init_key (s : State) (nonce : Bytes) : (init s nonce).key = s.key := by
  have hw := warm_key 8 { s with
        lfsr := (((s.lfsr.shift (le32 nonce 0)).shift (le32 nonce 4)).shift (le32 nonce 8)).shift 0x7fffffff,
        nfsr := s.key.foldl Reg.shift s.nfsr }
  have e : init s nonce = (
      let s0 := warm 8 { s with
        lfsr := (((s.lfsr.shift (le32 nonce 0)).shift (le32 nonce 4)).shift (le32 nonce 8)).shift 0x7fffffff,
        nfsr := s.key.foldl Reg.shift s.nfsr }
      let k0 := keyed s0 (s0.key.getD 0 0)
      let k1 := keyed k0.2 (k0.2.key.getD 1 0)
      let k2 := keyed k1.2 (k1.2.key.getD 2 0)
      let k3 := keyed k2.2 (k2.2.key.getD 3 0)
      { k3.2 with acc := k0.1.setWidth 64 ||| (k1.1.setWidth 64 <<< 32), reg := k2.1.setWidth 64 ||| (k3.1.setWidth 64 <<< 32) }) := rfl
  rw [e]
  generalize warm 8 _ = s0 at hw ⊢
  exact hw

theorem crypt_key (dec : Bool) (s : State) (src ad : Bytes) : (crypt dec s src ad).2.key = s.key := by
  rw [crypt_eq]
  have e1 := pairs_key _ s (split ad).1 (Nat.le_refl _)
  have e2 := pairs_key _ (pairs s (split ad).1).1 (split ad).2 (Nat.le_refl _)
  rw [e1] at e2
  generalize (pairs (pairs s (split ad).1).1 (split ad).2).2 = rest
  generalize (pairs (pairs s (split ad).1).1 (split ad).2).1 = t at e2
  cases rest with
  | nil => exact (body_key dec _ t src (Nat.le_refl _)).trans e2
  | cons x rest =>
    cases src with
    | nil => exact (body_key dec _ _ [] (Nat.le_refl _)).trans e2
    | cons b src => exact (body_key dec _ _ src (Nat.le_refl _)).trans e2

theorem Reach.key {key : Bytes} {s : State} (h : Reach key s) : key.length = 16 ∧ s.key = setKey key := by
  induction h with
  | new h => exact newCipher_ok h
  | sealed _ h ih =>
    refine ⟨ih.1, ?_⟩
    unfold sealA at h
    split at h
    · exact absurd h (by simp)
    · simp only at h
      split at h
      · exact absurd h (by simp)
      · rw [← (Prod.mk.inj (Prod.mk.inj (Res.ok.inj h)).2).2]
        exact (crypt_key ..).trans ((init_key ..).trans ih.2)
  | opened _ h ih =>
    refine ⟨ih.1, ?_⟩
    unfold openA at h
    split at h
    · exact absurd h (by simp)
    · split at h
      · rw [← (Prod.mk.inj (Prod.mk.inj (Res.ok.inj h)).2).2]; exact ih.2
      · simp only at h
        split at h
        · exact absurd h (by simp)
        · split at h
          · rw [← (Prod.mk.inj (Prod.mk.inj (Res.ok.inj h)).2).2]
            exact (crypt_key ..).trans ((init_key ..).trans ih.2)
          · rw [← (Prod.mk.inj (Prod.mk.inj (Res.ok.inj h)).2).2]
            exact (crypt_key ..).trans ((init_key ..).trans ih.2)

theorem tag_length (key nonce msg : Bytes) : (GrainSpec.tag key nonce msg).length = 8 := leBytes_length ..

theorem sealWith_length (enc : Nat → Bytes) (key nonce ad pt : Bytes) : (sealWith enc key nonce ad pt).length = pt.length + 8 := by
  unfold sealWith
  rw [List.length_append, crypt_length, tag_length]

variable {key : Bytes} {s : State}

/-- C135 (what `Seal` computes for every length of the additional data below 2^63): Grain-128AEAD with `codeDer` for the length. -/
theorem C135_grain_seal_exact (hr : Reach key s) (h : Heap) (dst nonce pt ad : Slice) (vd : dst.Valid h) (vp : pt.Valid h) (va : ad.Valid h)
    (hn : nonce.len = 12) (hl : ad.len < 2 ^ 63) (ap : Apart dst (pt.len + 8) pt ∨ InPlace dst (pt.len + 8) pt) :
    ∃ h' r s', sealA s h dst nonce pt ad = .ok (h', r, s') ∧
      Appended h dst (sealWith codeDer key (h.bytes nonce) (h.bytes ad) (h.bytes pt)) h' r := by
  obtain ⟨hk, hkey⟩ := hr.key
  have hN : (h.bytes nonce).length = 12 := by rw [← hn]; exact Mem.read_length ..
  have hA : (h.bytes ad).length < 2 ^ 63 := by unfold Heap.bytes; rw [Mem.read_length]; exact hl
  have hP : (h.bytes pt).length = pt.len := Mem.read_length ..
  obtain ⟨e1, e2⟩ := @sfa_tail h dst (pt.len + 8)
  have hov : inexactOverlap (sliceForAppend h dst (pt.len + 8)).2.2 pt = false := by
    rw [Bool.eq_false_iff]
    intro h0
    rcases ap with ap | ap
    · exact not_partial_of_apart ap ((inexact_sfa vp).mp h0)
    · exact not_partial_of_inPlace ap ((inexact_sfa vp).mp h0)
  obtain ⟨c1, c2, _⟩ := crypt_spec hk hN false s hkey (h.bytes pt) (h.bytes ad) hA
  have hb : ∀ x : Slice, x.Valid h → (sliceForAppend h dst (pt.len + 8)).1.bytes x = h.bytes x := fun x vx => sfa_bytes vx
  refine ⟨_, _, (crypt false (init s (h.bytes nonce)) (h.bytes pt) (h.bytes ad)).2, ?_, sfa_appended vd _ (by rw [sealWith_length, hP])⟩
  unfold sealA
  rw [if_neg (by omega)]
  simp only
  rw [hov, if_neg (by simp), hb pt vp, hb ad va, e1, c1, c2]
  rfl

theorem codeDer_short {n : Nat} (h : n < 128) : codeDer n = der n := by
  unfold codeDer der; rw [if_pos h, if_pos h]

/-- C135: `Seal` appends Grain-128AEAD of the plaintext to dst, whatever was done with the object before.  Partial: for less than 128 bytes of
additional data; from there on it is false (`C135_grain_der_violated`). -/
theorem C135_grain_seal_partial (hr : Reach key s) (h : Heap) (dst nonce pt ad : Slice) (vd : dst.Valid h) (vp : pt.Valid h) (va : ad.Valid h)
    (hn : nonce.len = 12) (hl : ad.len < 128) (ap : Apart dst (pt.len + 8) pt ∨ InPlace dst (pt.len + 8) pt) :
    ∃ h' r s', sealA s h dst nonce pt ad = .ok (h', r, s') ∧
      Appended h dst (aead key (h.bytes nonce) (h.bytes ad) (h.bytes pt)) h' r := by
  have := C135_grain_seal_exact hr h dst nonce pt ad vd vp va hn (by omega) ap
  have hA : (h.bytes ad).length = ad.len := Mem.read_length ..
  unfold sealWith at this
  unfold aead sealWith
  rw [← codeDer_short (by omega)]
  exact this

/-- C135: which calls of `Seal` panic. -/
theorem C135_grain_seal_panics_iff (s : State) (h : Heap) (dst nonce pt ad : Slice) (vp : pt.Valid h) :
    sealA s h dst nonce pt ad = .panic ↔ nonce.len ≠ 12 ∨ PartialOverlap dst (pt.len + 8) pt := by
  have hov := @inexact_sfa h dst (pt.len + 8) pt vp
  unfold sealA
  by_cases c1 : nonce.len ≠ 12
  · rw [if_pos c1]; simp [c1]
  · rw [if_neg c1]
    simp only
    by_cases c3 : inexactOverlap (sliceForAppend h dst (pt.len + 8)).2.2 pt = true
    · rw [if_pos c3]; simp only [true_iff]; exact Or.inr (hov.mp c3)
    · rw [if_neg c3]
      simp only [reduceCtorEq, false_iff, not_or]
      exact ⟨c1, fun h0 => c3 (hov.mpr h0)⟩

theorem open_core (hr : Reach key s) (h : Heap) (dst nonce ct ad : Slice) (n : Nat) (vd : dst.Valid h) (vc : ct.Valid h) (va : ad.Valid h)
    (hn : nonce.len = 12) (hl : ad.len < 2 ^ 63) (hc : ct.len = n + 8) (ap : Apart dst n ct ∨ InPlace dst n ct) (P : Bytes)
    (hP : P = GrainSpec.crypt key (h.bytes nonce) (codeDer (h.bytes ad).length ++ h.bytes ad).length ((h.bytes ct).take n)) :
    ∃ h' r s', Appended h dst (if GrainSpec.tag key (h.bytes nonce) (codeDer (h.bytes ad).length ++ h.bytes ad ++ P) = (h.bytes ct).drop n
          then P else List.replicate n 0) h' r ∧
      openA s h dst nonce ct ad = .ok (h',
        (if GrainSpec.tag key (h.bytes nonce) (codeDer (h.bytes ad).length ++ h.bytes ad ++ P) = (h.bytes ct).drop n then some r else none), s') := by
  obtain ⟨hk, hkey⟩ := hr.key
  have hN : (h.bytes nonce).length = 12 := by rw [← hn]; exact Mem.read_length ..
  have hA : (h.bytes ad).length < 2 ^ 63 := by unfold Heap.bytes; rw [Mem.read_length]; exact hl
  have hct : (h.bytes ct).take n = h.mem.read ct.ptr n := by
    unfold Heap.bytes; rw [Mem.read_take, hc, Nat.min_eq_left (by omega)]
  have hctd : (h.bytes ct).drop n = h.mem.read (ct.ptr + n) 8 := by
    unfold Heap.bytes; rw [Mem.read_drop, hc, Nat.add_sub_cancel_left]
  have hlP : P.length = n := by rw [hP, crypt_length, hct, Mem.read_length]
  have vc' : Slice.Valid ⟨ct.ptr, n, ct.cap⟩ h := ⟨by have := vc.1; simp only; omega, vc.2⟩
  obtain ⟨e1, e2⟩ := @sfa_tail h dst n
  have hov : inexactOverlap (sliceForAppend h dst n).2.2 ⟨ct.ptr, n, ct.cap⟩ = false := by
    rw [Bool.eq_false_iff]
    intro h0
    have h1 := (inexact_sfa vc').mp h0
    rcases ap with ap | ap
    · exact not_partial_of_apart (x := ⟨ct.ptr, n, ct.cap⟩) (fun hh => by have := ap hh; simp only; omega) h1
    · exact not_partial_of_inPlace (x := ⟨ct.ptr, n, ct.cap⟩) ⟨ap.1, ap.2⟩ h1
  have htag : Mem.read ((sliceForAppend h dst n).1.mem.write (tailAt h dst n) P) (ct.ptr + n) 8 = (h.bytes ct).drop n := by
    rw [hctd]
    rcases ap with ap | ap
    · have := sfa_apart_read vc ap P (by omega)
      have := congrArg (List.drop n) this
      rw [Mem.read_drop, hctd, hc, Nat.add_sub_cancel_left] at this
      exact this
    · rw [tailAt_inPlace ap, Mem.read_write_disjoint _ _ _ _ _ (Or.inr (by omega)), sfa_read (by have := vc.1; have := vc.2; omega)]
  obtain ⟨c1, c2, _⟩ := crypt_spec hk hN true s hkey ((h.bytes ct).take n) (h.bytes ad) hA
  rw [← hP] at c1
  have c2' : tag (crypt true (init s (h.bytes nonce)) ((h.bytes ct).take n) (h.bytes ad)).2 =
      GrainSpec.tag key (h.bytes nonce) (codeDer (h.bytes ad).length ++ h.bytes ad ++ P) := by
    rw [c2, ← hP]; rfl
  have hb : (sliceForAppend h dst n).1.bytes ad = h.bytes ad := sfa_bytes va
  have hbc : (sliceForAppend h dst n).1.bytes ⟨ct.ptr, n, ct.cap⟩ = (h.bytes ct).take n := by
    rw [hct]; exact sfa_read (p := ct.ptr) (k := n) (by have := vc.1; have := vc.2; omega)
  have hopen : openA s h dst nonce ct ad =
      if GrainSpec.tag key (h.bytes nonce) (codeDer (h.bytes ad).length ++ h.bytes ad ++ P) ≠ (h.bytes ct).drop n then
        .ok (⟨((sliceForAppend h dst n).1.mem.write (tailAt h dst n) P).write (tailAt h dst n) (List.replicate n 0), (sliceForAppend h dst n).1.brk⟩, none,
          (crypt true (init s (h.bytes nonce)) ((h.bytes ct).take n) (h.bytes ad)).2)
      else .ok (⟨(sliceForAppend h dst n).1.mem.write (tailAt h dst n) P, (sliceForAppend h dst n).1.brk⟩, some (sliceForAppend h dst n).2.1,
          (crypt true (init s (h.bytes nonce)) ((h.bytes ct).take n) (h.bytes ad)).2) := by
    unfold openA
    rw [if_neg (by omega), if_neg (by omega)]
    simp only
    rw [show ct.len - 8 = n by omega, hov, if_neg (by simp), hb, hbc, e1, c1, c2', htag]
  rw [hopen]
  by_cases hv : GrainSpec.tag key (h.bytes nonce) (codeDer (h.bytes ad).length ++ h.bytes ad ++ P) = (h.bytes ct).drop n
  · rw [if_neg (not_not.2 hv), if_pos hv]
    refine ⟨_, _, (crypt true (init s (h.bytes nonce)) ((h.bytes ct).take n) (h.bytes ad)).2, sfa_appended vd P hlP, ?_⟩
    rw [if_pos hv]
  · rw [if_pos hv, if_neg hv]
    refine ⟨_, _, (crypt true (init s (h.bytes nonce)) ((h.bytes ct).take n) (h.bytes ad)).2, sfa_appended (n := n) vd (List.replicate n 0) List.length_replicate, ?_⟩
    rw [if_neg hv, Mem.write_write_same _ _ _ _ (by rw [List.length_replicate, hlP])]

theorem sealWith_inv (enc : Nat → Bytes) (nonce ad c : Bytes) (n : Nat) (hc : c.length = n + 8) :
    (∃ P, c = sealWith enc key nonce ad P) ↔
      GrainSpec.tag key nonce (enc ad.length ++ ad ++ GrainSpec.crypt key nonce (enc ad.length ++ ad).length (c.take n)) = c.drop n := by
  constructor
  · rintro ⟨P, rfl⟩
    have hn : P.length = n := by rw [sealWith_length] at hc; omega
    have hl := crypt_length (key := key) (nonce := nonce) (enc ad.length ++ ad).length P
    unfold sealWith
    rw [List.take_left' (by rw [hl, hn]), List.drop_left' (by rw [hl, hn]), crypt_crypt]
  · intro h
    refine ⟨GrainSpec.crypt key nonce (enc ad.length ++ ad).length (c.take n), ?_⟩
    unfold sealWith
    simp only
    rw [crypt_crypt, h, List.take_append_drop]

/-- C135: `Open` accepts what is `Seal`'s ciphertext of a plaintext, under the same nonce and additional data, and appends that plaintext; the
destination may be apart from the ciphertext or exactly over it. -/
theorem C135_grain_open_accepts (hr : Reach key s) (h : Heap) (dst nonce ct ad : Slice) (vd : dst.Valid h) (vc : ct.Valid h) (va : ad.Valid h)
    (hn : nonce.len = 12) (hl : ad.len < 2 ^ 63) (P : Bytes) (hct : h.bytes ct = sealWith codeDer key (h.bytes nonce) (h.bytes ad) P)
    (ap : Apart dst P.length ct ∨ InPlace dst P.length ct) :
    ∃ h' r s', openA s h dst nonce ct ad = .ok (h', some r, s') ∧ Appended h dst P h' r := by
  have hcl : ct.len = P.length + 8 := by
    have := congrArg List.length hct
    rw [sealWith_length] at this
    rw [← this]; exact (Mem.read_length ..).symm
  have ht : (h.bytes ct).take P.length = GrainSpec.crypt key (h.bytes nonce) (codeDer (h.bytes ad).length ++ h.bytes ad).length P := by
    rw [hct]; unfold sealWith; exact List.take_left' (crypt_length ..)
  have hd : (h.bytes ct).drop P.length = GrainSpec.tag key (h.bytes nonce) (codeDer (h.bytes ad).length ++ h.bytes ad ++ P) := by
    rw [hct]; unfold sealWith; exact List.drop_left' (crypt_length ..)
  obtain ⟨h', r, s', g1, g2⟩ := open_core hr h dst nonce ct ad P.length vd vc va hn hl hcl ap P (by rw [ht, crypt_crypt])
  rw [if_pos hd.symm] at g1 g2
  exact ⟨h', r, s', g2, g1⟩

/-- C135: `Open` refuses everything that is not `Seal`'s ciphertext of any plaintext; the memory is unchanged but for zeros where the plaintext would
have gone. -/
theorem C135_grain_open_rejects (hr : Reach key s) (h : Heap) (dst nonce ct ad : Slice) (vd : dst.Valid h) (vc : ct.Valid h) (va : ad.Valid h)
    (hn : nonce.len = 12) (hl : ad.len < 2 ^ 63) (hct : ¬ ∃ P, h.bytes ct = sealWith codeDer key (h.bytes nonce) (h.bytes ad) P)
    (ap : Apart dst (ct.len - 8) ct ∨ InPlace dst (ct.len - 8) ct) :
    ∃ h' s', openA s h dst nonce ct ad = .ok (h', none, s') ∧ (h' = h ∨ ∃ r, Appended h dst (List.replicate (ct.len - 8) 0) h' r) := by
  by_cases hc : ct.len < 8
  · refine ⟨h, s, ?_, Or.inl rfl⟩
    unfold openA
    rw [if_neg (by omega), if_pos hc]
  · have hC : (h.bytes ct).length = (ct.len - 8) + 8 := by
      have : (h.bytes ct).length = ct.len := Mem.read_length ..
      omega
    have hv := (not_congr (sealWith_inv (key := key) codeDer (h.bytes nonce) (h.bytes ad) (h.bytes ct) (ct.len - 8) hC)).mp hct
    obtain ⟨h', r, s', g1, g2⟩ := open_core hr h dst nonce ct ad (ct.len - 8) vd vc va hn hl (by omega) ap _ rfl
    rw [if_neg hv] at g1 g2
    exact ⟨h', s', g2, Or.inr ⟨r, g1⟩⟩

/-- C135: for less than 128 bytes of additional data `Open` accepts exactly the Grain-128AEAD ciphertexts. -/
theorem C135_grain_open_iff_partial (hr : Reach key s) (h : Heap) (dst nonce ct ad : Slice) (vd : dst.Valid h) (vc : ct.Valid h) (va : ad.Valid h)
    (hn : nonce.len = 12) (hl : ad.len < 128) (ap : Apart dst (ct.len - 8) ct ∨ InPlace dst (ct.len - 8) ct) :
    (∃ h' r s', openA s h dst nonce ct ad = .ok (h', some r, s')) ↔ ∃ P, h.bytes ct = aead key (h.bytes nonce) (h.bytes ad) P := by
  have hA : (h.bytes ad).length = ad.len := Mem.read_length ..
  have he : ∀ P, aead key (h.bytes nonce) (h.bytes ad) P = sealWith codeDer key (h.bytes nonce) (h.bytes ad) P := by
    intro P; unfold aead sealWith; rw [← codeDer_short (by omega)]
  constructor
  · rintro ⟨h', r, s', e⟩
    by_contra hno
    obtain ⟨h2, s2, e2, _⟩ := C135_grain_open_rejects hr h dst nonce ct ad vd vc va hn (by omega) (by
      rintro ⟨P, hP⟩; exact hno ⟨P, by rw [he, hP]⟩) ap
    rw [e] at e2
    have := congrArg (fun x => x.2.1) (Res.ok.inj e2)
    exact absurd this (by simp)
  · rintro ⟨P, hP⟩
    have hcl : ct.len - 8 = P.length := by
      have := congrArg List.length hP
      rw [he, sealWith_length] at this
      have h2 : (h.bytes ct).length = ct.len := Mem.read_length ..
      omega
    rw [hcl] at ap
    obtain ⟨h', r, s', e, _⟩ := C135_grain_open_accepts hr h dst nonce ct ad vd vc va hn (by omega) P (by rw [hP, he]) ap
    exact ⟨h', r, s', e⟩

/-- C135: whatever `Seal` of one object returned, `Open` of any object for the same key gives the plaintext back. -/
theorem C135_grain_roundtrip {s2 : State} (hr : Reach key s) (hr2 : Reach key s2) (h : Heap) (dst nonce pt ad : Slice) (vd : dst.Valid h)
    (vn : nonce.Valid h) (vp : pt.Valid h) (va : ad.Valid h) (hd0 : dst.len = 0) (hn : nonce.len = 12) (hl : ad.len < 2 ^ 63)
    (ap : Apart dst (pt.len + 8) pt ∨ InPlace dst (pt.len + 8) pt) (an : Apart dst (pt.len + 8) nonce) (aa : Apart dst (pt.len + 8) ad) :
    ∃ h1 ct s', sealA s h dst nonce pt ad = .ok (h1, ct, s') ∧
      ∀ dst2 : Slice, dst2.Valid h1 → (Apart dst2 pt.len ct ∨ InPlace dst2 pt.len ct) →
        ∃ h2 r s'', openA s2 h1 dst2 nonce ct ad = .ok (h2, some r, s'') ∧ Appended h1 dst2 (h.bytes pt) h2 r := by
  obtain ⟨h1, ct, s', g1, g2⟩ := C135_grain_seal_exact hr h dst nonce pt ad vd vp va hn hl ap
  refine ⟨h1, ct, s', g1, ?_⟩
  intro dst2 vd2 ap2
  have hP : (h.bytes pt).length = pt.len := Mem.read_length ..
  have kl : (sealWith codeDer key (h.bytes nonce) (h.bytes ad) (h.bytes pt)).length = pt.len + 8 := by rw [sealWith_length, hP]
  have kn : h1.bytes nonce = h.bytes nonce := (g2.keeps vn (by rw [kl]; exact an)).2
  have ka : h1.bytes ad = h.bytes ad := (g2.keeps va (by rw [kl]; exact aa)).2
  have hd : h.bytes dst = [] := by unfold Heap.bytes; rw [hd0]; rfl
  refine C135_grain_open_accepts hr2 h1 dst2 nonce ct ad vd2 g2.valid ⟨va.1, Nat.le_trans va.2 g2.brk⟩ hn hl (h.bytes pt) ?_ (by rw [hP]; exact ap2)
  rw [g2.bytes, hd, kn, ka]; rfl

/-! ### The length of the additional data -/

/-- C135 (violated): from 128 bytes of additional data on, what is authenticated does not begin with the DER form of its length. -/
theorem C135_grain_der_violated (n : Nat) (h1 : 128 ≤ n) (h2 : n < 2 ^ 63) : codeDer n ≠ der n := by
  unfold codeDer der
  rw [if_neg (by omega), if_neg (by omega)]
  simp only
  have hl := (Nat.log2_lt (n := n) (by omega)).2 h2
  have hlo := Nat.log2_self_le (n := n) (by omega)
  have hhi := Nat.lt_log2_self (n := n)
  have hk : ∃ j, (Nat.log2 n + 8) / 8 = j + 1 ∧ j < 8 := ⟨(Nat.log2 n + 8) / 8 - 1, by omega, by omega⟩
  obtain ⟨j, hj, hj8⟩ := hk
  have b1 : 256 ^ j ≤ n := by
    have : 256 ^ j = 2 ^ (8 * j) := by rw [Nat.pow_mul]
    rw [this]
    exact Nat.le_trans (Nat.pow_le_pow_right (by decide) (by omega)) hlo
  have b2 : n < 256 ^ (j + 1) := by
    have : 256 ^ (j + 1) = 2 ^ (8 * (j + 1)) := by rw [Nat.pow_mul]
    rw [this]
    exact Nat.lt_of_lt_of_le hhi (Nat.pow_le_pow_right (by decide) (by omega))
  rw [hj]
  intro e
  have e2 := (List.cons.inj e).2
  have e3 : leN (List.replicate (j + 1 - 1) (0 : Byte) ++ [BitVec.ofNat 8 (j + 1)]).reverse = n := by
    rw [e2, List.reverse_reverse, leN_leBytes, Nat.mod_eq_of_lt b2]
  have e4 : leN (List.replicate (j + 1 - 1) (0 : Byte) ++ [BitVec.ofNat 8 (j + 1)]).reverse = j + 1 := by
    have : ∀ j : Fin 8, leN (List.replicate (j.val + 1 - 1) (0 : Byte) ++ [BitVec.ofNat 8 (j.val + 1)]).reverse = j.val + 1 := by decide
    exact this ⟨j, hj8⟩
  omega

/-- Moving the first bytes of the plaintext to the end of the additional data. -/
theorem sealWith_shift (nonce a x p : Bytes) (h1 : 128 ≤ a.length)
    (hcl : (Nat.log2 a.length + 8) / 8 = (Nat.log2 (a ++ x).length + 8) / 8) :
    sealWith codeDer key nonce (a ++ x) p = (sealWith codeDer key nonce a (x ++ p)).drop x.length := by
  have e : codeDer (a ++ x).length = codeDer a.length := by
    unfold codeDer
    rw [if_neg (by simp; omega), if_neg (by omega), hcl]
  have hx : ∀ (q : Nat) (x : Bytes), (GrainSpec.crypt key nonce q (x ++ p)).drop x.length = GrainSpec.crypt key nonce (q + x.length) p := by
    intro q x
    induction x generalizing q with
    | nil => rfl
    | cons b x ih =>
      show List.drop (x.length + 1) (GrainSpec.crypt key nonce q (b :: (x ++ p))) = _
      rw [crypt_cons, List.drop_succ_cons, ih]
      congr 1; simp; omega
  unfold sealWith
  simp only
  rw [e, List.drop_append_of_le_length (by rw [crypt_length]; simp), hx]
  congr 2
  · simp; omega
  · simp

/-- C135 (violated): ciphertexts can be forged.  From the ciphertext of `x ++ p` under additional data `a` of at least 128 bytes, cutting off the
first `|x|` bytes gives one that `Open` accepts, with plaintext `p`, under the additional data `a ++ x`, as long as the two lengths take the same number
of bytes: no key is needed, only the first bytes of the plaintext. -/
theorem C135_grain_forgery_violated (hr : Reach key s) (h : Heap) (dst nonce ct ad : Slice) (vd : dst.Valid h) (vc : ct.Valid h) (va : ad.Valid h)
    (hn : nonce.len = 12) (hl : ad.len < 2 ^ 63) (a x p : Bytes) (h1 : 128 ≤ a.length) (hx : x ≠ [])
    (hcl : (Nat.log2 a.length + 8) / 8 = (Nat.log2 (a ++ x).length + 8) / 8) (had : h.bytes ad = a ++ x)
    (hct : h.bytes ct = (sealWith codeDer key (h.bytes nonce) a (x ++ p)).drop x.length) (ap : Apart dst p.length ct ∨ InPlace dst p.length ct) :
    a ++ x ≠ a ∧ ∃ h' r s', openA s h dst nonce ct ad = .ok (h', some r, s') ∧ Appended h dst p h' r := by
  refine ⟨by simpa using hx, ?_⟩
  exact C135_grain_open_accepts hr h dst nonce ct ad vd vc va hn hl p (by rw [hct, had, sealWith_shift _ _ _ _ h1 hcl]) ap

/-! ### The stream cipher -/

/-- The object after `p` bytes. -/
def StreamAt (key nonce : Bytes) (x : Stream) (p : Nat) : Prop :=
  At key nonce x.s (384 + 32 * ((p + 1) / 2)) ∧ (p % 2 = 0 → x.ks = 0) ∧ (p % 2 = 1 → x.ks &&& 0xff00 ≠ 0 ∧ lo8 x.ks = kbyte key nonce p)

theorem ks_pack (v : BitVec 16) : (0xff00 ||| (v >>> 8)) &&& 0xff00 ≠ 0 ∧ lo8 (0xff00 ||| (v >>> 8)) = hi8 v := by
  constructor
  · intro h
    have := congrArg (fun z => BitVec.getLsbD z 15) h
    simp at this
  · apply BitVec.eq_of_getLsbD_eq
    intro j hj
    rw [lo8_bit _ _ hj, hi8_bit _ _ hj, BitVec.getLsbD_or, BitVec.getLsbD_ushiftRight]
    interval_cases j <;> simp

section
variable {nonce : Bytes} (hk : key.length = 16) (hn : nonce.length = 12)
include hk hn

theorem streamLoop_spec (n : Nat) : ∀ (l : Bytes) (s : State) (w : Nat), l.length ≤ n → At key nonce s (384 + 32 * w) →
    (streamLoop s l).1 = GrainSpec.crypt key nonce (2 * w) l ∧ StreamAt key nonce (streamLoop s l).2 (2 * w + l.length) := by
  induction n using Nat.strongRecOn with
  | ind n ih =>
    intro l s w hl h
    have a := next_at hk hn h (by omega)
    rw [show 384 + 32 * w + 32 = 384 + 32 * (w + 1) by omega] at a
    match l, hl with
    | [], _ =>
      refine ⟨rfl, ?_, fun _ => rfl, fun h0 => by simp at h0⟩
      rw [show (2 * w + ([] : Bytes).length + 1) / 2 = w by simp only [List.length_nil]; omega]
      exact h
    | [x], _ =>
      refine ⟨?_, ?_, fun h0 => by simp at h0, fun _ => ?_⟩
      · rw [crypt_cons, crypt_nil, ← kb_lo hk hn h]; rfl
      · rw [show (2 * w + [x].length + 1) / 2 = w + 1 by simp only [List.length_singleton]; omega]
        exact a
      · have := ks_pack (getkb (next s).1)
        rw [kb_hi hk hn h] at this
        exact this
    | x :: y :: l, hl =>
      obtain ⟨i1, i2⟩ := ih (n - 2) (by simp at hl; omega) l (next s).2 (w + 1) (by simp at hl; omega) a
      refine ⟨?_, ?_⟩
      · have e1 : lo8 (le16 x y ^^^ getkb (next s).1) = x ^^^ kbyte key nonce (2 * w) := by rw [lo8_xor, lo8_le16, kb_lo hk hn h]
        have e2 : hi8 (le16 x y ^^^ getkb (next s).1) = y ^^^ kbyte key nonce (2 * w + 1) := by rw [hi8_xor, hi8_le16, kb_hi hk hn h]
        rw [crypt_cons, crypt_cons, ← e1, ← e2, show 2 * w + 1 + 1 = 2 * (w + 1) by omega, ← i1]
        rfl
      · rw [show 2 * w + (x :: y :: l).length = 2 * (w + 1) + l.length by simp; omega]
        exact i2

theorem streamCrypt_spec (x : Stream) (p : Nat) (l : Bytes) (hl : l ≠ []) (h : StreamAt key nonce x p) :
    (streamCrypt x l).1 = GrainSpec.crypt key nonce p l ∧ StreamAt key nonce (streamCrypt x l).2 (p + l.length) := by
  obtain ⟨h1, h2, h3⟩ := h
  rcases Nat.mod_two_eq_zero_or_one p with e | e
  · unfold streamCrypt
    rw [h2 e, if_neg (by decide)]
    have := streamLoop_spec hk hn l.length l x.s ((p + 1) / 2) (Nat.le_refl _) h1
    rw [show 2 * ((p + 1) / 2) = p by omega] at this
    exact this
  · obtain ⟨k1, k2⟩ := h3 e
    obtain ⟨a, l, rfl⟩ := List.exists_cons_of_ne_nil hl
    unfold streamCrypt
    rw [if_pos k1]
    simp only
    have := streamLoop_spec hk hn l.length l x.s ((p + 1) / 2) (Nat.le_refl _) h1
    rw [show 2 * ((p + 1) / 2) = p + 1 by omega] at this
    rw [crypt_cons, k2, ← this.1]
    refine ⟨rfl, ?_⟩
    rw [show p + (a :: l).length = p + 1 + l.length by simp; omega]
    exact this.2
end

/-- The key stream of the first version of Grain-128AEAD, without the authentication bits. -/
theorem crypt_keyBytes (key nonce : Bytes) (p : Nat) (l : Bytes) : GrainSpec.crypt key nonce p l = xorb l (Spec.keyBytes (kbyte key nonce) p l.length) := rfl

/-- C135: an object of `NewStreamCipher` is a stream cipher whose key stream is that of Grain-128AEAD, the even bits of the pre-output: after any
history of calls, however the data is cut, any next call XORs the right key bytes, or panics if the destination is too short or overlaps partially. -/
theorem C135_grain_stream (nonce : Bytes) (hn : nonce.length = 12) (x : Stream) (hx : newStream key nonce = .ok x) :
    IsStream Any streamCall x (kbyte key nonce) := by
  have hk : key.length = 16 := by
    by_contra hk
    unfold newStream at hx
    rw [if_pos hk] at hx
    exact absurd hx (by simp)
  unfold newStream at hx
  rw [if_neg (by omega), if_neg (by omega)] at hx
  rw [← Res.ok.inj hx]
  apply isStream_of (StreamAt key nonce)
  · obtain ⟨a, _, _⟩ := init_at hk hn ⟨setKey key, ⟨0, 0⟩, ⟨0, 0⟩, 0, 0⟩ rfl
    exact ⟨a, fun _ => rfl, fun h => by simp at h⟩
  · intro st p m dst src hR _ hle hno
    unfold streamCall
    by_cases h0 : src.len = 0
    · rw [if_pos h0, h0]
      refine ⟨st, ?_, hR⟩
      rw [show Mem.read m src.ptr 0 = [] from rfl]
      simp [xorb, Mem.write_nil]
    · rw [if_neg h0, if_neg (by omega), if_neg (by
        unfold NoPartialOverlap at hno
        simpa using hno)]
      simp only
      have hl : (m.read src.ptr src.len).length = src.len := Mem.read_length ..
      obtain ⟨s1, s2⟩ := streamCrypt_spec hk hn st p (m.read src.ptr src.len) (by intro e; rw [e] at hl; simp at hl; omega) hR
      rw [s1, crypt_keyBytes, hl]
      rw [hl] at s2
      exact ⟨_, rfl, s2⟩
  · intro st m dst src hno
    unfold streamCall
    by_cases h0 : src.len = 0
    · exact absurd ⟨by omega, by simp [NoPartialOverlap, inexactOverlap, h0]⟩ hno
    · rw [if_neg h0]
      by_cases h2 : src.len ≤ dst.len
      · have h3 : ¬ NoPartialOverlap dst src := fun h3 => hno ⟨h2, h3⟩
        rw [if_neg (by omega), if_pos (by simpa [NoPartialOverlap] using h3)]
      · rw [if_pos (by omega)]

/-- C135: two objects for the same key and nonce undo each other, however either was cut up. -/
theorem C135_grain_stream_roundtrip (nonce : Bytes) (hn : nonce.length = 12) (x x' y y' : Stream) (hx : newStream key nonce = .ok x)
    (hx' : newStream key nonce = .ok x') {ins outs ins' outs' : List Bytes} (he : Calls Any streamCall x ins outs y)
    (hd : Calls Any streamCall x' ins' outs' y') (hf : ins'.flatten = outs.flatten) : outs'.flatten = ins.flatten :=
  (C135_grain_stream nonce hn x hx).roundtrip (C135_grain_stream nonce hn x' hx') he hd hf

/-- C135 (violated): the length of the nonce is not checked.  Whatever follows the first twelve bytes of a longer nonce is ignored, so that different
nonces give the same key stream; a nonce of fewer than twelve bytes panics, or (`backing` being the bytes up to its capacity) is extended by whatever
bytes lie behind it. -/
theorem C135_grain_nonce_violated (key n12 ext ext' : Bytes) (h : n12.length = 12) :
    newStream key (n12 ++ ext) = newStream key (n12 ++ ext') ∧
    (key.length = 16 → ∀ short : Bytes, short.length < 12 → newStream key short = .panic) := by
  have hi : ∀ (s : State) (e : Bytes), init s (n12 ++ e) = init s n12 := by
    intro s e
    have hd : ∀ i, i ≤ 8 → le32 (n12 ++ e) i = le32 n12 i := by
      intro i hi
      unfold le32
      rw [List.drop_append_of_le_length (by omega), List.take_append_of_le_length (by simp; omega)]
    unfold init
    rw [hd 0 (by decide), hd 4 (by decide), hd 8 (by decide)]
  refine ⟨?_, fun hk short hs => ?_⟩
  · unfold newStream
    simp only [hi]
    simp [h]
  · unfold newStream
    rw [if_neg (by omega), if_pos hs]

/-! ### The hypotheses can be met -/

/-- A key, a memory with 12 bytes of nonce, some plaintext and additional data, and room for the output. -/
example : ∃ (key : Bytes) (s : State) (h : Heap) (dst nonce pt ad : Slice), Reach key s ∧ dst.Valid h ∧ nonce.Valid h ∧ pt.Valid h ∧ ad.Valid h ∧
    nonce.len = 12 ∧ pt.len = 5 ∧ ad.len = 200 ∧ dst.len = 0 ∧ Apart dst (pt.len + 8) pt ∧ Apart dst (pt.len + 8) nonce ∧ Apart dst (pt.len + 8) ad :=
  ⟨List.replicate 16 7, _, ⟨fun a => BitVec.ofNat 8 a, 300⟩, ⟨250, 0, 40⟩, ⟨0, 12, 12⟩, ⟨12, 5, 5⟩, ⟨20, 200, 200⟩, .new rfl,
    by constructor <;> decide, by constructor <;> decide, by constructor <;> decide, by constructor <;> decide, rfl, rfl, rfl, rfl,
    by unfold Apart; simp, by unfold Apart; simp, by unfold Apart; simp⟩

/-- The forgery: 128 bytes of additional data and 64 more. -/
example : (128 : Nat) ≤ (List.replicate 128 (1 : Byte)).length ∧ List.replicate 64 (2 : Byte) ≠ [] ∧
    (Nat.log2 (List.replicate 128 (1 : Byte)).length + 8) / 8 = (Nat.log2 (List.replicate 128 (1 : Byte) ++ List.replicate 64 (2 : Byte)).length + 8) / 8 := by
  refine ⟨by simp, by simp, ?_⟩
  rw [List.length_append, List.length_replicate, List.length_replicate]
  have h1 : Nat.log2 128 = 7 := (Nat.log2_eq_iff (by decide)).2 (by decide)
  have h2 : Nat.log2 (128 + 64) = 7 := (Nat.log2_eq_iff (by decide)).2 (by decide)
  rw [h1, h2]

example : ∃ x, newStream (List.replicate 16 7) (List.replicate 12 9) = .ok x := ⟨_, rfl⟩

end Verif.Strm.Grain
