import Verif.Pkcs.Pbes2Spec
import Verif.Pkcs.Pbes1Lemmas
import Verif.Kdf.Pbkdf2Lemmas
/-
Lemmas for C139.
-/
namespace Verif.Pkcs.Pbes2
open Verif.Asn1 Verif.Kdf Spec

/-- The facts about a cipher's settings that the proofs use. -/
def good (c : Cph) : Bool :=
  (match c.kind with
   | .mode m a => a.keyOk c.keySize && a != .rc2
   | .aead g _ a n => a.keyOk c.keySize && a.bs == 16 && n == 12 && nonceOk g n && a != .rc2
   | .rc2 v => Alg.rc2.keyOk c.keySize && 1 ≤ v && v ≤ 1024
   | .rc5 w r => rc5Ok c.keySize w r
   | .gost => c.keySize == 32) &&
  decide (parseOID (oidBytes c.oid) = some c.oid) && decide ((oidBytes c.oid).length ≤ 20) && decide (1 ≤ c.keySize) && decide (c.keySize ≤ 32)

/-- `d` reads what `c` writes. -/
def reads (d c : Cph) : Bool :=
  (match c.kind, d.kind with
   | .mode m a, .mode m' a' => m == m' && a == a'
   | .aead g s a _, .aead g' s' a' _ => g == g' && a == a' && (s == s' || s')
   | .rc2 _, .rc2 _ => true
   | .rc5 _ _, .rc5 _ _ => true
   | .gost, .gost => true
   | _, _ => false) && (c.keyLen || c.keySize == d.keySize)

theorem all_good : ∀ c ∈ table ++ variants, good c = true := by decide +kernel

theorem all_reads : ∀ c ∈ table ++ variants, ∃ d ∈ table, (∀ p : Bytes, p.length ≠ 0 → getCipher c.oid p = some d) ∧ reads d c = true := by
  intro c hc
  have h : ∃ d ∈ table, getCipher c.oid [0#8] = some d ∧ reads d c = true := by
    revert c
    decide +kernel
  obtain ⟨d, hd, hg, hr⟩ := h
  refine ⟨d, hd, fun p hp => ?_, hr⟩
  rw [← hg, getCipher, getCipher]
  simp [hp]

theorem getCipher_mem {o : List Nat} {p : Bytes} {c : Cph} (h : getCipher o p = some c) : c ∈ table := by
  rw [getCipher] at h
  exact List.mem_of_find?_eq_some h

/-! ### Bodies -/

theorem encIv_eq (m : Md) (b : BlockCipher) (rand pt : Bytes) :
    encIv m b b.bs rand pt = if rand.length < b.bs then .err else .ok (body m b (rand.take b.bs) pt, rand.take b.bs) := by
  rw [encIv, readFull]
  by_cases h : rand.length < b.bs
  · rw [if_pos h, if_pos h]; rfl
  · have hl : (rand.take b.bs).length = b.bs := by rw [List.length_take]; omega
    simp only [if_neg h, Res.bind, hl, ne_eq, not_true, if_false]
    rw [if_neg, enc_pad_eq m b _ pt hl]
    rintro ⟨h1, h2⟩
    rw [Md.pad, if_pos h1, pad_len pt b.bs b.bs_pos] at h2
    exact h2 (Nat.mul_mod_left _ _)

theorem body_len (m : Md) (b : BlockCipher) (iv pt : Bytes) (hiv : iv.length = b.bs) (h2 : b.bs ≤ 16) : (body m b iv pt).length ≤ pt.length + 16 := by
  have hp := b.bs_pos
  have hdvd : m.padded = true → b.bs ∣ (m.pad b.bs pt).length := fun h => by
    rw [Md.pad, if_pos h, pad_len pt b.bs hp]; exact Nat.dvd_mul_left _ _
  have hl := Md.enc_length m b iv (m.pad b.bs pt) hiv hdvd
  rw [enc_pad_eq m b iv pt hiv] at hl
  rw [hl, Md.pad]
  split
  · rw [pad_len pt b.bs hp, Nat.succ_mul]
    have := Nat.div_mul_le_self pt.length b.bs
    omega
  · omega

theorem openCt_body (m : Md) (b : BlockCipher) (iv pt : Bytes) (hiv : iv.length = b.bs) (h2 : b.bs ≤ 16) : m.openCt b iv (body m b iv pt) = .ok pt := by
  have := Md.openCt_enc m b iv pt hiv (by omega)
  rwa [enc_pad_eq m b iv pt hiv] at this

theorem ecb_iv (b : BlockCipher) (iv iv' x : Bytes) : body .ecb b iv x = body .ecb b iv' x ∧ Md.openCt .ecb b iv x = Md.openCt .ecb b iv' x := ⟨rfl, rfl⟩

/-- Reading an unauthenticated body. -/
theorem openCt_iff (m : Md) (b : BlockCipher) (iv ct : Bytes) (hiv : m ≠ .ecb → iv.length = b.bs) :
    (m.openCt b iv ct = .err ∨ ∃ out, m.openCt b iv ct = .ok out) ∧ ∀ out, m.openCt b iv ct = .ok out ↔ OpenedMd m b iv ct out := by
  unfold OpenedMd
  by_cases hm : m.padded = true
  · simp only [if_pos hm, Md.openCt, dec_eq]
    by_cases hd : ct.length % b.bs = 0
    · simp only [hd, ne_eq, not_true, if_false]
      have hlen : (plain m b iv ct).length = ct.length := by
        rw [← dec_eq]
        by_cases he : m = .ecb
        · subst he
          have := Md.dec_length .ecb b (List.replicate b.bs 0#8) ct (by simp) (fun _ => Nat.dvd_of_mod_eq_zero hd)
          exact this
        · exact Md.dec_length m b iv ct (hiv he) (fun _ => Nat.dvd_of_mod_eq_zero hd)
      by_cases hn : ct = []
      · have : plain m b iv ct = [] := List.length_eq_zero_iff.1 (by rw [hlen, hn]; rfl)
        rw [this]
        exact ⟨.inl rfl, fun out => ⟨fun h => absurd h (by simp [unpadOrAll]), fun h => absurd hn h.1⟩⟩
      · have hpn : plain m b iv ct ≠ [] := by
          intro h; rw [h] at hlen; exact hn (List.length_eq_zero_iff.1 hlen.symm)
        refine ⟨.inr (unpadOrAll_total _ hpn), fun out => ?_⟩
        rw [unpadOrAll_iff _ hpn]
        exact ⟨fun h => ⟨hn, Nat.dvd_of_mod_eq_zero hd, h⟩, fun h => h.2.2⟩
    · simp only [hd, ne_eq, not_false_eq_true, if_true]
      exact ⟨.inl trivial, fun out => ⟨fun h => absurd h (by simp), fun h => absurd (Nat.mod_eq_zero_of_dvd h.2.1) hd⟩⟩
  · simp only [if_neg hm, Md.openCt, dec_eq]
    exact ⟨.inr ⟨_, rfl⟩, fun out => ⟨fun h => (Res.ok.inj h).symm, fun h => by rw [h]⟩⟩

/-! ### Encryption -/

theorem encrypt_short (E : Env) (c : Cph) (hc : good c = true) (key rand pt : Bytes) (hk : key.length = c.keySize) (h : rand.length < ivSize2 c) : encrypt E c rand key pt = .err := by
  unfold good at hc
  simp only [Bool.and_eq_true, decide_eq_true_eq] at hc
  obtain ⟨⟨⟨⟨hc, -⟩, -⟩, -⟩, -⟩ := hc
  unfold ivSize2 at h
  rw [encrypt]
  cases hkd : c.kind with
  | mode m a =>
    rw [hkd] at hc h
    simp only [Bool.and_eq_true] at hc
    obtain ⟨b, hb, hbs⟩ := E.C.ok a key (by rw [hk]; exact hc.1)
    have hs : m ≠ .ecb → rand.length < b.bs := by
      intro hm
      rw [hbs]
      cases m <;> first | exact absurd rfl hm | exact h
    cases m with
    | ecb => simp at h
    | _ => simp only [hb, Res.bind]; rw [← hbs, encIv_eq, if_pos (hs (by simp))]
  | aead g s a n =>
    rw [hkd] at hc h
    simp only [Bool.and_eq_true, beq_iff_eq] at hc
    obtain ⟨b, hb, hbs⟩ := E.C.ok a key (by rw [hk]; exact hc.1.1.1.1)
    simp only [hb, Res.bind, readFull, if_pos h]
  | rc2 v =>
    rw [hkd] at hc h
    simp only [Bool.and_eq_true] at hc
    obtain ⟨b, hb, hbs⟩ := E.C.ok .rc2 key (by rw [hk]; exact hc.1.1)
    simp only [hb, Res.bind]
    rw [show (8 : Nat) = b.bs from hbs.symm, encIv_eq, if_pos (by rw [hbs]; exact h)]
  | rc5 w r =>
    rw [hkd] at hc h
    obtain ⟨b, hb, hbs⟩ := E.rc5_ok key w r (by rw [hk]; exact hc)
    simp only [hb, Res.bind]
    rw [encIv_eq, if_pos (by rw [hbs]; exact h)]
  | gost =>
    rw [hkd] at hc h
    obtain ⟨b, hb, hbs⟩ := E.gost_ok key (by rw [hk]; simpa using hc)
    simp only [hb, Res.bind]
    rw [show (8 : Nat) = b.bs from hbs.symm, encIv_eq, if_pos (by rw [hbs]; exact h)]

theorem encrypt_ok (E : Env) (c : Cph) (hc : good c = true) (key rand pt : Bytes) (hk : key.length = c.keySize) (h : ivSize2 c ≤ rand.length)
    (hl : (∃ g s a n, c.kind = .aead g s a n) → pt.length < 2 ^ 24) :
    ∃ ct, Sealed2 E c key (rand.take (ivSize2 c)) pt ct ∧ ct.length ≤ pt.length + 16 ∧ encrypt E c rand key pt = .ok (ct, params2 c (rand.take (ivSize2 c))) := by
  unfold good at hc
  simp only [Bool.and_eq_true, decide_eq_true_eq] at hc
  obtain ⟨⟨⟨⟨hc, -⟩, -⟩, -⟩, -⟩ := hc
  have take_len : (rand.take (ivSize2 c)).length = ivSize2 c := by rw [List.length_take]; omega
  revert take_len
  unfold ivSize2 at h ⊢
  unfold Sealed2 params2
  rw [encrypt]
  cases hkd : c.kind with
  | mode m a =>
    rw [hkd] at hc h
    simp only [Bool.and_eq_true] at hc
    obtain ⟨b, hb, hbs⟩ := E.C.ok a key (by rw [hk]; exact hc.1)
    have hb16 : b.bs ≤ 16 := by rw [hbs]; exact a.bs_pos.2.1
    cases m with
    | ecb =>
      intro _
      refine ⟨_, ⟨b, hb, rfl⟩, ?_, ?_⟩
      · exact body_len .ecb b (List.replicate b.bs 0#8) pt (by simp) hb16
      · simp only [hb, Res.bind]
        rw [← hbs, if_neg]
        · have e := enc_pad_eq .ecb b (List.replicate b.bs 0#8) pt (by simp)
          show Res.ok (Md.enc .ecb b (List.replicate b.bs 0#8) (Md.pad .ecb b.bs pt), null) = .ok (body .ecb b (List.replicate b.bs 0#8) pt, null)
          rw [e]
        · rw [Md.pad, Md.padded, if_pos rfl, pad_len pt b.bs b.bs_pos]; simp
    | _ =>
      intro tl
      simp only at h tl ⊢
      rw [← hbs] at h tl ⊢
      refine ⟨_, ⟨b, hb, rfl⟩, body_len _ b _ pt tl hb16, ?_⟩
      simp only [hb, Res.bind]
      rw [encIv_eq, if_neg (by omega)]
      rfl
  | aead g s a n =>
    rw [hkd] at hc h
    simp only [Bool.and_eq_true, beq_iff_eq] at hc
    obtain ⟨b, hb, hbs⟩ := E.C.ok a key (by rw [hk]; exact hc.1.1.1.1)
    obtain ⟨A, hA, hlim, -⟩ := E.aead_ok g b n (by rw [hbs]; exact hc.1.1.1.2) hc.1.2
    have hl' := hl ⟨g, s, a, n, hkd⟩
    have hlim' := hlim hc.1.1.2
    intro tl
    simp only at h tl ⊢
    obtain ⟨ct, hct, hcl⟩ := A.sealF_ok (rand.take n) pt (by omega)
    refine ⟨ct, ⟨b, A, hb, hA, hct⟩, by omega, ?_⟩
    simp only [hb, Res.bind, readFull, if_neg (show ¬ rand.length < n by omega), hA, hct]
    cases s <;> rfl
  | rc2 v =>
    rw [hkd] at hc h
    simp only [Bool.and_eq_true] at hc
    obtain ⟨b, hb, hbs⟩ := E.C.ok .rc2 key (by rw [hk]; exact hc.1.1)
    have hbs : b.bs = 8 := hbs
    intro tl
    simp only at h tl ⊢
    refine ⟨_, ⟨b, hb, rfl⟩, body_len _ b _ pt (by rw [hbs]; exact tl) (by omega), ?_⟩
    simp only [hb, Res.bind]
    have e8 := encIv_eq .cbc b rand pt
    rw [hbs] at e8
    rw [e8, if_neg (by omega)]
    rfl
  | rc5 w r =>
    rw [hkd] at hc h
    obtain ⟨b, hb, hbs⟩ := E.rc5_ok key w r (by rw [hk]; exact hc)
    have hb16 : b.bs ≤ 16 := by
      simp only [rc5Ok, Bool.and_eq_true, Bool.or_eq_true, beq_iff_eq] at hc
      omega
    intro tl
    simp only at h tl ⊢
    refine ⟨_, ⟨b, hb, rfl⟩, body_len _ b _ pt (by rw [hbs]; exact tl) hb16, ?_⟩
    simp only [hb, Res.bind]
    rw [encIv_eq, ← hbs, if_neg (by omega)]
    simp [encSeq, encOct]
  | gost =>
    rw [hkd] at hc h
    obtain ⟨b, hb, hbs⟩ := E.gost_ok key (by rw [hk]; simpa using hc)
    intro tl
    simp only at h tl ⊢
    refine ⟨_, ⟨b, hb, rfl⟩, body_len _ b _ pt (by rw [hbs]; exact tl) (by omega), ?_⟩
    simp only [hb, Res.bind]
    have e8 := encIv_eq .cfb b rand pt
    rw [hbs] at e8
    rw [e8, if_neg (by omega)]
    rfl

/-! ### Decryption of what was encrypted -/

theorem iv_small (c : Cph) (hc : good c = true) : ivSize2 c ≤ 16 := by
  unfold good at hc
  simp only [Bool.and_eq_true, decide_eq_true_eq] at hc
  obtain ⟨⟨⟨⟨hc, -⟩, -⟩, -⟩, -⟩ := hc
  unfold ivSize2
  cases hkd : c.kind with
  | mode m a => have := a.bs_pos; cases m <;> simp only <;> omega
  | aead g s a n =>
    rw [hkd] at hc
    simp only [Bool.and_eq_true, beq_iff_eq] at hc
    simp only
    omega
  | rc2 v => simp
  | rc5 w r =>
    rw [hkd] at hc
    simp only [rc5Ok, Bool.and_eq_true, Bool.or_eq_true, beq_iff_eq] at hc
    simp only
    omega
  | gost => simp

theorem octField_oct (s r : Bytes) (h : s.length < 2 ^ 31) : octField (tlv 0x04#8 s ++ r) = some (s, r) := element_tlv _ _ _ h

theorem element_nil_app (tag : Byte) (s : Bytes) (h : s.length < 2 ^ 31) : element tag (tlv tag s) = some (s, []) := by
  have := element_tlv tag s [] h
  rwa [List.append_nil] at this

theorem tlv_le (tag : Byte) (s : Bytes) (h : s.length < 2 ^ 20) : (tlv tag s).length ≤ s.length + 6 := by
  have := tlv_length (tag := tag) (c := s) (by omega)
  omega

theorem encInt_le (v : Nat) (h : v < 2 ^ 63) : (encInt v).length ≤ 15 := by
  have := intBytes_length_le (v := v) (n := 8) (by omega)
  have := tlv_le 0x02#8 (intBytes v) (by omega)
  rw [encInt]; omega

theorem decrypt_sealed (E : Env) (c d : Cph) (hc : good c = true) (hr : reads d c = true) (key iv pt ct : Bytes) (hk : key.length = c.keySize) (hiv : iv.length = ivSize2 c)
    (hs : Sealed2 E c key iv pt ct) : decrypt E d key (params2 c iv) ct = .ok pt := by
  have hsm := iv_small c hc
  unfold good at hc
  simp only [Bool.and_eq_true, decide_eq_true_eq] at hc
  obtain ⟨⟨⟨⟨hc, -⟩, -⟩, -⟩, -⟩ := hc
  unfold reads at hr
  simp only [Bool.and_eq_true] at hr
  replace hr := hr.1
  rw [hiv.symm] at hsm
  unfold ivSize2 at hiv
  unfold Sealed2 at hs
  unfold params2
  rw [decrypt]
  cases hkd : c.kind with
  | mode m a =>
    rw [hkd] at hc hr hs hiv
    simp only [Bool.and_eq_true] at hc
    cases hdk : d.kind with
    | mode m' a' =>
      rw [hdk] at hr
      simp only [Bool.and_eq_true, beq_iff_eq] at hr
      obtain ⟨rfl, rfl⟩ := hr
      simp only at hs
      obtain ⟨b, hb, rfl⟩ := hs
      obtain ⟨b', hb', hbs⟩ := E.C.ok a key (by rw [hk]; exact hc.1)
      have : b' = b := by rw [hb] at hb'; exact (Res.ok.inj hb').symm
      subst this
      have hb16 : b'.bs ≤ 16 := by rw [hbs]; exact a.bs_pos.2.1
      cases m with
      | ecb =>
        simp only [hb, Res.bind]
        exact openCt_body .ecb b' (List.replicate b'.bs 0#8) pt (by simp) hb16
      | _ =>
        simp only at hiv ⊢
        rw [← hbs] at hiv
        have := octField_oct iv [] (by omega)
        rw [List.append_nil] at this
        rw [this]
        simp only [hb, Res.bind, hiv, ne_eq, not_true, if_false]
        exact openCt_body _ b' iv pt hiv hb16
    | _ => rw [hdk] at hr; simp at hr
  | rc2 v =>
    rw [hkd] at hc hr hs hiv
    simp only [Bool.and_eq_true, decide_eq_true_eq] at hc
    cases hdk : d.kind with
    | rc2 v' =>
      simp only at hs hiv ⊢
      obtain ⟨b, hb, rfl⟩ := hs
      obtain ⟨b', hb', hbs⟩ := E.C.ok .rc2 key (by rw [hk]; exact hc.1.1)
      have : b' = b := by rw [hb] at hb'; exact (Res.ok.inj hb').symm
      subst this
      have hbs : b'.bs = 8 := hbs
      have l1 := encInt_le v (by omega)
      have l2 := tlv_le 0x04#8 iv (by omega)
      rw [element_nil_app _ _ (by rw [List.length_append]; omega)]
      simp only
      rw [int64Field_enc v _ (by omega)]
      have := octField_oct iv [] (by omega)
      rw [List.append_nil] at this
      simp only [this]
      rw [if_neg (by omega)]
      simp only [hb, Res.bind, hiv, hbs, ne_eq, not_true, if_false]
      exact openCt_body _ b' iv pt (by omega) (by omega)
    | _ => rw [hdk] at hr; simp at hr
  | rc5 w r =>
    rw [hkd] at hc hr hs hiv
    cases hdk : d.kind with
    | rc5 w' r' =>
      simp only at hs hiv ⊢
      obtain ⟨b, hb, rfl⟩ := hs
      obtain ⟨b', hb', hbs⟩ := E.rc5_ok key w r (by rw [hk]; exact hc)
      have : b' = b := by rw [hb] at hb'; exact (Res.ok.inj hb').symm
      subst this
      simp only [rc5Ok, Bool.and_eq_true, Bool.or_eq_true, beq_iff_eq, decide_eq_true_eq] at hc
      have l1 := encInt_le w (by omega)
      have l3 := encInt_le r (by omega)
      have l2 := tlv_le 0x04#8 iv (by omega)
      rw [element_nil_app _ _ (by simp only [List.length_append]; omega)]
      simp only
      rw [List.append_assoc, int64Field_enc w _ (by omega)]
      simp only
      rw [int64Field_enc r _ (by omega)]
      have := octField_oct iv [] (by omega)
      rw [List.append_nil] at this
      simp only [this]
      have e1 : ((w : Int) % 2 ^ 64).toNat = w := by omega
      have e2 : ((r : Int) % 2 ^ 64).toNat = r := by omega
      rw [e1, e2]
      simp only [hb, Res.bind, hiv, hbs, ne_eq, not_true, if_false]
      exact openCt_body _ b' iv pt (by omega) (by omega)
    | _ => rw [hdk] at hr; simp at hr
  | gost =>
    rw [hkd] at hc hr hs hiv
    cases hdk : d.kind with
    | gost =>
      simp only at hs hiv ⊢
      obtain ⟨b, hb, rfl⟩ := hs
      obtain ⟨b', hb', hbs⟩ := E.gost_ok key (by rw [hk]; simpa using hc)
      have : b' = b := by rw [hb] at hb'; exact (Res.ok.inj hb').symm
      subst this
      have l2 := tlv_le 0x04#8 iv (by omega)
      have l3 : (tlv 0x06#8 (oidBytes sboxZ)).length = 11 := by decide +kernel
      rw [element_nil_app _ _ (by rw [List.length_append]; rw [show ([1, 2, 643, 7, 1, 2, 5, 1, 1] : List Nat) = sboxZ from rfl]; omega)]
      simp only
      rw [octField_oct iv _ (by omega)]
      have := oidField_enc sboxZ [] (by decide +kernel) (by decide +kernel)
      rw [List.append_nil, encOID] at this
      simp only
      rw [show ([1, 2, 643, 7, 1, 2, 5, 1, 1] : List Nat) = sboxZ from rfl, this]
      simp only [hb, Res.bind, hiv, hbs, ne_eq, not_true, if_false]
      exact openCt_body _ b' iv pt (by omega) (by omega)
    | _ => rw [hdk] at hr; simp at hr
  | aead g s a n =>
    rw [hkd] at hc hr hs hiv
    simp only [Bool.and_eq_true, beq_iff_eq] at hc
    cases hdk : d.kind with
    | aead g' s' a' n' =>
      rw [hdk] at hr
      simp only [Bool.and_eq_true, beq_iff_eq, Bool.or_eq_true] at hr
      obtain ⟨⟨rfl, rfl⟩, hss⟩ := hr
      simp only at hs hiv ⊢
      obtain ⟨b, A, hb, hA, hct⟩ := hs
      subst hiv
      have hopen : A.openF iv ct = .ok pt := by
        rw [A.openF_iff]
        refine ⟨?_, hct⟩
        by_contra hbig
        rw [A.sealF_big iv pt (by omega)] at hct
        exact absurd hct (by simp)
      have l2 := tlv_le 0x04#8 iv (by omega)
      have hoct := octField_oct iv [] (by omega)
      rw [List.append_nil] at hoct
      have hno : element 0x30#8 (tlv 0x04#8 iv) = none := by simp [element, tlv]
      simp only [hb, Res.bind]
      cases s with
      | true =>
        have hs' : s' = true := by simpa using hss
        have hg : gcmParams (tlv 0x30#8 (tlv 0x04#8 iv ++ encInt 16)) = some (iv, 16) := by
          have l1 := encInt_le 16 (by omega)
          rw [gcmParams, element_nil_app _ _ (by rw [List.length_append]; omega)]
          simp only
          rw [octField_oct iv _ (by omega)]
          have : optInt 12 (encInt 16) = some (16, []) := by decide +kernel
          simp only [this, Option.map_some]
        simp only [hs', if_true, hg, hA, ne_eq, not_true, if_false]
        exact hopen
      | false =>
        have hg : (if s' = true then gcmParams (tlv 0x04#8 iv) else none) = none := by
          split
          · rw [gcmParams, hno]
          · rfl
        simp only [hg, hoct, hA]
        exact hopen
    | _ => rw [hdk] at hr; simp at hr

end Verif.Pkcs.Pbes2
