import Verif.Pkcs.Pbes2Kdf
/-
Lemmas for C139: decryption of any file.
-/
namespace Verif.Pkcs.Pbes2
open Verif.Asn1 Verif.Kdf Spec

/-- `r` is an error or a result. -/
def Total {α : Type} (r : Res α) : Prop := r = .err ∨ ∃ a, r = .ok a

theorem new_total (C : Ciphers) (a : Alg) (k : Bytes) (h : a ≠ .rc2 ∨ a.keyOk k.length = true) :
    C.new a k = .err ∨ ∃ b, C.new a k = .ok b ∧ b.bs = a.bs := by
  by_cases hk : a.keyOk k.length = true
  · exact .inr (C.ok a k hk)
  · have := C.bad a k (by simpa using hk)
    rw [if_neg (h.resolve_right hk)] at this
    exact .inl this

/-- The body, once the cipher and the IV are there. -/
theorem open_total (m : Md) (hm : m ≠ .ecb) (r : Res BlockCipher) (hr : Total r) (iv ct : Bytes) :
    Total (r.bind fun b => if iv.length ≠ b.bs then .err else m.openCt b iv ct) ∧
    ∀ out, (r.bind fun b => if iv.length ≠ b.bs then .err else m.openCt b iv ct) = .ok out → ∃ b, r = .ok b ∧ iv.length = b.bs ∧ OpenedMd m b iv ct out := by
  rcases hr with h | ⟨b, h⟩
  · rw [h]; exact ⟨.inl rfl, fun out ho => absurd ho (by simp [Res.bind])⟩
  · rw [h]
    simp only [Res.bind]
    split
    · exact ⟨.inl rfl, fun out ho => absurd ho (by simp)⟩
    · rename_i hl
      have hl : iv.length = b.bs := by simpa using hl
      have := openCt_iff m b iv ct (fun _ => hl)
      exact ⟨this.1, fun out ho => ⟨b, rfl, hl, (this.2 out).1 ho⟩⟩

theorem total_of_ex {r : Res BlockCipher} {n : Nat} (h : r = .err ∨ ∃ b, r = .ok b ∧ b.bs = n) : Total r := by
  rcases h with h | ⟨b, h, -⟩
  · exact .inl h
  · exact .inr ⟨b, h⟩

theorem decrypt_some (E : Env) (c : Cph) (hc : good c = true) (key params ct : Bytes) (hk : (∃ v, c.kind = .rc2 v) → 1 ≤ key.length ∧ key.length ≤ 128) :
    Total (decrypt E c key params ct) ∧ ∀ out, decrypt E c key params ct = .ok out → Opened2 E c key params ct out := by
  unfold good at hc
  simp only [Bool.and_eq_true, decide_eq_true_eq] at hc
  obtain ⟨⟨⟨⟨hc, -⟩, -⟩, -⟩, -⟩ := hc
  have bad : Total (.err : Res Bytes) ∧ ∀ out, (.err : Res Bytes) = .ok out → Opened2 E c key params ct out := ⟨.inl rfl, fun out h => absurd h (by simp)⟩
  rw [decrypt]
  unfold Opened2 at bad ⊢
  cases hkd : c.kind with
  | mode m a =>
    rw [hkd] at hc bad
    simp only [Bool.and_eq_true, bne_iff_ne, ne_eq] at hc
    have hn := new_total E.C a key (.inl hc.2)
    by_cases hm : m = .ecb
    · subst hm
      simp only at bad ⊢
      rcases hn with h | ⟨b, h, -⟩
      · rw [h]; exact ⟨.inl rfl, fun out ho => absurd ho (by simp [Res.bind])⟩
      · rw [h]
        have := openCt_iff .ecb b [] ct (fun x => absurd rfl x)
        exact ⟨this.1, fun out ho => ⟨b, rfl, (this.2 out).1 ho⟩⟩
    · cases m with
      | ecb => exact absurd rfl hm
      | _ =>
        simp only at bad ⊢
        cases ho : octField params with
        | none => exact bad
        | some p =>
          obtain ⟨iv, x⟩ := p
          simp only
          have t := open_total _ hm (E.C.new a key) (total_of_ex hn) iv ct
          refine ⟨t.1, fun out h => ?_⟩
          obtain ⟨b, h1, h2, h3⟩ := t.2 out h
          exact ⟨b, iv, x, h1, (element_some ho).1, h2, h3⟩
  | rc2 v =>
    rw [hkd] at bad
    simp only at bad ⊢
    have hn := new_total E.C .rc2 key (.inr (by have := hk ⟨v, hkd⟩; simp [Alg.keyOk]; omega))
    split
    · exact bad
    rename_i s x2 h1
    split
    · exact bad
    rename_i v' s' h2
    split
    · exact bad
    rename_i iv x1 h3
    split
    · exact bad
    rename_i hv
    have t := open_total .cbc (by simp) _ (total_of_ex hn) iv ct
    refine ⟨t.1, fun out h => ?_⟩
    obtain ⟨b, g1, g2, g3⟩ := t.2 out h
    obtain ⟨ci, e, hp, -⟩ := int64Field_some h2
    refine ⟨b, iv, ci, v', x1, x2, g1, ?_, hp, by omega, by omega, g2, g3⟩
    rw [(element_some h1).1, e, (element_some h3).1]; simp
  | rc5 w r =>
    rw [hkd] at bad
    simp only at bad ⊢
    split
    · exact bad
    rename_i s x2 h1
    split
    · exact bad
    rename_i w' s1 h2
    split
    · exact bad
    rename_i n s2 h3
    split
    · exact bad
    rename_i iv x1 h4
    obtain ⟨ci, e2, hp2, l1, l2⟩ := int64Field_some h2
    obtain ⟨cj, e3, hp3, l3, l4⟩ := int64Field_some h3
    have hn : Total (E.rc5 key (w' % 2 ^ 64).toNat (n % 2 ^ 64).toNat) := by
      by_cases hr : rc5Ok key.length (w' % 2 ^ 64).toNat (n % 2 ^ 64).toNat = true
      · obtain ⟨b, hb, -⟩ := E.rc5_ok _ _ _ hr; exact .inr ⟨b, hb⟩
      · exact .inl (E.rc5_bad _ _ _ (by simpa using hr))
    have t := open_total .cbc (by simp) _ hn iv ct
    refine ⟨t.1, fun out h => ?_⟩
    obtain ⟨b, g1, g2, g3⟩ := t.2 out h
    have hr : rc5Ok key.length (w' % 2 ^ 64).toNat (n % 2 ^ 64).toNat = true := by
      by_contra hr
      rw [E.rc5_bad _ _ _ (by simpa using hr)] at g1
      exact absurd g1 (by simp)
    simp only [rc5Ok, Bool.and_eq_true, Bool.or_eq_true, beq_iff_eq, decide_eq_true_eq] at hr
    refine ⟨b, iv, ci, cj, (w' % 2 ^ 64).toNat, (n % 2 ^ 64).toNat, x1, x2, g1, ?_, ?_, ?_, g2, g3⟩
    · rw [(element_some h1).1, e2, e3, (element_some h4).1]; simp
    · rw [hp2]; congr 1; omega
    · rw [hp3]; congr 1; omega
  | gost =>
    rw [hkd] at bad
    simp only at bad ⊢
    split
    · exact bad
    rename_i s x2 h1
    split
    · exact bad
    rename_i iv s1 h2
    split
    · exact bad
    rename_i o x1 h3
    split
    · exact bad
    rename_i ho
    have ho : o = sboxZ := by simpa using ho
    have hn : Total (E.gost key) := by
      by_cases hr : key.length = 32
      · obtain ⟨b, hb, -⟩ := E.gost_ok _ hr; exact .inr ⟨b, hb⟩
      · exact .inl (E.gost_bad _ hr)
    have t := open_total .cfb (by simp) _ hn iv ct
    refine ⟨t.1, fun out h => ?_⟩
    obtain ⟨b, g1, g2, g3⟩ := t.2 out h
    refine ⟨b, iv, x1, x2, g1, ?_, g2, g3⟩
    rw [(element_some h1).1, (element_some h2).1, oidField_some h3, ho]; simp [encOID, sboxZ]
  | aead g seq a n =>
    rw [hkd] at hc bad
    simp only [Bool.and_eq_true, bne_iff_ne, ne_eq, beq_iff_eq] at hc
    simp only at bad ⊢
    rcases new_total E.C a key (.inl hc.2) with h | ⟨b, h, hbs⟩
    · rw [h]; exact ⟨.inl rfl, fun out ho => absurd ho (by simp [Res.bind])⟩
    rw [h] at bad ⊢
    simp only [Res.bind]
    have ha : ∀ k, E.aead g b k = .err ∨ ∃ A, E.aead g b k = .ok A := by
      intro k
      by_cases hr : nonceOk g k = true
      · obtain ⟨A, hA, -⟩ := E.aead_ok g b k (by omega) hr; exact .inr ⟨A, hA⟩
      · exact .inl (E.aead_bad g b k (by omega) (by simpa using hr))
    split
    · rename_i nonce icv hp
      have hp : gcmParams params = some (nonce, icv) := by
        split at hp
        · exact hp
        · simp at hp
      rcases ha nonce.length with hA | ⟨A, hA⟩
      · rw [hA]; exact ⟨.inl rfl, fun out ho => absurd ho (by simp)⟩
      rw [hA]
      simp only
      split
      · exact ⟨.inl rfl, fun out ho => absurd ho (by simp)⟩
      rename_i hi
      have hi : icv = 16 := by simpa using hi
      refine ⟨A.openF_total nonce ct, fun out ho => ⟨b, A, nonce, rfl, hA, ((A.openF_iff _ _ _).1 ho).2, ?_⟩⟩
      rw [gcmParams] at hp
      split at hp
      · simp at hp
      rename_i s x2 h1
      split at hp
      · simp at hp
      rename_i nn r h2
      rw [Option.map_eq_some_iff] at hp
      obtain ⟨⟨v, x1⟩, h3, h4⟩ := hp
      simp only [Prod.mk.injEq] at h4
      obtain ⟨rfl, rfl⟩ := h4
      rcases optInt_some h3 with ⟨hv, -, -⟩ | ⟨ci, e, hpi⟩
      · omega
      · refine .inr ⟨ci, x1, x2, ?_, by rw [hpi, hi]⟩
        rw [(element_some h1).1, (element_some h2).1, e]; simp
    · split
      · exact ⟨.inl rfl, fun out ho => absurd ho (by simp)⟩
      rename_i nonce x h1
      rcases ha nonce.length with hA | ⟨A, hA⟩
      · rw [hA]; exact ⟨.inl rfl, fun out ho => absurd ho (by simp)⟩
      rw [hA]
      exact ⟨A.openF_total nonce ct, fun out ho => ⟨b, A, nonce, rfl, hA, ((A.openF_iff _ _ _).1 ho).2, .inl ⟨x, (element_some h1).1⟩⟩⟩

/-! ### The file -/

theorem parsePki_raw {b params enc : Bytes} {oid : List Nat} (h : Pbes1.parsePki b = some (oid, params, enc)) :
    ∃ x4 x5 x6, b = tlv 0x30#8 (tlv 0x30#8 (tlv 0x06#8 (oidBytes oid) ++ params ++ x4) ++ tlv 0x04#8 enc ++ x5) ++ x6 := by
  rw [Pbes1.parsePki] at h
  split at h
  · simp at h
  rename_i c x6 h1
  split at h
  · simp at h
  rename_i alg r h2
  split at h
  · simp at h
  rename_i o pr h3
  split at h
  · simp at h
  rename_i ps h4
  split at h
  · simp at h
  rename_i en x5 h5
  simp only [Option.some.injEq, Prod.mk.injEq] at h
  obtain ⟨rfl, rfl, rfl⟩ := h
  have e : ∃ x4, pr = ps ++ x4 := by
    split at h4
    · rename_i hpe
      simp only [Option.some.injEq] at h4
      exact ⟨[], by rw [← h4, List.isEmpty_iff.1 hpe]; rfl⟩
    · rw [Option.map_eq_some_iff] at h4
      obtain ⟨⟨f, x⟩, hr, rfl⟩ := h4
      exact ⟨x, Pbes1.rawField_some hr⟩
  obtain ⟨x4, e⟩ := e
  refine ⟨x4, x5, x6, ?_⟩
  rw [(element_some h1).1, (element_some h2).1, oidField_some h3, e, (element_some h5).1]
  simp [encOID]

theorem algField_enc (o : List Nat) (t : Byte) (s r : Bytes) (h : parseOID (oidBytes o) = some o) (ht : t &&& 0x1f#8 ≠ 0x1f#8)
    (hl : (tlv 0x06#8 (oidBytes o) ++ tlv t s).length < 2 ^ 31) : algField (tlv 0x30#8 (tlv 0x06#8 (oidBytes o) ++ tlv t s) ++ r) = some (o, tlv t s, r) := by
  have h0 : ∀ (t : Byte) (x : Bytes), x.length ≤ (tlv t x).length := fun t x => by simp [tlv]; omega
  have l1 := h0 0x06#8 (oidBytes o)
  have l2 := h0 t s
  rw [algField, element_tlv _ _ _ hl]
  simp only
  rw [List.length_append] at hl
  have e1 := oidField_enc o (tlv t s) h (by omega)
  rw [encOID] at e1
  rw [e1]
  simp only
  have e2 := rawField_tlv t s [] ht (by omega)
  rw [List.append_nil] at e2
  rw [if_neg (by simp [tlv]), e2]
  rfl

theorem parsePki_enc (o : List Nat) (s ct : Bytes) (h : parseOID (oidBytes o) = some o)
    (hl : (tlv 0x30#8 (tlv 0x06#8 (oidBytes o) ++ tlv 0x30#8 s) ++ tlv 0x04#8 ct).length < 2 ^ 31) :
    Pbes1.parsePki (tlv 0x30#8 (tlv 0x30#8 (tlv 0x06#8 (oidBytes o) ++ tlv 0x30#8 s) ++ tlv 0x04#8 ct)) = some (o, tlv 0x30#8 s, ct) := by
  have h0 : ∀ (t : Byte) (x : Bytes), x.length ≤ (tlv t x).length := fun t x => by simp [tlv]; omega
  rw [Pbes1.parsePki, element_nil_app _ _ hl]
  simp only
  rw [List.length_append] at hl
  have l1 := h0 0x30#8 (tlv 0x06#8 (oidBytes o) ++ tlv 0x30#8 s)
  have l2 := h0 0x04#8 ct
  rw [element_tlv _ _ _ (by omega)]
  simp only
  rw [List.length_append] at l1
  have l3 := h0 0x06#8 (oidBytes o)
  have l4 := h0 0x30#8 s
  have e1 := oidField_enc o (tlv 0x30#8 s) h (by omega)
  rw [encOID] at e1
  rw [e1]
  simp only
  have e2 := rawField_tlv 0x30#8 s [] (by decide) (by omega)
  rw [List.append_nil] at e2
  have e3 := octField_oct ct [] (by omega)
  rw [List.append_nil] at e3
  rw [if_neg (by simp [tlv]), e2]
  simp only [Option.map_some]
  rw [e3]

theorem params2_tlv (c : Cph) (iv : Bytes) (hl : iv.length ≤ 16) (hc : good c = true) : ∃ t s, params2 c iv = tlv t s ∧ t &&& 0x1f#8 ≠ 0x1f#8 ∧ (tlv t s).length < 2 ^ 10 ∧ (params2 c iv).length ≠ 0 := by
  unfold good at hc
  simp only [Bool.and_eq_true, decide_eq_true_eq] at hc
  obtain ⟨⟨⟨⟨hc, -⟩, -⟩, -⟩, -⟩ := hc
  have l1 := tlv_le 0x04#8 iv (by omega)
  have key : ∀ t s, t &&& 0x1f#8 ≠ 0x1f#8 → s.length < 512 → ∃ t' s', tlv t s = tlv t' s' ∧ t' &&& 0x1f#8 ≠ 0x1f#8 ∧ (tlv t' s').length < 2 ^ 10 ∧ (tlv t s).length ≠ 0 := by
    intro t s ht hs
    refine ⟨t, s, rfl, ht, ?_, by simp [tlv]⟩
    have := tlv_le t s (by omega)
    omega
  unfold params2
  cases hkd : c.kind with
  | mode m a =>
    cases m with
    | ecb => exact ⟨0x05#8, [], rfl, by decide, by decide, by simp⟩
    | _ => exact key 0x04#8 iv (by decide) (by omega)
  | rc2 v =>
    rw [hkd] at hc
    simp only [Bool.and_eq_true, decide_eq_true_eq] at hc
    have := encInt_le v (by omega)
    exact key 0x30#8 _ (by decide) (by rw [List.length_append]; omega)
  | rc5 w r =>
    rw [hkd] at hc
    simp only [rc5Ok, Bool.and_eq_true, Bool.or_eq_true, beq_iff_eq, decide_eq_true_eq] at hc
    have := encInt_le w (by omega)
    have := encInt_le r (by omega)
    exact key 0x30#8 _ (by decide) (by rw [List.length_append, List.length_append]; omega)
  | gost =>
    have : (tlv 0x06#8 (oidBytes [1, 2, 643, 7, 1, 2, 5, 1, 1])).length < 30 := by decide +kernel
    exact key 0x30#8 _ (by decide) (by rw [List.length_append]; omega)
  | aead g s a n =>
    cases s with
    | true =>
      have := encInt_le 16 (by omega)
      exact key 0x30#8 _ (by decide) (by rw [List.length_append]; omega)
    | false => exact key 0x04#8 iv (by decide) (by omega)

theorem kdfParams_tlv (o : KdfOpts) (kl : Option Nat) (salt : Bytes) : ∃ s, kdfParams o kl salt = tlv 0x30#8 s := by
  cases o <;> exact ⟨_, rfl⟩

theorem oid_facts : (∀ sm, parseOID (oidBytes (oidPbkdf2 sm)) = some (oidPbkdf2 sm) ∧ (oidBytes (oidPbkdf2 sm)).length ≤ 20) ∧
    (∀ sm, parseOID (oidBytes (oidPbes2 sm)) = some (oidPbes2 sm) ∧ (oidBytes (oidPbes2 sm)).length ≤ 20) ∧
    parseOID (oidBytes oidScrypt) = some oidScrypt ∧ (oidBytes oidScrypt).length ≤ 20 := by decide +kernel

theorem kdf_oid (o : KdfOpts) : parseOID (oidBytes o.oid) = some o.oid ∧ (oidBytes o.oid).length ≤ 20 := by
  cases o with
  | pbkdf2 sm _ _ _ => exact oid_facts.1 sm
  | scrypt _ _ _ _ => exact oid_facts.2.2

theorem pbes_oid (o : KdfOpts) : ∃ sm, o.pbesOid = oidPbes2 sm ∧ parseOID (oidBytes o.pbesOid) = some o.pbesOid ∧ (oidBytes o.pbesOid).length ≤ 20 := by
  cases o with
  | pbkdf2 sm _ _ _ => exact ⟨sm, rfl, oid_facts.2.1 sm⟩
  | scrypt _ _ _ _ => exact ⟨false, rfl, oid_facts.2.1 false⟩

/-- The file that is written reads as its parts. -/
theorem decrypt_file (E : Env) (o : KdfOpts) (c d : Cph) (hc : good c = true) (hd : ∀ p : Bytes, p.length ≠ 0 → getCipher c.oid p = some d) (kl : Option Nat) (salt iv ct pw : Bytes)
    (hiv : iv.length ≤ 16) (hct : ct.length < 2 ^ 30) (hkp : (kdfParams o kl salt).length < 2 ^ 21) :
    decryptPkcs8 E (file2 o.pbesOid o.oid (kdfParams o kl salt) c.oid (params2 c iv) [] [] [] [] ct [] []) pw =
      (deriveKey E o.oid (kdfParams o kl salt) pw d.keySize).bind fun key => decrypt E d key (params2 c iv) ct := by
  obtain ⟨sm, hpb, hp1, hp2⟩ := pbes_oid o
  obtain ⟨hk1, hk2⟩ := kdf_oid o
  obtain ⟨t, s, he, ht, hl, hne⟩ := params2_tlv c iv hiv hc
  obtain ⟨ks, hks⟩ := kdfParams_tlv o kl salt
  have hco : parseOID (oidBytes c.oid) = some c.oid ∧ (oidBytes c.oid).length ≤ 20 := by
    unfold good at hc
    simp only [Bool.and_eq_true, decide_eq_true_eq] at hc
    exact ⟨hc.1.1.1.2, hc.1.1.2⟩
  have lk := tlv_le 0x06#8 (oidBytes o.oid) (by omega)
  have lc := tlv_le 0x06#8 (oidBytes c.oid) (by omega)
  have lp := tlv_le 0x06#8 (oidBytes o.pbesOid) (by omega)
  have hd' := hd (params2 c iv) hne
  rw [hks] at hkp ⊢
  rw [he] at hd' ⊢
  have L : ∀ (t : Byte) (x : Bytes), x.length < 2 ^ 31 - 100 → (tlv t x).length ≤ x.length + 6 := fun t x hx => by
    have := tlv_length (tag := t) (c := x) (by omega); omega
  have a1 := L 0x30#8 (tlv 0x06#8 (oidBytes o.oid) ++ tlv 0x30#8 ks) (by rw [List.length_append]; omega)
  have a2 := L 0x30#8 (tlv 0x06#8 (oidBytes c.oid) ++ tlv t s) (by rw [List.length_append]; omega)
  simp only [List.length_append] at a1 a2
  have a3 := L 0x30#8 (tlv 0x30#8 (tlv 0x06#8 (oidBytes o.oid) ++ tlv 0x30#8 ks) ++ tlv 0x30#8 (tlv 0x06#8 (oidBytes c.oid) ++ tlv t s)) (by rw [List.length_append]; omega)
  simp only [List.length_append] at a3
  have a4 := L 0x30#8 (tlv 0x06#8 (oidBytes o.pbesOid) ++ tlv 0x30#8 (tlv 0x30#8 (tlv 0x06#8 (oidBytes o.oid) ++ tlv 0x30#8 ks) ++ tlv 0x30#8 (tlv 0x06#8 (oidBytes c.oid) ++ tlv t s)))
    (by rw [List.length_append]; omega)
  simp only [List.length_append] at a4
  have a5 := L 0x04#8 ct (by omega)
  simp only [file2, List.append_nil]
  rw [decryptPkcs8, parsePki_enc _ _ _ hp1 (by rw [List.length_append]; omega)]
  simp only
  rw [if_neg (by rw [hpb]; cases sm <;> simp)]
  rw [element_nil_app _ _ (by rw [List.length_append]; omega)]
  simp only
  rw [algField_enc _ _ _ _ hk1 (by decide) (by rw [List.length_append]; omega)]
  simp only
  have e2 := algField_enc c.oid t s [] hco.1 ht (by rw [List.length_append]; omega)
  rw [List.append_nil] at e2
  rw [e2]
  simp only [hd']

end Verif.Pkcs.Pbes2
