import Verif.Pkcs.Pbes1Lemmas
import Verif.Pkcs.BmpProps
/-
C138: PKCS #5 v1 and PKCS #12 password based encryption of private keys (/repo/pkcs/pbes1, /repo/pkcs8/pbes1).
`E` is any set of ciphers and hash functions of the right sizes; `Spec` is Pbes1Spec.lean.
-/
namespace Verif.Pkcs
open Verif.Asn1 Verif.Kdf Pbes1

/-- The body of the message under a key and an IV: CBC with PKCS #7 padding, or RC4. -/
def Spec.Sealed (E : Env) (c : Cph) (ki : Bytes × Bytes) (data ct : Bytes) : Prop :=
  match c.alg with
  | none => ct = xorb data ((List.range data.length).map (E.rc4 ki.1))
  | some a => ∃ b, E.C.new a ki.1 = .ok b ∧ b.bs = a.bs ∧ ct = Spec.body .cbc b ki.2 data

/-- What the library takes out of a body: for CBC one or more whole blocks, with the padding taken off when there is one. -/
def Spec.Opened (E : Env) (c : Cph) (ki : Bytes × Bytes) (ct out : Bytes) : Prop :=
  match c.alg with
  | none => out = xorb ct ((List.range ct.length).map (E.rc4 ki.1))
  | some a => ct ≠ [] ∧ a.bs ∣ ct.length ∧ ∃ b, E.C.new a ki.1 = .ok b ∧ Spec.Strip (Spec.plain .cbc b ki.2 ct) out

/-- The 14 schemes have different identifiers, each is found under its own, and every identifier is one that DER can carry and Go reads back. -/
theorem C138_identifiers :
    table.length = 14 ∧ (table.Pairwise fun a b => a.oid ≠ b.oid) ∧ (∀ c ∈ table, getCipher c.oid = some c ∧ parseOID (oidBytes c.oid) = some c.oid) ∧
    (∀ o c, getCipher o = some c → c ∈ table ∧ c.oid = o) :=
  ⟨rfl, table_oids, fun c h => ⟨getCipher_oid h, (table_facts c h).2.1⟩, fun _ _ h => getCipher_some h⟩

/-- Keys and IVs are those of RFC 8018 (PBKDF1) and RFC 7292, for every password, salt and count from 1 on. -/
theorem C138_key_derivation (E : Env) (c : Cph) (hc : c ∈ table) (password salt : Bytes) (r : Nat) (hr : 1 ≤ r) :
    derive E c password salt r = .ok (Spec.keyIv E c password salt r) := by
  rw [derive_eq E c hc, Int.toNat_natCast, Nat.max_eq_right hr]

/-- A count of zero or below, which no standard knows, acts as one. -/
theorem C138_count_unchecked_violated (E : Env) (c : Cph) (hc : c ∈ table) (password salt : Bytes) (r : Int) (hr : r ≤ 0) :
    derive E c password salt r = derive E c password salt 1 := by
  rw [derive_eq E c hc, derive_eq E c hc, show r.toNat = 0 by omega]; rfl

theorem encrypt_eq (E : Env) (c : Cph) (hc : c ∈ table) (n : Nat) (rand password data : Bytes) (hr : n ≤ rand.length) :
    ∃ ct, Spec.Sealed E c (Spec.keyIv E c password (rand.take n) 2048) data ct ∧
      encrypt E { c with saltSize := n } rand password data = .ok (ct, encSeq (encOct (rand.take n) ++ encInt 2048)) := by
  obtain ⟨hit, -, -, -, -, -, hrc4, halg⟩ := table_facts c hc
  obtain ⟨l1, l2⟩ := keyIv_len E c hc password (rand.take n) 2048 (by decide)
  have hder : derive E { c with saltSize := n } password (rand.take n) c.iter = .ok (Spec.keyIv E c password (rand.take n) 2048) := by
    have : derive E { c with saltSize := n } password (rand.take n) c.iter = derive E c password (rand.take n) c.iter := rfl
    rw [this, derive_eq E c hc, hit]; rfl
  simp only [encrypt, readFull, if_neg (Nat.not_lt.2 hr), Res.bind, hder, Spec.Sealed]
  cases ha : c.alg with
  | none =>
    have := hrc4 ha
    refine ⟨_, rfl, ?_⟩
    simp only [l1, hit]
    rw [if_neg (by omega)]; rfl
  | some a =>
    obtain ⟨h1, h2⟩ := halg a ha
    obtain ⟨b, hb, hbs⟩ := E.C.ok a (Spec.keyIv E c password (rand.take n) 2048).1 (by rw [l1]; exact h1)
    refine ⟨_, ⟨b, hb, hbs, rfl⟩, ?_⟩
    have hdv : (Md.pad .cbc c.blockSize data).length % b.bs = 0 := by
      rw [h2, hbs, Md.pad, Md.padded, if_pos rfl, pad_len data a.bs a.bs_pos.1]; exact Nat.mul_mod_left _ _
    simp only [hb, l2, hit]
    rw [if_neg (by rw [h2, hbs]; simp), if_neg (by rw [hdv]; simp), ← enc_pad_eq .cbc b _ data (by rw [l2, h2, hbs])]
    rw [h2, hbs]

/-- `EncryptPKCS8PrivateKey` (`fmt`, the password as BMPString where PKCS #12 wants it) and `EncryptPKCS8Privatekey` write the file that the RFCs define: the scheme's identifier, the next random
bytes as salt, 2048 rounds, and the body under the derived key; the salt size may have been changed with `WithSaltSize`.  They fail only when the random source runs dry or
the password has no BMPString form. -/
theorem C138_encrypt_exact (E : Env) (fmt : Bool) (c : Cph) (hc : c ∈ table) (n : Nat) (rand type data password : Bytes) :
    (∀ pw, formatPw fmt c password = .ok pw → n ≤ rand.length →
      ∃ ct, Spec.Sealed E c (Spec.keyIv E c pw (rand.take n) 2048) data ct ∧
        encryptPkcs8 E fmt rand type data password (some { c with saltSize := n }) = .ok ⟨type, [], Spec.file c.oid (rand.take n) (intBytes 2048) [] [] ct [] []⟩) ∧
    ((formatPw fmt c password = .err ∨ rand.length < n) → encryptPkcs8 E fmt rand type data password (some { c with saltSize := n }) = .err) ∧
    (formatPw fmt c password = .err ∨ ∃ pw, formatPw fmt c password = .ok pw) := by
  have hf : formatPw fmt { c with saltSize := n } password = formatPw fmt c password := rfl
  have htot : formatPw fmt c password = .err ∨ ∃ pw, formatPw fmt c password = .ok pw := by
    rw [formatPw]
    split
    · simp only [bmpZ, bmpString]
      by_cases hx : ((Verif.Utf8.runes password).any fun r => decide (0x10000 ≤ r)) = true
      · rw [if_pos hx]; exact .inl rfl
      · rw [if_neg hx]; exact .inr ⟨_, rfl⟩
    · exact .inr ⟨_, rfl⟩
  refine ⟨fun pw hpw hr => ?_, fun h => ?_, htot⟩
  · obtain ⟨ct, hs, he⟩ := encrypt_eq E c hc n rand pw data hr
    refine ⟨ct, hs, ?_⟩
    simp only [encryptPkcs8, hf, hpw, Res.bind, he]
    simp [Spec.file, encSeq, encOct, encInt, encOID]
  · rcases htot with h1 | ⟨pw, h1⟩
    · simp only [encryptPkcs8, hf, h1, Res.bind]
    · rcases h with h | h
      · rw [h1] at h; exact absurd h (by simp)
      · simp only [encryptPkcs8, hf, h1, Res.bind, encrypt, readFull, if_pos h]

theorem decrypt_eq (E : Env) (c : Cph) (hc : c ∈ table) (pw params ct salt : Bytes) (iter : Int) (hp : parseParams params = some (salt, iter)) :
    (decrypt E c pw params ct = .err ∨ ∃ out, decrypt E c pw params ct = .ok out) ∧
    ∀ out, decrypt E c pw params ct = .ok out ↔ Spec.Opened E c (Spec.keyIv E c pw salt (max 1 iter.toNat)) ct out := by
  obtain ⟨-, -, -, -, -, -, hrc4, halg⟩ := table_facts c hc
  obtain ⟨l1, l2⟩ := keyIv_len E c hc pw salt (max 1 iter.toNat) (by omega)
  simp only [decrypt, hp, derive_eq E c hc, Res.bind, Spec.Opened]
  cases ha : c.alg with
  | none =>
    have := hrc4 ha
    simp only [l1]
    rw [if_neg (by omega)]
    exact ⟨.inr ⟨_, rfl⟩, fun out => ⟨fun h => (Res.ok.inj h).symm, fun h => by rw [h]; rfl⟩⟩
  | some a =>
    obtain ⟨h1, h2⟩ := halg a ha
    obtain ⟨b, hb, hbs⟩ := E.C.ok a (Spec.keyIv E c pw salt (max 1 iter.toNat)).1 (by rw [l1]; exact h1)
    simp only [hb, l2, h2, hbs, ne_eq, not_true, if_false, Md.openCt, Md.padded, if_true, dec_eq, Res.ok.injEq, exists_eq_left']
    by_cases hd : ct.length % a.bs = 0
    · simp only [hd, not_true, if_false]
      by_cases hn : ct = []
      · have : unpadOrAll (Spec.plain .cbc b (Spec.keyIv E c pw salt (max 1 iter.toNat)).2 ct) = .err := by
          rw [hn]; simp [Spec.plain, Mode.chunks_nil, Spec.cbcDec, unpadOrAll]
        rw [this]
        exact ⟨.inl rfl, fun out => ⟨fun h => absurd h (by simp), fun h => absurd hn h.1⟩⟩
      · have hlen : (Spec.plain .cbc b (Spec.keyIv E c pw salt (max 1 iter.toNat)).2 ct).length = ct.length := by
          rw [← dec_eq]
          exact Md.dec_length .cbc b _ _ (by rw [l2, h2, hbs]) fun _ => by rw [hbs]; exact Nat.dvd_of_mod_eq_zero hd
        have hpn : Spec.plain .cbc b (Spec.keyIv E c pw salt (max 1 iter.toNat)).2 ct ≠ [] := by
          intro h; rw [h] at hlen; exact hn (List.length_eq_zero_iff.1 hlen.symm)
        refine ⟨.inr (unpadOrAll_total _ hpn), fun out => ?_⟩
        rw [unpadOrAll_iff _ hpn]
        exact ⟨fun h => ⟨hn, Nat.dvd_of_mod_eq_zero hd, h⟩, fun h => h.2.2⟩
    · simp only [hd, not_false_eq_true, if_true, true_or, true_and]
      refine fun out => ⟨fun h => absurd h (by simp), fun h => absurd (Nat.mod_eq_zero_of_dvd h.2.1) hd⟩

/-- Every outcome of `DecryptPKCS8PrivateKey` and `DecryptPKCS8Privatekey`, for all bytes and passwords: they return `out` exactly when the bytes are such a file of a registered scheme, with any bytes
behind the known fields, and `out` is what the body holds under the key that the RFCs define for the salt and count in the file.  They never panic: everything else is an error. -/
theorem C138_decrypt_exact (E : Env) (fmt : Bool) (data password : Bytes) :
    (decryptPkcs8 E fmt data password = .err ∨ ∃ out, decryptPkcs8 E fmt data password = .ok out) ∧
    ∀ out, decryptPkcs8 E fmt data password = .ok out ↔
      ∃ c ∈ table, ∃ salt count x1 x2 ct x3 x4 iter pw, data = Spec.file c.oid salt count x1 x2 ct x3 x4 ∧
        (tlv 0x30#8 (tlv 0x06#8 (oidBytes c.oid) ++ tlv 0x30#8 (tlv 0x04#8 salt ++ tlv 0x02#8 count ++ x1) ++ x2) ++ tlv 0x04#8 ct ++ x3).length < 2 ^ 31 ∧
        parseInt count = some iter ∧ -(2 ^ 63) ≤ iter ∧ iter < 2 ^ 63 ∧ formatPw fmt c password = .ok pw ∧
        Spec.Opened E c (Spec.keyIv E c pw salt (max 1 iter.toNat)) ct out := by
  -- the direction from a file
  have back : ∀ out, (∃ c ∈ table, ∃ salt count x1 x2 ct x3 x4 iter pw, data = Spec.file c.oid salt count x1 x2 ct x3 x4 ∧
        (tlv 0x30#8 (tlv 0x06#8 (oidBytes c.oid) ++ tlv 0x30#8 (tlv 0x04#8 salt ++ tlv 0x02#8 count ++ x1) ++ x2) ++ tlv 0x04#8 ct ++ x3).length < 2 ^ 31 ∧
        parseInt count = some iter ∧ -(2 ^ 63) ≤ iter ∧ iter < 2 ^ 63 ∧ formatPw fmt c password = .ok pw ∧
        Spec.Opened E c (Spec.keyIv E c pw salt (max 1 iter.toNat)) ct out) → decryptPkcs8 E fmt data password = .ok out := by
    rintro out ⟨c, hc, salt, ci, x1, x2, ct, x3, x4, iter, pw, rfl, hl, hi, hi1, hi2, hpw, ho⟩
    have hpl : (encOct salt ++ tlv 0x02#8 ci ++ x1).length < 2 ^ 31 := by
      simp only [List.length_append, tlv, List.length_cons, encOct] at hl ⊢; omega
    have hpp := parseParams_enc salt ci x1 [] iter hpl hi hi1 hi2
    rw [List.append_nil] at hpp
    rw [decryptPkcs8, parsePki_file c hc salt ci x1 x2 ct x3 x4 hl]
    simp only [getCipher_oid hc, hpw, Res.bind]
    exact ((decrypt_eq E c hc pw _ ct salt iter hpp).2 out).2 ho
  have fwd : decryptPkcs8 E fmt data password = .err ∨ ∃ out, decryptPkcs8 E fmt data password = .ok out ∧
      ∃ c ∈ table, ∃ salt count x1 x2 ct x3 x4 iter pw, data = Spec.file c.oid salt count x1 x2 ct x3 x4 ∧
        (tlv 0x30#8 (tlv 0x06#8 (oidBytes c.oid) ++ tlv 0x30#8 (tlv 0x04#8 salt ++ tlv 0x02#8 count ++ x1) ++ x2) ++ tlv 0x04#8 ct ++ x3).length < 2 ^ 31 ∧
        parseInt count = some iter ∧ -(2 ^ 63) ≤ iter ∧ iter < 2 ^ 63 ∧ formatPw fmt c password = .ok pw ∧
        Spec.Opened E c (Spec.keyIv E c pw salt (max 1 iter.toNat)) ct out := by
    rw [decryptPkcs8]
    cases hp : parsePki data with
    | none => exact .inl rfl
    | some q =>
      obtain ⟨oid, params, ct⟩ := q
      simp only
      cases hg : getCipher oid with
      | none => exact .inl rfl
      | some c =>
        obtain ⟨hc, rfl⟩ := getCipher_some hg
        simp only
        rcases (C138_encrypt_exact E fmt c hc 0 [] [] [] password).2.2 with hpw | ⟨pw, hpw⟩
        · rw [hpw]; exact .inl rfl
        · rw [hpw]
          simp only [Res.bind]
          cases hpp : parseParams params with
          | none => left; rw [decrypt, hpp]
          | some w =>
            obtain ⟨salt, ci, x1, x2, x3, x4, iter, h1, h2, h3, h4, h5, h6⟩ := parsePki_some hp (by rw [hpp]; simp)
            obtain ⟨htot, hiff⟩ := decrypt_eq E c hc pw params ct salt iter h2
            rcases htot with ht | ⟨out, ht⟩
            · exact .inl ht
            · exact .inr ⟨out, ht, c, hc, salt, ci, x1, x2, ct, x3, x4, iter, pw, h1, h6, h3, h4, h5, hpw, (hiff out).1 ht⟩
  refine ⟨?_, fun out => ⟨fun h => ?_, back out⟩⟩
  · rcases fwd with h | ⟨out, h, _⟩
    · exact .inl h
    · exact .inr ⟨out, h⟩
  · rcases fwd with h' | ⟨out', h', hr⟩
    · rw [h] at h'; exact absurd h' (by simp)
    · rw [h] at h'
      have := Res.ok.inj h'
      subst this
      exact hr

theorem sealed_opened (E : Env) (c : Cph) (hc : c ∈ table) (P S data ct : Bytes) (h : Spec.Sealed E c (Spec.keyIv E c P S 2048) data ct) :
    Spec.Opened E c (Spec.keyIv E c P S 2048) ct data ∧ ct.length ≤ data.length + 16 := by
  obtain ⟨-, -, -, -, -, -, -, halg⟩ := table_facts c hc
  obtain ⟨l1, l2⟩ := keyIv_len E c hc P S 2048 (by decide)
  unfold Spec.Sealed at h
  unfold Spec.Opened
  cases ha : c.alg with
  | none =>
    rw [ha] at h
    simp only at h ⊢
    subst h
    have e := rc4Xor_rc4Xor E (Spec.keyIv E c P S 2048).1 data
    rw [rc4Xor, rc4Xor_len, rc4Xor] at e
    have el : (xorb data ((List.range data.length).map (E.rc4 (Spec.keyIv E c P S 2048).1))).length = data.length := by simp
    rw [el]
    exact ⟨e.symm, by omega⟩
  | some a =>
    rw [ha] at h
    simp only at h ⊢
    obtain ⟨b, hb, hbs, rfl⟩ := h
    obtain ⟨h1, h2⟩ := halg a ha
    obtain ⟨p1, p2, p3⟩ := a.bs_pos
    have hiv : (Spec.keyIv E c P S 2048).2.length = b.bs := by rw [l2, h2, hbs]
    have hopen := Md.openCt_enc .cbc b (Spec.keyIv E c P S 2048).2 data hiv (by omega)
    have hlen := Md.enc_length .cbc b (Spec.keyIv E c P S 2048).2 (Md.pad .cbc b.bs data) hiv (fun _ => by
      rw [Md.pad, Md.padded, if_pos rfl, pad_len data b.bs (by omega)]; exact Nat.dvd_mul_left _ _)
    have hpl : (Md.pad .cbc b.bs data).length = (data.length / b.bs + 1) * b.bs := by rw [Md.pad, Md.padded, if_pos rfl, pad_len data b.bs (by omega)]
    rw [enc_pad_eq .cbc b _ data hiv] at hopen hlen
    rw [hpl] at hlen
    have hdiv : data.length / b.bs * b.bs ≤ data.length := Nat.div_mul_le_self _ _
    rw [Nat.succ_mul] at hlen
    have hdvd : a.bs ∣ (Spec.body .cbc b (Spec.keyIv E c P S 2048).2 data).length := by
      rw [hlen, hbs]; exact Nat.dvd_add (Nat.dvd_mul_left _ _) (Nat.dvd_refl _)
    have hne : Spec.body .cbc b (Spec.keyIv E c P S 2048).2 data ≠ [] := by
      intro h; rw [h] at hlen; simp at hlen; omega
    have hpn : Spec.plain .cbc b (Spec.keyIv E c P S 2048).2 (Spec.body .cbc b (Spec.keyIv E c P S 2048).2 data) ≠ [] := by
      intro h
      have := Md.dec_length .cbc b (Spec.keyIv E c P S 2048).2 (Spec.body .cbc b (Spec.keyIv E c P S 2048).2 data) hiv (fun _ => by rw [hbs]; exact hdvd)
      rw [dec_eq, h] at this
      exact hne (List.length_eq_zero_iff.1 this.symm)
    refine ⟨⟨hne, hdvd, b, hb, ?_⟩, by omega⟩
    rw [Md.openCt, Md.padded, if_pos rfl, hbs, if_neg (by rw [Nat.mod_eq_zero_of_dvd hdvd]; simp), dec_eq] at hopen
    exact (unpadOrAll_iff _ hpn _).1 hopen

/-- What was encrypted is decrypted again with the same password, whatever the random source delivered and whatever salt size was set; also through `DecryptPEMBlock`
when the block has the type of RFC 7468. -/
theorem C138_roundtrip (E : Env) (fmt : Bool) (c : Cph) (hc : c ∈ table) (n : Nat) (hn : n < 2 ^ 20) (rand type data password : Bytes) (hd : data.length < 2 ^ 30) (blk : Pem1.Block)
    (h : encryptPkcs8 E fmt rand type data password (some { c with saltSize := n }) = .ok blk) :
    decryptPkcs8 E fmt blk.bytes password = .ok data ∧ blk.type = type ∧
    (fmt = true → type = str "ENCRYPTED PRIVATE KEY" → decryptPEMBlock E blk password = .ok data) := by
  obtain ⟨hok, herr, htot⟩ := C138_encrypt_exact E fmt c hc n rand type data password
  have hor : ¬ (formatPw fmt c password = .err ∨ rand.length < n) := by
    intro h'; rw [herr h'] at h; exact absurd h (by simp)
  rw [not_or] at hor
  rcases htot with h' | ⟨pw, hpw⟩
  · exact absurd h' hor.1
  obtain ⟨ct, hs, he⟩ := hok pw hpw (by omega)
  rw [he] at h
  have := Res.ok.inj h
  subst this
  obtain ⟨ho, hctl⟩ := sealed_opened E c hc pw (rand.take n) data ct hs
  have hdec : decryptPkcs8 E fmt (Spec.file c.oid (rand.take n) (intBytes 2048) [] [] ct [] []) password = .ok data := by
    refine ((C138_decrypt_exact E fmt _ password).2 data).2 ⟨c, hc, rand.take n, intBytes 2048, [], [], ct, [], [], 2048, pw, rfl, ?_, ?_, by omega, by omega, hpw, ?_⟩
    · have hol := (table_facts c hc).2.2.1
      have hi : (intBytes 2048).length ≤ 3 := intBytes_length_le (by decide)
      have hsl : (rand.take n).length ≤ n := by rw [List.length_take]; omega
      have t1 := tlv_length (tag := 0x06#8) (c := oidBytes c.oid) (by omega)
      have t2 := tlv_length (tag := 0x04#8) (c := rand.take n) (by omega)
      have t3 := tlv_length (tag := 0x02#8) (c := intBytes 2048) (by omega)
      have t4 := tlv_length (tag := 0x30#8) (c := tlv 0x04#8 (rand.take n) ++ tlv 0x02#8 (intBytes 2048) ++ []) (by simp only [List.length_append, List.length_nil]; omega)
      have t5 := tlv_length (tag := 0x30#8) (c := tlv 0x06#8 (oidBytes c.oid) ++ tlv 0x30#8 (tlv 0x04#8 (rand.take n) ++ tlv 0x02#8 (intBytes 2048) ++ []) ++ [])
        (by simp only [List.length_append, List.length_nil] at t4 ⊢; omega)
      have t6 := tlv_length (tag := 0x04#8) (c := ct) (by omega)
      simp only [List.length_append, List.length_nil] at t4 t5 ⊢
      omega
    · exact parseInt_intBytes 2048
    · exact ho
  refine ⟨hdec, rfl, ?_⟩
  rintro rfl rfl
  rw [decryptPEMBlock, if_neg (by simp [Pem1.header]), if_pos rfl]
  exact hdec

/-- A wrong password is not detected: a file whose body is one or more whole blocks (or any body, with RC4) opens under every password that has the right form. -/
theorem C138_wrong_password_undetected_violated (E : Env) (c : Cph) (hc : c ∈ table) (salt ct : Bytes) (hs : salt.length < 2 ^ 20) (hct : ct.length < 2 ^ 30) (hne : ct ≠ [])
    (hd : c.blockSize ∣ ct.length) (password : Bytes) :
    ∃ out, decryptPkcs8 E false (Spec.file c.oid salt (intBytes 2048) [] [] ct [] []) password = .ok out := by
  obtain ⟨-, -, hol, -, -, -, -, halg⟩ := table_facts c hc
  have hlen : (tlv 0x30#8 (tlv 0x06#8 (oidBytes c.oid) ++ tlv 0x30#8 (tlv 0x04#8 salt ++ tlv 0x02#8 (intBytes 2048) ++ []) ++ []) ++ tlv 0x04#8 ct ++ []).length < 2 ^ 31 := by
    have hi : (intBytes 2048).length ≤ 3 := intBytes_length_le (by decide)
    have t1 := tlv_length (tag := 0x06#8) (c := oidBytes c.oid) (by omega)
    have t2 := tlv_length (tag := 0x04#8) (c := salt) (by omega)
    have t3 := tlv_length (tag := 0x02#8) (c := intBytes 2048) (by omega)
    have t4 := tlv_length (tag := 0x30#8) (c := tlv 0x04#8 salt ++ tlv 0x02#8 (intBytes 2048) ++ []) (by simp only [List.length_append, List.length_nil]; omega)
    have t5 := tlv_length (tag := 0x30#8) (c := tlv 0x06#8 (oidBytes c.oid) ++ tlv 0x30#8 (tlv 0x04#8 salt ++ tlv 0x02#8 (intBytes 2048) ++ []) ++ [])
      (by simp only [List.length_append, List.length_nil] at t4 ⊢; omega)
    have t6 := tlv_length (tag := 0x04#8) (c := ct) (by omega)
    simp only [List.length_append, List.length_nil] at t4 t5 ⊢
    omega
  have hex : ∃ out, Spec.Opened E c (Spec.keyIv E c password salt 2048) ct out := by
    obtain ⟨l1, l2⟩ := keyIv_len E c hc password salt 2048 (by decide)
    unfold Spec.Opened
    cases ha : c.alg with
    | none => exact ⟨_, rfl⟩
    | some a =>
      obtain ⟨h1, h2⟩ := halg a ha
      obtain ⟨b, hb, hbs⟩ := E.C.ok a (Spec.keyIv E c password salt 2048).1 (by rw [l1]; exact h1)
      have hpn : Spec.plain .cbc b (Spec.keyIv E c password salt 2048).2 ct ≠ [] := by
        intro h
        have := Md.dec_length .cbc b (Spec.keyIv E c password salt 2048).2 ct (by rw [l2, h2, hbs]) (fun _ => by rw [hbs, ← h2]; exact hd)
        rw [dec_eq, h] at this
        exact hne (List.length_eq_zero_iff.1 this.symm)
      obtain ⟨out, ho⟩ := unpadOrAll_total _ hpn
      exact ⟨out, hne, by rw [← h2]; exact hd, b, hb, (unpadOrAll_iff _ hpn _).1 ho⟩
  obtain ⟨out, ho⟩ := hex
  exact ⟨out, ((C138_decrypt_exact E false _ password).2 out).2 ⟨c, hc, salt, intBytes 2048, [], [], ct, [], [], 2048, password, rfl, hlen, parseInt_intBytes 2048, by omega, by omega,
    by simp [formatPw], ho⟩⟩

/-- RFC 8018, A.3: the salt of PBES1 is 8 bytes.  The three RC2 schemes of PKCS #5 write 20. -/
theorem C138_rc2_salt_size_violated : (table.filter fun c => c.kdf = .pbkdf1 ∧ c.saltSize ≠ 8).map (fun c => (c.oid, c.saltSize)) =
    [([1, 2, 840, 113549, 1, 5, 4], 20), ([1, 2, 840, 113549, 1, 5, 6], 20), ([1, 2, 840, 113549, 1, 5, 11], 20)] := by decide +kernel

/-! ### The hypotheses can be met -/

def toyHash (n : Nat) (h : 0 < n) : HashFn where
  f _ := List.replicate n 7
  size := n
  block := 64
  pos := h
  len m := List.length_replicate

def toyEnv : Env := ⟨toyCiphers, toyHash 16 (by decide), toyHash 16 (by decide), toyHash 20 (by decide), rfl, rfl, rfl, fun k i => k.getD (i % k.length) 0 + BitVec.ofNat 8 i⟩

def twofishScheme : Cph := ⟨[1, 2, 840, 113549, 1, 12, 21], some .twofish, .sha1, .pkcs12, 16, 32, 16, 2048, true⟩

example : twofishScheme ∈ table := by decide +kernel

/-- A key size changed with `WithKeySize` is not written into the file: what such a cipher encrypts, the library cannot decrypt. -/
theorem C138_with_key_size_violated :
    (match encryptPkcs8 toyEnv true rnd (str "K") (str "hello") (str "pw") (some { twofishScheme with keySize := 16 }) with
     | .ok b => decide (decryptPkcs8 toyEnv true b.bytes (str "pw") ≠ .ok (str "hello"))
     | _ => false) = true := by decide +kernel

example : (match encryptPkcs8 toyEnv true rnd (str "ENCRYPTED PRIVATE KEY") (str "hello") (str "pw") (some twofishScheme) with
     | .ok b => decide (decryptPEMBlock toyEnv b (str "pw") = .ok (str "hello"))
     | _ => false) = true := by decide +kernel

end Verif.Pkcs
