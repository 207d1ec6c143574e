import Verif.Pkcs.Pbes2File
import Verif.Pkcs.Pbes2Pem
import Verif.Pkcs.Pbes1Props
/-
C139: private keys encrypted with PBES2 (/repo/pkcs8/pbes2, /repo/pkcs/pbes2, /repo/pkcs8/pkcs8.go).
-/
namespace Verif.Pkcs.Pbes2
open Verif.Asn1 Verif.Kdf Spec

/-- The key derivation gives a key of the size asked for. -/
theorem kdfKey_len (E : Env) (o : KdfOpts) (pw salt : Bytes) (size : Nat) (key : Bytes) (h : KdfKey E o pw salt size key) : key.length = size := by
  cases o with
  | pbkdf2 sm s it hh => rw [show key = _ from h]; exact pbkdf2_len _ _ _ _ _
  | scrypt s n r p => exact E.scrypt_len _ _ _ _ _ _ _ h

theorem derive_some (E : Env) (o : KdfOpts) (hv : kdfValid o) (kl : Bool) (pw salt : Bytes) (size : Nat) (hs : 1 ≤ size) (key : Bytes) (hk : KdfKey E o pw salt size key) :
    o.derive E kl pw salt size = .ok (key, kdfParams o (if kl then some size else none) salt) := by
  cases o with
  | pbkdf2 sm s it h => rw [derive_pbkdf2 E sm s it h hv kl pw salt size hs, show key = _ from hk]
  | scrypt s n r p => rw [derive_scrypt E s n r p kl pw salt size hs, show E.scrypt pw salt n r p size = .ok key from hk]; rfl

/-- For every cipher, options, password, data and randomness: the file is the one that RFC 8018 describes, with a body that is the encryption of the data under the key derived with the salt; salt and IV
are the first random bytes.  An unknown hash function, and too little randomness, is an error. -/
theorem C139_encrypt_exact (E : Env) (c : Cph) (hc : c ∈ table ++ variants) (o : KdfOpts) (rand type data pw : Bytes) :
    (∀ key, kdfValid o → o.saltSize + ivSize2 c ≤ rand.length → KdfKey E o pw (rand.take o.saltSize) c.keySize key → ((∃ g s a n, c.kind = .aead g s a n) → data.length < 2 ^ 24) →
      ∃ ct, Sealed2 E c key ((rand.drop o.saltSize).take (ivSize2 c)) data ct ∧ ct.length ≤ data.length + 16 ∧
        encryptPkcs8 E rand type data pw (some c) (some o) = .ok ⟨type, [], file2 o.pbesOid o.oid (kdfParams o (if c.keyLen then some c.keySize else none) (rand.take o.saltSize)) c.oid
          (params2 c ((rand.drop o.saltSize).take (ivSize2 c))) [] [] [] [] ct [] []⟩) ∧
    (¬ kdfValid o ∨ rand.length < o.saltSize → encryptPkcs8 E rand type data pw (some c) (some o) = .err) ∧
    (∀ key, KdfKey E o pw (rand.take o.saltSize) c.keySize key → rand.length < o.saltSize + ivSize2 c → encryptPkcs8 E rand type data pw (some c) (some o) = .err) := by
  have hg := all_good c hc
  have hks : 1 ≤ c.keySize := by
    unfold good at hg
    simp only [Bool.and_eq_true, decide_eq_true_eq] at hg
    exact hg.1.2
  refine ⟨fun key hv hr hk hl => ?_, fun h => ?_, fun key hk hr => ?_⟩
  · have hkl := kdfKey_len E o _ _ _ _ hk
    obtain ⟨ct, h1, h2, h3⟩ := encrypt_ok E c hg key (rand.drop o.saltSize) data hkl (by rw [List.length_drop]; omega) hl
    refine ⟨ct, h1, h2, ?_⟩
    rw [encryptPkcs8, readFull, if_neg (by omega)]
    simp only [Res.bind]
    rw [derive_some E o hv c.keyLen pw _ _ hks key hk]
    simp only [h3, file2, encSeq, encOct, encOID, List.append_nil]
  · rw [encryptPkcs8, readFull]
    by_cases hr : rand.length < o.saltSize
    · rw [if_pos hr]; rfl
    · rw [if_neg hr]
      simp only [Res.bind]
      rw [derive_invalid E o (h.resolve_right hr)]
  · rw [encryptPkcs8, readFull]
    by_cases hr' : rand.length < o.saltSize
    · rw [if_pos hr']; rfl
    · rw [if_neg hr']
      simp only [Res.bind]
      by_cases hv : kdfValid o
      · rw [derive_some E o hv c.keyLen pw _ _ hks key hk]
        simp only
        rw [encrypt_short E c hg key _ data (kdfKey_len E o _ _ _ _ hk) (by rw [List.length_drop]; omega)]
      · rw [derive_invalid E o hv]

/-- Without a cipher or without key derivation options there is an error. -/
theorem C139_missing_options (E : Env) (rand type data pw : Bytes) (c : Option Cph) (o : Option KdfOpts) (h : c = none ∨ o = none) : encryptPkcs8 E rand type data pw c o = .err := by
  rcases h with rfl | rfl
  · rfl
  · cases c <;> rfl

/-- The numbers of the options fit the type `int`. -/
def fits : KdfOpts → Prop
  | .pbkdf2 _ s it _ => s < 2 ^ 20 ∧ it < 2 ^ 63
  | .scrypt s n r p => s < 2 ^ 20 ∧ n < 2 ^ 63 ∧ r < 2 ^ 63 ∧ p < 2 ^ 63

theorem deriveKey_params (E : Env) (o : KdfOpts) (hv : kdfValid o) (hf : fits o) (kl : Option Nat) (hkl : ∀ n, kl = some n → 1 ≤ n ∧ n < 2 ^ 20) (pw salt : Bytes) (hs : salt.length < 2 ^ 20) (size : Nat) :
    (∀ key, KdfKey E o pw salt (kl.getD size) key → deriveKey E o.oid (kdfParams o kl salt) pw size = .ok key) ∧ (kdfParams o kl salt).length < 2 ^ 21 := by
  cases o with
  | pbkdf2 sm s it h =>
    obtain ⟨e, l⟩ := derivePbkdf2_params E sm s it h hv kl pw salt size hkl hf.2 hs
    refine ⟨fun key hk => ?_, l⟩
    rw [show key = _ from hk]
    cases sm with
    | false => exact e
    | true =>
      show deriveKey E (oidPbkdf2 true) _ pw size = _
      rw [deriveKey, if_neg (by decide), if_pos rfl]; exact e
  | scrypt s n r p =>
    obtain ⟨e, l⟩ := deriveScrypt_params E s n r p kl pw salt size hkl hf.2.1 hf.2.2.1 hf.2.2.2 hs
    refine ⟨fun key hk => ?_, l⟩
    show deriveKey E oidScrypt _ pw size = _
    rw [deriveKey, if_neg (by decide), if_neg (by decide), if_pos rfl, e]
    exact hk

/-- What was encrypted with any of the 88 ciphers and any options is decrypted again with the same password. -/
theorem C139_roundtrip (E : Env) (c : Cph) (hc : c ∈ table ++ variants) (o : KdfOpts) (hf : fits o) (rand type data pw : Bytes) (hd : data.length < 2 ^ 29)
    (hl : (∃ g s a n, c.kind = .aead g s a n) → data.length < 2 ^ 24) (blk : Pem1.Block) (h : encryptPkcs8 E rand type data pw (some c) (some o) = .ok blk) :
    decryptPkcs8 E blk.bytes pw = .ok data ∧ blk.type = type ∧ blk.headers = [] := by
  obtain ⟨h1, h2, h3⟩ := C139_encrypt_exact E c hc o rand type data pw
  have hg := all_good c hc
  have hks : 1 ≤ c.keySize ∧ c.keySize ≤ 32 := by
    unfold good at hg
    simp only [Bool.and_eq_true, decide_eq_true_eq] at hg
    exact ⟨hg.1.2, hg.2⟩
  have hv : kdfValid o := by
    by_contra hv
    rw [h2 (.inl hv)] at h; exact absurd h (by simp)
  have hr : o.saltSize ≤ rand.length := by
    by_contra hr
    rw [h2 (.inr (by omega))] at h; exact absurd h (by simp)
  obtain ⟨key, hk⟩ : ∃ key, KdfKey E o pw (rand.take o.saltSize) c.keySize key := by
    cases o with
    | pbkdf2 sm s it hh => exact ⟨_, rfl⟩
    | scrypt s n r p =>
      rw [encryptPkcs8, readFull, if_neg (by omega)] at h
      simp only [Res.bind] at h
      rw [derive_scrypt E s n r p _ _ _ _ hks.1] at h
      simp only [KdfKey]
      cases hS : E.scrypt pw (rand.take (KdfOpts.scrypt s n r p).saltSize) n r p c.keySize with
      | ok k => exact ⟨k, rfl⟩
      | _ => rw [hS] at h; exact absurd h (by simp [Res.bind])
  have hr2 : o.saltSize + ivSize2 c ≤ rand.length := by
    by_contra hr2
    rw [h3 key hk (by omega)] at h; exact absurd h (by simp)
  obtain ⟨ct, hs, hcl, he⟩ := h1 key hv hr2 hk hl
  rw [h] at he
  have he := Res.ok.inj he
  subst he
  refine ⟨?_, rfl, rfl⟩
  obtain ⟨d, -, hd1, hd2⟩ := all_reads c hc
  have hivl : ((rand.drop o.saltSize).take (ivSize2 c)).length = ivSize2 c := by rw [List.length_take, List.length_drop]; omega
  have hsalt : (rand.take o.saltSize).length < 2 ^ 20 := by
    have : o.saltSize < 2 ^ 20 := by cases o <;> exact hf.1
    rw [List.length_take]; omega
  obtain ⟨k1, k2⟩ := deriveKey_params E o hv hf (if c.keyLen then some c.keySize else none) (by
      intro n hn
      split at hn
      · simp only [Option.some.injEq] at hn; omega
      · simp at hn) pw _ hsalt d.keySize
  rw [decrypt_file E o c d hg hd1 _ _ _ _ _ (by rw [hivl]; exact iv_small c hg) (by omega) k2, k1 key ?_]
  · exact decrypt_sealed E c d hg hd2 key _ data ct (kdfKey_len E o _ _ _ _ hk) hivl hs
  · have : (if c.keyLen = true then some c.keySize else none).getD d.keySize = c.keySize := by
      unfold reads at hd2
      simp only [Bool.and_eq_true, Bool.or_eq_true, beq_iff_eq] at hd2
      rcases hd2.2 with h | h
      · rw [if_pos h]; rfl
      · split
        · rfl
        · exact h.symm
    rw [this]; exact hk

theorem kdfFile_len {E : Env} {oid : List Nat} {params pw key : Bytes} {size : Nat} (h : KdfFile E oid params pw size key) (hs : 1 ≤ size) : 1 ≤ key.length := by
  rcases h with ⟨sm, salt, ci, iter, x, x', kl, hash, -, -, -, -, rfl⟩ | ⟨salt, cn, cr, cp, n, r, p, x, x', kl, -, -, -, -, -, -, h⟩
  · rw [pbkdf2_len]; split <;> omega
  · rw [E.scrypt_len _ _ _ _ _ _ _ h]; split <;> omega

/-- What a decryption result means, for every input and password: the input is an EncryptedPrivateKeyInfo with PBES2, it names a registered cipher, the key is derived from the password as the file says, and
the result is the plaintext of the body (for the AEAD ciphers: the body is exactly the sealing of the result).  When scrypt gives keys or errors, the function gives results or errors, save for RC2 with a
key of more than 128 bytes. -/
theorem C139_decrypt_sound (E : Env) (data pw : Bytes) :
    (∀ out, decryptPkcs8 E data pw = .ok out → ∃ sm kdf kp enc ep x1 x2 x3 x4 ct x5 x6 c key, data = file2 (oidPbes2 sm) kdf kp enc ep x1 x2 x3 x4 ct x5 x6 ∧
      getCipher enc ep = some c ∧ KdfFile E kdf kp pw c.keySize key ∧ Opened2 E c key ep ct out) ∧
    ((∀ p s N r q n, Total (E.scrypt p s N r q n)) → Total (decryptPkcs8 E data pw) ∨
      ∃ sm kdf kp enc ep x1 x2 x3 x4 ct x5 x6 c key, data = file2 (oidPbes2 sm) kdf kp enc ep x1 x2 x3 x4 ct x5 x6 ∧ getCipher enc ep = some c ∧ (∃ v, c.kind = .rc2 v) ∧
        KdfFile E kdf kp pw c.keySize key ∧ 128 < key.length ∧ decryptPkcs8 E data pw = .panic) := by
  rw [decryptPkcs8]
  have bad : (∀ out, (.err : Res Bytes) = .ok out → ∃ sm kdf kp enc ep x1 x2 x3 x4 ct x5 x6 c key, data = file2 (oidPbes2 sm) kdf kp enc ep x1 x2 x3 x4 ct x5 x6 ∧
      getCipher enc ep = some c ∧ KdfFile E kdf kp pw c.keySize key ∧ Opened2 E c key ep ct out) ∧
    ((∀ p s N r q n, Total (E.scrypt p s N r q n)) → Total (.err : Res Bytes) ∨
      ∃ sm kdf kp enc ep x1 x2 x3 x4 ct x5 x6 c key, data = file2 (oidPbes2 sm) kdf kp enc ep x1 x2 x3 x4 ct x5 x6 ∧ getCipher enc ep = some c ∧ (∃ v, c.kind = .rc2 v) ∧
        KdfFile E kdf kp pw c.keySize key ∧ 128 < key.length ∧ (.err : Res Bytes) = .panic) := ⟨fun _ h => absurd h (by simp), fun _ => .inl (.inl rfl)⟩
  split
  · exact bad
  rename_i oid params ct hp
  split
  · exact bad
  rename_i ho
  have ho : ∃ sm, oid = oidPbes2 sm := by
    by_cases h : oid = oidPbes2 false
    · exact ⟨_, h⟩
    · exact ⟨true, by by_contra h'; exact ho ⟨h, h'⟩⟩
  obtain ⟨sm, rfl⟩ := ho
  split
  · exact bad
  rename_i s y1 h1
  split
  · exact bad
  rename_i kdf kp s1 h2
  split
  · exact bad
  rename_i enc ep x3 h3
  split
  · exact bad
  rename_i c hgc
  obtain ⟨x4, x5, x6, e⟩ := parsePki_raw hp
  obtain ⟨x1, e2⟩ := algField_some h2
  obtain ⟨x2, e3⟩ := algField_some h3
  have hfile : data = file2 (oidPbes2 sm) kdf kp enc ep x1 x2 x3 (y1 ++ x4) ct x5 x6 := by
    rw [e, (element_some h1).1, e2, e3]
    simp [file2]
  have hg := all_good c (List.mem_append_left _ (getCipher_mem hgc))
  have hks : 1 ≤ c.keySize := by
    have hg := hg
    unfold good at hg
    simp only [Bool.and_eq_true, decide_eq_true_eq] at hg
    exact hg.1.2
  obtain ⟨k1, k2⟩ := deriveKey_some E kdf kp pw c.keySize
  have main : ∀ key, deriveKey E kdf kp pw c.keySize = .ok key → (∃ v, c.kind = .rc2 v) ∧ 128 < key.length ∧ decrypt E c key ep ct = .panic ∨
      Total (decrypt E c key ep ct) ∧ ∀ out, decrypt E c key ep ct = .ok out → Opened2 E c key ep ct out := by
    intro key hk
    by_cases hrc : (∃ v, c.kind = .rc2 v) ∧ 128 < key.length
    · obtain ⟨⟨v, hkd⟩, hlk⟩ := hrc
      have hb := E.C.bad .rc2 key (by simp [Alg.keyOk]; omega)
      rw [if_pos rfl] at hb
      have ht : decrypt E c key ep ct = .panic ∨ decrypt E c key ep ct = .err := by
        rw [decrypt, hkd]
        simp only [hb, Res.bind]
        repeat' split
        all_goals first | exact .inr rfl | exact .inl rfl
      rcases ht with h | h
      · exact .inl ⟨⟨v, hkd⟩, hlk, h⟩
      · exact .inr ⟨.inl h, fun out h' => by rw [h] at h'; exact absurd h' (by simp)⟩
    · exact .inr (decrypt_some E c hg key ep ct fun hv => ⟨kdfFile_len (k1 key hk) hks, by by_contra hlt; exact hrc ⟨hv, by omega⟩⟩)
  refine ⟨fun out h => ?_, fun hS => ?_⟩
  · cases hdk : deriveKey E kdf kp pw c.keySize with
    | ok key =>
      rw [hdk] at h
      simp only [Res.bind] at h
      rcases main key hdk with ⟨-, -, h'⟩ | ⟨-, h'⟩
      · rw [h'] at h; exact absurd h (by simp)
      · exact ⟨sm, kdf, kp, enc, ep, x1, x2, x3, y1 ++ x4, ct, x5, x6, c, key, hfile, hgc, k1 key hdk, h' out h⟩
    | _ => rw [hdk] at h; exact absurd h (by simp [Res.bind])
  · have ht : Total (deriveKey E kdf kp pw c.keySize) := by
      by_cases hsc : kdf = oidScrypt
      · rw [hsc, deriveKey, if_neg (by decide), if_neg (by decide), if_pos rfl, deriveScrypt]
        repeat' split
        all_goals first | exact .inl rfl | exact hS _ _ _ _ _ _
      · exact k2 hsc
    rcases ht with h | ⟨key, h⟩
    · rw [h]; exact .inl (.inl rfl)
    · rw [h]
      simp only [Res.bind]
      rcases main key h with ⟨a, b, d⟩ | ⟨a, -⟩
      · exact .inr ⟨sm, kdf, kp, enc, ep, x1, x2, x3, y1 ++ x4, ct, x5, x6, c, key, hfile, hgc, a, k1 key h, b, d⟩
      · exact .inl a

/-! ### pkcs8.EncryptPEMBlock and pkcs8.DecryptPEMBlock -/

theorem oids_apart : (∀ c ∈ Pbes1.table, known2 c.oid = false ∧ (Pbes1.getCipher c.oid).isSome = true ∧ c.oid ≠ oidPbes2 false ∧ c.oid ≠ oidPbes2 true) ∧
    (∀ c ∈ table ++ variants, known2 c.oid = true ∧ (Pbes1.getCipher c.oid).isSome = false) := by decide +kernel

/-- The two families of ciphers do not mix: whichever way a PBES2 cipher is handed over, PBES2 is used (with PBKDF2, 16 bytes of salt, 10000 rounds of HMAC-SHA1 when only a cipher is given), and a PBES1 cipher
gives PBES1. -/
theorem C139_pem_dispatch (E1 : Pbes1.Env) (E2 : Env) (rand type data pw : Bytes) :
    (∀ c ∈ table ++ variants, encryptPEM E1 E2 rand type data pw (.c2 c) = encryptPkcs8 E2 rand type data pw (some c) (some (.pbkdf2 false 16 10000 0)) ∧
      ∀ o, encryptPEM E1 E2 rand type data pw (.opts2 c o) = encryptPkcs8 E2 rand type data pw (some c) o) ∧
    (∀ c ∈ Pbes1.table, encryptPEM E1 E2 rand type data pw (.c1 c) = Pbes1.encryptPkcs8 E1 true rand type data pw (some c) ∧
      ∀ o, encryptPEM E1 E2 rand type data pw (.opts1 c o) = Pbes1.encryptPkcs8 E1 true rand type data pw (some c)) := by
  refine ⟨fun c hc => ?_, fun c hc => ?_⟩
  · obtain ⟨h1, h2⟩ := oids_apart.2 c hc
    exact ⟨by rw [encryptPEM, h1]; rfl, fun o => by rw [encryptPEM, h2]; rfl⟩
  · obtain ⟨h1, h2, -⟩ := oids_apart.1 c hc
    exact ⟨by rw [encryptPEM, h1]; rfl, fun o => by rw [encryptPEM, h2]; rfl⟩

theorem pbes1_refused (E : Env) {b params enc : Bytes} {oid : List Nat} (h : Pbes1.parsePki b = some (oid, params, enc)) (h1 : oid ≠ oidPbes2 false) (h2 : oid ≠ oidPbes2 true) (pw : Bytes) :
    decryptPkcs8 E b pw = .err := by
  rw [decryptPkcs8, h]
  simp only
  rw [if_pos ⟨h1, h2⟩]

/-- A block of either family is decrypted again by `pkcs8.DecryptPEMBlock`, which finds out the family by itself. -/
theorem C139_pem_roundtrip (E1 : Pbes1.Env) (E2 : Env) (rand data pw : Bytes) (blk : Pem1.Block) :
    (∀ c ∈ table ++ variants, ∀ o, fits o → data.length < 2 ^ 29 → ((∃ g s a n, c.kind = .aead g s a n) → data.length < 2 ^ 24) →
      (encryptPEM E1 E2 rand (str "ENCRYPTED PRIVATE KEY") data pw (.opts2 c (some o)) = .ok blk ∨ encryptPEM E1 E2 rand (str "ENCRYPTED PRIVATE KEY") data pw (.c2 c) = .ok blk) →
        decryptPEM E1 E2 blk pw = .ok data) ∧
    (∀ c ∈ Pbes1.table, data.length < 2 ^ 30 → encryptPEM E1 E2 rand (str "ENCRYPTED PRIVATE KEY") data pw (.c1 c) = .ok blk → decryptPEM E1 E2 blk pw = .ok data) := by
  obtain ⟨d2, d1⟩ := C139_pem_dispatch E1 E2 rand (str "ENCRYPTED PRIVATE KEY") data pw
  refine ⟨fun c hc o hf hd hl h => ?_, fun c hc hd h => ?_⟩
  · have fin : decryptPkcs8 E2 blk.bytes pw = .ok data ∧ blk.type = str "ENCRYPTED PRIVATE KEY" ∧ blk.headers = [] := by
      rcases h with h | h
      · rw [(d2 c hc).2] at h
        exact C139_roundtrip E2 c hc o hf rand _ data pw hd hl blk h
      · rw [(d2 c hc).1] at h
        exact C139_roundtrip E2 c hc (.pbkdf2 false 16 10000 0) ⟨by decide, by decide⟩ rand _ data pw hd hl blk h
    obtain ⟨f1, f2, f3⟩ := fin
    rw [decryptPEM, if_neg (by rw [Pem1.header, f3]; simp), if_pos f2, f1]
  · rw [(d1 c hc).1] at h
    have hn : c.saltSize < 2 ^ 20 := by
      have : ∀ c ∈ Pbes1.table, c.saltSize ≤ 1000 := by decide +kernel
      have := this c hc
      omega
    obtain ⟨r1, r2, -⟩ := C138_roundtrip E1 true c hc c.saltSize hn rand _ data pw hd blk h
    have hh : blk.headers = [] := by
      rw [Pbes1.encryptPkcs8] at h
      cases hp : Pbes1.formatPw true c pw with
      | ok p =>
        rw [hp] at h
        simp only [Res.bind] at h
        cases hE : Pbes1.encrypt E1 c rand p data with
        | ok q => rw [hE] at h; simp only at h; rw [← Res.ok.inj h]
        | _ => rw [hE] at h; exact absurd h (by simp)
      | _ => rw [hp] at h; exact absurd h (by simp [Res.bind])
    obtain ⟨c', hc', salt, count, x1, x2, ct, x3, x4, iter, pw', hfile, hlen, -⟩ := ((C138_decrypt_exact E1 true blk.bytes pw).2 data).1 r1
    obtain ⟨-, -, o1, o2⟩ := oids_apart.1 c' hc'
    have hpk := Pbes1.parsePki_file c' hc' salt count x1 x2 ct x3 x4 hlen
    rw [← hfile] at hpk
    rw [decryptPEM, if_neg (by rw [Pem1.header, hh]; simp), if_pos r2, pbes1_refused E2 hpk o1 o2]
    exact r1

/-! ### Where the code falls short -/

/-- `Opts` without a cipher stops the program. -/
theorem C139_nil_cipher_panics_violated (E1 : Pbes1.Env) (E2 : Env) (rand type data pw : Bytes) (kdf : Option KdfOpts) : encryptPEM E1 E2 rand type data pw (.optsNil kdf) = .panic := rfl

/-- A file that names RC2 and asks for a key of more than 128 bytes stops the program, whatever the password. -/
theorem C139_rc2_key_length_panics_violated (E : Env) (n : Nat) (hn : 128 < n) (hn' : n < 2 ^ 20) (salt iv ct pw : Bytes) (hs : salt.length < 2 ^ 20) (hiv : iv.length = 8) (hct : ct.length < 2 ^ 30) :
    decryptPkcs8 E (file2 (oidPbes2 false) (oidPbkdf2 false) (tlv 0x30#8 (tlv 0x04#8 salt ++ encInt 1 ++ encInt n ++ [])) [1, 2, 840, 113549, 3, 2]
      (tlv 0x30#8 (encInt 58 ++ tlv 0x04#8 iv)) [] [] [] [] ct [] []) pw = .panic := by
  have hm : (⟨"RC2CBC", [1, 2, 840, 113549, 3, 2], .rc2 58, 16, true⟩ : Cph) ∈ table ++ variants := by decide +kernel
  obtain ⟨d, -, hd1, hd2⟩ := all_reads _ hm
  have hdk : ∃ v, d.kind = .rc2 v := by
    unfold reads at hd2
    simp only [Bool.and_eq_true] at hd2
    cases hk : d.kind with
    | rc2 v => exact ⟨v, rfl⟩
    | _ => rw [hk] at hd2; simp at hd2
  obtain ⟨v, hdk⟩ := hdk
  obtain ⟨k1, k2⟩ := deriveKey_params E (.pbkdf2 false 0 1 0) (.inl rfl) ⟨by decide, by decide⟩ (some n) (by intro m hm; simp only [Option.some.injEq] at hm; omega) pw salt hs d.keySize
  have h := decrypt_file E (.pbkdf2 false 0 1 0) _ d (all_good _ hm) hd1 (some n) salt iv ct pw (by omega) hct k2
  have k := k1 _ rfl
  rw [k] at h
  refine Eq.trans h ?_
  simp only [Res.bind]
  have hb := E.C.bad .rc2 (Kdf.Spec.pbkdf2 ((E.prf (kdfHash false 0)).f pw) (E.prf (kdfHash false 0)).size salt (max 1 1) ((some n).getD d.keySize)) (by
    rw [pbkdf2_len]; simp [Alg.keyOk]; omega)
  rw [if_pos rfl] at hb
  have l2 := tlv_le 0x04#8 iv (by omega)
  have l1 := encInt_le 58 (by omega)
  rw [decrypt, hdk]
  simp only [params2]
  rw [element_nil_app _ _ (by rw [List.length_append]; omega)]
  simp only
  rw [int64Field_enc 58 _ (by omega)]
  have e := octField_oct iv [] (by omega)
  rw [List.append_nil] at e
  simp only [e]
  rw [if_neg (by omega), hb]
  rfl

/-- In all modes but GCM and CCM a wrong password is not noticed: a body of whole blocks is decrypted under every password. -/
theorem C139_wrong_password_undetected_violated (E : Env) (c : Cph) (hc : c ∈ table) (m : Md) (a : Alg) (hk : c.kind = .mode m a) (o : KdfOpts) (ho : ∃ sm s it h, o = .pbkdf2 sm s it h) (hv : kdfValid o)
    (hf : fits o) (salt iv ct : Bytes) (hs : salt.length < 2 ^ 20) (hiv : iv.length = ivSize2 c) (hct : ct.length < 2 ^ 30) (hne : ct ≠ []) (hd : a.bs ∣ ct.length) (pw : Bytes) :
    ∃ out, decryptPkcs8 E (file2 o.pbesOid o.oid (kdfParams o (if c.keyLen then some c.keySize else none) salt) c.oid (params2 c iv) [] [] [] [] ct [] []) pw = .ok out := by
  have hm := List.mem_append_left variants hc
  have hg := all_good c hm
  obtain ⟨d, -, hd1, hd2⟩ := all_reads c hm
  have hks : 1 ≤ c.keySize ∧ c.keySize ≤ 32 := by
    unfold good at hg
    simp only [Bool.and_eq_true, decide_eq_true_eq] at hg
    exact ⟨hg.1.2, hg.2⟩
  obtain ⟨k1, k2⟩ := deriveKey_params E o hv hf (if c.keyLen then some c.keySize else none) (by
      intro n hn
      split at hn
      · simp only [Option.some.injEq] at hn; omega
      · simp at hn) pw salt hs d.keySize
  have hsz : (if c.keyLen = true then some c.keySize else none).getD d.keySize = c.keySize := by
    unfold reads at hd2
    simp only [Bool.and_eq_true, Bool.or_eq_true, beq_iff_eq] at hd2
    rcases hd2.2 with h | h
    · rw [if_pos h]; rfl
    · split
      · rfl
      · exact h.symm
  rw [hsz] at k1
  obtain ⟨key, hkey⟩ : ∃ key, KdfKey E o pw salt c.keySize key := by
    obtain ⟨sm, s, it, h, rfl⟩ := ho
    exact ⟨_, rfl⟩
  rw [decrypt_file E o c d hg hd1 _ _ _ _ _ (by rw [hiv]; exact iv_small c hg) hct k2, k1 key hkey]
  simp only [Res.bind]
  have hdk : d.kind = .mode m a := by
    unfold reads at hd2
    simp only [Bool.and_eq_true] at hd2
    rw [hk] at hd2
    cases hk' : d.kind with
    | mode m' a' =>
      rw [hk'] at hd2
      simp only [Bool.and_eq_true, beq_iff_eq] at hd2
      rw [hd2.1.1, hd2.1.2]
    | _ => rw [hk'] at hd2; simp at hd2
  have hkl := kdfKey_len E o _ _ _ _ hkey
  obtain ⟨b, hb, hbs⟩ := E.C.ok a key (by
    unfold good at hg
    simp only [Bool.and_eq_true, decide_eq_true_eq] at hg
    rw [hk] at hg
    simp only [Bool.and_eq_true] at hg
    rw [hkl]; exact hg.1.1.1.1.1)
  have opened : ∀ iv' : Bytes, (m ≠ .ecb → iv'.length = b.bs) → ∃ out, m.openCt b iv' ct = .ok out := by
    intro iv' hi
    obtain ⟨-, h2⟩ := openCt_iff m b iv' ct hi
    have hex : ∃ out, OpenedMd m b iv' ct out := by
      unfold OpenedMd
      by_cases hp : m.padded = true
      · have hpn : plain m b iv' ct ≠ [] := by
          intro h
          have hl : (plain m b iv' ct).length = ct.length := by
            by_cases hme : m = .ecb
            · subst hme
              rw [← dec_eq]
              have := Md.dec_length .ecb b (List.replicate b.bs 0#8) ct (by simp) (fun _ => by rw [hbs]; exact hd)
              exact this
            · rw [← dec_eq]
              exact Md.dec_length m b iv' ct (hi hme) (fun _ => by rw [hbs]; exact hd)
          rw [h] at hl
          exact hne (List.length_eq_zero_iff.1 hl.symm)
        obtain ⟨out, ho⟩ := unpadOrAll_total _ hpn
        exact ⟨out, by rw [if_pos hp]; exact ⟨hne, by rw [hbs]; exact hd, (unpadOrAll_iff _ hpn _).1 ho⟩⟩
      · exact ⟨_, by rw [if_neg hp]⟩
    obtain ⟨out, ho⟩ := hex
    exact ⟨out, (h2 out).2 ho⟩
  rw [decrypt, hdk]
  unfold ivSize2 at hiv
  unfold params2
  rw [hk] at hiv ⊢
  cases m with
  | ecb =>
    simp only [hb, Res.bind]
    exact opened [] (fun h => absurd rfl h)
  | _ =>
    simp only at hiv ⊢
    have ha := a.bs_pos
    have e := octField_oct iv [] (by omega)
    rw [List.append_nil] at e
    rw [e]
    simp only [hb, Res.bind, hiv, hbs, ne_eq, not_true, if_false]
    exact opened iv (fun _ => by rw [hiv, hbs])

/-- The parameters of RFC 8018, B.2.4, for RC5 (version, rounds, block size in bits, IV) are refused under every key. -/
theorem C139_rc5_standard_refused_violated (E : Env) (c : Cph) (w n : Nat) (hk : c.kind = .rc5 w n) (key ct iv : Bytes) (rounds bits : Nat) (h1 : rounds ≤ 127) (h2 : bits ≤ 128) (h3 : iv.length ≤ 16) :
    decrypt E c key (tlv 0x30#8 (encInt 16 ++ encInt rounds ++ encInt bits ++ tlv 0x04#8 iv)) ct = .err := by
  have l1 := encInt_le 16 (by omega)
  have l2 := encInt_le rounds (by omega)
  have l3 := encInt_le bits (by omega)
  have l4 := tlv_le 0x04#8 iv (by omega)
  rw [decrypt, hk]
  simp only
  rw [element_nil_app _ _ (by simp only [List.length_append]; omega)]
  simp only [List.append_assoc]
  rw [int64Field_enc 16 _ (by omega)]
  simp only
  rw [int64Field_enc rounds _ (by omega)]
  simp only
  have : octField (encInt bits ++ tlv 0x04#8 iv) = none := by
    simp [octField, element, encInt, tlv]
  rw [this]

/-- The identifiers that KISA gives to SEED in CFB (5) and OFB (6) mode are taken for the other mode. -/
theorem C139_seed_modes_swapped_violated (p : Bytes) : ((getCipher [1, 2, 410, 200004, 1, 5] p).map (·.kind), (getCipher [1, 2, 410, 200004, 1, 6] p).map (·.kind)) =
    (some (.mode .ofb .seed), some (.mode .cfb .seed)) := by
  have h : ((table.find? (·.oid == [1, 2, 410, 200004, 1, 5])).map (·.kind), (table.find? (·.oid == [1, 2, 410, 200004, 1, 6])).map (·.kind)) =
    (some (.mode .ofb .seed), some (.mode .cfb .seed)) := by decide +kernel
  rw [← h, getCipher, getCipher, if_neg (by decide), if_neg (by decide)]

/-- A misspelt cipher name silently gives AES-256-CBC, a misspelt hash name SHA-1. -/
theorem C139_unknown_name_violated (n : String) : (n ∉ (table ++ variants).map (·.name) → cipherFromName n = cipherFromName "AES256CBC") ∧ (n ∉ hashNames → hashFromName n = hashFromName "SHA1") := by
  refine ⟨fun h => ?_, fun h => ?_⟩
  · have e : (table ++ variants).find? (·.name == n) = none := by
      rw [List.find?_eq_none]
      intro c hc hn
      exact h (List.mem_map.2 ⟨c, hc, by simpa using hn⟩)
    have e2 : ∃ c, (table ++ variants).find? (·.name == "AES256CBC") = some c := Option.isSome_iff_exists.1 (by decide +kernel)
    obtain ⟨c, e2⟩ := e2
    rw [cipherFromName, e]
    simp only [cipherFromName, e2]
  · rw [hashFromName, if_neg h]; decide +kernel

/-- Data of 2^24 bytes and more stop the program with the CCM ciphers. -/
theorem C139_ccm_large_panics_violated (E : Env) (c : Cph) (hc : c ∈ table) (s : Bool) (a : Alg) (n : Nat) (hk : c.kind = .aead .ccm s a n) (rand type data pw : Bytes) (o : KdfOpts) (hv : kdfValid o)
    (hr : o.saltSize + 12 ≤ rand.length) (key : Bytes) (hkey : KdfKey E o pw (rand.take o.saltSize) c.keySize key) (hd : 2 ^ 24 ≤ data.length) :
    encryptPkcs8 E rand type data pw (some c) (some o) = .panic := by
  have hg := all_good c (List.mem_append_left _ hc)
  unfold good at hg
  simp only [Bool.and_eq_true, decide_eq_true_eq, hk, beq_iff_eq] at hg
  obtain ⟨⟨⟨⟨⟨⟨⟨⟨g1, g2⟩, g3⟩, g4⟩, -⟩, -⟩, -⟩, g5⟩, -⟩ := hg
  subst g3
  rw [encryptPkcs8, readFull, if_neg (by omega)]
  simp only [Res.bind]
  rw [derive_some E o hv c.keyLen pw _ _ g5 key hkey]
  obtain ⟨b, hb, hbs⟩ := E.C.ok a key (by rw [kdfKey_len E o _ _ _ _ hkey]; exact g1)
  obtain ⟨A, hA, -, hl⟩ := E.aead_ok .ccm b 12 (by omega) g4
  have hl := hl rfl
  simp only [encrypt, hk, hb, Res.bind, readFull]
  rw [if_neg (by rw [List.length_drop]; omega)]
  simp only [hA]
  rw [A.sealF_big _ _ (by rw [hl]; omega)]

/-! ### The hypotheses can be met -/

def toyPrf : Prf := ⟨fun _ _ => List.replicate 20 7, 20, by decide, fun _ _ => List.length_replicate⟩

def toyAead (lim : Nat) : AeadFn where
  sealF _ p := if p.length ≤ lim then .ok (p ++ List.replicate 16 9#8) else .panic
  openF _ c := if 16 ≤ c.length ∧ c.length - 16 ≤ lim ∧ c.drop (c.length - 16) = List.replicate 16 9#8 then .ok (c.take (c.length - 16)) else .err
  limit := lim
  sealF_ok n p h := ⟨_, by rw [if_pos h], by simp⟩
  sealF_big n p h := by rw [if_neg (by omega)]
  openF_iff n c p := by
    constructor
    · intro h
      split at h
      · rename_i hc
        have h := Res.ok.inj h
        have hl : p.length = c.length - 16 := by rw [← h, List.length_take]; omega
        refine ⟨by omega, ?_⟩
        rw [if_pos (by omega), ← hc.2.2, ← h, List.take_append_drop]
      · exact absurd h (by simp)
    · rintro ⟨hl, h⟩
      rw [if_pos hl] at h
      have h := Res.ok.inj h
      subst h
      rw [if_pos (by simp [hl])]
      simp
  openF_total n c := by
    split
    · exact .inr ⟨_, rfl⟩
    · exact .inl rfl

def toyEnv2 : Env where
  C := toyCiphers
  rc5 k w r := if h : rc5Ok k.length w r = true then .ok (shiftCipher (w / 4) (by simp [rc5Ok] at h; omega) (k.foldl (· + ·) 3)) else .err
  rc5_ok k w r h := ⟨_, by rw [dif_pos h], rfl⟩
  rc5_bad k w r h := by rw [dif_neg (by simp [h])]
  gost k := if k.length = 32 then .ok (shiftCipher 8 (by decide) (k.foldl (· + ·) 5)) else .err
  gost_ok k h := ⟨_, by rw [if_pos h], rfl⟩
  gost_bad k h := by rw [if_neg h]
  aead g b n := if nonceOk g n = true then .ok (toyAead (if g = .ccm then 2 ^ (8 * (15 - n)) - 1 else 2 ^ 30)) else .err
  aead_ok g b n hb h := by
    refine ⟨_, by rw [if_pos h], fun hn => ?_, fun hg => by rw [if_pos hg]; rfl⟩
    subst hn
    cases g <;> simp [toyAead]
  aead_bad g b n hb h := by rw [if_neg (by simp [h])]
  prf _ := toyPrf
  scrypt _ _ _ _ _ n := .ok (List.replicate n 3)
  scrypt_len _ _ _ _ _ _ _ h := by rw [← Res.ok.inj h]; simp

def named (n : String) : Cph := ((table ++ variants).find? (·.name == n)).getD ⟨"", [], .gost, 0, false⟩

example : ∀ n ∈ ["AES256CBC", "SM4GCM", "AES128CCMIv", "RC2_40CBC", "RC5_256CBC", "GostCipher", "Seed256OFB", "SM4ECB"],
    named n ∈ table ++ variants ∧ ∀ o ∈ [(⟨false, 4⟩ : Bool × Nat), (true, 9), (false, 0)],
      (match encryptPEM Verif.Pkcs.toyEnv toyEnv2 (List.replicate 64 5) (str "ENCRYPTED PRIVATE KEY") (str "hello") (str "pw") (.opts2 (named n) (some (.pbkdf2 o.1 16 2 o.2))) with
       | .ok b => decide (decryptPEM Verif.Pkcs.toyEnv toyEnv2 b (str "pw") = .ok (str "hello"))
       | _ => false) = true := by decide +kernel

example : (match encryptPkcs8 toyEnv2 (List.replicate 64 5) (str "K") (str "hello") (str "pw") (some (named "AES192GCM")) (some (.scrypt 8 4 8 1)) with
       | .ok b => decide (decryptPkcs8 toyEnv2 b.bytes (str "pw") = .ok (str "hello"))
       | _ => false) = true := by decide +kernel

/-- Everything that is asked of the options holds for the default ones. -/
example : kdfValid defKdf ∧ fits defKdf := ⟨.inl rfl, by decide, by decide⟩

end Verif.Pkcs.Pbes2
