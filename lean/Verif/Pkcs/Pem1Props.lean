import Verif.Pkcs.Pem1Lemmas
/-
C137: PEM blocks encrypted with a password (/repo/pkcs1).
`P` is any set of block ciphers, `md5` any hash function; `Spec` is Pem1Spec.lean.
-/
namespace Verif.Pkcs
open Verif.Kdf Verif.Padding.Spec Pem1

/-- `DeriveKey` is the key derivation of OpenSSL, for every password, salt and size. -/
theorem C137_derive_key (md5 : HashFn) (password salt : Bytes) (n : Nat) :
    ∃ key, deriveKey md5 password salt n = .ok key ∧ Spec.IsOpensslKey md5.f password salt n key := by
  refine ⟨_, deriveKey_eq md5 password salt n, outBytes_length _ _ _ md5.pos fun i => by rw [Spec.opensslD, md5.len], (n + md5.size - 1) / md5.size, ?_⟩
  rw [outBytes, Kdf.chunks, List.flatMap_def]
  exact List.take_prefix _ _

/-- `IsOpensslKey` leaves no choice. -/
theorem C137_derive_key_unique (md5 : HashFn) (password salt : Bytes) (n : Nat) (k k' : Bytes)
    (h : Spec.IsOpensslKey md5.f password salt n k) (h' : Spec.IsOpensslKey md5.f password salt n k') : k = k' := by
  obtain ⟨hl, a, ha⟩ := h
  obtain ⟨hl', b, hb⟩ := h'
  rw [← List.flatMap_def] at ha hb
  have key : ∀ a b : Nat, a ≤ b → (List.range a).flatMap (fun i => Spec.opensslD md5.f password salt (i + 1)) <+:
      (List.range b).flatMap (fun i => Spec.opensslD md5.f password salt (i + 1)) := fun a b hab =>
    have ⟨r, hr⟩ := chunks_prefix (fun i => Spec.opensslD md5.f password salt (i + 1)) a b hab
    ⟨r, hr.symm⟩
  rcases Nat.le_total a b with hab | hab
  · exact (List.prefix_of_prefix_length_le (ha.trans (key a b hab)) hb (by omega)).eq_of_length (by omega)
  · exact (List.prefix_of_prefix_length_le ha (hb.trans (key b a hab)) (by omega)).eq_of_length (by omega)

/-- The 28 registered ciphers have different names, and each is found under its name; `GetPEMCipher` knows the same 28. -/
theorem C137_cipher_names :
    table.length = 28 ∧ (table.Pairwise fun a b => a.name ≠ b.name) ∧ (∀ c ∈ table, getCipher c.name = some c) ∧
    (∀ n c, getCipher n = some c → c ∈ table ∧ c.name = n) ∧
    (shortNames.map fun n => (getPEMCipher (str n)).map (·.name)) = table.map fun c => some c.name :=
  ⟨by decide +kernel, table_names, fun _ h => getCipher_name h, fun _ _ h => getCipher_some h, by decide +kernel⟩

/-- For every cipher of the table, password, message and random source, `EncryptPEMBlock` either fails because the source has less than one block, or gives the
block with the type that was asked for, the two headers of RFC 1421, and the body that SP 800-38A defines under OpenSSL's key; the IV is the next block of random bytes,
and its first 8 bytes are the salt. -/
theorem C137_encrypt_exact (P : Ciphers) (md5 : HashFn) (c : Cph) (hc : c ∈ table) (rand type data password : Bytes) :
    (rand.length < c.alg.bs → encryptBlock P md5 rand type data password (some c) = .err) ∧
    (c.alg.bs ≤ rand.length → ∃ key b, Spec.IsOpensslKey md5.f password (rand.take 8) c.keySize key ∧ P.new c.alg key = .ok b ∧ b.bs = c.alg.bs ∧
      encryptBlock P md5 rand type data password (some c) =
        .ok ⟨type, [(str "Proc-Type", str "4,ENCRYPTED"), (str "DEK-Info", c.name ++ str "," ++ hexEnc (rand.take b.bs))],
             Spec.body c.md b (rand.take b.bs) data⟩) := by
  obtain ⟨hs, hb, hk, -, -, -⟩ := table_ok c hc
  obtain ⟨h1, h2, h3⟩ := c.alg.bs_pos
  constructor
  · intro h
    rw [encryptBlock, encrypt, readFull, hb, if_pos h]; rfl
  · intro h
    obtain ⟨key, hkey, hspec⟩ := C137_derive_key md5 password (rand.take 8) c.keySize
    obtain ⟨b, hnew, hbs⟩ := P.ok c.alg key (by rw [hspec.1]; exact hk)
    refine ⟨key, b, hspec, hnew, hbs, ?_⟩
    have hl : (rand.take c.alg.bs).length = c.alg.bs := by simp; omega
    have ht : (rand.take c.alg.bs).take 8 = rand.take 8 := by rw [List.take_take, Nat.min_eq_left h3]
    simp only [encryptBlock, encrypt, readFull, hb, if_neg (Nat.not_lt.2 h), Res.bind, hs, hl, if_neg (Nat.not_lt.2 h3), ht, hkey, hnew, hbs, ne_eq, not_true,
      if_false]
    rw [← hbs, enc_pad_eq c.md b _ data (by rw [hbs, hl])]

/-- Every outcome of `DecryptPEMBlock`, for every block and password: it returns `out` exactly when the `DEK-Info` header is a registered name, a comma and the hexadecimal
text of one block of IV, and `out` is the plaintext of the body under OpenSSL's key; for CBC the body must be one or more whole blocks, and padding is taken off when there is
one.  It never panics: all other blocks give an error. -/
theorem C137_decrypt_exact (P : Ciphers) (md5 : HashFn) (blk : Block) (password : Bytes) :
    (decryptBlock P md5 blk password = .err ∨ ∃ out, decryptBlock P md5 blk password = .ok out) ∧
    ∀ out, decryptBlock P md5 blk password = .ok out ↔
      ∃ c ∈ table, ∃ hexIV iv key b, header blk (str "DEK-Info") = some (c.name ++ str "," ++ hexIV) ∧ Fernet.hexDec hexIV = some iv ∧ iv.length = c.alg.bs ∧
        Spec.IsOpensslKey md5.f password (iv.take 8) c.keySize key ∧ P.new c.alg key = .ok b ∧
        (c.md ≠ .cbc → out = Spec.plain c.md b iv blk.bytes) ∧
        (c.md = .cbc → blk.bytes ≠ [] ∧ c.alg.bs ∣ blk.bytes.length ∧ Spec.Strip (Spec.plain .cbc b iv blk.bytes) out) := by
  -- the decryption once the header is understood
  have core : ∀ c ∈ table, ∀ iv : Bytes, iv.length = c.alg.bs → ∃ key b, Spec.IsOpensslKey md5.f password (iv.take 8) c.keySize key ∧ P.new c.alg key = .ok b ∧
      (decrypt P md5 c password iv blk.bytes = .err ∨ ∃ out, decrypt P md5 c password iv blk.bytes = .ok out) ∧
      ∀ out, decrypt P md5 c password iv blk.bytes = .ok out ↔
        ((c.md ≠ .cbc → out = Spec.plain c.md b iv blk.bytes) ∧
         (c.md = .cbc → blk.bytes ≠ [] ∧ c.alg.bs ∣ blk.bytes.length ∧ Spec.Strip (Spec.plain .cbc b iv blk.bytes) out)) := by
    intro c hc iv hiv
    obtain ⟨hs, hb, hk, -, he, -⟩ := table_ok c hc
    obtain ⟨h1, h2, h3⟩ := c.alg.bs_pos
    obtain ⟨key, hkey, hspec⟩ := C137_derive_key md5 password (iv.take 8) c.keySize
    obtain ⟨b, hnew, hbs⟩ := P.ok c.alg key (by rw [hspec.1]; exact hk)
    refine ⟨key, b, hspec, hnew, ?_⟩
    have hd : decrypt P md5 c password iv blk.bytes =
        if c.md.padded = true ∧ blk.bytes.length % c.alg.bs ≠ 0 then .err else c.md.openCt b iv blk.bytes := by
      simp only [decrypt, hs, hiv, if_neg (Nat.not_lt.2 h3), hkey, Res.bind, hnew, hbs, ne_eq, not_true, if_false]
    rw [hd]
    by_cases hm : c.md = .cbc
    · have hp : c.md.padded = true := by rw [hm]; rfl
      simp only [hp, true_and, Md.openCt, if_true, hbs]
      by_cases hdv : blk.bytes.length % c.alg.bs = 0
      · simp only [hdv, ne_eq, not_true, if_false]
        rw [dec_eq, hm]
        by_cases hn : blk.bytes = []
        · have : unpadOrAll (Spec.plain .cbc b iv blk.bytes) = .err := by
            rw [hn]; simp [Spec.plain, Mode.chunks_nil, Spec.cbcDec, unpadOrAll]
          rw [this]
          exact ⟨.inl rfl, fun out => ⟨fun h => absurd h (by simp), fun h => absurd hn (h.2 rfl).1⟩⟩
        · have hlen : (Spec.plain .cbc b iv blk.bytes).length = blk.bytes.length := by
            rw [← dec_eq]
            exact Md.dec_length .cbc b iv _ (by rw [hiv, hbs]) fun _ => by rw [hbs]; exact Nat.dvd_of_mod_eq_zero hdv
          have hpn : Spec.plain .cbc b iv blk.bytes ≠ [] := by
            intro h; rw [h] at hlen; exact hn (List.length_eq_zero_iff.1 hlen.symm)
          refine ⟨.inr (unpadOrAll_total _ hpn), fun out => ?_⟩
          rw [unpadOrAll_iff _ hpn]
          constructor
          · exact fun h => ⟨fun h' => absurd rfl h', fun _ => ⟨hn, Nat.dvd_of_mod_eq_zero hdv, h⟩⟩
          · exact fun h => (h.2 rfl).2.2
      · simp only [ne_eq, hdv, not_false_eq_true, if_true, true_or, true_and]
        intro out
        constructor
        · intro h; exact absurd h (by simp)
        · intro h; exact absurd (Nat.mod_eq_zero_of_dvd (h.2 hm).2.1) hdv
    · have hp : c.md.padded = false := by
        cases hmd : c.md <;> simp_all [Md.padded]
      simp only [hp, Bool.false_eq_true, false_and, if_false, Md.openCt, dec_eq]
      refine ⟨.inr ⟨_, rfl⟩, fun out => ?_⟩
      rw [Res.ok.injEq]
      exact ⟨fun h => ⟨fun _ => h.symm, fun h' => absurd h' hm⟩, fun h => (h.1 hm).symm⟩
  -- the header
  rw [decryptBlock]
  cases hh : header blk (str "DEK-Info") with
  | none => exact ⟨.inl rfl, fun out => ⟨fun h => absurd h (by simp), fun ⟨_, _, _, _, _, _, h, _⟩ => absurd h (by simp)⟩⟩
  | some dek =>
    have hcomma : ∀ (n r : Bytes), n ++ str "," ++ r = n ++ 44#8 :: r := fun n r => by
      rw [List.append_assoc]; rfl
    simp only [Option.some.injEq]
    cases hcut : cut dek with
    | none =>
      refine ⟨.inl rfl, fun out => ⟨fun h => absurd h (by simp), ?_⟩⟩
      rintro ⟨c, hc, hexIV, _, _, _, rfl, _⟩
      rw [hcomma, cut_append _ _ (table_ok c hc).2.2.2.1] at hcut
      exact absurd hcut (by simp)
    | some p =>
      obtain ⟨mode, hexIV⟩ := p
      have hdek := cut_some hcut
      have huniq : ∀ c ∈ table, ∀ h', dek = c.name ++ str "," ++ h' → c.name = mode ∧ h' = hexIV := by
        intro c hc h' e
        rw [e, hcomma, cut_append _ _ (table_ok c hc).2.2.2.1, Option.some.injEq, Prod.mk.injEq] at hcut
        exact hcut
      simp only
      cases hg : getCipher mode with
      | none =>
        refine ⟨.inl rfl, fun out => ⟨fun h => absurd h (by simp), ?_⟩⟩
        rintro ⟨c, hc, h', _, _, _, e, _⟩
        have := (huniq c hc h' e).1
        rw [← this, getCipher_name hc] at hg
        exact absurd hg (by simp)
      | some c =>
        obtain ⟨hc, hn⟩ := getCipher_some hg
        have huniq' : ∀ c' ∈ table, ∀ h', dek = c'.name ++ str "," ++ h' → c' = c ∧ h' = hexIV := by
          intro c' hc' h' e
          obtain ⟨e1, e2⟩ := huniq c' hc' h' e
          rw [← e1, getCipher_name hc', Option.some.injEq] at hg
          exact ⟨hg, e2⟩
        simp only
        cases hx : Fernet.hexDec hexIV with
        | none =>
          refine ⟨.inl rfl, fun out => ⟨fun h => absurd h (by simp), ?_⟩⟩
          rintro ⟨c', hc', h', iv, _, _, e, hx', _⟩
          rw [(huniq' c' hc' h' e).2, hx] at hx'
          exact absurd hx' (by simp)
        | some iv =>
          simp only [(table_ok c hc).2.1]
          by_cases hl : iv.length = c.alg.bs
          · simp only [hl, ne_eq, not_true, if_false]
            obtain ⟨key, b, hkey, hnew, htot, hiff⟩ := core c hc iv hl
            refine ⟨htot, fun out => ?_⟩
            rw [hiff]
            constructor
            · intro h
              exact ⟨c, hc, hexIV, iv, key, b, by rw [hdek, hcomma, hn], hx, hl, hkey, hnew, h⟩
            · rintro ⟨c', hc', h', iv', key', b', e, hx', _, hkey', hnew', h⟩
              obtain ⟨rfl, rfl⟩ := huniq' c' hc' h' e
              rw [hx, Option.some.injEq] at hx'
              subst hx'
              rw [C137_derive_key_unique md5 _ _ _ _ _ hkey' hkey, hnew, Res.ok.injEq] at hnew'
              subst hnew'
              exact h
          · simp only [ne_eq, hl, not_false_eq_true, if_true, true_or, true_and]
            refine fun out => ⟨fun h => absurd h (by simp), ?_⟩
            rintro ⟨c', hc', h', iv', _, _, e, hx', hl', _⟩
            obtain ⟨rfl, rfl⟩ := huniq' c' hc' h' e
            rw [hx, Option.some.injEq] at hx'
            subst hx'
            exact absurd hl' hl

/-- What `EncryptPEMBlock` makes with a password, `DecryptPEMBlock` opens with it, whatever the random source delivered; the block is recognised as encrypted. -/
theorem C137_roundtrip (P : Ciphers) (md5 : HashFn) (c : Cph) (hc : c ∈ table) (rand type data password : Bytes) (blk : Block)
    (h : encryptBlock P md5 rand type data password (some c) = .ok blk) :
    decryptBlock P md5 blk password = .ok data ∧ isEncrypted blk = true ∧ blk.type = type := by
  obtain ⟨hs, hb, hk, hno, -, -⟩ := table_ok c hc
  obtain ⟨h1, h2, h3⟩ := c.alg.bs_pos
  obtain ⟨hshort, hlong⟩ := C137_encrypt_exact P md5 c hc rand type data password
  by_cases hl : rand.length < c.alg.bs
  · rw [hshort hl] at h; exact absurd h (by simp)
  · obtain ⟨key, b, hkey, hnew, hbs, he⟩ := hlong (Nat.not_lt.1 hl)
    rw [he] at h
    have := Res.ok.inj h
    subst this
    have hiv : (rand.take b.bs).length = b.bs := by simp; omega
    have ht : (rand.take b.bs).take 8 = rand.take 8 := by rw [List.take_take, Nat.min_eq_left (by omega)]
    have hne : (str "Proc-Type" == str "DEK-Info") = false := by decide +kernel
    have hhd : ∀ t v (x : Bytes), header ⟨t, [(str "Proc-Type", str "4,ENCRYPTED"), (str "DEK-Info", v)], x⟩ (str "DEK-Info") = some v := by
      intro t v x
      simp [header, List.find?_cons, hne]
    refine ⟨?_, by simp only [isEncrypted, hhd]; rfl, rfl⟩
    obtain ⟨key', hk1, hk2⟩ := C137_derive_key md5 password (rand.take 8) c.keySize
    have hke := C137_derive_key_unique md5 _ _ _ _ _ hk2 hkey
    subst hke
    have hcomma : ∀ (n r : Bytes), n ++ str "," ++ r = n ++ 44#8 :: r := fun n r => by
      rw [List.append_assoc]; rfl
    rw [decryptBlock, hhd]
    simp only [hcomma, cut_append _ _ hno, getCipher_name hc, hexDec_enc, hiv, hb, hbs, ne_eq, not_true, if_false]
    have hopen := Md.openCt_enc c.md b (rand.take b.bs) data hiv (by omega)
    rw [enc_pad_eq c.md b _ data hiv, hbs] at hopen
    have hal : ¬ (c.md.padded = true ∧ (Spec.body c.md b (rand.take c.alg.bs) data).length % c.alg.bs ≠ 0) := by
      rintro ⟨hp, hx⟩
      rw [Md.openCt, if_pos hp, hbs, if_pos hx] at hopen
      exact absurd hopen (by simp)
    rw [hbs] at hiv ht
    simp only [decrypt, hs, hiv, if_neg (Nat.not_lt.2 h3), ht, hk1, Res.bind, hnew, hbs, ne_eq, not_true, if_false]
    rw [if_neg hal, hopen]

/-- The documentation says that `IncorrectPasswordError` is returned when a wrong password is detected.  The code never detects one: a CBC block of whole blocks under a proper header
opens under every password, and when what comes out has no padding, all of it is returned as the result. -/
theorem C137_wrong_password_undetected_violated (P : Ciphers) (md5 : HashFn) (c : Cph) (hc : c ∈ table) (type iv bytes : Bytes) (hiv : iv.length = c.alg.bs)
    (hb : bytes ≠ []) (hd : c.alg.bs ∣ bytes.length) (password : Bytes) :
    ∃ out, decryptBlock P md5 ⟨type, [(str "DEK-Info", c.name ++ str "," ++ hexEnc iv)], bytes⟩ password = .ok out := by
  obtain ⟨key, hk1, hk2⟩ := C137_derive_key md5 password (iv.take 8) c.keySize
  obtain ⟨b, hnew, hbs⟩ := P.ok c.alg key (by rw [hk2.1]; exact (table_ok c hc).2.2.1)
  have hhd : header ⟨type, [(str "DEK-Info", c.name ++ str "," ++ hexEnc iv)], bytes⟩ (str "DEK-Info") = some (c.name ++ str "," ++ hexEnc iv) := by
    simp [header, List.find?_cons]
  have hex := (C137_decrypt_exact P md5 ⟨type, [(str "DEK-Info", c.name ++ str "," ++ hexEnc iv)], bytes⟩ password).2
  by_cases hm : c.md = .cbc
  · have hlen : (Spec.plain .cbc b iv bytes).length = bytes.length := by
      rw [← dec_eq]
      exact Md.dec_length .cbc b iv _ (by rw [hiv, hbs]) fun _ => by rw [hbs]; exact hd
    have hpn : Spec.plain .cbc b iv bytes ≠ [] := by
      intro h; rw [h] at hlen; exact hb (List.length_eq_zero_iff.1 hlen.symm)
    obtain ⟨out, ho⟩ := unpadOrAll_total _ hpn
    exact ⟨out, (hex out).2 ⟨c, hc, hexEnc iv, iv, key, b, hhd, hexDec_enc iv, hiv, hk2, hnew, fun h => absurd hm h, fun _ => ⟨hb, hd, (unpadOrAll_iff _ hpn _).1 ho⟩⟩⟩
  · exact ⟨_, (hex _).2 ⟨c, hc, hexEnc iv, iv, key, b, hhd, hexDec_enc iv, hiv, hk2, hnew, fun _ => rfl, fun h => absurd h hm⟩⟩

/-! ### The hypotheses can be met -/

/-- A hash with 16-byte digests. -/
def toyMd5 : HashFn where
  f m := (m.foldl (fun a x => a.tail ++ [x + a.headD 0 + 7]) (List.replicate 16 0x5a#8)).take 16 ++ List.replicate (16 - (m.foldl (fun a x => a.tail ++ [x + a.headD 0 + 7]) (List.replicate 16 0x5a#8)).length) 0
  size := 16
  block := 64
  pos := by decide
  len m := by simp; omega

def aes256cbc : Cph := ⟨str "AES-256-CBC", .cbc, .aes, 8, 32, 16⟩
def desCtr : Cph := ⟨str "DES-CTR", .ctr, .des, 8, 8, 8⟩

example : aes256cbc ∈ table ∧ desCtr ∈ table := by decide +kernel

def rnd : Bytes := (List.range 16).map fun i => BitVec.ofNat 8 (7 * i + 3)

example : (match encryptBlock toyCiphers toyMd5 rnd (str "RSA PRIVATE KEY") (str "hello") (str "pw") (some aes256cbc) with
    | .ok b => decide (b.bytes.length = 16) && decide (header b (str "DEK-Info") = some (str "AES-256-CBC,030a11181f262d343b424950575e656c")) &&
        decide (decryptBlock toyCiphers toyMd5 b (str "pw") = .ok (str "hello")) && decide (decryptBlock toyCiphers toyMd5 b (str "pW") ≠ .ok (str "hello"))
    | _ => false) = true := by decide +kernel

end Verif.Pkcs
