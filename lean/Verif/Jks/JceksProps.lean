import Verif.Jks.JceksSpec
import Verif.Jks.JksProps
/-
C126: JCEKS key stores.
-/
namespace Verif.Jks
open Verif.Cipher Verif.Pub Verif.Kdf Verif.Mode Verif.Facade Verif.Padding Spec

/-! ### Encryption with a password -/

theorem kcopyAt_length (out : Bytes) (off : Nat) (k : Bytes) (h : off ≤ out.length) : (Kdf.copyAt out off k).length = out.length := by
  rw [Kdf.copyAt, List.length_append, List.length_take, copyInto, List.length_append, List.length_take, List.length_drop, List.length_drop, List.length_drop]
  omega

theorem formatSalt_length {salt s : Bytes} (h : formatSalt salt = some s) : s.length = 8 := by
  rw [formatSalt] at h
  split at h
  · cases h
  rename_i h8
  split at h
  · rw [Option.some.injEq] at h
    rw [← h, List.length_append, List.length_reverse, List.length_take, List.length_drop]; omega
  · rw [Option.some.injEq] at h
    rw [← h]; omega

theorem hashTimes_length (H : HashFn) (pw : Bytes) : ∀ (n : Nat) (b : Bytes), b.length ≤ 32 → H.size ≤ 32 → (hashTimes H pw n b).length ≤ 32
  | 0, b, h, _ => h
  | n + 1, b, h, hs => hashTimes_length H pw n _ (by rw [H.len]; exact hs) hs

theorem derivedKey_some {H : HashFn} (hs : H.size ≤ 32) {password salt : Bytes} {iter : Int} {key iv : Bytes}
    (h : derivedKey H password salt iter = some (key, iv)) : key.length = 24 ∧ iv.length = 8 := by
  rw [derivedKey] at h
  split at h
  · cases h
  · rename_i s hsalt
    have h8 := formatSalt_length hsalt
    have hb := hashTimes_length H (formatPassword password) iter.toNat (s.drop 4) (by rw [List.length_drop]; omega) hs
    simp only [Option.some.injEq, Prod.mk.injEq] at h
    obtain ⟨rfl, rfl⟩ := h
    have l1 : (Kdf.copyAt (List.replicate 32 0#8) 0 (hashTimes H (formatPassword password) iter.toNat (s.take 4))).length = 32 := by
      rw [kcopyAt_length _ _ _ (by simp), List.length_replicate]
    rw [List.length_take, List.length_drop, kcopyAt_length _ _ _ (by omega), l1]
    decide

theorem derivedKey_isSome (H : HashFn) (password salt : Bytes) (iter : Int) : (derivedKey H password salt iter).isSome ↔ salt.length = 8 := by
  rw [derivedKey, formatSalt]
  by_cases h : salt.length = 8
  · rw [if_neg (by simp [h])]
    split
    · rename_i hh; split at hh <;> cases hh
    · simp [h]
  · rw [if_pos h]; simp [h]

/-- What was encrypted with a password is decrypted with it, for every hash, cipher, salt of 8 bytes, password and data. -/
theorem C126_pbe_roundtrip (P : Pbes) (A : Asn1P) (o : Bool) (salt password data : Bytes) (hs : salt.length = 8) :
    ∃ e, encodeData P A o salt password data = .ok e ∧ decodeData P A e password = .ok data := by
  rw [encodeData]
  cases hd : derivedKey (P o).h password salt 2048 with
  | none =>
    have := (derivedKey_isSome (P o).h password salt 2048).2 hs
    rw [hd] at this; cases this
  | some ki =>
    obtain ⟨key, iv⟩ := ki
    obtain ⟨-, hiv⟩ := derivedKey_some (P o).h_size hd
    refine ⟨_, rfl, ?_⟩
    rw [decodeData, A.dec_enc]
    simp only
    rw [decryptPbe, hd]
    simp only
    obtain ⟨hrt, hp1, hp2⟩ := C01_pkcs7_roundtrip data 8 (by decide) (by decide)
    have hdiv : 8 ∣ (pkcs7Pad data (8 : Nat)).length := hp1
    have hbs := (P o).bs key
    have hl : (blkRun 8 (cbcEncF ((P o).bc key)) iv (pkcs7Pad data 8)).1.length = (pkcs7Pad data 8).length := by
      refine blkRun_length 8 (by decide) _ (fun v => v.length = 8) ?_ _ hdiv iv hiv
      intro t b ht hb
      have := cbcEncF_len ((P o).bc key) t b (by omega) (by omega)
      rwa [hbs] at this
    have hpos : 0 < (pkcs7Pad data 8).length := by
      simp [pkcs7Pad, padSize]; omega
    have hmod : (pkcs7Pad data 8).length % 8 = 0 := Nat.mod_eq_zero_of_dvd hdiv
    rw [hl, if_neg (by omega)]
    have := cbc_roundtrip ((P o).bc key) (pkcs7Pad data 8) iv (by rw [hbs]; exact hdiv) (by omega)
    rw [hbs] at this
    rw [this]
    exact hrt

/-- A salt of another size is refused when encrypting. -/
theorem C126_pbe_salt (P : Pbes) (A : Asn1P) (o : Bool) (salt password data : Bytes) (hs : salt.length ≠ 8) :
    encodeData P A o salt password data = .err := by
  rw [encodeData]
  cases hd : derivedKey (P o).h password salt 2048 with
  | none => rfl
  | some ki => exact absurd ((derivedKey_isSome ..).1 (by rw [hd]; rfl)) hs

/-- The top bit of each password byte is ignored: a key protected with one password is opened with every password that has the same low seven bits. -/
theorem C126_password_bits_violated (P : Pbes) (A : Asn1P) (e password password' : Bytes) (h : password.map (· &&& 0x7f#8) = password'.map (· &&& 0x7f#8)) :
    decodeData P A e password = decodeData P A e password' := by
  have hd : ∀ (H : HashFn) salt iter, derivedKey H password salt iter = derivedKey H password' salt iter := by
    intro H salt iter
    rw [derivedKey, derivedKey, formatPassword, formatPassword, h]
  rw [decodeData, decodeData]
  split
  · rfl
  · rfl
  · rfl
  · simp only [decryptPbe]; rw [hd]

/-- The hypothesis is met by different passwords: `i` and the byte `e9`. -/
example : [0x69#8].map (· &&& 0x7f#8) = [0xe9#8].map (· &&& 0x7f#8) ∧ [0x69#8] ≠ [0xe9#8] := by decide

/-! ### Reading files -/

theorem jParseKey_ok (s0 s1 : JStore) (s t : Bytes) : jParseKey s0 s = .ok (s1, t) ↔
    ∃ a ms k chain n, (Entry.key a ms k chain n).Valid ∧ s1 = (JSpec.Entry.old (.key a ms k chain n)).into s0 ∧
      hx 4 1 ++ s = (Entry.key a ms k chain n).enc ++ t := by
  rw [jParseKey]
  simp only [Rd.bind_ok, readUTF_ok', readDate_ok, readBytes_ok', readInt32, rdNat_ok, readChain_ok, Rd.ret_ok]
  constructor
  · rintro ⟨a, u1, ⟨h1, h2⟩, d, u2, ⟨ms, h3, h4, h5⟩, k, u3, ⟨h6, h7⟩, n, u4, ⟨h8, h9⟩, chain, u5, ⟨h10, h11, h12⟩, rfl, rfl⟩
    refine ⟨a, ms, k, chain, n, ⟨h1, h3, h6, h11, h8, h10⟩, by rw [h4]; rfl, ?_⟩
    rw [h2, h5, h7, h9, h12, Entry.enc]
    simp only [List.append_assoc]
    rfl
  · rintro ⟨a, ms, k, chain, n, ⟨h1, h2, h3, h4, h5, h6⟩, rfl, h8⟩
    refine ⟨a, _, ⟨h1, ?_⟩, _, _, ⟨ms, h2, rfl, rfl⟩, k, _, ⟨h3, rfl⟩, n, _, ⟨h5, rfl⟩, chain, t, ⟨h6, h4, rfl⟩, rfl, rfl⟩
    rw [Entry.enc] at h8
    simp only [List.append_assoc] at h8
    exact List.append_cancel_left h8

theorem jParseCert_ok (s0 s1 : JStore) (s t : Bytes) : jParseCert s0 s = .ok (s1, t) ↔
    ∃ a ms c, (Entry.cert a ms c).Valid ∧ s1 = (JSpec.Entry.old (.cert a ms c)).into s0 ∧ hx 4 2 ++ s = (Entry.cert a ms c).enc ++ t := by
  rw [jParseCert]
  simp only [Rd.bind_ok, readUTF_ok', readDate_ok, ne_eq, ite_fail, readBytes_ok', Rd.ret_ok]
  constructor
  · rintro ⟨a, u1, ⟨h1, h2⟩, d, u2, ⟨ms, h3, h4, h5⟩, ty, u3, ⟨h6, h7⟩, h8, c, u4, ⟨h9, h10⟩, rfl, rfl⟩
    refine ⟨a, ms, c, ⟨h1, h3, h9⟩, by rw [h4]; rfl, ?_⟩
    rw [h2, h5, h7, h10, h8, Entry.enc, x509_eq]
    simp only [List.append_assoc]
  · rintro ⟨a, ms, c, ⟨h1, h2, h3⟩, rfl, h8⟩
    refine ⟨a, _, ⟨h1, ?_⟩, _, _, ⟨ms, h2, rfl, rfl⟩, certType, _, ⟨by decide, rfl⟩, rfl, c, t, ⟨h3, rfl⟩, rfl, rfl⟩
    rw [Entry.enc] at h8
    simp only [List.append_assoc] at h8
    exact List.append_cancel_left h8

theorem jParseSecret_ok (s0 s1 : JStore) (s t : Bytes) : jParseSecret s0 s = .ok (s1, t) ↔
    ∃ a ms k, (JSpec.Entry.secret a ms k).Valid ∧ s1 = (JSpec.Entry.secret a ms k).into s0 ∧ hx 4 3 ++ s = (JSpec.Entry.secret a ms k).enc ++ t := by
  rw [jParseSecret]
  simp only [Rd.bind_ok, readUTF_ok', readDate_ok, readBytes_ok', Rd.ret_ok]
  constructor
  · rintro ⟨a, u1, ⟨h1, h2⟩, d, u2, ⟨ms, h3, h4, h5⟩, k, u3, ⟨h6, h7⟩, rfl, rfl⟩
    refine ⟨a, ms, k, ⟨h1, h3, h6⟩, by rw [h4]; rfl, ?_⟩
    rw [h2, h5, h7, JSpec.Entry.enc]
    simp only [List.append_assoc]
  · rintro ⟨a, ms, k, ⟨h1, h2, h3⟩, rfl, h8⟩
    refine ⟨a, _, ⟨h1, ?_⟩, _, _, ⟨ms, h2, rfl, rfl⟩, k, t, ⟨h3, rfl⟩, rfl, rfl⟩
    rw [JSpec.Entry.enc] at h8
    simp only [List.append_assoc] at h8
    exact List.append_cancel_left h8

/-- the octets of entries -/
def jEncAll (es : List JSpec.Entry) : Bytes := (es.map JSpec.Entry.enc).flatten

theorem jEncAll_cons (e : JSpec.Entry) (es : List JSpec.Entry) : jEncAll (e :: es) = e.enc ++ jEncAll es := by simp [jEncAll]

theorem key_enc (a : Bytes) (ms : Nat) (k : Bytes) (chain : List Bytes) (m : Nat) : ∃ r, (Entry.key a ms k chain m).enc = hx 4 1 ++ r := by
  rw [Entry.enc]; simp only [List.append_assoc]; exact ⟨_, rfl⟩

theorem cert_enc (a : Bytes) (ms : Nat) (c : Bytes) : ∃ r, (Entry.cert a ms c).enc = hx 4 2 ++ r := by
  rw [Entry.enc]; simp only [List.append_assoc]; exact ⟨_, rfl⟩

theorem secret_enc (a : Bytes) (ms : Nat) (c : Bytes) : ∃ r, (JSpec.Entry.secret a ms c).enc = hx 4 3 ++ r := by
  rw [JSpec.Entry.enc]; simp only [List.append_assoc]; exact ⟨_, rfl⟩

theorem jParseEntries_ok : ∀ (n : Nat) (s0 s1 : JStore) (s t : Bytes), jParseEntries n s0 s = .ok (s1, t) ↔
    ∃ es : List JSpec.Entry, es.length = n ∧ (∀ e ∈ es, e.Valid) ∧ s1 = es.foldl JSpec.Entry.into s0 ∧ s = jEncAll es ++ t
  | 0, s0, s1, s, t => by
    rw [jParseEntries, Rd.ret_ok]
    constructor
    · rintro ⟨rfl, rfl⟩; exact ⟨[], rfl, by simp, rfl, rfl⟩
    · rintro ⟨es, h1, -, h2, h3⟩
      obtain rfl := List.length_eq_zero_iff.1 h1
      exact ⟨h2.symm, h3⟩
  | n + 1, s0, s1, s, t => by
    rw [jParseEntries]
    simp only [Rd.bind_ok, readInt32, rdNat_ok, jParseEntries_ok n]
    constructor
    · rintro ⟨tag, u, ⟨h1, h2⟩, s', v, h3, es, h4, h5, h6, h7⟩
      have key : ∃ e : JSpec.Entry, e.Valid ∧ s' = e.into s0 ∧ s = e.enc ++ v := by
        split at h3
        · rename_i ht
          subst ht
          obtain ⟨a, ms, k, chain, m, g1, g2, g3⟩ := (jParseKey_ok ..).1 h3
          exact ⟨.old (.key a ms k chain m), g1, g2, by rw [h2, g3]; rfl⟩
        split at h3
        · rename_i ht
          subst ht
          obtain ⟨a, ms, c, g1, g2, g3⟩ := (jParseCert_ok ..).1 h3
          exact ⟨.old (.cert a ms c), g1, g2, by rw [h2, g3]; rfl⟩
        split at h3
        · rename_i ht
          subst ht
          obtain ⟨a, ms, c, g1, g2, g3⟩ := (jParseSecret_ok ..).1 h3
          exact ⟨_, g1, g2, by rw [h2, g3]⟩
        · cases h3
      obtain ⟨e, g1, g2, g3⟩ := key
      refine ⟨e :: es, by simp [h4], ?_, by rw [h6, g2]; rfl, by rw [g3, h7, jEncAll_cons, List.append_assoc]⟩
      intro x hx1
      rcases List.mem_cons.1 hx1 with rfl | hx1
      · exact g1
      · exact h5 x hx1
    · rintro ⟨es, h1, h2, h3, h4⟩
      cases es with
      | nil => cases h1
      | cons e es =>
        rw [jEncAll_cons, List.append_assoc] at h4
        have hv := h2 e (by simp)
        have tail : ∃ es' : List JSpec.Entry, es'.length = n ∧ (∀ e ∈ es', e.Valid) ∧ s1 = es'.foldl JSpec.Entry.into (e.into s0) ∧ jEncAll es ++ t = jEncAll es' ++ t :=
          ⟨es, by simpa using h1, fun x hx1 => h2 x (by simp [hx1]), h3, rfl⟩
        match e, hv, tail with
        | .old (.key a ms k chain m), hv, tail =>
          obtain ⟨r, hr⟩ : ∃ r, (Entry.key a ms k chain m).enc = hx 4 1 ++ r := key_enc ..
          refine ⟨1, r ++ (jEncAll es ++ t), ⟨by decide, ?_⟩, _, jEncAll es ++ t, ?_, tail⟩
          · rw [h4, JSpec.Entry.enc, hr, List.append_assoc]
          · rw [if_pos rfl]
            exact (jParseKey_ok ..).2 ⟨a, ms, k, chain, m, hv, rfl, by rw [hr, List.append_assoc]⟩
        | .old (.cert a ms c), hv, tail =>
          obtain ⟨r, hr⟩ : ∃ r, (Entry.cert a ms c).enc = hx 4 2 ++ r := cert_enc ..
          refine ⟨2, r ++ (jEncAll es ++ t), ⟨by decide, ?_⟩, _, jEncAll es ++ t, ?_, tail⟩
          · rw [h4, JSpec.Entry.enc, hr, List.append_assoc]
          · rw [if_neg (by decide), if_pos rfl]
            exact (jParseCert_ok ..).2 ⟨a, ms, c, hv, rfl, by rw [hr, List.append_assoc]⟩
        | .secret a ms k, hv, tail =>
          obtain ⟨r, hr⟩ : ∃ r, (JSpec.Entry.secret a ms k).enc = hx 4 3 ++ r := secret_enc ..
          refine ⟨3, r ++ (jEncAll es ++ t), ⟨by decide, ?_⟩, _, jEncAll es ++ t, ?_, tail⟩
          · rw [h4, hr, List.append_assoc]
          · rw [if_neg (by decide), if_neg (by decide), if_pos rfl]
            exact (jParseSecret_ok ..).2 ⟨a, ms, k, hv, rfl, by rw [hr, List.append_assoc]⟩

theorem jParseBody_ok (s0 s1 : JStore) (s t : Bytes) : jParseBody s0 s = .ok (s1, t) ↔
    ∃ (magic count : Nat) (es : List JSpec.Entry), (magic = 0xcececece ∨ magic = 0xFEEDFEED) ∧ count < 2 ^ 32 ∧ es.length = (signed32 count).toNat ∧
      (∀ e ∈ es, e.Valid) ∧ s1 = es.foldl JSpec.Entry.into s0 ∧ s = JSpec.body magic count es ++ t := by
  rw [jParseBody]
  simp only [Rd.bind_ok, ite_fail, readInt32, rdNat_ok, jParseEntries_ok]
  constructor
  · rintro ⟨m, u1, ⟨h1, h2⟩, hm, v, u2, ⟨h3, h4⟩, rfl, c, u3, ⟨h5, h6⟩, es, h7, h8, h9, h10⟩
    refine ⟨m, c, es, hm, h5, h7, h8, h9, ?_⟩
    rw [h2, h4, h6, h10, JSpec.body, jEncAll]
    simp only [List.append_assoc]
  · rintro ⟨m, c, es, hm, h1, h2, h3, h4, h5⟩
    refine ⟨m, hx 4 2 ++ (hx 4 c ++ (jEncAll es ++ t)), ⟨by rcases hm with rfl | rfl <;> decide, ?_⟩, hm, _, hx 4 c ++ (jEncAll es ++ t), ⟨by decide, rfl⟩, rfl, c, _, ⟨h1, rfl⟩, es, h2, h3, h4, rfl⟩
    rw [h5, JSpec.body, jEncAll]
    simp only [List.append_assoc]

theorem preKeyedHash_eq (S : Sha1) (password data : Bytes) : preKeyedHash S password data = digest S.h.f password data := rfl

/-- A file is read exactly if it consists of a well-formed body, the hash of password and body unless the password is empty, and anything after that. -/
theorem C126_parse_iff (S : Sha1) (s0 s : JStore) (data password : Bytes) :
    jParse S s0 data password = .ok s ↔ ∃ (magic count : Nat) (es : List JSpec.Entry) (rest : Bytes), (magic = 0xcececece ∨ magic = 0xFEEDFEED) ∧ count < 2 ^ 32 ∧
      es.length = (signed32 count).toNat ∧ (∀ e ∈ es, e.Valid) ∧
      data = JSpec.body magic count es ++ (if password = [] then [] else digest S.h.f password (JSpec.body magic count es)) ++ rest ∧ s = es.foldl JSpec.Entry.into s0 := by
  rw [jParse]
  constructor
  · intro h
    cases hb : jParseBody s0 data with
    | ok p =>
      obtain ⟨s1, t⟩ := p
      rw [hb] at h
      simp only [Res.bind] at h
      obtain ⟨magic, count, es, hm, h1, h2, h3, h4, h5⟩ := (jParseBody_ok ..).1 hb
      by_cases hp : password = []
      · rw [if_pos hp, Res.ok.injEq] at h
        exact ⟨magic, count, es, t, hm, h1, h2, h3, by rw [if_pos hp, List.append_nil, h5], by rw [← h, h4]⟩
      rw [if_neg hp] at h
      cases hf : rdFull 20 t with
      | ok q =>
        obtain ⟨b, rest⟩ := q
        rw [hf] at h
        simp only at h
        obtain ⟨h6, rfl⟩ := (rdFull_ok ..).1 hf
        split at h
        · rename_i hk
          rw [Res.ok.injEq] at h
          refine ⟨magic, count, es, rest, hm, h1, h2, h3, ?_, by rw [← h, h4]⟩
          have : data.take (data.length - (b ++ rest).length) = JSpec.body magic count es := by
            rw [h5, List.length_append (as := JSpec.body magic count es), Nat.add_sub_cancel, List.take_left]
          rw [this, preKeyedHash_eq] at hk
          rw [if_neg hp, hk, List.append_assoc, ← h5]
        · cases h
      | err => rw [hf] at h; cases h
      | panic => rw [hf] at h; cases h
      | hang => rw [hf] at h; cases h
    | err => rw [hb] at h; cases h
    | panic => rw [hb] at h; cases h
    | hang => rw [hb] at h; cases h
  · rintro ⟨magic, count, es, rest, hm, h1, h2, h3, h4, rfl⟩
    rw [List.append_assoc] at h4
    have hb := (jParseBody_ok s0 _ data _).2 ⟨magic, count, es, hm, h1, h2, h3, rfl, h4⟩
    rw [hb]
    simp only [Res.bind]
    by_cases hp : password = []
    · rw [if_pos hp]
    rw [if_neg hp, if_neg hp]
    have hf : rdFull 20 (digest S.h.f password (JSpec.body magic count es) ++ rest) = .ok (digest S.h.f password (JSpec.body magic count es), rest) :=
      (rdFull_ok ..).2 ⟨by rw [digest, S.h.len, S.size], rfl⟩
    rw [hf]
    simp only
    rw [if_pos]
    rw [preKeyedHash_eq, h4, if_neg hp, List.length_append (as := JSpec.body magic count es), Nat.add_sub_cancel, List.take_left]

/-- With the empty password any file that loads with another one loads too, and so does any body with no hash or a wrong one: nothing is checked. -/
theorem C126_empty_password_violated {S : Sha1} {data password : Bytes} {s : JStore} (h : jLoad S data password = .ok s) :
    jLoad S data [] = .ok s := by
  rw [jLoad] at h ⊢
  obtain ⟨m, c, es, rest, h1, h2, h3, h4, h5, h6⟩ := (C126_parse_iff ..).1 h
  refine (C126_parse_iff ..).2 ⟨m, c, es, (if password = [] then [] else digest S.h.f password (JSpec.body m c es)) ++ rest, h1, h2, h3, h4, ?_, h6⟩
  rw [if_pos rfl, List.append_nil, ← List.append_assoc, ← h5]

/-- A length field with the top bit set makes the program panic, for every password: the hash is checked only after everything has been read. -/
theorem C126_panic_violated (S : Sha1) (password al rest : Bytes) (ms n : Nat) (ha : al.length < 2 ^ 16) (hm : ms < 2 ^ 64) (h1 : 2 ^ 31 ≤ n) (h2 : n < 2 ^ 32) :
    jLoad S (hx 4 0xcececece ++ (hx 4 2 ++ (hx 4 1 ++ (hx 4 3 ++ (str16 al ++ (hx 8 ms ++ (hx 4 n ++ rest))))))) password = .panic := by
  have e : jParseBody newJCEKS (hx 4 0xcececece ++ (hx 4 2 ++ (hx 4 1 ++ (hx 4 3 ++ (str16 al ++ (hx 8 ms ++ (hx 4 n ++ rest))))))) = .panic := by
    rw [jParseBody, Rd.bind_of_ok ((rdNat_ok 4 _ _ _).2 ⟨by decide, rfl⟩), if_neg (by simp), Rd.bind_of_ok ((rdNat_ok 4 _ _ _).2 ⟨by decide, rfl⟩), if_neg (by simp), readInt32,
      Rd.bind_of_ok ((rdNat_ok 4 _ _ 1).2 ⟨by decide, rfl⟩), show (signed32 1).toNat = 0 + 1 from rfl, jParseEntries, readInt32,
      Rd.bind_of_ok ((rdNat_ok 4 _ _ 3).2 ⟨by decide, rfl⟩), if_neg (by decide), if_neg (by decide), if_pos rfl, Rd.bind, jParseSecret,
      Rd.bind_of_ok ((readUTF_ok' _ al _).2 ⟨ha, rfl⟩), Rd.bind_of_ok ((readDate_ok _ _ _).2 ⟨ms, hm, rfl, rfl⟩), Rd.bind, readBytes_panic n h1 h2]
    rfl
  rw [jLoad, jParse, e]
  rfl

/-! ### Histories -/

/-- One call; a call that returns an error leaves the store as it is. -/
def jStep (P : Pbes) (A : Asn1P) (s : JStore) (op : JSpec.Op) : JStore :=
  match (match op with
    | .key al k pw certs o salt now => jAddKey P A s al k pw certs o salt now
    | .cert al c now => jAddCert s al c now
    | .secret al k pw o salt now => jAddSecret P A s al k pw o salt now) with
  | .ok s' => s'
  | _ => s

/-- The store after calls on a new store, most recent first. -/
def jRun (P : Pbes) (A : Asn1P) : List JSpec.Op → JStore
  | [] => newJCEKS
  | op :: ops => jStep P A (jRun P A ops) op

/-- The random salt of a call has the size the ciphers use. -/
def JSpec.Op.Ok : JSpec.Op → Prop
  | .key _ _ _ _ _ salt _ => salt.length = 8
  | .secret _ _ _ _ salt _ => salt.length = 8
  | .cert .. => True

/-- What the getters of a loaded store return for a name whose last call was `op`. -/
def JShows (P : Pbes) (A : Asn1P) (s : JStore) (al : Bytes) : Option JSpec.Op → Prop
  | none => (∀ pw, jGetKey P A s al pw = .err) ∧ jGetCert s al = .err ∧ (∀ pw, jGetSecret P A s al pw = .err) ∧
      ¬jListKeys s al ∧ ¬jListCerts s al ∧ ¬jListSecrets s al
  | some (.key _ k pw certs _ _ _) => jGetKey P A s al pw = .ok (some (k, certs)) ∧ jGetCert s al = .ok none ∧ (∀ pw, jGetSecret P A s al pw = .ok none) ∧
      jListKeys s al ∧ ¬jListCerts s al ∧ ¬jListSecrets s al
  | some (.cert _ c _) => jGetCert s al = .ok (some c) ∧ (∀ pw, jGetKey P A s al pw = .ok none) ∧ (∀ pw, jGetSecret P A s al pw = .ok none) ∧
      ¬jListKeys s al ∧ jListCerts s al ∧ ¬jListSecrets s al
  | some (.secret _ k pw _ _ _) => jGetSecret P A s al pw = .ok (some k) ∧ (∀ pw, jGetKey P A s al pw = .ok none) ∧ jGetCert s al = .ok none ∧
      ¬jListKeys s al ∧ ¬jListCerts s al ∧ jListSecrets s al

/-- the entry of a name -/
def JHolds (P : Pbes) (A : Asn1P) : Option JSpec.Op → Option Ent → Prop
  | none, e => e = none
  | some (.key _ k pw certs _ _ now), e => ∃ c, e = some (.key now c certs) ∧ decodeData P A c pw = .ok k
  | some (.cert _ c now), e => e = some (.cert now c)
  | some (.secret _ k pw _ _ now), e => ∃ c, e = some (.secret now c) ∧ decodeData P A c pw = .ok k

theorem jrun_holds (P : Pbes) (A : Asn1P) : ∀ (ops : List JSpec.Op), (∀ op ∈ ops, op.Ok) → ∀ a, ∃ e, jRun P A ops a = e.map Val.val ∧ JHolds P A (JSpec.last ops a) e
  | [], _, a => ⟨none, rfl, rfl⟩
  | op :: ops, hok, a => by
    obtain ⟨e, ih1, ih2⟩ := jrun_holds P A ops (fun o ho => hok o (by simp [ho])) a
    have hop := hok op (by simp)
    rw [jRun]
    cases op with
    | key b k pw certs o salt now =>
      obtain ⟨c, h1, h2⟩ := C126_pbe_roundtrip P A o salt pw k hop
      rw [jStep]
      simp only [jAddKey, h1, Res.bind]
      by_cases hab : a = b
      · subst hab
        exact ⟨some (.key now c certs), set_same .., by simp [JSpec.last, JSpec.Op.name, JHolds, h2]⟩
      · refine ⟨e, (set_other _ _ _ _ hab).trans ih1, ?_⟩
        have : JSpec.last (.key b k pw certs o salt now :: ops) a = JSpec.last ops a := by simp [JSpec.last, JSpec.Op.name, Ne.symm hab]
        rw [this]; exact ih2
    | cert b c now =>
      rw [jStep]
      simp only [jAddCert]
      by_cases hab : a = b
      · subst hab
        exact ⟨some (.cert now c), set_same .., by simp [JSpec.last, JSpec.Op.name, JHolds]⟩
      · refine ⟨e, (set_other _ _ _ _ hab).trans ih1, ?_⟩
        have : JSpec.last (.cert b c now :: ops) a = JSpec.last ops a := by simp [JSpec.last, JSpec.Op.name, Ne.symm hab]
        rw [this]; exact ih2
    | secret b k pw o salt now =>
      obtain ⟨c, h1, h2⟩ := C126_pbe_roundtrip P A o salt pw k hop
      rw [jStep]
      simp only [jAddSecret, h1, Res.bind]
      by_cases hab : a = b
      · subst hab
        exact ⟨some (.secret now c), set_same .., by simp [JSpec.last, JSpec.Op.name, JHolds, h2]⟩
      · refine ⟨e, (set_other _ _ _ _ hab).trans ih1, ?_⟩
        have : JSpec.last (.secret b k pw o salt now :: ops) a = JSpec.last ops a := by simp [JSpec.last, JSpec.Op.name, Ne.symm hab]
        rw [this]; exact ih2

/-- The getters of a store to which entries have been added find none of them, whatever the calls: certificates and keys come back nil without an error and no name
is listed, because the Add functions store values and the getters look for pointers. -/
theorem C126_getters_violated (P : Pbes) (A : Asn1P) (ops : List JSpec.Op) (hok : ∀ op ∈ ops, op.Ok) (al : Bytes) :
    (∀ c, jGetCert (jRun P A ops) al ≠ .ok (some c)) ∧ (∀ pw x, jGetKey P A (jRun P A ops) al pw ≠ .ok (some x)) ∧ (∀ pw x, jGetSecret P A (jRun P A ops) al pw ≠ .ok (some x)) ∧
      ¬jListKeys (jRun P A ops) al ∧ ¬jListCerts (jRun P A ops) al ∧ ¬jListSecrets (jRun P A ops) al := by
  obtain ⟨e, h1, -⟩ := jrun_holds P A ops hok al
  cases e with
  | none => rw [Option.map_none] at h1; simp [jGetCert, jGetKey, jGetSecret, jListKeys, jListCerts, jListSecrets, h1]
  | some e => rw [Option.map_some] at h1; simp [jGetCert, jGetKey, jGetSecret, jListKeys, jListCerts, jListSecrets, h1]

/-! ### Saving and loading -/

/-- An entry fits the fields of the file format; a key has a certificate. -/
def Ent.Fits : Ent → Prop
  | .key d k certs => -(2 ^ 63) ≤ d ∧ d < 2 ^ 63 ∧ k.length < 2 ^ 31 ∧ certs ≠ [] ∧ certs.length < 2 ^ 31 ∧ ∀ c ∈ certs, c.length < 2 ^ 31
  | .cert d c => -(2 ^ 63) ≤ d ∧ d < 2 ^ 63 ∧ c.length < 2 ^ 31
  | .secret d k => -(2 ^ 63) ≤ d ∧ d < 2 ^ 63 ∧ k.length < 2 ^ 31

/-- with the date in milliseconds -/
def Ent.toMs : Ent → Ent
  | .key d k certs => .key (Jks.toMs d) k certs
  | .cert d c => .cert (Jks.toMs d) c
  | .secret d k => .secret (Jks.toMs d) k

/-- the entry of the file -/
def Ent.entry (al : Bytes) : Ent → JSpec.Entry
  | .key d k certs => .old (.key al (stamp d) k certs certs.length)
  | .cert d c => .old (.cert al (stamp d) c)
  | .secret d k => .secret al (stamp d) k

theorem jWrite_val {al : Bytes} {e : Ent} (h : e.Fits) : jWrite (al, .val e) = ((e.entry al).enc, some false) := by
  cases e with
  | key d k certs =>
    have : certs.length ≠ 0 := fun hh => h.2.2.2.1 (List.length_eq_zero_iff.1 hh)
    simp only [jWrite, if_neg this]
    rfl
  | cert d c => rfl
  | secret d k => rfl

theorem jWriteAll_val : ∀ (l : List (Bytes × Ent)) (buf : Bytes), (∀ x ∈ l, x.2.Fits) →
    jWriteAll (l.map fun x => (x.1, Val.val x.2)) buf false = (buf ++ jEncAll (l.map fun x => x.2.entry x.1), false)
  | [], buf, _ => by simp [jWriteAll, jEncAll]
  | x :: l, buf, h => by
    rw [List.map_cons, jWriteAll, jWrite_val (h x (by simp)), Option.getD_some, jWriteAll_val l _ (fun y hy => h y (by simp [hy])), List.map_cons, jEncAll_cons, List.append_assoc]

theorem entry_valid {al : Bytes} {e : Ent} (ha : al.length < 2 ^ 16) (h : e.Fits) : (e.entry al).Valid := by
  cases e with
  | key d k certs =>
    obtain ⟨h1, h2, h3, h4, h5, h6⟩ := h
    exact ⟨ha, stamp_lt _, h3, h6, by omega, by rw [signed32, if_pos h5, Int.toNat_natCast]⟩
  | cert d c => exact ⟨ha, stamp_lt _, h.2.2⟩
  | secret d k => exact ⟨ha, stamp_lt _, h.2.2⟩

theorem entry_into {al : Bytes} {e : Ent} (h : e.Fits) (s : JStore) : (e.entry al).into s = set s al (.ptr e.toMs) := by
  cases e with
  | key d k certs => rw [Ent.entry, JSpec.Entry.into, stamp_signed d h.1 h.2.1]; rfl
  | cert d c => rw [Ent.entry, JSpec.Entry.into, stamp_signed d h.1 h.2.1]; rfl
  | secret d k => rw [Ent.entry, JSpec.Entry.into, stamp_signed d h.1 h.2.1]; rfl

theorem foldl_into : ∀ (l : List (Bytes × Ent)) (s : JStore), (∀ x ∈ l, x.2.Fits) → (l.map Prod.fst).Nodup → ∀ a,
    ((l.map fun x => x.2.entry x.1).foldl JSpec.Entry.into s) a = match l.find? (fun x => x.1 == a) with
      | some x => some (.ptr x.2.toMs)
      | none => s a
  | [], s, _, _, a => rfl
  | x :: l, s, h, hn, a => by
    rw [List.map_cons, List.nodup_cons] at hn
    rw [List.map_cons, List.foldl_cons, entry_into (h x (by simp)), foldl_into l _ (fun y hy => h y (by simp [hy])) hn.2 a, List.find?_cons]
    by_cases hxa : x.1 = a
    · subst hxa
      have : l.find? (fun y => y.1 == x.1) = none := by
        rw [List.find?_eq_none]
        intro y hy hh
        simp only [beq_iff_eq] at hh
        exact hn.1 (by rw [← hh]; exact List.mem_map_of_mem hy)
      rw [this]
      simp [set]
    · have : (x.1 == a) = false := by simp [hxa]
      rw [this]
      simp only
      cases l.find? (fun y => y.1 == a) with
      | none => exact set_other _ _ _ _ (Ne.symm hxa)
      | some y => rfl

/-- the entries listed in `order` are structs -/
theorem order_vals {P : Pbes} {A : Asn1P} {ops : List JSpec.Op} (hok : ∀ op ∈ ops, op.Ok) : ∀ {order : List (Bytes × Val)},
    (∀ x ∈ order, jRun P A ops x.1 = some x.2) → ∃ l : List (Bytes × Ent), order = l.map fun x => (x.1, Val.val x.2)
  | [], _ => ⟨[], rfl⟩
  | (a, v) :: order, h => by
    obtain ⟨l, hl⟩ := order_vals hok (order := order) (fun y hy => h y (by simp [hy]))
    obtain ⟨e, h1, -⟩ := jrun_holds P A ops hok a
    have h2 := h (a, v) (by simp)
    simp only at h2
    rw [h1] at h2
    cases e with
    | none => cases h2
    | some e =>
      rw [Option.map_some, Option.some.injEq] at h2
      exact ⟨(a, e) :: l, by rw [hl, ← h2]; rfl⟩

/-- Saving a store built by any calls succeeds in whatever order the map is visited, and the loaded store returns under every name what the last call put there: as long as the
entries fit the fields of the format and every key has a certificate. -/
theorem C126_saved (S : Sha1) (P : Pbes) (A : Asn1P) (ops : List JSpec.Op) (hok : ∀ op ∈ ops, op.Ok) (order : List (Bytes × Val)) (ho : JSpec.Lists order (jRun P A ops))
    (hc : order.length < 2 ^ 31) (hn : ∀ x ∈ order, x.1.length < 2 ^ 16) (hf : ∀ a e, jRun P A ops a = some (.val e) → e.Fits) (password : Bytes) :
    ∃ data s, jMarshal S order password = .ok data ∧ jLoad S data password = .ok s ∧ ∀ al, JShows P A s al (JSpec.last ops al) := by
  obtain ⟨l, rfl⟩ := order_vals hok (order := order) (fun x hx1 => (ho.2 x.1 x.2).1 hx1)
  have hfl : ∀ x ∈ l, x.2.Fits := fun x hx1 => hf x.1 x.2 ((ho.2 _ _).1 (List.mem_map.2 ⟨x, hx1, rfl⟩))
  have hnl : ∀ x ∈ l, x.1.length < 2 ^ 16 := fun x hx1 => hn (x.1, .val x.2) (List.mem_map.2 ⟨x, hx1, rfl⟩)
  have hnd : (l.map Prod.fst).Nodup := by
    have := ho.1
    rwa [List.map_map] at this
  rw [List.length_map] at hc
  have hm : jMarshal S (l.map fun x => (x.1, Val.val x.2)) password =
      .ok (JSpec.body 0xcececece l.length (l.map fun x => x.2.entry x.1) ++
        (if password = [] then [] else digest S.h.f password (JSpec.body 0xcececece l.length (l.map fun x => x.2.entry x.1)))) := by
    rw [jMarshal]
    rw [jWriteAll_val l _ hfl, if_neg (by simp), List.length_map]
    by_cases hp : password = []
    · rw [if_pos hp, if_pos hp, List.append_nil]; rfl
    · rw [if_neg hp, if_neg hp, preKeyedHash_eq]; rfl
  refine ⟨_, (l.map fun x => x.2.entry x.1).foldl JSpec.Entry.into newJCEKS, hm, ?_, ?_⟩
  · rw [jLoad, C126_parse_iff]
    refine ⟨_, l.length, l.map fun x => x.2.entry x.1, [], .inl rfl, by omega, ?_, ?_, by rw [List.append_nil], rfl⟩
    · rw [signed32, if_pos hc, List.length_map, Int.toNat_natCast]
    · intro e he
      obtain ⟨x, hx1, rfl⟩ := List.mem_map.1 he
      exact entry_valid (hnl x hx1) (hfl x hx1)
  · intro al
    obtain ⟨e, h1, h2⟩ := jrun_holds P A ops hok al
    have hs : ((l.map fun x => x.2.entry x.1).foldl JSpec.Entry.into newJCEKS) al = e.map fun e => Val.ptr e.toMs := by
      rw [foldl_into l newJCEKS hfl hnd al]
      cases hfd : l.find? (fun x => x.1 == al) with
      | some x =>
        have hx1 := List.find?_some hfd
        simp only [beq_iff_eq] at hx1
        have := (ho.2 x.1 (.val x.2)).1 (List.mem_map.2 ⟨x, List.mem_of_find?_eq_some hfd, rfl⟩)
        rw [hx1, h1] at this
        cases e with
        | none => cases this
        | some e => simp only [Option.map_some, Option.some.injEq, Val.val.injEq] at this; rw [this]; rfl
      | none =>
        cases e with
        | none => rfl
        | some e =>
          have := (ho.2 al (.val e)).2 h1
          obtain ⟨x, hx1, hx2⟩ := List.mem_map.1 this
          rw [List.find?_eq_none] at hfd
          rw [Prod.mk.injEq] at hx2
          exact absurd (by simp [hx2.1]) (hfd x hx1)
    generalize (l.map fun x => x.2.entry x.1).foldl JSpec.Entry.into newJCEKS = s at hs
    have hfe : ∀ e', e = some e' → e'.Fits := fun e' he => hf al e' (by rw [h1, he]; rfl)
    cases hl : JSpec.last ops al with
    | none =>
      rw [hl] at h2
      cases h2
      simp [JShows, jGetKey, jGetCert, jGetSecret, jListKeys, jListCerts, jListSecrets, hs]
    | some op =>
      rw [hl] at h2
      cases op with
      | key b k pw certs o salt now =>
        obtain ⟨c, rfl, hd⟩ := h2
        obtain ⟨-, -, -, hne, -, -⟩ := hfe _ rfl
        have hcl : ¬certs.length < 1 := by
          intro hh
          exact hne (List.length_eq_zero_iff.1 (by omega))
        simp [JShows, jGetKey, jGetCert, jGetSecret, jListKeys, jListCerts, jListSecrets, hs, Ent.toMs, hd, Res.bind, hne]
      | cert b c now =>
        cases h2
        simp [JShows, jGetKey, jGetCert, jGetSecret, jListKeys, jListCerts, jListSecrets, hs, Ent.toMs]
      | secret b k pw o salt now =>
        obtain ⟨c, rfl, hd⟩ := h2
        simp [JShows, jGetKey, jGetCert, jGetSecret, jListKeys, jListCerts, jListSecrets, hs, Ent.toMs, hd, Res.bind]

theorem jWriteAll_ptr : ∀ (l : List (Bytes × Val)) (buf : Bytes), (∀ x ∈ l, ∃ e, x.2 = .ptr e) → jWriteAll l buf false = (buf, false)
  | [], buf, _ => rfl
  | (a, v) :: l, buf, h => by
    obtain ⟨e, he⟩ := h (a, v) (by simp)
    simp only at he
    subst he
    rw [jWriteAll, jWrite, Option.getD_none, List.append_nil]
    exact jWriteAll_ptr l buf (fun y hy => h y (by simp [hy]))

theorem into_ptr (e : JSpec.Entry) (s : JStore) (hs : ∀ a v, s a = some v → ∃ e, v = .ptr e) (a : Bytes) (v : Val) (h : e.into s a = some v) : ∃ e, v = .ptr e := by
  match e with
  | .old (.key b ms k chain n) =>
    rw [JSpec.Entry.into, set] at h; split at h
    · cases h; exact ⟨_, rfl⟩
    · exact hs a v h
  | .old (.cert b ms c) =>
    rw [JSpec.Entry.into, set] at h; split at h
    · cases h; exact ⟨_, rfl⟩
    · exact hs a v h
  | .secret b ms k =>
    rw [JSpec.Entry.into, set] at h; split at h
    · cases h; exact ⟨_, rfl⟩
    · exact hs a v h

theorem foldl_ptr : ∀ (es : List JSpec.Entry) (s : JStore), (∀ a v, s a = some v → ∃ e, v = .ptr e) → ∀ a v, (es.foldl JSpec.Entry.into s) a = some v → ∃ e, v = .ptr e
  | [], _, hs => hs
  | e :: es, s, hs => foldl_ptr es (e.into s) (into_ptr e s hs)

theorem enc_len (e : JSpec.Entry) : 18 ≤ e.enc.length := by
  match e with
  | .old (.key b ms k chain n) => simp only [JSpec.Entry.enc, Entry.enc, str16, str32, List.length_append, hx_length]; omega
  | .old (.cert b ms c) => simp only [JSpec.Entry.enc, Entry.enc, str16, str32, List.length_append, hx_length]; omega
  | .secret b ms k => simp only [JSpec.Entry.enc, str16, str32, List.length_append, hx_length]; omega

/-- Saving a loaded store loses all its entries: `Marshal` reports success and writes their number but none of them, and the file cannot be loaded: not with the password it was
saved with, nor with any other that makes the hash be checked. -/
theorem C126_resave_violated (S : Sha1) (data password : Bytes) (s : JStore) (hl : jLoad S data password = .ok s) (order : List (Bytes × Val)) (ho : JSpec.Lists order s)
    (hne : order ≠ []) (hc : order.length < 2 ^ 31) (password' : Bytes) :
    ∃ data', jMarshal S order password' = .ok data' ∧ data'.length ≤ 32 ∧ ∀ pw s', pw = password' ∨ pw ≠ [] → jLoad S data' pw ≠ .ok s' := by
  obtain ⟨_, _, es, _, _, _, _, _, _, rfl⟩ := (C126_parse_iff ..).1 hl
  have hp : ∀ x ∈ order, ∃ e, x.2 = .ptr e := fun x hx1 => foldl_ptr es newJCEKS (by intro a v h; cases h) x.1 x.2 ((ho.2 _ _).1 hx1)
  have hm : ∃ t, t.length ≤ 20 ∧ (password' = [] → t = []) ∧ jMarshal S order password' = .ok (hx 4 0xcececece ++ (hx 4 2 ++ (hx 4 order.length ++ t))) := by
    rw [jMarshal]
    rw [jWriteAll_ptr order _ hp, if_neg (by simp)]
    by_cases hpw : password' = []
    · exact ⟨[], by simp, fun _ => rfl, by rw [if_pos hpw]; simp [wrNat]⟩
    · refine ⟨_, ?_, fun hh => absurd hh hpw, by rw [if_neg hpw]; simp only [wrNat, List.append_assoc]; rfl⟩
      rw [preKeyedHash, S.h.len, S.size]
  obtain ⟨t, ht, ht0, hm⟩ := hm
  refine ⟨_, hm, by simp only [List.length_append, hx_length]; omega, ?_⟩
  intro pw s' hpw h
  rw [jLoad] at h
  obtain ⟨m, c, es', rest, _, h1, h2, -, h3, -⟩ := (C126_parse_iff ..).1 h
  rw [JSpec.body] at h3
  simp only [List.append_assoc] at h3
  have g1 := List.append_inj h3 (by simp)
  have g2 := List.append_inj g1.2 (by simp)
  have g3 := List.append_inj g2.2 (by simp)
  have hcc : c = order.length := by
    have := congrArg setBytes g3.1
    rw [setBytes_hx _ _ (by omega), setBytes_hx _ _ (by omega)] at this
    exact this.symm
  subst hcc
  rw [signed32, if_pos hc, Int.toNat_natCast] at h2
  cases es' with
  | nil => exact hne (List.length_eq_zero_iff.1 h2.symm)
  | cons e es' =>
    have hlen := congrArg List.length g3.2
    have he := enc_len e
    simp only [List.map_cons, List.flatten_cons, List.length_append] at hlen
    by_cases hp0 : pw = []
    · have := ht0 (by rcases hpw with hh | hh; exacts [hh ▸ hp0, absurd hp0 hh])
      rw [this, List.length_nil] at hlen
      omega
    · rw [if_neg hp0, digest, S.h.len, S.size] at hlen
      omega

/-- A key without certificate: whether `Marshal` reports it depends on the order in which the map is visited. With the key last there is an error; with a certificate after it the
error is forgotten and the file lacks the key. -/
theorem C126_lost_error_violated (S : Sha1) (al al' : Bytes) (d d' : Int) (k c : Bytes) (password : Bytes) :
    jMarshal S [(al', .val (.cert d' c)), (al, .val (.key d k []))] password = .err ∧
    ∃ data, jMarshal S [(al, .val (.key d k [])), (al', .val (.cert d' c))] password = .ok data := by
  refine ⟨rfl, ?_⟩
  rw [jMarshal]
  simp only [jWriteAll, jWrite, List.length_nil, if_true, Option.getD_some, Bool.false_eq_true, if_false]
  split
  · exact ⟨_, rfl⟩
  · exact ⟨_, rfl⟩

/-! ### The hypotheses are met -/

/-- A history with a key, a certificate and a secret, one name used twice. -/
example : ∀ op ∈ [JSpec.Op.secret [0x62#8] [1#8] [0x70#8] true [1#8, 2#8, 3#8, 4#8, 5#8, 6#8, 7#8, 8#8] 7000000, .cert [0x62#8] [9#8] 5000000,
    .key [0x61#8] [3#8] [0x71#8] [[4#8]] false [1#8, 2#8, 3#8, 4#8, 1#8, 2#8, 3#8, 4#8] 0], op.Ok := by
  intro op h
  simp only [List.mem_cons, List.not_mem_nil, or_false] at h
  rcases h with rfl | rfl | rfl
  · rfl
  · trivial
  · rfl

/-- A saved store with one certificate loads and so `C126_resave_violated` applies to it. -/
example (S : Sha1) : ∃ data s order, jLoad S data [0x70#8] = .ok s ∧ JSpec.Lists order s ∧ order ≠ [] ∧ order.length < 2 ^ 31 := by
  refine ⟨_, _, [([0x61#8], .ptr (.cert (signed64 5 * 1000000) [9#8]))], (C126_parse_iff S newJCEKS _ _ _).2 ⟨0xcececece, 1, [.old (.cert [0x61#8] 5 [9#8])], [], .inl rfl, by decide, by decide, ?_, rfl, rfl⟩,
    ⟨by simp, ?_⟩, by simp, by simp⟩
  · intro e he
    rw [List.mem_singleton] at he
    subst he
    exact ⟨by decide, by decide, by decide⟩
  · intro a v
    rw [List.mem_singleton, Prod.mk.injEq, List.foldl_cons, List.foldl_nil, JSpec.Entry.into, set]
    by_cases h : a = [0x61#8]
    · rw [if_pos h]
      simp [h, eq_comm]
    · rw [if_neg h]
      simp [h, newJCEKS]

end Verif.Jks
