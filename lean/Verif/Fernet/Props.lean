import Verif.Fernet.Lemmas
/-
C116: fernet tokens.
-/
namespace Verif.Fernet
open Verif.Mode Verif.Facade Verif.Padding Verif.Kdf Verif.Pub Verif.Cipher

variable (P : Prim)

/-- `EncryptWithTime` never panics and returns the base64 form of the token that the fernet specification prescribes:
version, time stamp, IV, CBC of the padded message, HMAC; the first half of the key signs, the second encrypts. -/
theorem C116_encrypt (msg iv : Bytes) (k : Key) (t : Time) (hiv : iv.length = 16) (ht : t.Sane) :
    ∃ (secs : Nat) (padded : Bytes), secs < 2 ^ 64 ∧ Spec.signed64 secs = t.sec - 62135596800 ∧
      Padding.Spec.PKCS7 msg padded ∧ 16 ∣ padded.length ∧ padded.length ≤ msg.length + 16 ∧
      encryptWithTime P msg k t iv = .ok (b64enc true
        (Spec.token P.sha (k.1.take 16) secs iv (Spec.cbcEnc (P.aes (k.1.drop 16)) iv (chunks 16 padded)).flatten)) := by
  refine ⟨stamp t, pkcs7Pad msg 16, stamp_lt t, stamp_signed t ht.1 ht.2.1, ?_, ?_, ?_, ?_⟩
  · refine ⟨16 - msg.length % 16, by omega, by omega, ?_⟩
    simp [pkcs7Pad, padSize, byteOf]
  · rw [pad_length]; omega
  · rw [pad_length]; omega
  · rw [encryptWithTime_eq P msg iv t k hiv, blkRun_enc]; rfl

/-- One key: `DecryptWithTime` returns `m` exactly for a valid token of `m` whose time stamp is in the window. -/
theorem C116_decrypt_iff (tok m : Bytes) (ttl : Int) (now : Time) (k : Key) (hn : now.Sane) (ht : ttl < 2 ^ 63) :
    decryptWithTime P tok ttl [k] now = .ok (some m) ↔
      Spec.Valid P.sha P.aes (k.1.take 16) (k.1.drop 16) ttl now.ns (b64dec true tok).1 m := by
  rw [show k.1.take 16 = k.sign from rfl, show k.1.drop 16 = k.crypt from rfl, ← decryptM_some_iff P _ ttl now k m hn ht]
  unfold decryptWithTime
  simp only [tryKeys]
  constructor
  · intro h
    split at h
    · rename_i m' tok' he
      have := Option.some.inj (Res.ok.inj h)
      subst this
      exact ⟨tok', he⟩
    all_goals cases h
  · rintro ⟨tok', he⟩
    rw [he]

theorem tryKeys_skip (tok : Bytes) (ttl : Int) (now : Time) (l1 l2 : List Key)
    (h : ∀ k ∈ l1, ¬ Auth P k tok) : tryKeys P tok ttl now (l1 ++ l2) = tryKeys P tok ttl now l2 := by
  induction l1 with
  | nil => rfl
  | cons k l1 ih =>
    have hk := h k (by simp)
    have hd : decryptM P tok ttl now k = .ok (none, tok) := by
      rcases decryptM_cases P tok ttl now k with h | h | h
      · exact h
      · exact absurd h.1 hk
      · exact absurd h.1 hk
    rw [List.cons_append, tryKeys, hd]
    exact ih (fun k hk => h k (by simp [hk]))

/-- Round trip: a token made at time `at_` with key `k` decrypts to the message at every later moment within the time to
live (counted from the whole second of `at_`), and without a time to live at any moment, for every key list in which the
keys before `k` do not authenticate the token. -/
theorem C116_roundtrip_partial (msg iv : Bytes) (k : Key) (l1 l2 : List Key) (at_ now : Time) (ttl : Int) (tok : Bytes)
    (hiv : iv.length = 16) (ha : at_.Sane) (hn : now.Sane) (ht : ttl < 2 ^ 63)
    (hw : ttl ≤ 0 ∨ (at_.ns ≤ now.ns + 60 * 10 ^ 9 ∧ now.ns ≤ (at_.sec - 62135596800) * 10 ^ 9 + ttl))
    (he : encryptWithTime P msg k at_ iv = .ok tok)
    (hother : ∀ k' ∈ l1, ∀ x, (b64dec true tok).1 ≠ x ++ Kdf.hmac P.sha k'.sign x) :
    decryptWithTime P tok ttl (l1 ++ k :: l2) now = .ok (some msg) := by
  rw [encryptWithTime_eq P msg iv at_ k hiv] at he
  have he := Res.ok.inj he
  have hp := pad_length msg
  have hd : 16 ∣ (pkcs7Pad msg 16).length := by rw [hp]; omega
  have hc := enc_length P k.crypt iv (pkcs7Pad msg 16) hiv hd
  have hdec : (b64dec true tok).1 = Spec.token P.sha k.sign (stamp at_) iv
      (blkRun 16 (cbcEncF (P.aes k.crypt)) iv (pkcs7Pad msg 16)).1 := by
    rw [← he]
    have := b64dec_enc true [] (Or.inl rfl) (Spec.token P.sha k.sign (stamp at_) iv
      (blkRun 16 (cbcEncF (P.aes k.crypt)) iv (pkcs7Pad msg 16)).1)
    rw [List.append_nil] at this
    rw [this]
  unfold decryptWithTime
  rw [tryKeys_skip P _ ttl now l1 (k :: l2) (fun k' hk' ⟨x, hx⟩ => hother k' hk' x hx)]
  have hv : ∃ tok', decryptM P (b64dec true tok).1 ttl now k = .ok (some msg, tok') := by
    rw [decryptM_some_iff P _ ttl now k msg hn ht]
    refine ⟨stamp at_, iv, chunks 16 (blkRun 16 (cbcEncF (P.aes k.crypt)) iv (pkcs7Pad msg 16)).1, stamp_lt _, hiv,
      chunks_all_len 16 (by decide) _ (by rw [hc]; exact hd), ?_, ?_, Or.inl ?_⟩
    · rw [chunks_flatten 16 (by decide)]; exact hdec
    · rcases hw with hw | ⟨h1, h2⟩
      · exact Or.inl hw
      · right
        obtain ⟨a1, a2, a3, a4⟩ := ha
        obtain ⟨n1, n2, n3, n4⟩ := hn
        rw [stamp_signed _ a1 a2]
        refine ⟨h2, ?_⟩
        unfold Time.ns at h1 ⊢
        omega
    · rw [← blkRun_dec, cbc_rt P _ _ _ hiv hd]
      refine ⟨16 - msg.length % 16, by omega, by omega, ?_⟩
      simp [pkcs7Pad, padSize, byteOf]
  obtain ⟨tok', hv⟩ := hv
  rw [tryKeys, hv]

/-- Whatever the keys: if a message comes back, the decoded token ends with the HMAC of the rest under one of the keys. -/
theorem C116_authentic (tok m : Bytes) (ttl : Int) (now : Time) (ks : List Key)
    (h : decryptWithTime P tok ttl ks now = .ok (some m)) :
    ∃ k ∈ ks, ∃ x, (b64dec true tok).1 = x ++ Kdf.hmac P.sha k.sign x := by
  unfold decryptWithTime at h
  generalize (b64dec true tok).1 = b at h ⊢
  induction ks with
  | nil => cases h
  | cons k ks ih =>
    rw [tryKeys] at h
    rcases decryptM_cases P b ttl now k with hc | hc | hc
    · rw [hc] at h
      obtain ⟨k', h1, h2⟩ := ih h
      exact ⟨k', by simp [h1], h2⟩
    · exact ⟨k, by simp, hc.1⟩
    · exact ⟨k, by simp, hc.1⟩

/-- `DecryptWithTime` panics only for a token of 33 to 56 bytes that one of the keys authenticates; it never fails
otherwise (the result is a message or `nil`). -/
theorem C116_total_partial (tok : Bytes) (ttl : Int) (now : Time) (ks : List Key)
    (h : ∀ k ∈ ks, ∀ x, (b64dec true tok).1 = x ++ Kdf.hmac P.sha k.sign x → 25 ≤ x.length) :
    ∃ r, decryptWithTime P tok ttl ks now = .ok r := by
  unfold decryptWithTime
  generalize (b64dec true tok).1 = b at h
  have key : ∀ (ks : List Key) (b : Bytes), 57 ≤ b.length → ∃ r, tryKeys P b ttl now ks = .ok r := by
    intro ks
    induction ks with
    | nil => intro b _; exact ⟨none, rfl⟩
    | cons k ks ih =>
      intro b hb
      rw [tryKeys]
      rcases decryptM_cases P b ttl now k with hc | hc | ⟨_, _, r, tok', hc, hl⟩
      · rw [hc]; exact ih b hb
      · omega
      · rw [hc]
        cases r with
        | none => exact ih tok' (by omega)
        | some m => exact ⟨some m, rfl⟩
  by_cases hb : 57 ≤ b.length
  · exact key ks b hb
  · induction ks with
    | nil => exact ⟨none, rfl⟩
    | cons k ks ih =>
      rw [tryKeys]
      rcases decryptM_cases P b ttl now k with hc | ⟨⟨x, hx⟩, h1, _⟩ | hc
      · rw [hc]; exact ih (fun k' hk' => h k' (by simp [hk']))
      · have := h k (by simp) x hx
        have hl := Kdf.hmac_length P.sha k.sign x
        rw [P.sha_size] at hl
        have := congrArg List.length hx
        rw [List.length_append, hl] at this
        omega
      · omega

/-- The documentation says that an invalid token gives `nil`. A key holder's token that stops before the end of the IV
makes every receiver with that key panic (slice bounds out of range, fernet.go:112). -/
theorem C116_short_violated (x : Bytes) (secs : Nat) (k : Key) (ks : List Key) (ttl : Int) (now : Time)
    (hxl : x.length < 16) (hs : secs < 2 ^ 64) (hn : now.Sane) (ht : ttl < 2 ^ 63)
    (hw : ttl ≤ 0 ∨ Spec.InWindow ttl now.ns (Spec.signed64 secs)) :
    let b := [0x80#8] ++ hx 8 secs ++ x
    decryptWithTime P (b64enc true (b ++ Kdf.hmac P.sha k.sign b)) ttl (k :: ks) now = .panic := by
  intro b
  have hbl : b.length = 9 + x.length := by simp [b]; omega
  have hml := Kdf.hmac_length P.sha k.sign b
  rw [P.sha_size] at hml
  unfold decryptWithTime
  have hd := b64dec_enc true [] (Or.inl rfl) (b ++ Kdf.hmac P.sha k.sign b)
  rw [List.append_nil] at hd
  rw [hd]
  have hl : (b ++ Kdf.hmac P.sha k.sign b).length = 41 + x.length := by rw [List.length_append, hbl, hml]; omega
  have htt : tokTime (b ++ Kdf.hmac P.sha k.sign b) = Time.unixT (wrap64 secs) := by
    simp only [tokTime, b]
    rw [List.append_assoc, List.append_assoc, List.drop_left' (by simp), List.take_left' (by simp),
      setBytes_hx _ _ (by omega)]
  have htb := (timeBad_iff ttl now secs hs hn ht).mpr hw
  have hp : decryptM P (b ++ Kdf.hmac P.sha k.sign b) ttl now k = .panic := by
    unfold decryptM
    rw [htt, hl]
    rw [if_neg (by rw [not_or]; exact ⟨by omega, by simp [b, version]⟩), if_neg (by simp [htb]), if_neg (by omega)]
    simp only
    rw [show 41 + x.length - 32 = b.length by omega, List.drop_left' rfl, List.take_left' rfl,
      if_neg (by simp [hmacHash]), if_pos (by omega)]
  rw [tryKeys, hp]

/-- The time check, for every 64-bit time stamp and every time to live: with `ttl > 0` the token must not be older than
`ttl` nor more than 60 seconds in the future. No wrap-around of `time.Unix` or saturation of `Add` changes the outcome. -/
theorem C116_window (tok : Bytes) (ttl : Int) (now : Time) (h : 9 ≤ tok.length) (hn : now.Sane) (ht : ttl < 2 ^ 63) :
    timeBad ttl now (tokTime tok) = false ↔
      (ttl ≤ 0 ∨ Spec.InWindow ttl now.ns (Spec.signed64 (setBytes ((tok.drop 1).take 8)))) := by
  refine timeBad_iff ttl now _ ?_ hn ht
  have := setBytes_lt ((tok.drop 1).take 8)
  rw [List.length_take, List.length_drop, min_eq_left (by omega)] at this
  omega

/-- Token strings are malleable: the error of the base64 decoder is ignored, so anything may follow a token, as long as
it starts with a character outside the alphabet; the outcome is the same for all keys and times. -/
theorem C116_trailing_violated (msg iv g : Bytes) (k : Key) (at_ : Time) (tok : Bytes) (hiv : iv.length = 16)
    (he : encryptWithTime P msg k at_ iv = .ok tok) :
    ∀ ttl ks now, decryptWithTime P (tok ++ 0x2A#8 :: g) ttl ks now = decryptWithTime P tok ttl ks now := by
  intro ttl ks now
  rw [encryptWithTime_eq P msg iv at_ k hiv] at he
  have he := Res.ok.inj he
  unfold decryptWithTime
  congr 1
  rw [← he]
  have hj : Junk true (0x2A#8 :: g) := Or.inr ⟨_, _, rfl, by decide, by decide, by decide⟩
  rw [b64dec_enc true _ hj]
  have := b64dec_enc true [] (Or.inl rfl) (Spec.token P.sha k.sign (stamp at_) iv
      (blkRun 16 (cbcEncF (P.aes k.crypt)) iv (pkcs7Pad msg 16)).1)
  rw [List.append_nil] at this
  rw [this]

/-! ### keys -/

/-- `DecodeKey` reads back what `Encode` wrote, for every key. -/
theorem C116_key_roundtrip (k : Key) : decodeKey k.encode = some k := by
  have hl : k.encode.length = 44 := by rw [Key.encode, b64enc_length, k.2]
  have hne : k.encode ≠ [] := by intro h; rw [h] at hl; simp at hl
  have hurl : b64dec true k.encode = (k.1, false) := by
    have := b64dec_enc true [] (Or.inl rfl) k.1
    rw [List.append_nil] at this
    rw [Key.encode, this]; rfl
  have hnew : newKey k.1 = some k := by rw [newKey, dif_pos k.2]
  unfold decodeKey
  rw [if_neg hne, if_neg (by omega)]
  rcases b64dec_cross k.1 with h | h
  · rw [← Key.encode] at h
    simp [h, hurl, hnew]
  · rw [← Key.encode] at h
    simp [h, hnew]

/-- Two lower-case (or upper-case) hexadecimal digits per byte. -/
def Spec.hexDigit (upper : Bool) (n : Nat) : Byte :=
  if n < 10 then BitVec.ofNat 8 (48 + n) else if upper then BitVec.ofNat 8 (55 + n) else BitVec.ofNat 8 (87 + n)

def Spec.hex (upper : Bool) : Bytes → Bytes
  | [] => []
  | a :: r => Spec.hexDigit upper (a.toNat / 16) :: Spec.hexDigit upper (a.toNat % 16) :: Spec.hex upper r

theorem unhex_digit (upper : Bool) (n : Nat) (h : n < 16) : unhex (Spec.hexDigit upper n) = some n := by
  have : ∀ u : Bool, ∀ n : Fin 16, unhex (Spec.hexDigit u n) = some n.val := by decide +kernel
  exact this upper ⟨n, h⟩

theorem hexDec_hex (upper : Bool) (b : Bytes) : hexDec (Spec.hex upper b) = some b := by
  induction b with
  | nil => rfl
  | cons a r ih =>
    have ha := a.isLt
    simp only [Spec.hex, hexDec, unhex_digit upper _ (show a.toNat / 16 < 16 by omega),
      unhex_digit upper _ (show a.toNat % 16 < 16 by omega), ih]
    rw [show a.toNat / 16 * 16 + a.toNat % 16 = a.toNat by omega]
    simp

theorem hex_length (upper : Bool) (b : Bytes) : (Spec.hex upper b).length = 2 * b.length := by
  induction b with
  | nil => rfl
  | cons a r ih => simp [Spec.hex, ih]; omega

/-- `DecodeKey` reads every key in hexadecimal and in standard base64 as well. -/
theorem C116_key_forms (k : Key) (upper : Bool) :
    decodeKey (Spec.hex upper k.1) = some k ∧ decodeKey (b64enc false k.1) = some k := by
  have hnew : newKey k.1 = some k := by rw [newKey, dif_pos k.2]
  constructor
  · have hl : (Spec.hex upper k.1).length = 64 := by rw [hex_length, k.2]
    have hne : Spec.hex upper k.1 ≠ [] := by intro h; rw [h] at hl; simp at hl
    unfold decodeKey
    rw [if_neg hne, if_pos hl, hexDec_hex]
    exact hnew
  · have hl : (b64enc false k.1).length = 44 := by rw [b64enc_length, k.2]
    have hne : b64enc false k.1 ≠ [] := by intro h; rw [h] at hl; simp at hl
    have hstd : b64dec false (b64enc false k.1) = (k.1, false) := by
      have := b64dec_enc false [] (Or.inl rfl) k.1
      rw [List.append_nil] at this
      rw [this]; rfl
    unfold decodeKey
    rw [if_neg hne, if_neg (by omega)]
    simp [hstd, hnew]

/-! ### non-vacuity -/

/-- A small cipher and hash, to run the model on. -/
def toyPrim : Prim where
  aes k :=
    { bs := 16
      E := fun b => xorb b (k ++ List.replicate (16 - k.length) 0#8)
      D := fun b => xorb b (k ++ List.replicate (16 - k.length) 0#8)
      bs_pos := by decide
      lenE := fun b h => by simp [h]; omega
      lenD := fun b h => by simp [h]; omega
      DE := fun b h => xorb_xorb_cancel_right _ _ (by simp [h]; omega) }
  aes_bs _ := rfl
  sha :=
    { f := fun m => List.replicate 31 1#8 ++ [m.foldl (fun a b => a * 3 + b) 5#8]
      size := 32, block := 4, pos := by decide, len := fun _ => by simp }
  sha_size := rfl

def toyKey1 : Key := ⟨List.replicate 16 7#8 ++ List.replicate 16 9#8, by decide⟩
def toyKey2 : Key := ⟨List.replicate 16 7#8 ++ List.replicate 16 0x35#8, by decide⟩
def toyNow : Time := ⟨62135596800 + 499162800, 5⟩
def toyIv : Bytes := List.replicate 16 3#8
def toyTok : Bytes := b64enc true (Spec.token toyPrim.sha toyKey2.sign 499162800 toyIv
  (Spec.cbcEnc (toyPrim.aes toyKey2.crypt) toyIv [[0x68, 0x69] ++ List.replicate 14 14#8]).flatten)

example : encryptWithTime toyPrim [0x68, 0x69] toyKey2 toyNow toyIv = .ok toyTok := by decide +kernel
example : decryptWithTime toyPrim toyTok 60000000000 [toyKey2] toyNow = .ok (some [0x68, 0x69]) := by decide +kernel
example : decryptWithTime toyPrim toyTok 60000000000 [toyKey2] ⟨62135596800 + 499162860, 1⟩ = .ok none := by decide +kernel
example : toyNow.Sane := ⟨by decide, by decide, by decide, by decide⟩
example : decodeKey toyKey1.encode = some toyKey1 := by decide +kernel

/-- The documentation says that a token is accepted if it was signed with *a key in* `k`. Two keys that share their
signing half: the token of the second key is authenticated by the first, which decrypts it in place to garbage and fails;
the second key then sees the spoiled buffer, and `nil` is returned although the list contains the right key. -/
theorem C116_keys_violated : ∃ (P : Prim) (k1 k2 : Key) (tok m : Bytes) (now : Time),
    k1.crypt ≠ k2.crypt ∧ encryptWithTime P m k2 now toyIv = .ok tok ∧
    decryptWithTime P tok 60000000000 [k2] now = .ok (some m) ∧
    decryptWithTime P tok 60000000000 [k2, k1] now = .ok (some m) ∧
    decryptWithTime P tok 60000000000 [k1, k2] now = .ok none :=
  ⟨toyPrim, toyKey1, toyKey2, toyTok, [0x68, 0x69], toyNow, by decide +kernel, by decide +kernel, by decide +kernel,
    by decide +kernel, by decide +kernel⟩

end Verif.Fernet
