import Verif.Sm2.SignProps
import Verif.Kdf.MiscProps
/-
C130: SM2 encryption (gm/sm2).  The specification is GB/T 32918.4.
-/
namespace Verif.Sm2
open Verif.Cipher Verif.Kdf Verif.Pub Verif.Pub.Dh Verif.Asn1

namespace Spec

/-- The coordinates of the shared point, in octets. -/
def xy (c : C) (S : c.α) : Bytes × Bytes := (hx c.plen (c.x S), hx c.plen (c.y S))

/-- The key stream from the shared point: GB/T 32918.4, 5.4.3. -/
def stream (c : C) (H : HashFn) (S : c.α) (n : Nat) : Bytes := Kdf.Spec.smKdf H.f H.size ((xy c S).1 ++ (xy c S).2) n

/-- The octets `C3`. -/
def tag (c : C) (H : HashFn) (S : c.α) (m : Bytes) : Bytes := H.f ((xy c S).1 ++ m ++ (xy c S).2)

/-- The ciphertext of `m` with the ephemeral point `R` and the shared point `S`: `C1 C3 C2`, or `C1 C2 C3` (`old`). -/
def ciphertext (c : C) (H : HashFn) (old : Bool) (R S : c.α) (m : Bytes) : Bytes :=
  let c1 := 4#8 :: ((xy c R).1 ++ (xy c R).2)
  let c2 := xorb m (stream c H S m.length)
  let c3 := tag c H S m
  if old then c1 ++ c2 ++ c3 else c1 ++ c3 ++ c2

/-- The stream is not zero, which the standard asks for. -/
def Good (c : C) (H : HashFn) (S : c.α) (n : Nat) : Prop := ∃ b ∈ stream c H S n, b ≠ 0#8

/-- The lengths the key derivation takes. -/
def Fits (H : HashFn) (n : Nat) : Prop := H.size ≤ 2 ^ 62 ∧ n < 2 ^ 63 ∧ (n + H.size - 1) / H.size < 2 ^ 32 - 1

end Spec

theorem allZero_iff (b : Bytes) : allZero b = true ↔ ∀ x ∈ b, x = 0#8 := by
  have h : ∀ (b : Bytes) (a : Byte), b.foldl (· ||| ·) a = 0#8 ↔ a = 0#8 ∧ ∀ x ∈ b, x = 0#8 := by
    intro b
    induction b with
    | nil => intro a; simp
    | cons x b ih =>
      intro a
      rw [List.foldl_cons, ih]
      simp only [List.mem_cons, forall_eq_or_imp, BitVec.or_eq_zero_iff]
      tauto
  rw [allZero, beq_iff_eq, h]; simp

theorem not_good (c : C) (H : HashFn) (S : c.α) (n : Nat) : allZero (Spec.stream c H S n) = true ↔ ¬ Spec.Good c H S n := by
  rw [allZero_iff, Spec.Good]; push Not; rfl

theorem stream_length (c : C) (H : HashFn) (S : c.α) (n : Nat) : (Spec.stream c H S n).length = n :=
  outBytes_length _ _ _ H.pos (fun _ => H.len _)

theorem key_stream (c : C) (H : HashFn) (S : c.α) (n : Nat) (h : Spec.Fits H n) :
    SmKdf.key H (hx c.plen (c.x S) ++ hx c.plen (c.y S)) (n : Nat) = .ok (Spec.stream c H S n) := by
  rw [C87_smkdf H h.1 _ n h.2.1, if_pos h.2.2]; rfl

open Classical in
/-- One attempt at encrypting. -/
theorem encryptUsingK_eq (c : C) (H : HashFn) (k : Nat) (Q : c.α) (data : Bytes) (h : Spec.Fits H data.length) :
    encryptUsingK c H k (pubOf c Q) data = .ok (if Spec.Good c H (k • Q) data.length then
      some ⟨(Spec.xy c (k • c.G)).1, (Spec.xy c (k • c.G)).2, Spec.tag c H (k • Q) data, xorb (Spec.stream c H (k • Q) data.length) data⟩ else none) := by
  rw [encryptUsingK]
  simp only [pubOf, point_pubOf, bind, Res.bind, Curve.baseMult_eq, Curve.mult_eq, toBytes_x, toBytes_y]
  rw [key_stream c H _ _ h]
  simp only
  by_cases hg : Spec.Good c H (k • Q) data.length
  · rw [if_pos hg, if_neg (by rw [not_good]; simpa using hg)]; rfl
  · rw [if_neg hg, if_pos ((not_good ..).2 hg)]

open Classical in
/-- Decryption of the four parts, the point being one of the curve or the neutral element. -/
theorem decrypt_eq (c : C) (H : HashFn) (priv : Priv) (R : c.α) (h ct : Bytes) (hf : Spec.Fits H ct.length) :
    decrypt c H priv ⟨(Spec.xy c R).1, (Spec.xy c R).2, h, ct⟩ = if ¬ Spec.Good c H (priv.D • R) ct.length then .err else
      if Spec.tag c H (priv.D • R) (xorb (Spec.stream c H (priv.D • R) ct.length) ct) ≠ h then .err else .ok (xorb (Spec.stream c H (priv.D • R) ct.length) ct) := by
  rw [decrypt]
  simp only [Spec.xy]
  rw [setBytes_hx _ _ (Nat.lt_of_lt_of_le (c.x_lt R) c.P_le), setBytes_hx _ _ (Nat.lt_of_lt_of_le (c.y_lt R) c.P_le), point_pubOf]
  simp only [bind, Res.bind, Curve.mult_eq, toBytes_x, toBytes_y]
  rw [key_stream c H _ _ hf]
  simp only
  by_cases hg : Spec.Good c H (priv.D • R) ct.length
  · rw [if_neg (by rw [not_good]; simpa using hg), if_neg (not_not.2 hg)]; rfl
  · rw [if_pos ((not_good ..).2 hg), if_pos hg]

theorem xy_length (c : C) (S : c.α) : (Spec.xy c S).1.length = c.plen ∧ (Spec.xy c S).2.length = c.plen := ⟨hx_length _ _, hx_length _ _⟩

theorem tag_length (c : C) (H : HashFn) (S : c.α) (m : Bytes) : (Spec.tag c H S m).length = H.size := H.len _

/-- Reading the concatenated form. -/
theorem uncipher_cipher (c : C) (hs : Nat) (e : Enc) (old : Bool) (h1 : e.x.length = c.plen) (h2 : e.y.length = c.plen) (h3 : e.hash.length = hs) :
    uncipherBytes c (cipherBytes e old) old hs = .ok e := by
  obtain ⟨x, y, h, ct⟩ := e
  simp only at h1 h2 h3
  cases old with
  | true =>
    rw [cipherBytes, if_pos rfl]
    simp only [List.cons_append, List.nil_append]
    have hl : (x ++ y ++ ct ++ h).length = 2 * c.plen + hs + ct.length := by simp [h1, h2, h3]; omega
    rw [uncipherBytes, if_neg (by simp), if_neg (by rw [List.length_cons, hl]; omega), if_neg (by rw [hl]; omega)]
    simp only [if_true]
    have a1 : (x ++ y ++ ct ++ h).take (2 * c.plen) = x ++ y := by
      rw [List.append_assoc (x ++ y)]; exact List.take_left' (by simp [h1, h2]; omega)
    have a2 : (x ++ y ++ ct ++ h).take ((x ++ y ++ ct ++ h).length - hs) = x ++ y ++ ct := List.take_left' (by simp [h1, h2, h3]; omega)
    have a3 : (x ++ y ++ ct ++ h).drop ((x ++ y ++ ct ++ h).length - hs) = h := List.drop_left' (by simp [h1, h2, h3]; omega)
    have a4 : (x ++ y ++ ct).drop (2 * c.plen) = ct := List.drop_left' (by simp [h1, h2]; omega)
    rw [a2, a3, a1, a4, List.take_left' h1, List.drop_left' h1]
  | false =>
    rw [cipherBytes, if_neg (by simp)]
    simp only [List.cons_append, List.nil_append]
    have hl : (x ++ y ++ h ++ ct).length = 2 * c.plen + hs + ct.length := by simp [h1, h2, h3]; omega
    rw [uncipherBytes, if_neg (by simp), if_neg (by rw [List.length_cons, hl]; omega), if_neg (by rw [hl]; omega)]
    simp only [Bool.false_eq_true, if_false]
    have a1 : (x ++ y ++ h ++ ct).take (2 * c.plen) = x ++ y := by
      rw [List.append_assoc (x ++ y)]; exact List.take_left' (by simp [h1, h2]; omega)
    have a2 : (x ++ y ++ h ++ ct).take (2 * c.plen + hs) = x ++ y ++ h := List.take_left' (by simp [h1, h2, h3]; omega)
    have a3 : (x ++ y ++ h ++ ct).drop (2 * c.plen + hs) = ct := List.drop_left' (by simp [h1, h2, h3]; omega)
    have a4 : (x ++ y ++ h).drop (2 * c.plen) = h := List.drop_left' (by simp [h1, h2]; omega)
    rw [a2, a3, a1, a4, List.take_left' h1, List.drop_left' h1]

/-- What is read is what was written. -/
theorem uncipher_ok (c : C) (hs : Nat) (b : Bytes) (old : Bool) (e : Enc) (h : uncipherBytes c b old hs = .ok e) :
    b = cipherBytes e old ∧ e.x.length = c.plen ∧ e.y.length = c.plen ∧ e.hash.length = hs := by
  cases b with
  | nil => cases h
  | cons t r =>
    rw [uncipherBytes] at h
    split at h
    · cases h
    rename_i ht
    rw [ne_eq, not_not] at ht
    subst ht
    split at h
    · cases h
    split at h
    · cases h
    rename_i hl
    cases old with
    | true =>
      simp only [if_true, Res.ok.injEq] at h
      subst h
      simp only [cipherBytes, if_true]
      refine ⟨?_, ?_, ?_, ?_⟩
      · rw [List.append_assoc [4#8], List.take_append_drop, List.singleton_append, List.cons_append, List.cons_append]
        congr 1
        have : r.take (2 * c.plen) = (r.take (r.length - hs)).take (2 * c.plen) := by rw [List.take_take, Nat.min_eq_left (by omega)]
        rw [this, List.take_append_drop, List.take_append_drop]
      · rw [List.length_take, List.length_take]; omega
      · rw [List.length_drop, List.length_take]; omega
      · rw [List.length_drop]; omega
    | false =>
      simp only [Bool.false_eq_true, if_false, Res.ok.injEq] at h
      subst h
      simp only [cipherBytes, Bool.false_eq_true, if_false]
      refine ⟨?_, ?_, ?_, ?_⟩
      · rw [List.append_assoc [4#8], List.take_append_drop, List.singleton_append, List.cons_append, List.cons_append]
        congr 1
        have : r.take (2 * c.plen) = (r.take (2 * c.plen + hs)).take (2 * c.plen) := by rw [List.take_take, Nat.min_eq_left (by omega)]
        rw [this, List.take_append_drop, List.take_append_drop]
      · rw [List.length_take, List.length_take]; omega
      · rw [List.length_drop, List.length_take]; omega
      · rw [List.length_drop, List.length_take]; omega

/-- Reading the ASN.1 form, with anything after it. -/
theorem unasn1_asn1 (c : C) (hp : c.plen < 2 ^ 20) (e : Enc) (old : Bool) (h1 : e.x.length = c.plen) (h2 : e.y.length = c.plen) (h3 : e.hash.length < 2 ^ 20) (h4 : e.ct.length < 2 ^ 30)
    (junk : Bytes) : uncipherASN1 c (cipherASN1 e old ++ junk) old = .ok e := by
  obtain ⟨x, y, h, ct⟩ := e
  simp only at h1 h2 h3 h4
  have bx : setBytes x < 256 ^ c.plen := by rw [← h1]; exact setBytes_lt x
  have by' : setBytes y < 256 ^ c.plen := by rw [← h2]; exact setBytes_lt y
  have l1 := intBytes_length_le bx
  have l2 := intBytes_length_le by'
  have m1 := tlv_length (tag := 0x02#8) (c := intBytes (setBytes x)) (by omega)
  have m2 := tlv_length (tag := 0x02#8) (c := intBytes (setBytes y)) (by omega)
  have m3 := tlv_length (tag := 0x04#8) (c := h) (by omega)
  have m4 := tlv_length (tag := 0x04#8) (c := ct) (by omega)
  have ex : toBytes c (setBytes x) = .ok x := by
    rw [toBytes, fillBytes_ok bx, ← h1, hx_setBytes]
  have ey : toBytes c (setBytes y) = .ok y := by
    rw [toBytes, fillBytes_ok by', ← h2, hx_setBytes]
  have key : ∀ u v : Bytes, u.length < 2 ^ 30 → v.length < 2 ^ 30 → (tlv 0x04#8 u).length + (tlv 0x04#8 v).length < 2 ^ 30 + 2 ^ 20 + 100 →
      fields4 (encSeq (encInt (setBytes x) ++ encInt (setBytes y) ++ encOct u ++ encOct v) ++ junk) = some (((setBytes x : Nat) : Int), ((setBytes y : Nat) : Int), u, v) := by
    intro u v hu hv huv
    rw [fields4, encSeq, element_tlv _ _ _ (by simp only [List.length_append, encInt, encOct]; omega)]
    simp only [List.append_assoc]
    rw [intField_encInt _ _ (by omega)]
    simp only
    rw [intField_encInt _ _ (by omega)]
    simp only
    rw [octField_encOct _ _ (by omega)]
    simp only
    rw [← List.append_nil (encOct v), octField_encOct _ _ (by omega)]
  cases old with
  | true =>
    rw [uncipherASN1, cipherASN1, if_pos rfl, key ct h (by omega) (by omega) (by omega)]
    simp only [Int.natAbs_natCast]
    rw [ex, ey]; rfl
  | false =>
    rw [uncipherASN1, cipherASN1, if_neg (by simp), key h ct (by omega) (by omega) (by omega)]
    simp only [Int.natAbs_natCast]
    rw [ex, ey]; rfl

theorem decode_encode (c : C) (o : EncOpts) (hp : c.plen < 2 ^ 20) (hh : o.H.size < 2 ^ 20) (e : Enc) (h1 : e.x.length = c.plen) (h2 : e.y.length = c.plen) (h3 : e.hash.length = o.H.size)
    (h4 : e.ct.length < 2 ^ 30) : decode c o (encode o e) = .ok e := by
  rw [decode, encode]
  split
  · have := unasn1_asn1 c hp e o.old h1 h2 (by omega) h4 []
    rwa [List.append_nil] at this
  · exact uncipher_cipher c o.H.size e o.old h1 h2 h3

/-- C130. One attempt: with any key pair and nonce, in both layouts and both encodings, what `EncryptUsingK` returns is decrypted to the message. -/
theorem C130_roundtrip (c : C) (o : EncOpts) (hp : c.plen < 2 ^ 20) (hh : o.H.size < 2 ^ 20) (key : Priv) (hk : key.pub = pubOf c (key.D • c.G)) (k : Nat) (data b : Bytes)
    (hf : Spec.Fits o.H data.length) (hl : data.length < 2 ^ 30) (h : EncryptUsingK c k key.pub data o = .ok b) : Decrypt c key b o = .ok data := by
  rw [EncryptUsingK, hk, encryptUsingK_eq c o.H k _ data hf] at h
  by_cases hg : Spec.Good c o.H (k • key.D • c.G) data.length
  · rw [if_pos hg] at h
    simp only [bind, Res.bind, Res.ok.injEq] at h
    subst h
    have hcl : (xorb (Spec.stream c o.H (k • key.D • c.G) data.length) data).length = data.length := by rw [xorb_length, stream_length, Nat.min_self]
    rw [Decrypt, decode_encode c o hp hh _ (xy_length ..).1 (xy_length ..).2 (tag_length ..) (by rw [hcl]; exact hl)]
    simp only [bind, Res.bind]
    rw [decrypt_eq c o.H key _ _ _ (by rw [hcl]; exact hf), hcl, smul_comm key.D k c.G, if_neg (not_not.2 hg), xorb_xorb_cancel_left _ _ (by rw [stream_length])]
    simp
  · rw [if_neg hg] at h; cases h

/-- C130. The loop of `Encrypt` returns what one attempt returns. -/
theorem encLoop_ok (c : C) (H : HashFn) (pub : Pub) (data : Bytes) : ∀ fuel retry rd e, encLoop c H pub data fuel retry rd = .ok e →
    ∃ k, 1 ≤ k ∧ k < c.N ∧ encryptUsingK c H k pub data = .ok (some e)
  | 0, _, _, _, h => by cases h
  | fuel + 1, retry, rd, e, h => by
    rw [encLoop] at h
    rcases rnd_cases c rd with ⟨hr, _⟩ | ⟨k, hr, h1, h2, _⟩
    · rw [hr] at h; cases h
    rw [hr] at h
    simp only at h
    cases he : encryptUsingK c H k pub data with
    | ok x =>
      rw [he] at h
      cases x with
      | none =>
        simp only at h
        split at h
        · cases h
        · exact encLoop_ok c H pub data _ _ _ _ h
      | some e' => simp only [Res.ok.injEq] at h; subst h; exact ⟨k, h1, h2, he⟩
    | err => rw [he] at h; cases h
    | panic => rw [he] at h; cases h
    | hang => rw [he] at h; cases h

/-- C130. The whole interface: whatever the random source, `Decrypt` returns the message of what `Encrypt` returns. -/
theorem C130_api (c : C) (o : EncOpts) (hp : c.plen < 2 ^ 20) (hh : o.H.size < 2 ^ 20) (key : Priv) (hk : key.pub = pubOf c (key.D • c.G)) (rd data b : Bytes)
    (hf : Spec.Fits o.H data.length) (hl : data.length < 2 ^ 30) (h : Encrypt c rd key.pub data o = .ok b) : Decrypt c key b o = .ok data := by
  rw [Encrypt, encrypt] at h
  cases he : encLoop c o.H key.pub data 102 0 rd with
  | ok e =>
    rw [he] at h
    obtain ⟨k, _, _, hk'⟩ := encLoop_ok _ _ _ _ _ _ _ _ he
    refine C130_roundtrip c o hp hh key hk k data b hf hl ?_
    rw [EncryptUsingK, hk']
    exact h
  | err => rw [he] at h; cases h
  | panic => rw [he] at h; cases h
  | hang => rw [he] at h; cases h

/-- C130. The ciphertext is that of the standard: for every nonce for which the key stream is not zero, the concatenated form of `EncryptUsingK` is `C1 C3 C2` (or `C1 C2 C3`). -/
theorem C130_standard (c : C) (o : EncOpts) (ho : o.getEnc ≠ 1) (Q : c.α) (k : Nat) (data : Bytes) (hf : Spec.Fits o.H data.length) :
    (Spec.Good c o.H (k • Q) data.length → EncryptUsingK c k (pubOf c Q) data o = .ok (Spec.ciphertext c o.H o.old (k • c.G) (k • Q) data)) ∧
    (¬ Spec.Good c o.H (k • Q) data.length → EncryptUsingK c k (pubOf c Q) data o = .err) := by
  rw [EncryptUsingK, encryptUsingK_eq c o.H k _ data hf]
  constructor
  · intro hg
    rw [if_pos hg]
    simp only [bind, Res.bind]
    rw [encode, if_neg ho, cipherBytes, Spec.ciphertext, xorb_comm data]
    cases o.old <;> simp
  · intro hg
    rw [if_neg hg]; rfl

/-- C130. Decryption of the concatenated form succeeds exactly on ciphertexts of the standard: the point is one of the curve or the neutral element, the key stream is not zero, and the
hash is that of the message. -/
theorem C130_decrypt_iff (c : C) (o : EncOpts) (ho : o.getEnc ≠ 1) (priv : Priv) (b m : Bytes) (hf : ∀ n ≤ b.length, Spec.Fits o.H n) :
    Decrypt c priv b o = .ok m ↔ ∃ R : c.α, Spec.Good c o.H (priv.D • R) m.length ∧ b = Spec.ciphertext c o.H o.old R (priv.D • R) m := by
  rw [Decrypt, decode, if_neg ho]
  constructor
  · intro h
    cases hu : uncipherBytes c b o.old o.H.size with
    | ok e =>
      rw [hu] at h
      simp only [bind, Res.bind] at h
      obtain ⟨hb, hx', hy', hh'⟩ := uncipher_ok _ _ _ _ _ hu
      have hct : e.ct.length ≤ b.length := by
        rw [hb, cipherBytes]; split <;> simp <;> omega
      have hpt : ∃ R, point c (setBytes e.x) (setBytes e.y) = .ok R := by
        rw [decrypt] at h
        cases hp : point c (setBytes e.x) (setBytes e.y) with
        | ok R => exact ⟨R, rfl⟩
        | err => rw [hp] at h; cases h
        | panic => rw [hp] at h; cases h
        | hang => rw [hp] at h; cases h
      obtain ⟨R, hR⟩ := hpt
      have hcoord : setBytes e.x = c.x R ∧ setBytes e.y = c.y R := by
        rw [point] at hR
        split at hR
        · rename_i h0
          rw [Res.ok.injEq] at hR
          subst hR
          rw [c.x_zero, c.y_zero]; exact h0
        · split at hR
          · cases hR
          · rename_i a ha
            rw [Res.ok.injEq] at hR
            subst hR
            obtain ⟨_, e1, e2⟩ := c.pt_some _ _ _ ha
            exact ⟨e1.symm, e2.symm⟩
      have hex : e.x = (Spec.xy c R).1 := by rw [Spec.xy, ← hcoord.1, ← hx', hx_setBytes]
      have hey : e.y = (Spec.xy c R).2 := by rw [Spec.xy, ← hcoord.2, ← hy', hx_setBytes]
      obtain ⟨x, y, hh, ct⟩ := e
      simp only at hex hey hct
      subst hex hey
      rw [decrypt_eq c o.H priv R hh ct (hf _ hct)] at h
      split at h
      · cases h
      rename_i hg
      rw [not_not] at hg
      split at h
      · cases h
      rename_i htag
      rw [ne_eq, not_not] at htag
      rw [Res.ok.injEq] at h
      have hml : m.length = ct.length := by rw [← h, xorb_length, stream_length, Nat.min_self]
      rw [h] at htag
      refine ⟨R, by rw [hml]; exact hg, ?_⟩
      have hct' : xorb m (Spec.stream c o.H (priv.D • R) m.length) = ct := by
        rw [hml, xorb_comm, ← h, xorb_xorb_cancel_left _ _ (by rw [stream_length])]
      rw [hb, Spec.ciphertext, hct', htag, cipherBytes]
      cases o.old <;> simp
    | err => rw [hu] at h; cases h
    | panic => rw [hu] at h; cases h
    | hang => rw [hu] at h; cases h
  · rintro ⟨R, hg, rfl⟩
    have hlen : m.length ≤ (Spec.ciphertext c o.H o.old R (priv.D • R) m).length := by
      rw [Spec.ciphertext]
      split <;> simp only [List.length_append, xorb_length, stream_length] <;> omega
    have hcl : (xorb (Spec.stream c o.H (priv.D • R) m.length) m).length = m.length := by rw [xorb_length, stream_length, Nat.min_self]
    have hb : Spec.ciphertext c o.H o.old R (priv.D • R) m =
        cipherBytes ⟨(Spec.xy c R).1, (Spec.xy c R).2, Spec.tag c o.H (priv.D • R) m, xorb (Spec.stream c o.H (priv.D • R) m.length) m⟩ o.old := by
      rw [Spec.ciphertext, cipherBytes, xorb_comm m]
      cases o.old <;> simp
    have hfm := hf _ hlen
    rw [hb, uncipher_cipher c _ _ _ (xy_length ..).1 (xy_length ..).2 (tag_length ..)]
    simp only [bind, Res.bind]
    rw [decrypt_eq c o.H priv R _ _ (by rw [hcl]; exact hfm), hcl, if_neg (not_not.2 hg), xorb_xorb_cancel_left _ _ (by rw [stream_length])]
    simp

/-- C130. Disagreement: the neutral element is taken as the ephemeral point (the standard refuses it), so one ciphertext, made without any key, decrypts to the message of one's choice under every
private key. -/
theorem C130_any_key_violated (c : C) (o : EncOpts) (ho : o.getEnc ≠ 1) (m : Bytes) (hg : Spec.Good c o.H (0 : c.α) m.length)
    (hf : ∀ n ≤ (Spec.ciphertext c o.H o.old (0 : c.α) 0 m).length, Spec.Fits o.H n) (priv : Priv) :
    Decrypt c priv (Spec.ciphertext c o.H o.old (0 : c.α) 0 m) o = .ok m := by
  rw [C130_decrypt_iff c o ho priv _ m hf]
  exact ⟨0, by rw [smul_zero]; exact hg, by rw [smul_zero]⟩

/-- C130. Disagreement: decryption panics on empty input, on input one byte shorter than the shortest ciphertext, and on a point that is not on the curve. -/
theorem C130_panic_violated (c : C) (o : EncOpts) (ho : o.getEnc ≠ 1) (priv : Priv) :
    Decrypt c priv [] o = .panic ∧ (∀ r : Bytes, r.length + 1 = 2 * c.plen + o.H.size → Decrypt c priv (4#8 :: r) o = .panic) ∧
    ∀ x y r : Bytes, x.length = c.plen → y.length = c.plen → o.H.size ≤ r.length → (¬(setBytes x = 0 ∧ setBytes y = 0)) → c.pt (setBytes x) (setBytes y) = none →
      Decrypt c priv (4#8 :: (x ++ y ++ r)) o = .panic := by
  simp only [Decrypt, decode, if_neg ho]
  refine ⟨rfl, fun r hr => ?_, fun x y r h1 h2 h3 h0 hp => ?_⟩
  · rw [uncipherBytes, if_neg (by simp), if_neg (by rw [List.length_cons]; omega), if_pos (by omega)]; rfl
  · have hd : ∃ e, uncipherBytes c (4#8 :: (x ++ y ++ r)) o.old o.H.size = .ok e ∧ e.x = x ∧ e.y = y := by
      rw [uncipherBytes, if_neg (by simp), if_neg (by simp; omega), if_neg (by simp; omega)]
      have a1 : (x ++ y ++ r).take (2 * c.plen) = x ++ y := List.take_left' (by simp; omega)
      simp only [a1, List.take_left' h1, List.drop_left' h1]
      split <;> exact ⟨_, rfl, rfl, rfl⟩
    obtain ⟨e, he, rfl, rfl⟩ := hd
    rw [he]
    simp only [bind, Res.bind, decrypt]
    rw [point, if_neg h0, hp]

/-- C130. Disagreement: a number that does not fit makes the decryption of the ASN.1 form panic. -/
theorem C130_asn1_panic_violated (c : C) (o : EncOpts) (ho : o.getEnc = 1) (priv : Priv) (b : Bytes) (x y : Int) (u v : Bytes) (h : fields4 b = some (x, y, u, v)) (hx' : 256 ^ c.plen ≤ x.natAbs) :
    Decrypt c priv b o = .panic := by
  rw [Decrypt, decode, if_pos ho, uncipherASN1, h]
  simp only
  rw [toBytes, fillBytes_panic (by omega)]; rfl

/-- C130. Disagreement: the ASN.1 form is not the only one that is taken: the sign of the numbers does not matter, nor what follows. -/
theorem C130_asn1_violated (c : C) (o : EncOpts) (ho : o.getEnc = 1) (priv : Priv) :
    (∀ (b b' : Bytes) (x y x' y' : Int) (u v : Bytes), fields4 b = some (x, y, u, v) → fields4 b' = some (x', y', u, v) → x.natAbs = x'.natAbs → y.natAbs = y'.natAbs →
      Decrypt c priv b o = Decrypt c priv b' o) ∧
    ∀ (e : Enc) (junk : Bytes), c.plen < 2 ^ 20 → e.x.length = c.plen → e.y.length = c.plen → e.hash.length < 2 ^ 20 → e.ct.length < 2 ^ 30 →
      Decrypt c priv (cipherASN1 e o.old ++ junk) o = Decrypt c priv (cipherASN1 e o.old) o := by
  constructor
  · intro b b' x y x' y' u v h h' hx' hy'
    simp only [Decrypt, decode, if_pos ho, uncipherASN1, h, h', hx', hy']
  · intro e junk hp h1 h2 h3 h4
    have := unasn1_asn1 c hp e o.old h1 h2 h3 h4 []
    rw [List.append_nil] at this
    simp only [Decrypt, decode, if_pos ho, this, unasn1_asn1 c hp e o.old h1 h2 h3 h4 junk]

/-- C130. Disagreement: no empty message can be encrypted, whatever the random source. -/
theorem C130_empty_violated (c : C) (o : EncOpts) (hs : o.H.size ≤ 2 ^ 62) (Q : c.α) (rd : Bytes) : Encrypt c rd (pubOf c Q) [] o = .err := by
  have hf : Spec.Fits o.H ([] : Bytes).length := ⟨hs, by decide, by
    have := o.H.pos
    rw [List.length_nil, Nat.zero_add, Nat.div_eq_of_lt (by omega)]; decide⟩
  have hn : ∀ k, encryptUsingK c o.H k (pubOf c Q) [] = .ok none := by
    intro k
    rw [encryptUsingK_eq c o.H k Q [] hf, if_neg]
    rintro ⟨b, hb, _⟩
    have := stream_length c o.H (k • Q) ([] : Bytes).length
    rw [List.length_nil, List.length_eq_zero_iff] at this
    rw [List.length_nil, this] at hb
    cases hb
  have hloop : ∀ fuel retry rd, retry + fuel ≥ 102 → 0 < fuel → encLoop c o.H (pubOf c Q) [] fuel retry rd = .err := by
    intro fuel
    induction fuel with
    | zero => intro _ _ _ h; omega
    | succ fuel ih =>
      intro retry rd h _
      rw [encLoop]
      rcases rnd_cases c rd with ⟨hr, _⟩ | ⟨k, hr, _⟩
      · rw [hr]
      rw [hr]
      simp only [hn]
      by_cases h100 : retry + 1 > 100
      · rw [if_pos h100]
      · rw [if_neg h100]; exact ih _ _ (by omega) (by omega)
  rw [Encrypt, encrypt, hloop 102 0 rd (by omega) (by omega)]; rfl

/-! ### The hypotheses hold of a small curve -/

def toyOpts (mode enc : Nat) : EncOpts := ⟨mode, enc, toyHash⟩

example : ∀ n ≤ 1000, Spec.Fits toyHash n := fun n hn => ⟨by decide, by omega, by
  rw [show toyHash.size = 1 from rfl]; omega⟩
example : Spec.Good toyC toyHash (3 • toyC.G) 2 ∧ Spec.Good toyC toyHash (0 : toyC.α) 2 := by
  constructor <;> (rw [Spec.Good]; decide +kernel)
example : ∀ mode ∈ [0, 1, 2], ∀ enc ∈ [0, 1, 2], ∃ b, EncryptUsingK toyC 3 toyKey.pub [7, 8] (toyOpts mode enc) = .ok b ∧ Decrypt toyC toyKey b (toyOpts mode enc) = .ok [7, 8] ∧
    Decrypt toyC ⟨⟨3, 4⟩, 1⟩ b (toyOpts mode enc) = .err := by
  have : ∀ mode ∈ [0, 1, 2], ∀ enc ∈ [0, 1, 2], (match EncryptUsingK toyC 3 toyKey.pub [7, 8] (toyOpts mode enc) with
    | .ok b => decide (Decrypt toyC toyKey b (toyOpts mode enc) = .ok [7, 8] ∧ Decrypt toyC ⟨⟨3, 4⟩, 1⟩ b (toyOpts mode enc) = .err)
    | _ => false) = true := by decide +kernel
  intro m hm e he
  have := this m hm e he
  cases hb : EncryptUsingK toyC 3 toyKey.pub [7, 8] (toyOpts m e) with
  | ok b => rw [hb] at this; simp only [decide_eq_true_eq] at this; exact ⟨b, rfl, this⟩
  | err => rw [hb] at this; cases this
  | panic => rw [hb] at this; cases this
  | hang => rw [hb] at this; cases this
example : toyC.pt (setBytes [1]) (setBytes [1]) = none := by decide +kernel
example : fields4 [0x30, 0x0c, 2, 1, 0xfe, 2, 1, 6, 4, 1, 9, 4, 1, 5] = some (-2, 6, [9], [5]) ∧ fields4 [0x30, 0x0c, 2, 1, 2, 2, 1, 6, 4, 1, 9, 4, 1, 5] = some (2, 6, [9], [5]) ∧
    fields4 [0x30, 0x0d, 2, 2, 1, 0, 2, 1, 6, 4, 1, 9, 4, 1, 5] = some (256, 6, [9], [5]) ∧ 256 ^ toyC.plen ≤ (256 : Int).natAbs := by
  refine ⟨?_, ?_, ?_, ?_⟩ <;> decide +kernel

end Verif.Sm2
