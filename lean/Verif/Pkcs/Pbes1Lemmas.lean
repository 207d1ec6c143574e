import Verif.Pkcs.Pbes1Spec
import Verif.Pkcs.Pem1Props
import Verif.Kdf.P12Props
/-
Lemmas for C138.
-/
namespace Verif.Pkcs
open Verif.Asn1 Verif.Kdf Verif.Mode

/-- With no more than one digest asked for, the digest size the caller passes does not matter. -/
theorem p12_short (H : HashFn) (u v : Nat) (hu : 0 < u) (salt pw : Bytes) (r : Int) (ID : Byte) (n : Nat) (h1 : n ≤ H.size) (h2 : n ≤ u) :
    P12.key H u v salt pw r ID n = P12.key H H.size v salt pw r ID n := by
  have hpos := H.pos
  rcases Nat.eq_zero_or_pos n with rfl | hn
  · have c1 : (u - 1) / u = 0 := Nat.div_eq_of_lt (by omega)
    have c2 : (H.size - 1) / H.size = 0 := Nat.div_eq_of_lt (by omega)
    simp [P12.key, show ¬ u = 0 by omega, show ¬ H.size = 0 by omega, c1, c2, P12.loop]
  · have c1 : (n + u - 1) / u = 1 := by rw [Nat.div_eq_iff (by omega)]; omega
    have c2 : (n + H.size - 1) / H.size = 1 := by rw [Nat.div_eq_iff (by omega)]; omega
    have e : ∀ w : Nat, H.size ≤ w ∨ w ≤ H.size → n ≤ w → ∀ A : Bytes, A.length = H.size → ((Kdf.copyAt (List.replicate w 0#8) 0 A).take n) = A.take n := by
      intro w _ hw A hA
      simp only [Kdf.copyAt, List.take_zero, List.nil_append, List.drop_zero, copyInto, List.length_replicate, List.drop_replicate, Nat.sub_zero]
      rw [List.take_append, List.take_take, Nat.min_eq_left hw, List.length_take, hA, List.take_replicate]
      have : min (n - min w H.size) (w - H.size) = 0 := by omega
      simp [this]
    simp only [P12.key, Int.toNat_natCast, show ¬ ((n : Int) < 0) by omega, if_false, show ¬ u = 0 by omega, show ¬ H.size = 0 by omega, c1, c2, P12.loop, Nat.one_mul,
      Nat.lt_irrefl, Res.bind_ok, gt_iff_lt, Nat.zero_mul]
    have hl : ∀ k (x : Bytes), x.length = H.size → (P12.iterHash H k x).length = H.size := by
      intro k
      induction k with
      | zero => intro x hx; exact hx
      | succ k ih => intro x _; exact ih _ (H.len _)
    rw [e u (by omega) h2 _ (hl _ _ (H.len _)), e H.size (by omega) h1 _ (hl _ _ (H.len _))]

namespace Pbes1

theorem rehash_eq (H : HashFn) (P S : Bytes) (n k : Nat) : rehash H n (Spec.pbkdf1 H.f P S k) = Spec.pbkdf1 H.f P S (k + n) := by
  induction n generalizing k with
  | zero => rfl
  | succ n ih =>
    rw [rehash, show H.f (Spec.pbkdf1 H.f P S k) = Spec.pbkdf1 H.f P S (k + 1) from rfl, ih, show k + 1 + n = k + (n + 1) by omega]

theorem table_facts : ∀ c ∈ table, c.iter = 2048 ∧ parseOID (oidBytes c.oid) = some c.oid ∧ (oidBytes c.oid).length ≤ 12 ∧ c.saltSize ≤ 20 ∧
    (c.hash = .sha1 ∨ c.kdf = .pbkdf1 ∨ (c.keySize ≤ 16 ∧ c.blockSize ≤ 16)) ∧ (c.kdf = .pbkdf1 → c.keySize + c.blockSize ≤ 16) ∧
    (c.alg = none → 1 ≤ c.keySize ∧ c.keySize ≤ 256) ∧ (∀ a, c.alg = some a → a.keyOk c.keySize = true ∧ c.blockSize = a.bs) := by
  decide +kernel

theorem table_oids : table.Pairwise fun a b => a.oid ≠ b.oid := by decide +kernel

theorem getCipher_oid {c : Cph} (hc : c ∈ table) : getCipher c.oid = some c := by
  have key : ∀ l : List Cph, (l.Pairwise fun a b => a.oid ≠ b.oid) → c ∈ l → l.find? (fun d => d.oid == c.oid) = some c := by
    intro l
    induction l with
    | nil => simp
    | cons d l ih =>
      intro h hc
      rw [List.pairwise_cons] at h
      rw [List.find?_cons]
      rcases List.mem_cons.1 hc with rfl | hc
      · simp
      · have : (d.oid == c.oid) = false := by simpa using h.1 c hc
        rw [this]; exact ih h.2 hc
  exact key table table_oids hc

theorem getCipher_some {o : List Nat} {c : Cph} (h : getCipher o = some c) : c ∈ table ∧ c.oid = o :=
  ⟨List.mem_of_find?_eq_some h, by simpa using List.find?_some h⟩

theorem pbkdf1_len (H : HashFn) (P S : Bytes) (r : Nat) (h : 1 ≤ r) : (Spec.pbkdf1 H.f P S r).length = H.size := by
  cases r with
  | zero => omega
  | succ r => exact H.len _

theorem hash16 (E : Env) (h : Hn) : 16 ≤ (E.hash h).size := by
  cases h <;> simp [Env.hash, E.md2_size, E.md5_size, E.sha1_size]

theorem derive_eq (E : Env) (c : Cph) (hc : c ∈ table) (pw salt : Bytes) (iter : Int) :
    derive E c pw salt iter = .ok (Spec.keyIv E c pw salt (max 1 iter.toNat)) := by
  obtain ⟨-, -, -, -, hp, hb, -, -⟩ := table_facts c hc
  have hsz := hash16 E c.hash
  rw [derive, Spec.keyIv]
  cases hk : c.kdf with
  | pkcs12 =>
    simp only
    have key : ∀ (ID : Byte) (n : Nat), (n ≤ 16 ∨ c.hash = .sha1) →
        P12.key (E.hash c.hash) 20 64 salt pw iter ID n = .ok (Kdf.Spec.pkcs12 (E.hash c.hash).f (E.hash c.hash).size 64 salt pw (max 1 iter.toNat) ID n) := by
      intro ID n hn
      have e : iter.toNat - 1 + 1 = max 1 iter.toNat := by omega
      rcases hn with hn | hn
      · rw [p12_short (E.hash c.hash) 20 64 (by decide) salt pw iter ID n (by omega) (by omega), P12.key_eq _ 64 (by decide), e]
      · have : (E.hash c.hash).size = 20 := by rw [hn]; exact E.sha1_size
        conv_lhs => rw [← this]
        rw [P12.key_eq _ 64 (by decide), e]
    have h1 : c.keySize ≤ 16 ∨ c.hash = .sha1 := by
      rcases hp with h | h | h
      · exact .inr h
      · rw [hk] at h; exact absurd h (by simp)
      · exact .inl h.1
    have h2 : c.blockSize ≤ 16 ∨ c.hash = .sha1 := by
      rcases hp with h | h | h
      · exact .inr h
      · rw [hk] at h; exact absurd h (by simp)
      · exact .inl h.2
    rw [key 1 c.keySize h1, key 2 c.blockSize h2]; rfl
  | pbkdf1 =>
    simp only
    have hsum := hb hk
    have e : rehash (E.hash c.hash) (iter - 1).toNat ((E.hash c.hash).f (pw ++ salt)) = Spec.pbkdf1 (E.hash c.hash).f pw salt (max 1 iter.toNat) := by
      have := rehash_eq (E.hash c.hash) pw salt (iter - 1).toNat 1
      rw [show 1 + (iter - 1).toNat = max 1 iter.toNat by omega] at this
      exact this
    rw [e, if_neg]
    rw [pbkdf1_len _ _ _ _ (by omega)]; omega

theorem keyIv_len (E : Env) (c : Cph) (hc : c ∈ table) (pw salt : Bytes) (r : Nat) (hr : 1 ≤ r) :
    (Spec.keyIv E c pw salt r).1.length = c.keySize ∧ (Spec.keyIv E c pw salt r).2.length = c.blockSize := by
  obtain ⟨-, -, -, -, hp, hb, -, -⟩ := table_facts c hc
  have hsz := hash16 E c.hash
  rw [Spec.keyIv]
  cases hk : c.kdf with
  | pkcs12 =>
    simp only [Kdf.Spec.pkcs12]
    have hl : ∀ (ID : Byte) (n : Nat), (outBytes (fun i => Kdf.Spec.iter (E.hash c.hash).f r (List.replicate 64 ID ++ Kdf.Spec.p12I (E.hash c.hash).f 64 r ID salt pw i))
        (E.hash c.hash).size n).length = n := by
      intro ID n
      refine outBytes_length _ _ _ (E.hash c.hash).pos fun i => ?_
      cases r with
      | zero => omega
      | succ r => exact (E.hash c.hash).len _
    exact ⟨hl _ _, hl _ _⟩
  | pbkdf1 =>
    have hsum := hb hk
    simp only [List.length_take, List.length_drop, pbkdf1_len _ _ _ _ hr]
    omega

theorem rc4Xor_len (E : Env) (k x : Bytes) : (rc4Xor E k x).length = x.length := by simp [rc4Xor]

theorem rc4Xor_rc4Xor (E : Env) (k x : Bytes) : rc4Xor E k (rc4Xor E k x) = x := by
  rw [rc4Xor, rc4Xor_len, rc4Xor, xorb_xorb_cancel_right _ _ (by simp)]

theorem parseParams_enc (salt ci x r : Bytes) (iter : Int) (hl : (encOct salt ++ tlv 0x02#8 ci ++ x).length < 2 ^ 31) (h : parseInt ci = some iter)
    (h1 : -(2 ^ 63) ≤ iter) (h2 : iter < 2 ^ 63) : parseParams (encSeq (encOct salt ++ tlv 0x02#8 ci ++ x) ++ r) = some (salt, iter) := by
  have hs : salt.length < 2 ^ 31 := by
    simp only [List.length_append, encOct, tlv, List.length_cons] at hl; omega
  have hci : ci.length < 2 ^ 31 := by
    simp only [List.length_append, encOct, tlv, List.length_cons] at hl; omega
  rw [parseParams, encSeq, element_tlv _ _ _ hl]
  simp only [List.append_assoc]
  rw [octField_encOct _ _ hs]
  simp only
  rw [int64Field_tlv ci x iter hci h h1 h2]

theorem parseParams_some {b salt : Bytes} {iter : Int} (h : parseParams b = some (salt, iter)) :
    ∃ ci x r, b = encSeq (encOct salt ++ tlv 0x02#8 ci ++ x) ++ r ∧ parseInt ci = some iter ∧ -(2 ^ 63) ≤ iter ∧ iter < 2 ^ 63 := by
  rw [parseParams] at h
  cases he : element 0x30#8 b with
  | none => rw [he] at h; simp at h
  | some p =>
    obtain ⟨pc, r⟩ := p
    rw [he] at h
    simp only at h
    cases ho : octField pc with
    | none => rw [ho] at h; simp at h
    | some q =>
      obtain ⟨s, r1⟩ := q
      rw [ho] at h
      simp only at h
      cases hi : int64Field r1 with
      | none => rw [hi] at h; simp at h
      | some t =>
        obtain ⟨it, r2⟩ := t
        rw [hi] at h
        simp only [Option.some.injEq, Prod.mk.injEq] at h
        obtain ⟨rfl, rfl⟩ := h
        obtain ⟨ci, e3, h3, h4, h5⟩ := int64Field_some hi
        refine ⟨ci, r2, r, ?_, h3, h4, h5⟩
        rw [(element_some he).1, (element_some ho).1, e3, List.append_assoc]; rfl

theorem rawField_some {b f r : Bytes} (h : rawField b = some (f, r)) : b = f ++ r := by
  cases b with
  | nil => simp [rawField] at h
  | cons t b =>
    rw [rawField] at h
    split at h
    · simp at h
    · rename_i r' hr'
      have hsuf : ∃ p, b = p ++ r' := by
        split at hr'
        · split at hr'
          · simp at hr'
          · rename_i n r'' hp
            split at hr'
            · simp at hr'
            · simp only [Option.some.injEq] at hr'
              subst hr'
              exact ⟨_, (parse128_some hp).1⟩
        · simp only [Option.some.injEq] at hr'
          exact ⟨[], hr'⟩
      obtain ⟨p, rfl⟩ := hsuf
      split at h
      · simp at h
      · rename_i l c hpl
        have hb := (parseLen_some hpl).1
        subst hb
        split at h
        · simp at h
        · rename_i hlen
          simp only [Option.some.injEq, Prod.mk.injEq] at h
          rw [← h.1, ← h.2]
          have e : t :: (p ++ (encLen l ++ c)) = (t :: (p ++ encLen l)) ++ c := by simp
          have e2 : (t :: (p ++ (encLen l ++ c))).length - c.length + l = (t :: (p ++ encLen l)).length + l := by
            simp only [List.length_cons, List.length_append]; omega
          rw [e2, e, List.take_length_add_append, List.append_assoc, List.take_append_drop]

theorem parsePki_file (c : Cph) (hc : c ∈ table) (salt ci x1 x2 ct x3 x4 : Bytes)
    (hl : (tlv 0x30#8 (tlv 0x06#8 (oidBytes c.oid) ++ tlv 0x30#8 (tlv 0x04#8 salt ++ tlv 0x02#8 ci ++ x1) ++ x2) ++ tlv 0x04#8 ct ++ x3).length < 2 ^ 31) :
    parsePki (Spec.file c.oid salt ci x1 x2 ct x3 x4) = some (c.oid, encSeq (encOct salt ++ tlv 0x02#8 ci ++ x1), ct) := by
  obtain ⟨-, ho, hol, -⟩ := table_facts c hc
  have hl1 : (tlv 0x06#8 (oidBytes c.oid) ++ tlv 0x30#8 (tlv 0x04#8 salt ++ tlv 0x02#8 ci ++ x1) ++ x2).length < 2 ^ 31 := by
    have h0 : ∀ (t : Byte) (x : Bytes), x.length ≤ (tlv t x).length := fun t x => by simp [tlv]; omega
    have := h0 0x30#8 (tlv 0x06#8 (oidBytes c.oid) ++ tlv 0x30#8 (tlv 0x04#8 salt ++ tlv 0x02#8 ci ++ x1) ++ x2)
    rw [List.length_append, List.length_append] at hl
    omega
  have hl2 : (tlv 0x04#8 salt ++ tlv 0x02#8 ci ++ x1).length < 2 ^ 31 := by
    have h0 : ∀ (t : Byte) (x : Bytes), x.length ≤ (tlv t x).length := fun t x => by simp [tlv]; omega
    have := h0 0x30#8 (tlv 0x04#8 salt ++ tlv 0x02#8 ci ++ x1)
    rw [List.length_append, List.length_append] at hl1
    omega
  have hl3 : ct.length < 2 ^ 31 := by
    have h0 : ∀ (t : Byte) (x : Bytes), x.length ≤ (tlv t x).length := fun t x => by simp [tlv]; omega
    have := h0 0x04#8 ct
    rw [List.length_append, List.length_append] at hl
    omega
  rw [parsePki, Spec.file, element_tlv _ _ _ hl]
  simp only
  rw [List.append_assoc, element_tlv _ _ _ hl1]
  simp only
  rw [List.append_assoc]
  have h6 := oidField_enc c.oid (tlv 0x30#8 (tlv 0x04#8 salt ++ tlv 0x02#8 ci ++ x1) ++ x2) ho (by omega)
  rw [encOID] at h6
  rw [h6]
  simp only
  have hne : (tlv 0x30#8 (tlv 0x04#8 salt ++ tlv 0x02#8 ci ++ x1) ++ x2).isEmpty = false := rfl
  rw [hne]
  simp only [Bool.false_eq_true, if_false]
  rw [rawField_tlv 0x30#8 _ x2 (by decide) hl2]
  simp only [Option.map_some]
  rw [show tlv 0x04#8 ct ++ x3 = encOct ct ++ x3 from rfl, octField_encOct _ _ hl3]
  rfl

theorem parsePki_some {b params enc : Bytes} {oid : List Nat} (h : parsePki b = some (oid, params, enc)) (hp : parseParams params ≠ none) :
    ∃ salt ci x1 x2 x3 x4 iter, b = Spec.file oid salt ci x1 x2 enc x3 x4 ∧ parseParams params = some (salt, iter) ∧ parseInt ci = some iter ∧ -(2 ^ 63) ≤ iter ∧ iter < 2 ^ 63 ∧
      (tlv 0x30#8 (tlv 0x06#8 (oidBytes oid) ++ tlv 0x30#8 (tlv 0x04#8 salt ++ tlv 0x02#8 ci ++ x1) ++ x2) ++ tlv 0x04#8 enc ++ x3).length < 2 ^ 31 := by
  rw [parsePki] at h
  cases he : element 0x30#8 b with
  | none => rw [he] at h; simp at h
  | some p =>
    obtain ⟨c, x4⟩ := p
    rw [he] at h
    simp only at h
    cases ha : element 0x30#8 c with
    | none => rw [ha] at h; simp at h
    | some q =>
      obtain ⟨alg, r⟩ := q
      rw [ha] at h
      simp only at h
      cases ho : oidField alg with
      | none => rw [ho] at h; simp at h
      | some t =>
        obtain ⟨o, pr⟩ := t
        rw [ho] at h
        simp only at h
        split at h
        · simp at h
        · rename_i ps hps
          cases hoc : octField r with
          | none => rw [hoc] at h; simp at h
          | some u =>
            obtain ⟨ct, x3⟩ := u
            rw [hoc] at h
            simp only [Option.some.injEq, Prod.mk.injEq] at h
            obtain ⟨rfl, rfl, rfl⟩ := h
            split at hps
            · simp only [Option.some.injEq] at hps
              subst hps
              exact absurd (by rfl) hp
            · rw [Option.map_eq_some_iff] at hps
              obtain ⟨⟨f, x2⟩, hr, rfl⟩ := hps
              simp only at hp ⊢
              cases hpp : parseParams f with
              | none => exact absurd hpp hp
              | some w =>
                obtain ⟨salt, iter⟩ := w
                obtain ⟨ci, x1, y, e, h1, h2, h3⟩ := parseParams_some hpp
                have ec : c = tlv 0x30#8 (tlv 0x06#8 (oidBytes o) ++ tlv 0x30#8 (tlv 0x04#8 salt ++ tlv 0x02#8 ci ++ x1) ++ (y ++ x2)) ++ tlv 0x04#8 ct ++ x3 := by
                  rw [(element_some ha).1, oidField_some ho, rawField_some hr, e, (element_some hoc).1]
                  simp [encOID, encSeq, encOct, List.append_assoc]
                refine ⟨salt, ci, x1, y ++ x2, x3, x4, iter, ?_, rfl, h1, h2, h3, ?_⟩
                · rw [(element_some he).1, Spec.file, ← ec]
                · rw [← ec]; exact (element_some he).2

end Pbes1
end Verif.Pkcs
