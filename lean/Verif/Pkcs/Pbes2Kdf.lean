import Verif.Pkcs.Pbes2Lemmas
/-
Lemmas for C139: key derivation and files.
-/
namespace Verif.Pkcs.Pbes2
open Verif.Asn1 Verif.Kdf Spec

/-- The encoded hash function. -/
def prfEnc (h : Nat) : Bytes := if h = 0 then [] else tlv 0x30#8 (tlv 0x06#8 (oidBytes (hashOids.getD (h - 1) [])) ++ [0x05#8, 0x00#8])

theorem hash_facts1 : ∀ h : Fin 12, h.1 ≠ 0 → oidByHash false h = some (hashOids.getD (h - 1) []) ∧ prfByOID false (hashOids.getD (h - 1) []) = some h.1 := by decide +kernel
theorem hash_facts2 : ∀ h : Fin 12, h.1 ≠ 0 → optAlg (prfEnc h) = some (some (hashOids.getD (h - 1) [])) := by decide +kernel
theorem hash_facts3 : ∀ h : Fin 12, optInt 0 (prfEnc h) = some (0, prfEnc h) := by decide +kernel
theorem hash_facts4 : ∀ h : Fin 12, (prfEnc h).length ≤ 20 := by decide +kernel

theorem hash_facts : ∀ h < 12, (h ≠ 0 → oidByHash false h = some (hashOids.getD (h - 1) []) ∧ prfByOID false (hashOids.getD (h - 1) []) = some h ∧
    optAlg (prfEnc h) = some (some (hashOids.getD (h - 1) []))) ∧ optInt 0 (prfEnc h) = some (0, prfEnc h) ∧ (prfEnc h).length ≤ 20 :=
  fun h hh => ⟨fun h0 => ⟨(hash_facts1 ⟨h, hh⟩ h0).1, (hash_facts1 ⟨h, hh⟩ h0).2, hash_facts2 ⟨h, hh⟩ h0⟩, hash_facts3 ⟨h, hh⟩, hash_facts4 ⟨h, hh⟩⟩

/-- The encoded key length. -/
def klEnc (kl : Option Nat) : Bytes := match kl with | none => [] | some n => encInt n

theorem hash_facts_sm : oidByHash true 9 = some (hashOids.getD 8 []) ∧ prfByOID true (hashOids.getD 8 []) = some 9 ∧ (∀ h, h ≠ 9 → oidByHash true h = none) := by
  refine ⟨by decide +kernel, by decide +kernel, fun h hh => ?_⟩
  unfold oidByHash; rw [if_pos rfl, if_neg hh]

theorem oidByHash_big (h : Nat) (hh : 11 < h) : oidByHash false h = none := by
  unfold oidByHash; rw [if_neg (by simp)]
  cases h with
  | zero => omega
  | succ n => exact List.getElem?_eq_none (by simp [hashOids]; omega)

theorem pbkdf2_len (P : Prf) (pw salt : Bytes) (c L : Nat) : (Kdf.Spec.pbkdf2 (P.f pw) P.size salt c L).length = L :=
  outBytes_length _ _ _ P.pos fun _ => F_length _ _ (P.len pw) _ _ _

theorem key_max (P : Prf) (pw S : Bytes) (iter : Int) (L : Nat) : Pbkdf2.key P pw S iter L = .ok (Kdf.Spec.pbkdf2 (P.f pw) P.size S (max 1 iter.toNat) L) := by
  rw [Pbkdf2.key_eq]
  congr 2
  omega

/-- The hash function number that options and file agree on. -/
theorem valid_hash {sm : Bool} {h : Nat} (hv : h = 0 ∨ if sm = true then h = 9 else h ≤ 11) :
    h < 12 ∧ 1 ≤ kdfHash sm h ∧ kdfHash sm h < 12 ∧ oidByHash sm (if h = 0 then defHash sm else h) = some (hashOids.getD (kdfHash sm h - 1) []) ∧
      prfByOID sm (hashOids.getD (kdfHash sm h - 1) []) = some (kdfHash sm h) ∧ (h ≠ 0 → kdfHash sm h = h) := by
  cases sm with
  | true =>
    have h9 : kdfHash true h = 9 ∧ (if h = 0 then defHash true else h) = 9 ∧ h < 12 := by
      rcases hv with rfl | hv
      · exact ⟨rfl, rfl, by omega⟩
      · simp only [if_true] at hv; subst hv; exact ⟨rfl, rfl, by omega⟩
    rw [h9.1, h9.2.1]
    refine ⟨h9.2.2, by omega, by omega, hash_facts_sm.1, hash_facts_sm.2.1, fun h0 => ?_⟩
    rcases hv with rfl | hv
    · exact absurd rfl h0
    · simp only [if_true] at hv; exact hv.symm
  | false =>
    have e : (if h = 0 then defHash false else h) = kdfHash false h := rfl
    have hk : 1 ≤ kdfHash false h ∧ kdfHash false h < 12 ∧ h < 12 := by
      rcases hv with rfl | hv
      · exact ⟨by decide, by decide, by omega⟩
      · have hv : h ≤ 11 := by simpa using hv
        unfold kdfHash
        split
        · exact ⟨by decide, by decide, by omega⟩
        · omega
    obtain ⟨f, -⟩ := hash_facts (kdfHash false h) hk.2.1
    obtain ⟨f1, f2, -⟩ := f (by omega)
    rw [e]
    exact ⟨hk.2.2, hk.1, hk.2.1, f1, f2, fun h0 => by rw [kdfHash, if_neg h0]⟩

theorem derive_invalid (E : Env) (o : KdfOpts) (h : ¬ kdfValid o) (kl : Bool) (pw salt : Bytes) (size : Nat) : o.derive E kl pw salt size = .err := by
  cases o with
  | scrypt _ _ _ _ => exact absurd trivial h
  | pbkdf2 sm s it hh =>
    simp only [kdfValid, not_or] at h
    have : oidByHash sm (if hh = 0 then defHash sm else hh) = none := by
      rw [if_neg h.1]
      cases sm with
      | true => exact hash_facts_sm.2.2 hh (by simpa using h.2)
      | false => exact oidByHash_big hh (by simpa using h.2)
    simp only [KdfOpts.derive, this]

theorem derive_pbkdf2 (E : Env) (sm : Bool) (s it h : Nat) (hv : kdfValid (.pbkdf2 sm s it h)) (kl : Bool) (pw salt : Bytes) (size : Nat) (hs : 1 ≤ size) :
    (KdfOpts.pbkdf2 sm s it h).derive E kl pw salt size =
      .ok (Kdf.Spec.pbkdf2 ((E.prf (kdfHash sm h)).f pw) (E.prf (kdfHash sm h)).size salt (max 1 it) size, kdfParams (.pbkdf2 sm s it h) (if kl then some size else none) salt) := by
  obtain ⟨-, -, -, h1, h2, h3⟩ := valid_hash hv
  simp only [KdfOpts.derive, h1, h2, key_max, Res.bind, Int.toNat_natCast, kdfParams]
  by_cases h0 : h = 0
  · cases kl <;> simp [h0, encSeq, encOct, show size ≠ 0 by omega]
  · rw [h3 h0]
    cases kl <;> simp [h0, encSeq, encOct, encOID, null, show size ≠ 0 by omega]

theorem derive_scrypt (E : Env) (s n r p : Nat) (kl : Bool) (pw salt : Bytes) (size : Nat) (hs : 1 ≤ size) :
    (KdfOpts.scrypt s n r p).derive E kl pw salt size =
      (E.scrypt pw salt n r p size).bind fun k => .ok (k, kdfParams (.scrypt s n r p) (if kl then some size else none) salt) := by
  simp only [KdfOpts.derive, kdfParams]
  cases kl <;> simp [encSeq, encOct, show size ≠ 0 by omega]

theorem derivePbkdf2_params (E : Env) (sm : Bool) (s it h : Nat) (hv : kdfValid (.pbkdf2 sm s it h)) (kl : Option Nat) (pw salt : Bytes) (size : Nat)
    (hkl : ∀ n, kl = some n → 1 ≤ n ∧ n < 2 ^ 20) (hit : it < 2 ^ 63) (hsl : salt.length < 2 ^ 20) :
    derivePbkdf2 E sm (kdfParams (.pbkdf2 sm s it h) kl salt) pw size =
      .ok (Kdf.Spec.pbkdf2 ((E.prf (kdfHash sm h)).f pw) (E.prf (kdfHash sm h)).size salt (max 1 it) (kl.getD size)) ∧ (kdfParams (.pbkdf2 sm s it h) kl salt).length < 2 ^ 21 := by
  obtain ⟨h12, -, -, -, h2, h3⟩ := valid_hash hv
  obtain ⟨f0, f1, f2⟩ := hash_facts h h12
  have l1 := encInt_le it hit
  have l2 := tlv_le 0x04#8 salt hsl
  have l3 : (klEnc kl).length ≤ 15 := by
    cases kl with
    | none => simp [klEnc]
    | some n => exact encInt_le n (by have := hkl n rfl; omega)
  have hlen : (tlv 0x04#8 salt ++ encInt it ++ (klEnc kl) ++ prfEnc h).length < 2 ^ 20 + 100 := by
    simp only [List.length_append]; omega
  have he : kdfParams (.pbkdf2 sm s it h) kl salt = tlv 0x30#8 (tlv 0x04#8 salt ++ (encInt it ++ ((klEnc kl) ++ prfEnc h))) := by
    simp only [kdfParams, prfEnc, List.append_assoc]; rfl
  have hopt : optInt 0 ((klEnc kl) ++ prfEnc h) = some (((kl.getD 0 : Nat) : Int), prfEnc h) := by
    cases kl with
    | none => exact f1
    | some n =>
      have e := int64Field_enc n (prfEnc h) (by have := hkl n rfl; omega)
      have : encInt n ++ prfEnc h = 0x02#8 :: (encLen (intBytes n).length ++ intBytes n ++ prfEnc h) := by simp [encInt, tlv]
      simp only [Option.getD_some]
      rw [← e]
      simp only [klEnc, this, optInt, if_true]
  have hprf : (optAlg (prfEnc h) = some none ∧ defHash sm = kdfHash sm h) ∨ ∃ o, optAlg (prfEnc h) = some (some o) ∧ prfByOID sm o = some (kdfHash sm h) := by
    by_cases h0 : h = 0
    · subst h0
      exact .inl ⟨rfl, rfl⟩
    · refine .inr ⟨hashOids.getD (h - 1) [], (f0 h0).2.2, ?_⟩
      have := h2
      rw [h3 h0] at this ⊢
      exact this
  constructor
  · rw [derivePbkdf2, he, element_nil_app _ _ (by simp only [List.length_append] at hlen ⊢; omega)]
    simp only
    rw [octField_oct salt _ (by omega)]
    simp only
    rw [int64Field_enc it _ hit]
    simp only [hopt]
    have : (if (0 : Int) < ((kl.getD 0 : Nat) : Int) then ((kl.getD 0 : Nat) : Int) else (size : Int)) = ((kl.getD size : Nat) : Int) := by
      cases kl with
      | none => simp
      | some n => have := hkl n rfl; simp; omega
    rcases hprf with ⟨hx1, hx2⟩ | ⟨o, hx1, hx2⟩
    · simp only [hx1, hx2]
      rw [this, key_max, Int.toNat_natCast]
    · simp only [hx1, hx2]
      rw [this, key_max, Int.toNat_natCast]
  · have t := tlv_length (tag := 0x30#8) (c := tlv 0x04#8 salt ++ (encInt it ++ ((klEnc kl) ++ prfEnc h)))
      (by simp only [List.length_append] at hlen ⊢; omega)
    rw [he]
    simp only [List.length_append] at hlen t ⊢
    omega

theorem deriveScrypt_params (E : Env) (s n r p : Nat) (kl : Option Nat) (pw salt : Bytes) (size : Nat)
    (hkl : ∀ n, kl = some n → 1 ≤ n ∧ n < 2 ^ 20) (hn : n < 2 ^ 63) (hr : r < 2 ^ 63) (hp : p < 2 ^ 63) (hsl : salt.length < 2 ^ 20) :
    deriveScrypt E (kdfParams (.scrypt s n r p) kl salt) pw size = E.scrypt pw salt n r p (kl.getD size) ∧ (kdfParams (.scrypt s n r p) kl salt).length < 2 ^ 21 := by
  have l1 := encInt_le n hn
  have l4 := encInt_le r hr
  have l5 := encInt_le p hp
  have l2 := tlv_le 0x04#8 salt hsl
  have l3 : (klEnc kl).length ≤ 15 := by
    cases kl with
    | none => simp [klEnc]
    | some n => exact encInt_le n (by have := hkl n rfl; omega)
  have hlen : (tlv 0x04#8 salt ++ encInt n ++ encInt r ++ encInt p ++ (klEnc kl)).length < 2 ^ 20 + 100 := by
    simp only [List.length_append]; omega
  have he : kdfParams (.scrypt s n r p) kl salt = tlv 0x30#8 (tlv 0x04#8 salt ++ (encInt n ++ (encInt r ++ (encInt p ++ (klEnc kl))))) := by
    simp only [kdfParams, List.append_assoc]; rfl
  have hopt : optInt 0 (klEnc kl) = some (((kl.getD 0 : Nat) : Int), []) := by
    cases kl with
    | none => rfl
    | some n =>
      have e := int64Field_enc n [] (by have := hkl n rfl; omega)
      rw [List.append_nil] at e
      have : encInt n = 0x02#8 :: (encLen (intBytes n).length ++ intBytes n) := by simp [encInt, tlv]
      simp only [Option.getD_some]
      rw [← e]
      simp only [klEnc, this, optInt, if_true]
  constructor
  · rw [deriveScrypt, he, element_nil_app _ _ (by simp only [List.length_append] at hlen ⊢; omega)]
    simp only
    rw [octField_oct salt _ (by omega)]
    simp only
    rw [int64Field_enc n _ hn]
    simp only
    rw [int64Field_enc r _ hr]
    simp only
    rw [int64Field_enc p _ hp]
    simp only [hopt]
    congr 1
    cases kl with
    | none => simp
    | some n => have := hkl n rfl; simp; omega
  · have t := tlv_length (tag := 0x30#8) (c := tlv 0x04#8 salt ++ (encInt n ++ (encInt r ++ (encInt p ++ (klEnc kl)))))
      (by simp only [List.length_append] at hlen ⊢; omega)
    rw [he]
    simp only [List.length_append] at hlen t ⊢
    omega

/-! ### What the parsers accept -/

theorem optInt_some {d v : Int} {b r : Bytes} (h : optInt d b = some (v, r)) : (v = d ∧ r = b ∧ b.head? ≠ some 0x02#8) ∨ ∃ ci, b = tlv 0x02#8 ci ++ r ∧ parseInt ci = some v := by
  cases b with
  | nil =>
    simp only [optInt, Option.some.injEq, Prod.mk.injEq] at h
    exact .inl ⟨h.1.symm, h.2.symm, by simp⟩
  | cons t b =>
    rw [optInt] at h
    split at h
    · obtain ⟨c, e, hp, -⟩ := int64Field_some h
      exact .inr ⟨c, e, hp⟩
    · rename_i ht
      split at h
      · simp only [Option.some.injEq, Prod.mk.injEq] at h
        exact .inl ⟨h.1.symm, h.2.symm, by simpa using ht⟩
      · simp at h

theorem algField_some {b p r : Bytes} {o : List Nat} (h : algField b = some (o, p, r)) : ∃ x, b = tlv 0x30#8 (tlv 0x06#8 (oidBytes o) ++ p ++ x) ++ r := by
  rw [algField] at h
  cases he : element 0x30#8 b with
  | none => rw [he] at h; simp at h
  | some q =>
    obtain ⟨c, r'⟩ := q
    rw [he] at h
    simp only at h
    cases ho : oidField c with
    | none => rw [ho] at h; simp at h
    | some t =>
      obtain ⟨o', pr⟩ := t
      rw [ho] at h
      simp only [Option.map_eq_some_iff, Prod.mk.injEq] at h
      obtain ⟨p', hp, rfl, rfl, rfl⟩ := h
      have e := (element_some he).1
      rw [oidField_some ho, encOID] at e
      split at hp
      · rename_i hpe
        simp only [Option.some.injEq] at hp
        subst hp
        refine ⟨[], ?_⟩
        rw [e, List.isEmpty_iff.1 hpe]; simp
      · rw [Option.map_eq_some_iff] at hp
        obtain ⟨⟨f, x⟩, hr, rfl⟩ := hp
        refine ⟨x, ?_⟩
        rw [e, Pbes1.rawField_some hr]; simp

theorem optAlg_some {b : Bytes} {x : Option (List Nat)} (h : optAlg b = some x) :
    (x = none ∧ b.head? ≠ some 0x30#8) ∨ ∃ o z1 z2, x = some o ∧ b = tlv 0x30#8 (tlv 0x06#8 (oidBytes o) ++ z1) ++ z2 := by
  cases b with
  | nil =>
    simp only [optAlg, Option.some.injEq] at h
    exact .inl ⟨h.symm, by simp⟩
  | cons t b =>
    rw [optAlg] at h
    split at h
    · rw [Option.map_eq_some_iff] at h
      obtain ⟨⟨o, p, r⟩, ha, rfl⟩ := h
      obtain ⟨y, e⟩ := algField_some ha
      exact .inr ⟨o, p ++ y, r, rfl, by rw [e, List.append_assoc]⟩
    · rename_i ht
      split at h
      · simp only [Option.some.injEq] at h
        exact .inl ⟨h.symm, by simpa using ht⟩
      · simp at h

theorem prfByOID_some {sm : Bool} {o : List Nat} {i : Nat} (h : prfByOID sm o = some i) : 1 ≤ i ∧ hashOids[i - 1]? = some o ∧ (sm = true → i = 9) := by
  cases sm with
  | true =>
    rw [prfByOID, if_pos rfl] at h
    split at h
    · rename_i ho
      simp only [Option.some.injEq] at h
      subst h
      exact ⟨by omega, by rw [ho]; decide +kernel, fun _ => rfl⟩
    · simp at h
  | false =>
    rw [prfByOID, if_neg (by simp)] at h
    split at h
    · rename_i ho
      simp only [Option.some.injEq] at h
      subst h
      refine ⟨by omega, ?_, by simp⟩
      have hlt : hashOids.idxOf o < hashOids.length := List.idxOf_lt_length_of_mem ho
      rw [Nat.add_sub_cancel, List.getElem?_eq_getElem hlt, List.getElem_idxOf hlt]
    · simp at h

/-- Key derivation from a file: the key, or an error; only scrypt's own outcome can be anything else. -/
theorem deriveKey_some (E : Env) (oid : List Nat) (params pw : Bytes) (size : Nat) :
    (∀ key, deriveKey E oid params pw size = .ok key → KdfFile E oid params pw size key) ∧
    (oid ≠ oidScrypt → deriveKey E oid params pw size = .err ∨ ∃ key, deriveKey E oid params pw size = .ok key) := by
  have main : ∀ sm, oid = oidPbkdf2 sm → (∀ key, derivePbkdf2 E sm params pw size = .ok key → KdfFile E oid params pw size key) ∧
      (derivePbkdf2 E sm params pw size = .err ∨ ∃ key, derivePbkdf2 E sm params pw size = .ok key) := by
    intro sm ho
    rw [derivePbkdf2]
    split
    · exact ⟨fun k h => absurd h (by simp), .inl rfl⟩
    rename_i s x' h1
    split
    · exact ⟨fun k h => absurd h (by simp), .inl rfl⟩
    rename_i salt s1 h2
    split
    · exact ⟨fun k h => absurd h (by simp), .inl rfl⟩
    rename_i iter s2 h3
    split
    · exact ⟨fun k h => absurd h (by simp), .inl rfl⟩
    rename_i kl s3 h4
    split
    · exact ⟨fun k h => absurd h (by simp), .inl rfl⟩
    rename_i prf h5
    split
    · exact ⟨fun k h => absurd h (by simp), .inl rfl⟩
    rename_i i h6
    have e : (if 0 < kl then kl else (size : Int)) = (((if 0 < kl then kl.toNat else size) : Nat) : Int) := by split <;> omega
    rw [e, key_max]
    refine ⟨fun k h => ?_, .inr ⟨_, rfl⟩⟩
    have h := (Res.ok.inj h).symm
    obtain ⟨ci, e3, hp3, -⟩ := int64Field_some h3
    refine .inl ⟨sm, salt, ci, iter, s2, x', kl, i, ho, ?_, hp3, ⟨s3, ?_, ?_⟩, h⟩
    · rw [(element_some h1).1, (element_some h2).1, e3, List.append_assoc]
    · rcases optInt_some h4 with ⟨a, b, c⟩ | ⟨c, a, b⟩
      · exact .inl ⟨a, b, c⟩
      · exact .inr ⟨c, a, b⟩
    · rcases optAlg_some h5 with ⟨rfl, hh⟩ | ⟨o, z1, z2, rfl, hb⟩
      · simp only [Option.some.injEq] at h6
        exact .inl ⟨h6.symm, hh⟩
      · obtain ⟨p1, p2, p3⟩ := prfByOID_some h6
        exact .inr ⟨o, z1, z2, hb, p1, p2, p3⟩
  rw [deriveKey]
  split
  · rename_i ho
    exact ⟨(main false ho).1, fun _ => (main false ho).2⟩
  split
  · rename_i ho
    exact ⟨(main true ho).1, fun _ => (main true ho).2⟩
  split
  · rename_i ho
    refine ⟨fun key h => ?_, fun hne => absurd ho hne⟩
    rw [deriveScrypt] at h
    split at h
    · exact absurd h (by simp)
    rename_i s x' h1
    split at h
    · exact absurd h (by simp)
    rename_i salt s1 h2
    split at h
    · exact absurd h (by simp)
    rename_i n s2 h3
    split at h
    · exact absurd h (by simp)
    rename_i r s3 h4
    split at h
    · exact absurd h (by simp)
    rename_i p s4 h5
    split at h
    · exact absurd h (by simp)
    rename_i kl s5 h6
    obtain ⟨cn, e3, hp3, -⟩ := int64Field_some h3
    obtain ⟨cr, e4, hp4, -⟩ := int64Field_some h4
    obtain ⟨cp, e5, hp5, -⟩ := int64Field_some h5
    refine .inr ⟨salt, cn, cr, cp, n, r, p, s4, x', kl, ho, ?_, hp3, hp4, hp5, ?_, h⟩
    · rw [(element_some h1).1, (element_some h2).1, e3, e4, e5]
      simp only [List.append_assoc]
    · rcases optInt_some h6 with ⟨a, -, c⟩ | ⟨c, a, b⟩
      · exact .inl ⟨a, c⟩
      · exact .inr ⟨c, s5, a, b⟩
  · exact ⟨fun key h => absurd h (by simp), fun _ => .inl rfl⟩

end Verif.Pkcs.Pbes2
