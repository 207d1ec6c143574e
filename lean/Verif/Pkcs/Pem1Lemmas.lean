import Verif.Pkcs.Pem1
import Verif.Pkcs.Pem1Spec
/-
Lemmas for C137.
-/
namespace Verif.Pkcs
open Verif.Mode Verif.Facade Verif.Padding Verif.Kdf Verif.Padding.Spec

theorem mapAcc_cbcEnc (c : BlockCipher) (v : Bytes) (l : List Bytes) : (mapAcc (cbcEncF c) v l).1 = Spec.cbc c.E v l := by
  induction l generalizing v with
  | nil => rfl
  | cons p ps ih => simp only [mapAcc, Spec.cbc, ih, cbcEncF]

theorem mapAcc_cbcDec (c : BlockCipher) (v : Bytes) (l : List Bytes) : (mapAcc (cbcDecF c) v l).1 = Spec.cbcDec c.D v l := by
  induction l generalizing v with
  | nil => rfl
  | cons p ps ih => simp only [mapAcc, Spec.cbcDec, ih, cbcDecF]

theorem mapAcc_ecbDec (c : BlockCipher) (l : List Bytes) : (mapAcc (ecbDecF c) () l).1 = l.map c.D := by
  induction l with
  | nil => rfl
  | cons p ps ih => simp only [mapAcc, List.map_cons, ih, ecbDecF]

theorem pad7_eq (x : Bytes) (bs : Nat) (h : 1 ≤ bs) : pkcs7Pad x bs = Spec.pad7 bs x := by
  have : ¬ (bs : Int) < 1 := by omega
  simp [pkcs7Pad, Spec.pad7, this, padSize, byteOf]

theorem enc_pad_eq (md : Md) (c : BlockCipher) (iv x : Bytes) (hiv : iv.length = c.bs) : md.enc c iv (md.pad c.bs x) = Spec.body md c iv x := by
  have h := c.bs_pos
  cases md with
  | ecb =>
    simp only [Md.enc, Md.pad, Md.padded, if_true, Spec.body, blkRun, pad7_eq x c.bs h, ecbEncF_spec]; rfl
  | cbc => simp only [Md.enc, Md.pad, Md.padded, if_true, Spec.body, blkRun, pad7_eq x c.bs h, mapAcc_cbcEnc]
  | cfb8 => simp only [Md.enc, Md.pad, Md.padded, Spec.body]; exact cfb8F_spec c iv hiv x
  | cfb => rfl
  | cfb1 => rfl
  | ofb => rfl
  | ctr => rfl

theorem dec_eq (md : Md) (c : BlockCipher) (iv x : Bytes) : md.dec c iv x = Spec.plain md c iv x := by
  cases md with
  | ecb => simp only [Md.dec, Spec.plain, blkRun, mapAcc_ecbDec]
  | cbc => simp only [Md.dec, Spec.plain, blkRun, mapAcc_cbcDec]
  | cfb8 => rfl
  | cfb => rfl
  | cfb1 => rfl
  | ofb => rfl
  | ctr => rfl

theorem PKCS7_unique {t t' p : Bytes} (h : PKCS7 t p) (h' : PKCS7 t' p) : t = t' := by
  obtain ⟨k, h1, h2, rfl⟩ := h
  obtain ⟨k', h1', h2', e⟩ := h'
  have hl := congrArg List.getLast? e
  rw [List.getLast?_append, List.getLast?_append, List.getLast?_replicate, List.getLast?_replicate, if_neg (by omega), if_neg (by omega)] at hl
  simp only [Option.some_or, Option.some.injEq] at hl
  have hk := congrArg BitVec.toNat hl
  simp only [BitVec.toNat_ofNat] at hk
  have : k = k' := by omega
  subst this
  exact List.append_cancel_right e

/-- The end of every padded `Decrypt`, as a relation. -/
theorem unpadOrAll_iff (p : Bytes) (hp : p ≠ []) (out : Bytes) : unpadOrAll p = .ok out ↔ Spec.Strip p out := by
  have hl : ¬ p.length = 0 := by simpa using hp
  obtain ⟨hn, hi⟩ := C02_pkcs7_unpad_iff p
  rw [unpadOrAll, if_neg hl]
  cases hu : pkcs7Unpad p with
  | ok t =>
    simp only [Res.ok.injEq]
    rcases (hi t).1 hu with h | ⟨h, hz⟩
    · constructor
      · rintro rfl; exact .inl h
      · rintro (h' | ⟨h', _⟩)
        · exact PKCS7_unique h h'
        · exact absurd h (h' t)
    · have hno : ∀ t', ¬ PKCS7 t' p := by
        intro t' h'
        have := (hi t').2 (.inl h')
        rw [hu, Res.ok.injEq] at this
        subst this
        obtain ⟨k, h1, _, e⟩ := h'
        have := congrArg List.length (h ▸ e)
        simp at this
        omega
      constructor
      · rintro rfl; exact .inr ⟨hno, h.symm⟩
      · rintro (h' | ⟨_, e⟩)
        · exact absurd h' (hno _)
        · rw [e, h]
  | err | panic | hang =>
    simp only [Res.ok.injEq]
    have hno : ∀ t', ¬ PKCS7 t' p := by
      intro t' h'
      have := (hi t').2 (.inl h')
      rw [hu] at this; exact absurd this (by simp)
    constructor
    · rintro rfl; exact .inr ⟨hno, rfl⟩
    · rintro (h' | ⟨_, e⟩)
      · exact absurd h' (hno _)
      · exact e.symm

theorem unpadOrAll_total (p : Bytes) (hp : p ≠ []) : ∃ out, unpadOrAll p = .ok out := by
  have hl : ¬ p.length = 0 := by simpa using hp
  rw [unpadOrAll, if_neg hl]
  split
  · exact ⟨_, rfl⟩
  · exact ⟨_, rfl⟩

namespace Pem1

theorem deriveKey_eq (H : HashFn) (pw salt : Bytes) (n : Nat) :
    deriveKey H pw salt n = .ok (outBytes (fun i => Spec.opensslD H.f pw salt (i + 1)) H.size n) := by
  have := genLoop_eq (fun digest => let d := H.f (digest ++ pw ++ salt); (d, d)) (Spec.opensslD H.f pw salt) (fun i => Spec.opensslD H.f pw salt (i + 1))
    H.size n H.pos (fun i => by rw [Spec.opensslD, H.len]) (fun i => rfl) (n + 1) 0 (by omega)
  rw [deriveKey]
  simpa [Kdf.chunks, fit_nil, Spec.opensslD] using this

theorem cut_append (a r : Bytes) (h : 44#8 ∉ a) : cut (a ++ 44#8 :: r) = some (a, r) := by
  induction a with
  | nil => simp [cut]
  | cons x a ih =>
    simp only [List.mem_cons, not_or] at h
    simp only [List.cons_append, cut, ih h.2, Option.map_some, if_neg (fun e => h.1 (Eq.symm e))]

theorem cut_some {s a r : Bytes} (h : cut s = some (a, r)) : s = a ++ 44#8 :: r := by
  induction s generalizing a with
  | nil => simp [cut] at h
  | cons x s ih =>
    rw [cut] at h
    split at h
    · rename_i hx
      simp only [Option.some.injEq, Prod.mk.injEq] at h
      rw [← h.1, ← h.2, hx]; rfl
    · rw [Option.map_eq_some_iff] at h
      obtain ⟨⟨a', r'⟩, he, h⟩ := h
      simp only [Prod.mk.injEq] at h
      obtain ⟨rfl, rfl⟩ := h
      rw [ih he]; rfl

theorem unhex_digit (n : Nat) (h : n < 16) : Fernet.unhex (hexDigit n) = some n := by
  have : ∀ n : Fin 16, Fernet.unhex (hexDigit n) = some n.val := by decide +kernel
  exact this ⟨n, h⟩

theorem hexDec_enc (b : Bytes) : Fernet.hexDec (hexEnc b) = some b := by
  induction b with
  | nil => rfl
  | cons x b ih =>
    have e : hexEnc (x :: b) = hexDigit (x.toNat / 16) :: hexDigit (x.toNat % 16) :: hexEnc b := rfl
    have hx := x.isLt
    rw [e, Fernet.hexDec, unhex_digit _ (by omega), unhex_digit _ (by omega), ih]
    simp only [Option.some.injEq, List.cons.injEq, and_true]
    apply BitVec.eq_of_toNat_eq
    simp only [BitVec.toNat_ofNat]
    omega

/-- Facts about the table, read off its 28 lines. -/
theorem table_ok : ∀ c ∈ table, c.saltSize = 8 ∧ c.blockSize = c.alg.bs ∧ c.alg.keyOk c.keySize = true ∧ 44#8 ∉ c.name ∧ c.md ≠ .ecb ∧ c.alg ≠ .rc2 := by
  decide +kernel

theorem table_names : table.Pairwise fun a b => a.name ≠ b.name := by decide +kernel

theorem find_unique {l : List Cph} (h : l.Pairwise fun a b => a.name ≠ b.name) {c : Cph} (hc : c ∈ l) : l.find? (fun d => d.name == c.name) = some c := by
  induction l with
  | nil => simp at hc
  | cons d l ih =>
    rw [List.pairwise_cons] at h
    rw [List.find?_cons]
    rcases List.mem_cons.1 hc with rfl | hc
    · simp
    · have : (d.name == c.name) = false := by simpa using h.1 c hc
      rw [this]; exact ih h.2 hc

theorem getCipher_name {c : Cph} (hc : c ∈ table) : getCipher c.name = some c := find_unique table_names hc

theorem getCipher_some {n : Bytes} {c : Cph} (h : getCipher n = some c) : c ∈ table ∧ c.name = n :=
  ⟨List.mem_of_find?_eq_some h, by simpa using List.find?_some h⟩

end Pem1
end Verif.Pkcs
