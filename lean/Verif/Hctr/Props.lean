import Verif.Hctr.Field
import Verif.Aead.CipherInv
/-
Properties C38 (HCTR is a length-preserving permutation) and C47 (it is the standard HCTR).
-/
namespace Verif.Hctr
open Verif.Mode.Spec (natBe beNat)

theorem uhash_length (s : St) (m : Bytes) : (uhash s m).length = 16 := by
  unfold uhash
  simp only
  rw [List.length_append, Mode.natBe_len, Mode.natBe_len]

/-- Two buffers of `n` bytes are the same place, or do not overlap. -/
def SameOrApart (a b : Slice) (n : Nat) : Prop := a.ptr = b.ptr ∨ a.ptr + n ≤ b.ptr ∨ b.ptr + n ≤ a.ptr

theorem inexact_iff (a b : Slice) (n : Nat) (hn : 0 < n) (hb : b.len = n) (cp : Nat) :
    inexactOverlap ⟨a.ptr, n, cp⟩ b = false ↔ SameOrApart a b n := by
  unfold inexactOverlap anyOverlap SameOrApart
  simp only [hb]
  by_cases h : a.ptr = b.ptr
  · simp [h]
  · rw [if_neg (by omega)]
    simp only [Bool.and_eq_false_iff, decide_eq_false_iff_not]
    omega

/-- Both passes write over the first 16 bytes last. -/
theorem finish (m : Mem) (p : Nat) (X C : Bytes) (hX : X.length = 16) : (m.write (p + 16) C).write p X = m.write p (X ++ C) := by
  rw [Mem.write_append, hX]
  exact Mem.write_comm _ _ _ _ _ (.inl (by rw [hX]))

theorem encrypt_eq (s : St) (h16 : s.c.bs = 16) (hc : s.conc ≠ some 0) (m : Mem) (ct pt : Slice) (hl : ct.len = pt.len) (hge : 16 ≤ pt.len)
    (ho : SameOrApart ct pt pt.len) :
    encrypt s m ct pt = .ok (m.write ct.ptr (Spec.encryptH (uhash s) s.c.E (m.read pt.ptr pt.len))) := by
  have hE : ∀ x : Bytes, x.length = 16 → (s.c.E x).length = 16 := by rw [← h16]; exact s.c.lenE
  unfold encrypt
  rw [if_neg (by omega), if_neg (by omega), (inexact_iff ct pt pt.len (by omega) rfl ct.cap).mpr ho]
  simp only [Bool.false_eq_true, if_false]
  have e1 : m.read pt.ptr 16 = (m.read pt.ptr pt.len).take 16 := by rw [Mem.read_take, Nat.min_eq_left hge]
  have e2 : m.read (pt.ptr + 16) (pt.len - 16) = (m.read pt.ptr pt.len).drop 16 := by rw [Mem.read_drop]
  have hPl : (m.read pt.ptr pt.len).length = pt.len := Mem.read_length ..
  rw [e1, e2]
  have hz1 : (xorb (uhash s ((m.read pt.ptr pt.len).drop 16)) ((m.read pt.ptr pt.len).take 16)).length = 16 := by
    rw [xorb_length, uhash_length, List.length_take]; omega
  rw [blkOp_16 s.c h16 s.c.E hE _ _ (by simp) hz1]
  simp only [Res.bind_ok]
  have hz2 := hE _ hz1
  rw [ctr_eq s h16 hc _ (by rw [xorb_length]; omega) m _ _ (by simp only; omega) (by unfold SameOrApart at ho; unfold Sep; simp only; omega)]
  simp only [Res.bind_ok]
  rw [e2, hl]
  unfold Spec.encryptH
  simp only
  rw [xorb_comm ((m.read pt.ptr pt.len).take 16)]
  generalize hM : xorb (uhash s ((m.read pt.ptr pt.len).drop 16)) ((m.read pt.ptr pt.len).take 16) = M at *
  have hCl := ctr_length s.c h16 (xorb M (s.c.E M)) (by rw [xorb_length]; omega) ((m.read pt.ptr pt.len).drop 16)
  rw [List.length_drop, hPl] at hCl
  rw [Mem.read_write_self' _ _ _ _ hCl, finish _ _ _ _ (by rw [xorb_length, uhash_length]; omega)]

theorem decrypt_eq (s : St) (h16 : s.c.bs = 16) (hc : s.conc ≠ some 0) (m : Mem) (pt ct : Slice) (hl : pt.len = ct.len) (hge : 16 ≤ ct.len)
    (ho : SameOrApart pt ct ct.len) :
    decrypt s m pt ct = .ok (m.write pt.ptr (Spec.decryptH (uhash s) s.c.E s.c.D (m.read ct.ptr ct.len))) := by
  have hD : ∀ x : Bytes, x.length = 16 → (s.c.D x).length = 16 := by rw [← h16]; exact s.c.lenD
  unfold decrypt
  rw [if_neg (by omega), if_neg (by omega), (inexact_iff pt ct ct.len (by omega) rfl pt.cap).mpr ho]
  simp only [Bool.false_eq_true, if_false]
  have e1 : m.read ct.ptr 16 = (m.read ct.ptr ct.len).take 16 := by rw [Mem.read_take, Nat.min_eq_left hge]
  have e2 : m.read (ct.ptr + 16) (ct.len - 16) = (m.read ct.ptr ct.len).drop 16 := by rw [Mem.read_drop]
  have hPl : (m.read ct.ptr ct.len).length = ct.len := Mem.read_length ..
  rw [e1, e2]
  have hz1 : (xorb (uhash s ((m.read ct.ptr ct.len).drop 16)) ((m.read ct.ptr ct.len).take 16)).length = 16 := by
    rw [xorb_length, uhash_length, List.length_take]; omega
  rw [blkOp_16 s.c h16 s.c.D hD _ _ (by simp) hz1]
  simp only [Res.bind_ok]
  have hz2 := hD _ hz1
  rw [ctr_eq s h16 hc _ (by rw [xorb_length]; omega) m _ _ (by simp only; omega) (by unfold SameOrApart at ho; unfold Sep; simp only; omega)]
  simp only [Res.bind_ok]
  rw [e2, hl]
  unfold Spec.decryptH
  simp only
  rw [xorb_comm ((m.read ct.ptr ct.len).take 16)]
  generalize hM : xorb (uhash s ((m.read ct.ptr ct.len).drop 16)) ((m.read ct.ptr ct.len).take 16) = M at *
  have hCl := ctr_length s.c h16 (xorb M (s.c.D M)) (by rw [xorb_length]; omega) ((m.read ct.ptr ct.len).drop 16)
  rw [List.length_drop, hPl] at hCl
  rw [Mem.read_write_self' _ _ _ _ hCl, finish _ _ _ _ (by rw [xorb_length, uhash_length]; omega), xorb_comm (uhash s _)]

theorem encryptH_length (c : BlockCipher) (h16 : c.bs = 16) (H : Bytes → Bytes) (hH : ∀ x, (H x).length = 16) (P : Bytes) (hP : 16 ≤ P.length) :
    (Spec.encryptH H c.E P).length = P.length := by
  have hM : (xorb (P.take 16) (H (P.drop 16))).length = 16 := by rw [xorb_length, hH, List.length_take]; omega
  have hE : ∀ x : Bytes, x.length = 16 → (c.E x).length = 16 := by rw [← h16]; exact c.lenE
  unfold Spec.encryptH
  simp only
  rw [List.length_append, ctr_length c h16 _ (by rw [xorb_length, hM, hE _ hM]; rfl), xorb_length, hH, hE _ hM, List.length_drop]
  omega

theorem decryptH_length (c : BlockCipher) (h16 : c.bs = 16) (H : Bytes → Bytes) (hH : ∀ x, (H x).length = 16) (C : Bytes) (hC : 16 ≤ C.length) :
    (Spec.decryptH H c.E c.D C).length = C.length := by
  have hM : (xorb (C.take 16) (H (C.drop 16))).length = 16 := by rw [xorb_length, hH, List.length_take]; omega
  have hD : ∀ x : Bytes, x.length = 16 → (c.D x).length = 16 := by rw [← h16]; exact c.lenD
  unfold Spec.decryptH
  simp only
  rw [List.length_append, ctr_length c h16 _ (by rw [xorb_length, hM, hD _ hM]; rfl), xorb_length, hH, hD _ hM, List.length_drop]
  omega

theorem xorb_twice (a b : Bytes) (h : a.length = b.length) : xorb (xorb a b) b = a := by
  rw [xorb_assoc, xorb_self, xorb_zeros_right _ _ (by omega)]

theorem decryptH_encryptH (c : BlockCipher) (h16 : c.bs = 16) (H : Bytes → Bytes) (hH : ∀ x, (H x).length = 16) (P : Bytes) (hP : 16 ≤ P.length) :
    Spec.decryptH H c.E c.D (Spec.encryptH H c.E P) = P := by
  have hM : (xorb (P.take 16) (H (P.drop 16))).length = 16 := by rw [xorb_length, hH, List.length_take]; omega
  have hE : ∀ x : Bytes, x.length = 16 → (c.E x).length = 16 := by rw [← h16]; exact c.lenE
  have hT : (P.take 16).length = 16 := by rw [List.length_take]; omega
  unfold Spec.decryptH Spec.encryptH
  simp only
  generalize hM' : xorb (P.take 16) (H (P.drop 16)) = M at *
  have hEM := hE M hM
  have hS : (xorb M (c.E M)).length = 16 := by rw [xorb_length]; omega
  generalize hC : Spec.ctr c.E (xorb M (c.E M)) (P.drop 16) = C
  have hX : (xorb (c.E M) (H C)).length = 16 := by rw [xorb_length, hH]; omega
  rw [List.take_left' hX, List.drop_left' hX, xorb_twice _ _ (by rw [hH, hEM]), c.DE M (by omega), xorb_comm (c.E M) M, ← hC, ctr_ctr c h16 _ hS, ← hM',
    xorb_twice _ _ (by rw [hH, hT]), List.take_append_drop]

theorem encryptH_decryptH (c : BlockCipher) (h16 : c.bs = 16) (H : Bytes → Bytes) (hH : ∀ x, (H x).length = 16) (C : Bytes) (hC : 16 ≤ C.length) :
    Spec.encryptH H c.E (Spec.decryptH H c.E c.D C) = C := by
  have hM : (xorb (C.take 16) (H (C.drop 16))).length = 16 := by rw [xorb_length, hH, List.length_take]; omega
  have hD : ∀ x : Bytes, x.length = 16 → (c.D x).length = 16 := by rw [← h16]; exact c.lenD
  have hT : (C.take 16).length = 16 := by rw [List.length_take]; omega
  unfold Spec.decryptH Spec.encryptH
  simp only
  generalize hM' : xorb (C.take 16) (H (C.drop 16)) = M at *
  have hEM := hD M hM
  have hS : (xorb M (c.D M)).length = 16 := by rw [xorb_length]; omega
  generalize hP : Spec.ctr c.E (xorb M (c.D M)) (C.drop 16) = P
  have hX : (xorb (c.D M) (H P)).length = 16 := by rw [xorb_length, hH]; omega
  rw [List.take_left' hX, List.drop_left' hX, xorb_twice _ _ (by rw [hH, hEM]), c.ED M (by omega), xorb_comm (c.D M) M, ← hP, ctr_ctr c h16 _ hS, ← hM',
    xorb_twice _ _ (by rw [hH, hT]), List.take_append_drop]

/-! C38 -/

/-- `NewHCTR` panics unless the tweak and the hash key have 16 bytes. -/
theorem C38_new_ok_iff (c : BlockCipher) (conc : Option Nat) (tweak hkey : Bytes) :
    ((∃ s, new c conc tweak hkey = .ok s) ↔ tweak.length = 16 ∧ hkey.length = 16) ∧
    (¬ (tweak.length = 16 ∧ hkey.length = 16) → new c conc tweak hkey = .panic) := by
  unfold new
  by_cases h : tweak.length ≠ 16 ∨ hkey.length ≠ 16
  · rw [if_pos h]; simp; omega
  · rw [if_neg h]; simp; omega

theorem new_c {c : BlockCipher} {conc : Option Nat} {tweak hkey : Bytes} {s : St} (h : new c conc tweak hkey = .ok s) :
    s.c = c ∧ s.conc = conc ∧ s.tweak = tweak ∧ s.table = table hkey ∧ tweak.length = 16 ∧ hkey.length = 16 := by
  unfold new at h
  split at h
  · simp at h
  · rename_i h0
    simp only [Res.ok.injEq] at h
    subst h
    exact ⟨rfl, rfl, rfl, rfl, by omega, by omega⟩

section
variable {c : BlockCipher} {conc : Option Nat} {tweak hkey : Bytes} {s : St}

/-- With a 16-byte block cipher: `Encrypt` into a buffer of the length of the plaintext, that is the plaintext's own or
does not overlap it, returns normally and writes nothing but that buffer; a following `Decrypt` of the result, into
the same place or into any other buffer of that length, returns the plaintext. `conc` is the number of blocks the
cipher encrypts at a time, if it has such a method.
Missing for the full property: longer output buffers (false, see `C38_long_dst_violated`), block ciphers of other block
sizes, which `NewHCTR` accepts (false, see `C38_small_block_violated`). -/
theorem C38_roundtrip_partial (h16 : c.bs = 16) (hconc : conc ≠ some 0) (hnew : new c conc tweak hkey = .ok s) (m : Mem) (ct pt : Slice)
    (hl : ct.len = pt.len) (hge : 16 ≤ pt.len) (ho : SameOrApart ct pt pt.len) :
    ∃ m1, encrypt s m ct pt = .ok m1 ∧ (∀ a, a < ct.ptr ∨ ct.ptr + ct.len ≤ a → m1 a = m a) ∧
      ∀ pt2 : Slice, pt2.len = ct.len → SameOrApart pt2 ct ct.len →
        ∃ m2, decrypt s m1 pt2 ct = .ok m2 ∧ m2.read pt2.ptr pt2.len = m.read pt.ptr pt.len ∧
          (∀ a, a < pt2.ptr ∨ pt2.ptr + pt2.len ≤ a → m2 a = m1 a) := by
  obtain ⟨ec, ecc, -⟩ := new_c hnew
  have h16' : s.c.bs = 16 := by rw [ec]; exact h16
  have hPl : (m.read pt.ptr pt.len).length = pt.len := Mem.read_length ..
  have hel := encryptH_length s.c h16' (uhash s) (uhash_length s) (m.read pt.ptr pt.len) (by omega)
  refine ⟨_, encrypt_eq s h16' (by rw [ecc]; exact hconc) m ct pt hl hge ho, ?_, ?_⟩
  · intro a ha
    rcases ha with ha | ha
    · exact Mem.write_of_lt _ _ _ _ ha
    · exact Mem.write_of_ge _ _ _ _ (by omega)
  · intro pt2 hl2 ho2
    have hrd := Mem.read_write_self' m ct.ptr ct.len _ (hel.trans (hPl.trans hl.symm))
    refine ⟨_, decrypt_eq s h16' (by rw [ecc]; exact hconc) _ pt2 ct hl2 (by omega) ho2, ?_, ?_⟩
    · rw [hrd, decryptH_encryptH s.c h16' (uhash s) (uhash_length s) _ (by omega)]
      exact Mem.read_write_self' _ _ _ _ (by omega)
    · intro a ha
      rw [hrd, decryptH_encryptH s.c h16' (uhash s) (uhash_length s) _ (by omega)]
      rcases ha with ha | ha
      · exact Mem.write_of_lt _ _ _ _ ha
      · exact Mem.write_of_ge _ _ _ _ (by omega)

/-- The other way round: encrypting a decrypted message gives it back, so every string of at least 16 bytes is the
encryption of exactly one message of its length. -/
theorem C38_permutation_partial (h16 : c.bs = 16) (hconc : conc ≠ some 0) (hnew : new c conc tweak hkey = .ok s) (m : Mem) (ct pt : Slice)
    (hl : pt.len = ct.len) (hge : 16 ≤ ct.len) (ho : SameOrApart pt ct ct.len) :
    ∃ m1, decrypt s m pt ct = .ok m1 ∧
      ∀ ct2 : Slice, ct2.len = pt.len → SameOrApart ct2 pt pt.len →
        ∃ m2, encrypt s m1 ct2 pt = .ok m2 ∧ m2.read ct2.ptr ct2.len = m.read ct.ptr ct.len := by
  obtain ⟨ec, ecc, -⟩ := new_c hnew
  have h16' : s.c.bs = 16 := by rw [ec]; exact h16
  have hPl : (m.read ct.ptr ct.len).length = ct.len := Mem.read_length ..
  have hel := decryptH_length s.c h16' (uhash s) (uhash_length s) (m.read ct.ptr ct.len) (by omega)
  refine ⟨_, decrypt_eq s h16' (by rw [ecc]; exact hconc) m pt ct hl hge ho, ?_⟩
  intro ct2 hl2 ho2
  have hrd := Mem.read_write_self' m pt.ptr pt.len _ (hel.trans (hPl.trans hl.symm))
  refine ⟨_, encrypt_eq s h16' (by rw [ecc]; exact hconc) _ ct2 pt hl2 (by omega) ho2, ?_⟩
  rw [hrd, encryptH_decryptH s.c h16' (uhash s) (uhash_length s) _ (by omega)]
  exact Mem.read_write_self' _ _ _ _ (by omega)

/-- `Encrypt` and `Decrypt` panic on output buffers that are too short, on messages shorter than 16 bytes, and on
partially overlapping buffers; with buffers of equal length these are the only panics. -/
theorem C38_panics_iff (h16 : c.bs = 16) (hconc : conc ≠ some 0) (hnew : new c conc tweak hkey = .ok s) (m : Mem) (dst src : Slice) (hl : dst.len = src.len) :
    (encrypt s m dst src = .panic ↔ src.len < 16 ∨ ¬ SameOrApart dst src src.len) ∧
    (decrypt s m dst src = .panic ↔ src.len < 16 ∨ ¬ SameOrApart dst src src.len) := by
  obtain ⟨ec, ecc, -⟩ := new_c hnew
  have h16' : s.c.bs = 16 := by rw [ec]; exact h16
  have hcc : s.conc ≠ some 0 := by rw [ecc]; exact hconc
  by_cases hg : src.len < 16
  · refine ⟨⟨fun _ => .inl hg, fun _ => ?_⟩, ⟨fun _ => .inl hg, fun _ => ?_⟩⟩
    · unfold encrypt; rw [if_neg (by omega), if_pos hg]
    · unfold decrypt; rw [if_neg (by omega), if_pos hg]
  · by_cases ho : SameOrApart dst src src.len
    · rw [encrypt_eq s h16' hcc m dst src hl (by omega) ho, decrypt_eq s h16' hcc m dst src hl (by omega) ho]
      simp [hg, ho]
    · have := (not_congr (inexact_iff dst src src.len (by omega) rfl dst.cap)).mpr ho
      rw [Bool.not_eq_false] at this
      refine ⟨⟨fun _ => .inr ho, fun _ => ?_⟩, ⟨fun _ => .inr ho, fun _ => ?_⟩⟩
      · unfold encrypt; rw [if_neg (by omega), if_neg hg, if_pos this]
      · unfold decrypt; rw [if_neg (by omega), if_neg hg, if_pos this]

/-- An output buffer that is too short panics. -/
theorem C38_short_dst (s : St) (m : Mem) (dst src : Slice) (hl : dst.len < src.len) : encrypt s m dst src = .panic ∧ decrypt s m dst src = .panic := by
  unfold encrypt decrypt
  rw [if_pos hl, if_pos hl]
  exact ⟨rfl, rfl⟩

/-- C38 violated: `NewHCTR` accepts an 8-byte block cipher; then the last 8 bytes of the first block of the plaintext do
not enter the encryption of a 16-byte message, so nothing can decrypt it. -/
theorem C38_small_block_violated (h8 : c.bs = 8) (hconc : conc ≠ some 0) (hnew : new c conc tweak hkey = .ok s) (m m' : Mem) (ct pt : Slice)
    (hl : ct.len = 16) (hl' : pt.len = 16) (ho : ct.ptr + 16 ≤ pt.ptr) (hsame : m.read pt.ptr 8 = m'.read pt.ptr 8) :
    ∃ m1 m1', encrypt s m ct pt = .ok m1 ∧ encrypt s m' ct pt = .ok m1' ∧ m1.read ct.ptr 16 = m1'.read ct.ptr 16 := by
  obtain ⟨ec, ecc, -⟩ := new_c hnew
  have h8' : s.c.bs = 8 := by rw [ec]; exact h8
  have hE : ∀ x : Bytes, x.length = 8 → (s.c.E x).length = 8 := by rw [← h8']; exact s.c.lenE
  have run : ∀ m : Mem, encrypt s m ct pt = .ok (m.write ct.ptr (xorb (copyInto (List.replicate 16 0) (s.c.E ((xorb (uhash s []) (m.read pt.ptr 16)).take 8))) (uhash s []))) := by
    intro m
    unfold encrypt
    rw [if_neg (by omega), if_neg (by omega), (inexact_iff ct pt pt.len (by omega) rfl ct.cap).mpr (.inr (.inl (by omega)))]
    simp only [Bool.false_eq_true, if_false, hl, hl', Nat.sub_self]
    have e0 : m.read (pt.ptr + 16) 0 = [] := rfl
    unfold blkOp
    rw [e0, if_neg (by omega), h8']
    simp only [Res.bind_ok]
    have hctr : ∀ base d, ctr s base m ⟨ct.ptr + 16, 0, d⟩ ⟨pt.ptr + 16, 0, pt.cap - 16⟩ = .ok m := by
      intro base d
      unfold ctr
      match h : s.conc with
      | none => rfl
      | some 0 => exact absurd (ecc ▸ h) hconc
      | some (n + 1) => rfl
    rw [hctr]
    rfl
  refine ⟨_, _, run m, run m', ?_⟩
  have hT : ∀ m : Mem, (xorb (uhash s []) (m.read pt.ptr 16)).take 8 = xorb ((uhash s []).take 8) (m.read pt.ptr 8) := by
    intro m
    rw [xorb_take, Mem.read_take]; rfl
  rw [hT, hT, hsame]
  have hlen : ∀ Y : Bytes, (xorb (copyInto (List.replicate 16 0) Y) (uhash s [])).length = 16 := by
    intro Y
    rw [xorb_length, uhash_length, copyInto_length, List.length_replicate]; rfl
  rw [Mem.read_write_self' _ _ _ _ (hlen _), Mem.read_write_self' _ _ _ _ (hlen _)]

/-! C47 -/

/-- The multiplication of the hash is the product of GF(2^128) by the hash key (NIST SP 800-38D bit order). -/
theorem C47_mul_is_field_mul (hkey : Bytes) (hk : hkey.length = 16) (y : Fe) :
    (mul (table hkey) y).low ++ (mul (table hkey) y).high = Spec.gmul (y.low ++ y.high) (Spec.blk hkey) := by
  have := mul_eq (table hkey) _ (table_ok hkey) y
  rw [be64_append hkey (by omega), List.take_of_length_le (by omega)] at this
  exact this

theorem uhash_spec (hnew : new c conc tweak hkey = .ok s) (M : Bytes) (hr : M.length % 16 = 0 ∨ M.length % 16 = 8) :
    uhash s M = Spec.hash hkey tweak M := by
  obtain ⟨-, -, et, eta, hT, hK⟩ := new_c hnew
  have ht : IsTable s.table (Spec.blk hkey) := by
    have := table_ok hkey
    rw [be64_append hkey (by omega), List.take_of_length_le (by omega)] at this
    rw [eta]; exact this
  rw [uhash_eq s _ ht (by rw [et]; exact hT), et]
  unfold Spec.hash
  have hlen : (M ++ tweak).length = M.length + 16 := by rw [List.length_append, hT]
  rw [hlen]
  have key : Mode.chunks 16 (Aead.Spec.padZero 16 (M ++ tweak)) =
      Mode.chunks 16 (M.take (16 * (M.length / 16))) ++ tailBlocks tweak (M.drop (16 * (M.length / 16))) := by
    have one : ∀ x : Bytes, x.length = 16 → Mode.chunks 16 x = [x] := by
      intro x hx
      rw [Mode.chunks_cons _ (by decide) _ (by intro h; rw [h] at hx; simp at hx), List.take_of_length_le (by omega),
        List.drop_of_length_le (by omega), Mode.chunks_nil]
    have hsplit : Aead.Spec.padZero 16 (M ++ tweak) = M.take (16 * (M.length / 16)) ++
        (M.drop (16 * (M.length / 16)) ++ tweak ++ List.replicate ((16 - M.length % 16) % 16) 0) := by
      unfold Aead.Spec.padZero
      rw [hlen, Nat.add_mod_right, ← List.append_assoc, ← List.append_assoc, List.take_append_drop]
    rw [hsplit, Mode.chunks_append _ (by decide) _ _ (by rw [List.length_take, Nat.min_eq_left (by omega)]; exact Nat.dvd_mul_right ..)]
    congr 1
    have hrl : (M.drop (16 * (M.length / 16))).length = M.length % 16 := by rw [List.length_drop]; omega
    generalize M.drop (16 * (M.length / 16)) = r at hrl
    rcases hr with h0 | h8
    · have : r = [] := List.length_eq_zero_iff.mp (by omega)
      subst this
      rw [h0]
      simp only [tailBlocks, if_true, List.nil_append, Nat.sub_zero, Nat.mod_self, List.replicate_zero, List.append_nil]
      exact one _ hT
    · have hne : r ≠ [] := by intro h; rw [h] at hrl; simp at hrl; omega
      have h8' : r.length = 8 := by omega
      unfold tailBlocks
      rw [if_neg hne, h8', h8]
      have e : r ++ tweak ++ List.replicate ((16 - 8) % 16) 0 = (r ++ tweak.take 8) ++ (tweak.drop 8 ++ List.replicate 8 0) := by
        rw [List.append_assoc, List.append_assoc, ← List.append_assoc (tweak.take 8), List.take_append_drop]
      have l1 : (r ++ tweak.take 8).length = 16 := by rw [List.length_append, List.length_take]; omega
      have l2 : (tweak.drop 8 ++ List.replicate 8 (0 : Byte)).length = 16 := by rw [List.length_append, List.length_drop, List.length_replicate]; omega
      rw [e, Mode.chunks_append _ (by decide) _ _ (by rw [l1]), one _ l1, one _ l2,
        List.take_left' (by rw [List.length_drop]; omega)]
      rfl
  rw [key]
  rfl

/-- For messages whose length is a multiple of 8, `Encrypt` and `Decrypt` are HCTR as published, with the polynomial hash
of the message, the whole tweak and the length. Missing: all other lengths (false, see
`C47_tweak_ignored_violated`, `C47_other_lengths_violated`). -/
theorem C47_is_hctr_partial (h16 : c.bs = 16) (hconc : conc ≠ some 0) (hnew : new c conc tweak hkey = .ok s) (m : Mem) (dst src : Slice)
    (hl : dst.len = src.len) (hge : 16 ≤ src.len) (ho : SameOrApart dst src src.len) (h8 : 8 ∣ src.len) :
    encrypt s m dst src = .ok (m.write dst.ptr (Spec.encrypt c.E hkey tweak (m.read src.ptr src.len))) ∧
    decrypt s m dst src = .ok (m.write dst.ptr (Spec.decrypt c.E c.D hkey tweak (m.read src.ptr src.len))) := by
  obtain ⟨ec, ecc, -⟩ := new_c hnew
  have h16' : s.c.bs = 16 := by rw [ec]; exact h16
  have hcc : s.conc ≠ some 0 := by rw [ecc]; exact hconc
  have hPl : (m.read src.ptr src.len).length = src.len := Mem.read_length ..
  rw [encrypt_eq s h16' hcc m dst src hl hge ho, decrypt_eq s h16' hcc m dst src hl hge ho, ec]
  unfold Spec.encrypt Spec.decrypt Spec.encryptH Spec.decryptH
  simp only
  generalize m.read src.ptr src.len = P at hPl
  have hr : (P.drop 16).length % 16 = 0 ∨ (P.drop 16).length % 16 = 8 := by
    rw [List.length_drop, hPl]; omega
  have hE : ∀ x : Bytes, x.length = 16 → (c.E x).length = 16 := by rw [← h16]; exact c.lenE
  have hD : ∀ x : Bytes, x.length = 16 → (c.D x).length = 16 := by rw [← h16]; exact c.lenD
  have hu := uhash_spec hnew (P.drop 16) hr
  have hhl : (Spec.hash hkey tweak (P.drop 16)).length = 16 := Mode.natBe_len ..
  have hM : (xorb (P.take 16) (Spec.hash hkey tweak (P.drop 16))).length = 16 := by
    rw [xorb_length, hhl, List.length_take]; omega
  rw [hu]
  generalize xorb (P.take 16) (Spec.hash hkey tweak (P.drop 16)) = M at hM
  constructor
  · rw [uhash_spec hnew]
    rw [ctr_length c h16 _ (by rw [xorb_length, hE M hM]; omega)]; exact hr
  · rw [uhash_spec hnew]
    rw [ctr_length c h16 _ (by rw [xorb_length, hD M hM]; omega)]; exact hr

/-- C47 violated: for a message of `16 k + r` bytes with `0 < r < 16`, the only bytes of the tweak that have any effect
are the first `16 - r` and those in positions `r … 2r - 1`: two objects whose tweaks agree there encrypt and decrypt
identically. (The second block of the hash takes the tweak from position `r` instead of `16 - r`.) -/
theorem C47_tweak_ignored_violated (h16 : c.bs = 16) (hconc : conc ≠ some 0) {tweak' : Bytes} {s' : St}
    (hnew : new c conc tweak hkey = .ok s) (hnew' : new c conc tweak' hkey = .ok s') (m : Mem) (dst src : Slice)
    (hl : dst.len = src.len) (hge : 16 ≤ src.len) (ho : SameOrApart dst src src.len) (r : Nat) (hr : src.len % 16 = r) (hr0 : 0 < r)
    (h1 : tweak.take (16 - r) = tweak'.take (16 - r)) (h2 : (tweak.drop r).take r = (tweak'.drop r).take r) :
    encrypt s m dst src = encrypt s' m dst src ∧ decrypt s m dst src = decrypt s' m dst src := by
  obtain ⟨ec, ecc, et, eta, hT, hK⟩ := new_c hnew
  obtain ⟨ec', ecc', et', eta', hT', -⟩ := new_c hnew'
  have h16' : s.c.bs = 16 := by rw [ec]; exact h16
  have h16'' : s'.c.bs = 16 := by rw [ec']; exact h16
  have hcc : s.conc ≠ some 0 := by rw [ecc]; exact hconc
  have hcc' : s'.conc ≠ some 0 := by rw [ecc']; exact hconc
  have hPl : (m.read src.ptr src.len).length = src.len := Mem.read_length ..
  rw [encrypt_eq s h16' hcc m dst src hl hge ho, decrypt_eq s h16' hcc m dst src hl hge ho, ec,
    encrypt_eq s' h16'' hcc' m dst src hl hge ho, decrypt_eq s' h16'' hcc' m dst src hl hge ho, ec']
  have same : ∀ M : Bytes, M.length % 16 = r → uhash s M = uhash s' M := by
    intro M hM
    have ht : IsTable s.table (be64 hkey ++ be64 (hkey.drop 8)) := by rw [eta]; exact table_ok hkey
    have ht' : IsTable s'.table (be64 hkey ++ be64 (hkey.drop 8)) := by rw [eta']; exact table_ok hkey
    rw [uhash_eq s _ ht (by rw [et]; exact hT), uhash_eq s' _ ht' (by rw [et']; exact hT'), et, et']
    have hrl : (M.drop (16 * (M.length / 16))).length = r := by rw [List.length_drop]; omega
    have htb : tailBlocks tweak (M.drop (16 * (M.length / 16))) = tailBlocks tweak' (M.drop (16 * (M.length / 16))) := by
      generalize M.drop (16 * (M.length / 16)) = q at hrl
      have hq : q ≠ [] := by intro h; rw [h] at hrl; simp at hrl; omega
      unfold tailBlocks
      rw [if_neg hq, if_neg hq, hrl, h1, List.take_append, List.take_append, h2, List.length_drop, List.length_drop, hT, hT']
    rw [htb]
  unfold Spec.encryptH Spec.decryptH
  simp only
  generalize m.read src.ptr src.len = P at hPl
  have hdl : (P.drop 16).length % 16 = r := by rw [List.length_drop, hPl]; omega
  have hE : ∀ x : Bytes, x.length = 16 → (c.E x).length = 16 := by rw [← h16]; exact c.lenE
  have hD : ∀ x : Bytes, x.length = 16 → (c.D x).length = 16 := by rw [← h16]; exact c.lenD
  have hM : (xorb (P.take 16) (uhash s' (P.drop 16))).length = 16 := by
    rw [xorb_length, uhash_length, List.length_take]; omega
  rw [same _ hdl]
  generalize xorb (P.take 16) (uhash s' (P.drop 16)) = M at hM
  constructor
  · rw [same]
    rw [ctr_length c h16 _ (by rw [xorb_length, hE M hM]; omega)]; exact hdl
  · rw [same]
    rw [ctr_length c h16 _ (by rw [xorb_length, hD M hM]; omega)]; exact hdl
end

/-! Concrete cases -/

/-- Example data: 33 bytes at 100, an output buffer at 200. -/
def demoMem : Mem := fun a => BitVec.ofNat 8 (7 * a)
def demoC : BlockCipher := toyCipher 16 (by decide)
def demoTweak : Bytes := (List.range 16).map (BitVec.ofNat 8)
def demoKey : Bytes := (List.range 16).map (fun i => BitVec.ofNat 8 (i + 3))
def demoSt : St := ⟨demoC, none, demoTweak, table demoKey⟩

/-- A concrete case meets the hypotheses of the theorems about `Encrypt` and `Decrypt`: 40 bytes, in place and apart. -/
example : new demoC none demoTweak demoKey = .ok demoSt ∧ demoC.bs = 16 ∧ SameOrApart ⟨200, 40, 40⟩ ⟨100, 40, 40⟩ 40 ∧ SameOrApart ⟨100, 40, 40⟩ ⟨100, 40, 40⟩ 40 :=
  ⟨by unfold new; rw [if_neg (by decide)]; rfl, rfl, .inr (.inr (by decide)), .inl rfl⟩

/-- Tweaks that differ in 14 of 16 bytes meet the hypotheses of `C47_tweak_ignored_violated` for 31-byte messages. -/
example : demoTweak.take 1 = ([0] ++ List.replicate 14 0xff ++ [15] : Bytes).take 1 ∧
    (demoTweak.drop 15).take 15 = (([0] ++ List.replicate 14 0xff ++ [15] : Bytes).drop 15).take 15 ∧ 31 % 16 = 15 := by decide +kernel

/-- What `Decrypt` into a 17-byte buffer returns of the first 17 bytes `Encrypt` wrote to a buffer of `n` bytes. -/
def encDec (n : Nat) : Res Bytes := do
  let m ← encrypt demoSt demoMem ⟨200, n, n⟩ ⟨100, 17, 17⟩
  let m ← decrypt demoSt m ⟨300, 17, 17⟩ ⟨200, 17, 17⟩
  .ok (m.read 300 17)

/-- C38 violated: `Encrypt` accepts an output buffer one byte longer than the plaintext, and hashes that byte too; the
ciphertext does not decrypt. -/
theorem C38_long_dst_violated : (∃ x, encDec 18 = .ok x ∧ x ≠ demoMem.read 100 17) ∧ encDec 17 = .ok (demoMem.read 100 17) := by
  have h : (match encDec 18 with | .ok x => decide (x ≠ demoMem.read 100 17) | _ => false) = true := by decide +kernel
  refine ⟨?_, by decide +kernel⟩
  match h' : encDec 18 with
  | .ok x => rw [h'] at h; exact ⟨x, rfl, of_decide_eq_true h⟩
  | .err => rw [h'] at h; exact absurd h (by decide)
  | .panic => rw [h'] at h; exact absurd h (by decide)
  | .hang => rw [h'] at h; exact absurd h (by decide)

/-- C38 violated: a cipher that says it encrypts batches of no blocks makes both calls loop forever. -/
theorem C38_empty_batch_violated : encrypt { demoSt with conc := some 0 } demoMem ⟨200, 17, 17⟩ ⟨100, 17, 17⟩ = .hang := rfl

/-- C47 violated: on a 33-byte message the output is not that of HCTR. -/
theorem C47_other_lengths_violated :
    ∃ m, encrypt demoSt demoMem ⟨200, 33, 33⟩ ⟨100, 33, 33⟩ = .ok m ∧ m.read 200 33 ≠ Spec.encrypt demoC.E demoKey demoTweak (demoMem.read 100 33) := by
  refine ⟨_, encrypt_eq demoSt rfl (by decide) demoMem ⟨200, 33, 33⟩ ⟨100, 33, 33⟩ rfl (by decide) (.inr (.inr (by decide))), ?_⟩
  decide +kernel

end Verif.Hctr
