import Verif.Xoodyak.CyRefine
/-! Decryption undoes encryption, and the byte-level AEAD of the code is that of the specification. -/
namespace Verif.Xoodyak
open Verif

theorem f_len (S : Bytes) : (Spec.f S).length = 48 := rfl

theorem goUp_len (c : Spec.Cy) (n : Nat) (cu : Byte) (h : n ≤ 48) : (Spec.goUp c n cu).2.length = n := by
  show ((Spec.f _).take n).length = n
  rw [List.length_take, f_len]; omega

/-- Crypt of either direction on whole messages, and the other direction on its output. -/
theorem cryptBlocks_inv (d : Bool) : ∀ (n : Nat) (c : Spec.Cy) (m : Bytes) (cu : Byte), m.length ≤ n →
    (Spec.cryptBlocks c (Spec.split m 24) cu d).2.length = m.length ∧
    Spec.cryptBlocks c (Spec.split (Spec.cryptBlocks c (Spec.split m 24) cu d).2 24) cu (!d) =
      ((Spec.cryptBlocks c (Spec.split m 24) cu d).1, m) := by
  intro n
  induction n with
  | zero =>
    intro c m cu h
    have : m = [] := List.length_eq_zero_iff.mp (by omega)
    subst this
    refine ⟨rfl, ?_⟩
    cases d <;> rfl
  | succ n ih =>
    intro c m cu h
    by_cases hl : m.length ≤ 24
    · have hU := goUp_len c m.length cu (by omega)
      rw [split_small m 24 (by omega) hl]
      simp only [Spec.cryptBlocks, List.append_nil]
      have hO : (xorb m (Spec.goUp c m.length cu).2).length = m.length := by rw [xorb_length, hU]; omega
      refine ⟨hO, ?_⟩
      rw [split_small _ 24 (by omega) (by omega)]
      simp only [Spec.cryptBlocks, List.append_nil]
      rw [hO, xorb_xorb_cancel_right _ _ (by omega)]
      cases d <;> rfl
    · have ht : (m.take 24).length = 24 := by rw [List.length_take]; omega
      have hU := goUp_len c 24 cu (by omega)
      rw [split_cons m 24 (by omega) (by omega)]
      simp only [Spec.cryptBlocks]
      rw [ht]
      have hO : (xorb (m.take 24) (Spec.goUp c 24 cu).2).length = 24 := by rw [xorb_length, hU]; omega
      obtain ⟨i1, i2⟩ := ih (Spec.down (Spec.goUp c 24 cu).1 (if d then xorb (m.take 24) (Spec.goUp c 24 cu).2 else m.take 24) 0)
        (m.drop 24) 0 (by rw [List.length_drop]; omega)
      rw [List.length_drop] at i1
      refine ⟨by rw [List.length_append, hO, i1]; omega, ?_⟩
      rw [split_cons _ 24 (by omega) (by rw [List.length_append, hO, i1]; omega)]
      have t : ∀ B : Bytes, (xorb (m.take 24) (Spec.goUp c 24 cu).2 ++ B).take 24 = xorb (m.take 24) (Spec.goUp c 24 cu).2 := by
        intro B
        have := List.take_left (l₁ := xorb (m.take 24) (Spec.goUp c 24 cu).2) (l₂ := B)
        rw [hO] at this; exact this
      have dr : ∀ B : Bytes, (xorb (m.take 24) (Spec.goUp c 24 cu).2 ++ B).drop 24 = B := by
        intro B
        have := List.drop_left (l₁ := xorb (m.take 24) (Spec.goUp c 24 cu).2) (l₂ := B)
        rw [hO] at this; exact this
      rw [t, dr]
      simp only [Spec.cryptBlocks]
      rw [hO, xorb_xorb_cancel_right _ _ (by omega)]
      have e : (if (!d) = true then m.take 24 else xorb (m.take 24) (Spec.goUp c 24 cu).2) =
          (if d then xorb (m.take 24) (Spec.goUp c 24 cu).2 else m.take 24) := by cases d <;> rfl
      rw [e, i2, List.take_append_drop]

theorem crypt_inv (c : Spec.Cy) (m : Bytes) (d : Bool) :
    (Spec.crypt c m d).2.length = m.length ∧ Spec.crypt c (Spec.crypt c m d).2 (!d) = ((Spec.crypt c m d).1, m) :=
  cryptBlocks_inv d _ c m 0x80 (Nat.le_refl _)

/-- Rates never change. -/
theorem absorbBlocks_rates (l : List Bytes) : ∀ (c : Spec.Cy) (cd : Byte), (Spec.absorbBlocks c l cd).rabs = c.rabs ∧
    (Spec.absorbBlocks c l cd).rsq = c.rsq ∧ (Spec.absorbBlocks c l cd).keyed = c.keyed := by
  induction l with
  | nil => intro c cd; exact ⟨rfl, rfl, rfl⟩
  | cons X l ih =>
    intro c cd
    have := ih (Spec.down (if c.up then c else (Spec.goUp c 0 0).1) X cd) 0
    unfold Spec.absorbBlocks
    refine ⟨this.1.trans ?_, this.2.1.trans ?_, this.2.2.trans ?_⟩ <;> unfold Spec.down <;> simp only [] <;> cases c.up <;> rfl

theorem cryptBlocks_rates (l : List Bytes) : ∀ (c : Spec.Cy) (cu : Byte) (d : Bool), (Spec.cryptBlocks c l cu d).1.rabs = c.rabs ∧
    (Spec.cryptBlocks c l cu d).1.rsq = c.rsq ∧ (Spec.cryptBlocks c l cu d).1.keyed = c.keyed := by
  induction l with
  | nil => intro c cu d; exact ⟨rfl, rfl, rfl⟩
  | cons X l ih =>
    intro c cu d
    unfold Spec.cryptBlocks
    simp only []
    exact ih _ 0 d

theorem squeezeMore_rates (l : Nat) : ∀ c : Spec.Cy, (Spec.squeezeMore c l).1.rabs = c.rabs ∧
    (Spec.squeezeMore c l).1.rsq = c.rsq ∧ (Spec.squeezeMore c l).1.keyed = c.keyed := by
  induction l using Nat.strongRecOn with
  | ind l ih =>
    intro c
    unfold Spec.squeezeMore
    by_cases h : l = 0 ∨ c.rsq = 0
    · rw [dif_pos h]; exact ⟨rfl, rfl, rfl⟩
    · rw [dif_neg h]
      simp only []
      exact ih _ (by omega) _

theorem squeezeMore_len (l : Nat) : ∀ c : Spec.Cy, 0 < c.rsq → c.rsq ≤ 48 → (Spec.squeezeMore c l).2.length = l := by
  induction l using Nat.strongRecOn with
  | ind l ih =>
    intro c h0 h48
    unfold Spec.squeezeMore
    by_cases h : l = 0 ∨ c.rsq = 0
    · rw [dif_pos h]; simp; omega
    · rw [dif_neg h]
      simp only []
      have i := ih (l - min l c.rsq) (by omega) (Spec.goUp (Spec.down c [] 0) (min l c.rsq) 0).1 h0 h48
      rw [List.length_append, goUp_len _ _ _ (by omega), i]
      omega

theorem squeezeAny_len (c : Spec.Cy) (n : Nat) (cu : Byte) (h0 : 0 < c.rsq) (h48 : c.rsq ≤ 48) : (Spec.squeezeAny c n cu).2.length = n := by
  unfold Spec.squeezeAny
  simp only []
  rw [List.length_append, goUp_len _ _ _ (by omega), squeezeMore_len _ _ (by exact h0) (by exact h48)]
  omega

theorem initKeyed_rates (K id counter : Bytes) : (Spec.initKeyed K id counter).rabs = 44 ∧ (Spec.initKeyed K id counter).rsq = 24 ∧
    (Spec.initKeyed K id counter).keyed = true := by
  unfold Spec.initKeyed Spec.absorbAny
  simp only []
  split
  · exact absorbBlocks_rates _ _ _
  · have a := absorbBlocks_rates (Spec.split counter 1) (Spec.absorbBlocks ⟨true, true, List.replicate 48 0, 44, 24⟩ (Spec.split (K ++ id ++ [BitVec.ofNat 8 id.length]) 44) 2) 0
    have b := absorbBlocks_rates (Spec.split (K ++ id ++ [BitVec.ofNat 8 id.length]) 44) ⟨true, true, List.replicate 48 0, 44, 24⟩ 2
    exact ⟨a.1.trans b.1, a.2.1.trans b.2.1, a.2.2.trans b.2.2⟩

/-- The state after key, nonce and associated data. -/
def adState (K N A : Bytes) : Spec.Cy := (Spec.op (Spec.initKeyed K N []) (.absorb A)).1

theorem adState_rates (K N A : Bytes) : (adState K N A).rsq = 24 ∧ (adState K N A).keyed = true := by
  have a := absorbBlocks_rates (Spec.split A (Spec.initKeyed K N []).rabs) (Spec.initKeyed K N []) 3
  have b := initKeyed_rates K N []
  exact ⟨a.2.1.trans b.2.1, a.2.2.trans b.2.2⟩

theorem adState_rel (K N A : Bytes) : RelP (absorb (xKeyed K N []) A) (adState K N A) := by
  have r := xKeyed_rel K N []
  have b := initKeyed_rates K N []
  show RelP (absorbAny _ A (xKeyed K N []).absorbSize 3) (Spec.absorbAny _ A (Spec.initKeyed K N []).rabs 3)
  rw [r.ra, b.1]
  exact absorbAny_rel r A 44 (by omega) (by omega) 3

/-- The tag of a state. -/
def tagOf (c : Spec.Cy) : Bytes := (Spec.squeezeAny c 16 0x40).2

theorem aead_def (K N A P : Bytes) : Spec.aead K N A P = ((Spec.crypt (adState K N A) P false).2, tagOf (Spec.crypt (adState K N A) P false).1) := rfl

theorem encAead_eq (m K N A : Bytes) (hK : K.length = 16) (hN : N.length = 16) : encAead m K N A = .ok (Spec.aead K N A m) := by
  have hk : K ≠ [] := by intro h; rw [h] at hK; simp at hK
  unfold encAead
  rw [if_neg (by omega), if_neg (by omega), instantiate_keyed K N [] hk (by omega)]
  show (encrypt (absorb (xKeyed K N []) A) m).bind _ = _
  have r := adState_rel K N A
  have rt := adState_rates K N A
  unfold encrypt
  rw [r.k, rt.2]
  obtain ⟨a, b⟩ := crypt_rel r.toRel m false
  show Res.ok ((crypt (absorb (xKeyed K N []) A) m false).2, (squeezeAny (crypt (absorb (xKeyed K N []) A) m false).1 16 0x40).2) = _
  have q := cryptBlocks_rates (Spec.split m 24) (adState K N A) 0x80 false
  rw [a, (squeezeAny_rel b.toRel (by show 0 < (Spec.cryptBlocks _ _ _ _).1.rsq; rw [q.2.1, rt.1]; omega) 16 0x40).1]
  rfl

theorem decAead_eq (C K N A T : Bytes) (hK : K.length = 16) (hN : N.length = 16) :
    decAead C K N A T = .ok (if tagOf (Spec.crypt (adState K N A) C true).1 = T then some (Spec.crypt (adState K N A) C true).2 else none) := by
  have hk : K ≠ [] := by intro h; rw [h] at hK; simp at hK
  unfold decAead
  rw [if_neg (by omega), if_neg (by omega), instantiate_keyed K N [] hk (by omega)]
  show (decrypt (absorb (xKeyed K N []) A) C).bind _ = _
  have r := adState_rel K N A
  have rt := adState_rates K N A
  unfold decrypt
  rw [r.k, rt.2]
  obtain ⟨a, b⟩ := crypt_rel r.toRel C true
  show Res.ok (if (squeezeAny (crypt (absorb (xKeyed K N []) A) C true).1 16 0x40).2 = T then some (crypt (absorb (xKeyed K N []) A) C true).2 else none) = _
  have q := cryptBlocks_rates (Spec.split C 24) (adState K N A) 0x80 true
  rw [a, (squeezeAny_rel b.toRel (by show 0 < (Spec.cryptBlocks _ _ _ _).1.rsq; rw [q.2.1, rt.1]; omega) 16 0x40).1]
  rfl

theorem aead_lens (K N A P : Bytes) : (Spec.aead K N A P).1.length = P.length ∧ (Spec.aead K N A P).2.length = 16 := by
  have q := cryptBlocks_rates (Spec.split P 24) (adState K N A) 0x80 false
  have rt := adState_rates K N A
  have e : (Spec.crypt (adState K N A) P false).1.rsq = 24 := by show (Spec.cryptBlocks _ _ _ _).1.rsq = 24; rw [q.2.1, rt.1]
  exact ⟨(crypt_inv (adState K N A) P false).1, squeezeAny_len (Spec.crypt (adState K N A) P false).1 16 0x40 (by rw [e]; omega) (by rw [e]; omega)⟩

/-- Decryption accepts exactly what encryption produces. -/
theorem dec_iff (C K N A T P : Bytes) : (tagOf (Spec.crypt (adState K N A) C true).1 = T ∧ (Spec.crypt (adState K N A) C true).2 = P) ↔
    Spec.aead K N A P = (C, T) := by
  rw [aead_def]
  constructor
  · rintro ⟨rfl, rfl⟩
    have := (crypt_inv (adState K N A) C true).2
    simp only [Bool.not_true] at this
    rw [this]
  · intro h
    obtain ⟨h1, h2⟩ := Prod.mk.inj h
    have := (crypt_inv (adState K N A) P false).2
    simp only [Bool.not_false] at this
    rw [h1] at this
    rw [this]
    exact ⟨h2, rfl⟩

end Verif.Xoodyak
