import Verif.Passhash.Argon2
import Mathlib.Tactic.Ring
/-
Helper lemmas for the Argon2 password strings.
-/
namespace Verif.Passhash
open Verif.Fernet

theorem split_cons {c : Byte} {rest : Bytes} : ∀ {a : Bytes}, c ∉ a → split c (a ++ c :: rest) = a :: split c rest
  | [], _ => by simp [split]
  | x :: a, h => by
    have hx1 : ¬ x = c := fun e => h (by simp [e])
    rw [List.cons_append, split, if_neg hx1, split_cons (fun hm => h (by simp [hm]))]

theorem split_one {c : Byte} : ∀ {a : Bytes}, c ∉ a → split c a = [a]
  | [], _ => by simp [split]
  | x :: a, h => by
    have hx1 : ¬ x = c := fun e => h (by simp [e])
    rw [split, if_neg hx1, split_one (fun hm => h (by simp [hm]))]

theorem dec_digits (n : Nat) : (dec n).all isDigit = true ∧ dec n ≠ [] := by
  induction n using Nat.strongRecOn with
  | _ n ih =>
    rw [dec]
    split
    · simp [isDigit]; omega
    · have := ih (n / 10) (by omega)
      refine ⟨?_, by simp⟩
      rw [List.all_append, this.1]
      simp [isDigit]; omega

theorem decVal_dec (n : Nat) : decVal (dec n) = n := by
  induction n using Nat.strongRecOn with
  | _ n ih =>
    rw [dec]
    split
    · simp [decVal]; omega
    · have := ih (n / 10) (by omega)
      rw [decVal] at this ⊢
      rw [List.foldl_append, this]
      simp; omega

theorem dec_mem {n : Nat} {b : Byte} (h : b ∈ dec n) : 48 ≤ b.toNat ∧ b.toNat ≤ 57 := by
  have := List.all_eq_true.1 (dec_digits n).1 b h
  simpa [isDigit] using this

theorem atoi_dec {n : Nat} (h : n < 2 ^ 63) : atoi (dec n) = n := by
  obtain ⟨h1, h2⟩ := dec_digits n
  cases hd : dec n with
  | nil => exact absurd hd h2
  | cons b s =>
    have hb : 48 ≤ b.toNat ∧ b.toNat ≤ 57 := dec_mem (n := n) (by rw [hd]; simp)
    have n1 : (b == 45#8) = false := by rw [beq_eq_false_iff_ne]; rintro rfl; simp at hb
    have n2 : (b == 43#8) = false := by rw [beq_eq_false_iff_ne]; rintro rfl; simp at hb
    have hv := decVal_dec n
    rw [hd] at h1 hv
    simp only [atoi, List.headD_cons, n1, n2, Bool.or_self, Bool.false_eq_true, if_false, h1, hv, List.isEmpty_cons, Bool.not_true]
    omega

theorem rawEnc_mem {b : Byte} : ∀ {s : Bytes}, b ∈ rawEnc s → ∃ v, v < 64 ∧ b = alpha false v := by
  intro s
  induction s using rawEnc.induct with
  | case1 => simp [rawEnc]
  | case2 a =>
    have := a.isLt
    simp only [rawEnc, List.mem_cons, List.not_mem_nil, or_false]
    rintro (rfl | rfl) <;> exact ⟨_, by omega, rfl⟩
  | case3 a c =>
    have := a.isLt; have := c.isLt
    simp only [rawEnc, List.mem_cons, List.not_mem_nil, or_false]
    rintro (rfl | rfl | rfl) <;> exact ⟨_, by omega, rfl⟩
  | case4 a c d r ih =>
    have := a.isLt; have := c.isLt; have := d.isLt
    simp only [rawEnc, List.mem_cons]
    rintro (rfl | rfl | rfl | rfl | h)
    · exact ⟨_, by omega, rfl⟩
    · exact ⟨_, by omega, rfl⟩
    · exact ⟨_, by omega, rfl⟩
    · exact ⟨_, by omega, rfl⟩
    · exact ih h

theorem alpha_ne : ∀ v : Fin 64, alpha false v.val ≠ 0x24#8 ∧ alpha false v.val ≠ 0x2c#8 ∧ alpha false v.val ≠ 0x3d#8 := by decide +kernel

theorem rawEnc_dollar (s : Bytes) : cDollar ∉ rawEnc s := by
  intro h
  obtain ⟨v, hv, he⟩ := rawEnc_mem h
  exact (alpha_ne ⟨v, hv⟩).1 he.symm

theorem dec_not {n : Nat} {c : Byte} (hc : c.toNat < 48 ∨ 57 < c.toNat) : c ∉ dec n := by
  intro h; have := dec_mem h; omega

theorem rawQuantum_some {c : Byte} {x : Nat} (h : unalpha false c = some x) (v : List Nat) (src : Bytes) :
    rawQuantum v (c :: src) = if v.length = 3 then (src, conv (v ++ [x]), false) else rawQuantum (v ++ [x]) src := by
  rw [rawQuantum]; simp [h]

/-- a tail that cannot begin another quantum -/
def RawJunk (g : Bytes) : Prop := g = [] ∨ ∃ c r, g = c :: r ∧ unalpha false c = none ∧ isNl c = false

theorem rawLoop_junk {g : Bytes} (h : RawJunk g) (f : Nat) : (rawLoop f g).1 = [] := by
  rcases h with rfl | ⟨c, r, rfl, h1, h2⟩
  · cases f <;> simp [rawLoop]
  · cases f with
    | zero => rfl
    | succ f =>
      have : rawQuantum [] (c :: r) = (r, [], true) := by rw [rawQuantum]; simp [h1, h2]
      simp [rawLoop, this]

theorem rawLoop_enc (g : Bytes) (hg : RawJunk g) (b : Bytes) (h3 : g = [] ∨ b.length % 3 = 0) :
    ∀ f, (rawEnc b ++ g).length ≤ f → (rawLoop f (rawEnc b ++ g)).1 = b := by
  induction b using rawEnc.induct with
  | case1 => intro f hf; simpa [rawEnc] using rawLoop_junk hg f
  | case2 a =>
    intro f hf
    have ha := a.isLt
    have hg0 : g = [] := by rcases h3 with h | h; exact h; simp at h
    subst hg0
    cases f with
    | zero => simp [rawEnc] at hf
    | succ f =>
      have hq : rawQuantum [] [alpha false (a.toNat / 4), alpha false (a.toNat % 4 * 16)] = ([], [a], false) := by
        rw [rawQuantum_some (unalpha_alpha false _ (by omega)), if_neg (by simp), rawQuantum_some (unalpha_alpha false _ (by omega)), if_neg (by simp), rawQuantum]
        simp only [List.nil_append, List.cons_append, List.length_cons, List.length_nil]
        rw [if_neg (by decide), conv2]
      simp only [rawEnc, List.append_nil, rawLoop, hq]
      cases f <;> simp [rawLoop]
  | case3 a b =>
    intro f hf
    have ha := a.isLt
    have hb := b.isLt
    have hg0 : g = [] := by rcases h3 with h | h; exact h; simp at h
    subst hg0
    cases f with
    | zero => simp [rawEnc] at hf
    | succ f =>
      have hq : rawQuantum [] [alpha false (a.toNat / 4), alpha false (a.toNat % 4 * 16 + b.toNat / 16), alpha false (b.toNat % 16 * 4)] = ([], [a, b], false) := by
        rw [rawQuantum_some (unalpha_alpha false _ (by omega)), if_neg (by simp), rawQuantum_some (unalpha_alpha false _ (by omega)), if_neg (by simp),
          rawQuantum_some (unalpha_alpha false _ (by omega)), if_neg (by simp), rawQuantum]
        simp only [List.nil_append, List.cons_append, List.length_cons, List.length_nil]
        rw [if_neg (by decide), conv3]
      simp only [rawEnc, List.append_nil, rawLoop, hq]
      cases f <;> simp [rawLoop]
  | case4 a b c r ih =>
    intro f hf
    have ha := a.isLt
    have hb := b.isLt
    have hc := c.isLt
    cases f with
    | zero => simp [rawEnc] at hf
    | succ f =>
      have hq : rawQuantum [] (alpha false (a.toNat / 4) :: alpha false (a.toNat % 4 * 16 + b.toNat / 16) ::
          alpha false (b.toNat % 16 * 4 + c.toNat / 64) :: alpha false (c.toNat % 64) :: (rawEnc r ++ g)) = (rawEnc r ++ g, [a, b, c], false) := by
        rw [rawQuantum_some (unalpha_alpha false _ (by omega)), if_neg (by simp), rawQuantum_some (unalpha_alpha false _ (by omega)), if_neg (by simp),
          rawQuantum_some (unalpha_alpha false _ (by omega)), if_neg (by simp), rawQuantum_some (unalpha_alpha false _ (by omega)), if_pos (by simp)]
        simp only [List.nil_append, List.cons_append]
        rw [conv4]
      have hih := ih (by rcases h3 with h | h; exact .inl h; simp at h; exact .inr (by omega)) f (by simp [rawEnc] at hf ⊢; omega)
      simp only [rawEnc, List.cons_append, rawLoop, hq]
      simpa using hih

theorem rawDec_enc (b : Bytes) : rawDec (rawEnc b) = b := by
  have := rawLoop_enc [] (.inl rfl) b (.inl rfl) (rawEnc b).length (by simp)
  simpa [rawDec] using this

theorem rawDec_enc_junk (b g : Bytes) (hg : RawJunk g) (h3 : b.length % 3 = 0) : rawDec (rawEnc b ++ g) = b :=
  rawLoop_enc g hg b (.inr h3) _ (Nat.le_refl _)

/-- the inverse of splitting -/
def joinc (c : Byte) : List Bytes → Bytes
  | [] => []
  | [x] => x
  | x :: y :: l => x ++ c :: joinc c (y :: l)

theorem split_spec (c : Byte) : ∀ s : Bytes, split c s ≠ [] ∧ (∀ x ∈ split c s, c ∉ x) ∧ s = joinc c (split c s)
  | [] => by simp [split, joinc]
  | b :: s => by
    obtain ⟨h1, h2, h3⟩ := split_spec c s
    rw [split]
    split
    · rename_i hb
      refine ⟨by simp, ?_, ?_⟩
      · intro x hx1
        rcases List.mem_cons.1 hx1 with rfl | hx1
        · simp
        · exact h2 x hx1
      · cases hs : split c s with
        | nil => exact absurd hs h1
        | cons p ps => rw [hs] at h3; rw [joinc, ← h3, hb]; rfl
    · rename_i hb
      cases hs : split c s with
      | nil => exact absurd hs h1
      | cons p ps =>
        rw [hs] at h2 h3
        refine ⟨by simp, ?_, ?_⟩
        · intro x hx1
          rcases List.mem_cons.1 hx1 with rfl | hx1
          · have := h2 p (by simp)
            simp only [List.mem_cons, not_or]
            exact ⟨fun e => hb e.symm, this⟩
          · exact h2 x (by simp [hx1])
        · cases ps with
          | nil => rw [joinc] at h3 ⊢; rw [← h3]
          | cons q qs => rw [joinc] at h3 ⊢; rw [List.cons_append, ← h3]

end Verif.Passhash
