import Verif.Fpe.Ff1Props
/-
C118: FF3 format-preserving encryption.
-/
namespace Verif.Fpe
open Verif.Pub Verif.Cipher

/-- What `NewCipher` guarantees of its result. -/
structure Ff3.Good (c : Ff3) : Prop where
  two : 2 ≤ c.radix
  max : c.radix ≤ 62
  min : 2 ≤ c.minLen
  len : c.radix ^ c.maxLen ≤ 2 ^ 192
  lenE : ∀ b, b.length = 16 → (c.E b).length = 16

theorem log_192 {r : Nat} (h1 : 2 ≤ r) (h2 : r ≤ 62) : 7 ≤ maxLenOf r := by
  unfold maxLenOf
  apply Nat.le_log_of_pow_le (by omega)
  calc r ^ 7 ≤ 62 ^ 7 := Nat.pow_le_pow_left h2 7
    _ ≤ 2 ^ 192 := by norm_num

/-- `NewCipher` accepts exactly AES keys, radices from 2 to 62 and 8-byte tweaks. -/
theorem C118_new (aes : Bytes → Bytes → Bytes) (radix : Int) (key tweak : Bytes) :
    (∃ c key', ff3New aes radix key tweak = .ok (c, key')) ↔
      (key.length = 16 ∨ key.length = 24 ∨ key.length = 32) ∧ 2 ≤ radix ∧ radix ≤ 62 ∧ tweak.length = 8 := by
  unfold ff3New
  constructor
  · rintro ⟨c, key', h⟩
    split at h
    · cases h
    · split at h
      · cases h
      · split at h
        · cases h
        · rename_i h1 h2 h3
          exact ⟨not_not.mp h1, by omega, by omega, not_not.mp h3⟩
  · rintro ⟨h1, h2, h3, h4⟩
    have hc := clog_100 (r := radix.toNat) (by omega) (by omega)
    have hl := log_192 (r := radix.toNat) (by omega) (by omega)
    rw [if_neg (not_not.mpr h1), if_neg (by omega), if_neg (not_not.mpr h4)]
    simp only
    rw [if_neg (by omega)]
    exact ⟨_, _, rfl⟩

theorem ff3New_good {aes : Bytes → Bytes → Bytes} {radix : Int} {key tweak key' : Bytes} {c : Ff3}
    (haes : ∀ k b, b.length = 16 → (aes k b).length = 16)
    (h : ff3New aes radix key tweak = .ok (c, key')) :
    c.Good ∧ c.E = aes key.reverse ∧ (c.radix : Int) = radix ∧ c.tweak = tweak ∧ key' = key.reverse := by
  unfold ff3New at h
  split at h
  · cases h
  · split at h
    · cases h
    · split at h
      · cases h
      · simp only at h
        split at h
        · cases h
        · rename_i h1 h2 h3 h4
          have := Res.ok.inj h
          rw [Prod.mk.injEq] at this
          obtain ⟨e1, e2⟩ := this
          subst e1
          refine ⟨⟨by show 2 ≤ radix.toNat; omega, by show radix.toNat ≤ 62; omega, by show 2 ≤ minLenOf radix.toNat; omega,
            ?_, haes _⟩, rfl, by show (radix.toNat : Int) = radix; omega, rfl, e2.symm⟩
          exact Nat.pow_log_le_self _ (by norm_num)

/-- The same call with the same key slice: `NewCipher` reverses the caller's key in place, so the second cipher made from
it is under another key (unless the key is a palindrome). -/
theorem C118_key_violated (aes : Bytes → Bytes → Bytes) (radix : Int) (key tweak key' key'' : Bytes) (c1 c2 : Ff3)
    (h1 : ff3New aes radix key tweak = .ok (c1, key')) (h2 : ff3New aes radix key' tweak = .ok (c2, key'')) :
    key' = key.reverse ∧ c1.E = aes key.reverse ∧ c2.E = aes key := by
  have e : ∀ {k t k' : Bytes} {c : Ff3}, ff3New aes radix k t = .ok (c, k') → c.E = aes k.reverse ∧ k' = k.reverse := by
    intro k t k' c h
    unfold ff3New at h
    split at h
    · cases h
    · split at h
      · cases h
      · split at h
        · cases h
        · simp only at h
          split at h
          · cases h
          · have := Res.ok.inj h
            rw [Prod.mk.injEq] at this
            obtain ⟨e1, e2⟩ := this
            subst e1
            exact ⟨rfl, e2.symm⟩
  obtain ⟨a1, a2⟩ := e h1
  obtain ⟨b1, b2⟩ := e h2
  refine ⟨a2, a1, ?_⟩
  rw [b1, a2, List.reverse_reverse]

theorem half_bound (c : Ff3) (hc : c.Good) {n : Nat} (hn : n < c.maxLen) : c.radix ^ ((n + 1) / 2) ≤ 2 ^ 96 := by
  by_contra h
  have h1 : 2 ^ 96 < c.radix ^ ((n + 1) / 2) := by omega
  have h2 : 2 ^ 96 * 2 ^ 96 < c.radix ^ ((n + 1) / 2) * c.radix ^ ((n + 1) / 2) := Nat.mul_lt_mul'' h1 h1
  rw [← pow_add] at h2
  have h3 : c.radix ^ ((n + 1) / 2 + (n + 1) / 2) ≤ c.radix ^ c.maxLen :=
    Nat.pow_le_pow_right (by have := hc.two; omega) (by omega)
  have h4 := hc.len
  rw [← pow_add] at h2
  norm_num at h2 h4
  omega

theorem ff3Y_eq (E : Bytes → Bytes) (r : Nat) (tweak : Bytes) (i : Nat) (B : List Nat) (ht : tweak.length = 8) (hi : i < 256)
    (hB : Spec.num r B.reverse < 2 ^ 96) :
    ff3Y E tweak i (Spec.num r B.reverse) = .ok (Spec.ff3y E r tweak i B) := by
  unfold ff3Y Spec.ff3y
  simp only
  generalize Spec.num r B.reverse = x at hB ⊢
  have hx12 : x < 256 ^ 12 := by norm_num at hB ⊢; omega
  have hbl := byteLen_le.mpr hx12
  have hnl : (natBytes x).length = byteLen x := by simp [natBytes]
  rw [if_neg (by omega)]
  obtain ⟨W, hW⟩ : ∃ W, W = if i % 2 = 0 then tweak.drop 4 else tweak.take 4 := ⟨_, rfl⟩
  have hWl : W.length = 4 := by rw [hW]; split <;> simp [ht]
  rw [← hW]
  obtain ⟨w0, w1, w2, w3, rfl⟩ : ∃ w0 w1 w2 w3, W = [w0, w1, w2, w3] := by
    match W, hWl with
    | [w0, w1, w2, w3], _ => exact ⟨w0, w1, w2, w3, rfl⟩
  have hx4 : hx 4 i = [0#8, 0#8, 0#8, BitVec.ofNat 8 i] := by
    have := hx_zeros 3 1 i (by omega)
    rw [show 3 + 1 = 4 by rfl] at this
    rw [this]
    have h1 : hx 1 i = [BitVec.ofNat 8 i] := rfl
    rw [h1]; rfl
  congr 3
  rw [hx4, ← zpad_natBytes hx12]
  congr 1
  rw [hnl, show [w0, w1, w2, w3].take 3 ++ [[w0, w1, w2, w3].getD 3 0#8 ^^^ BitVec.ofNat 8 i] ++ List.replicate 12 0#8 =
    [w0, w1, w2, w3 ^^^ BitVec.ofNat 8 i] ++ List.replicate 12 0#8 by rfl]
  rw [List.take_append, List.take_of_length_le (by simp; omega), List.take_replicate]
  rw [show xorb [w0, w1, w2, w3] [0#8, 0#8, 0#8, BitVec.ofNat 8 i] = [w0, w1, w2, w3 ^^^ BitVec.ofNat 8 i] by
    simp [xorb]]
  rw [← List.append_assoc]
  congr 2
  congr 1
  simp
  omega

theorem ff3Str_eq (r : Nat) (hr : 2 ≤ r) (m x : Nat) (hm : 1 ≤ m) (h : x < r ^ m) :
    ff3Str r m x = (Spec.str r m x).reverse.map chr := by
  rw [ff3Str, (text_pad r hr m x hm h).2, List.map_reverse]

theorem digits_rev {r : Nat} {X : List Nat} (h : Digits r X) : Digits r X.reverse := fun d hd => h d (by simpa using hd)

/-- The inverse of one round of the standard (Algorithm 10). -/
def ff3Back (E : Bytes → Bytes) (r n : Nat) (tweak : Bytes) (AB : List Nat × List Nat) (i : Nat) : List Nat × List Nat :=
  let m := if i % 2 = 0 then (n + 1) / 2 else n - (n + 1) / 2
  let c := (((Spec.num r AB.2.reverse : Int) - Spec.ff3y E r tweak i AB.1) % (r ^ m : Nat)).toNat
  ((Spec.str r m c).reverse, AB.1)

/-- Both halves are numerals of the lengths they have before round `i`. -/
structure St (r n i : Nat) (AB : List Nat × List Nat) : Prop where
  d1 : Digits r AB.1
  d2 : Digits r AB.2
  l1 : AB.1.length = if i % 2 = 0 then (n + 1) / 2 else n - (n + 1) / 2
  l2 : AB.2.length = if i % 2 = 0 then n - (n + 1) / 2 else (n + 1) / 2

theorem st_enc {E : Bytes → Bytes} {r n : Nat} {tweak : Bytes} {i : Nat} {AB : List Nat × List Nat} (hr : 0 < r)
    (h : St r n i AB) : St r n (i + 1) (Spec.ff3Round E r n tweak AB i) := by
  refine ⟨h.d2, digits_rev (str_digits _ _ _ hr), ?_, ?_⟩
  · show AB.2.length = _
    rw [h.l2]; split <;> split <;> omega
  · simp only [Spec.ff3Round, List.length_reverse, str_length]; split <;> split <;> omega

theorem st_dec {E : Bytes → Bytes} {r n : Nat} {tweak : Bytes} {i : Nat} {AB : List Nat × List Nat} (hr : 0 < r)
    (h : St r n (i + 1) AB) : St r n i (ff3Back E r n tweak AB i) := by
  refine ⟨digits_rev (str_digits _ _ _ hr), h.d1, ?_, ?_⟩
  · simp only [ff3Back, List.length_reverse, str_length]
  · show AB.1.length = _
    rw [h.l1]; split <;> split <;> omega

theorem back_enc {E : Bytes → Bytes} {r n : Nat} {tweak : Bytes} {i : Nat} {AB : List Nat × List Nat} (hr : 0 < r)
    (h : St r n i AB) : ff3Back E r n tweak (Spec.ff3Round E r n tweak AB i) i = AB := by
  obtain ⟨A, B⟩ := AB
  obtain ⟨d1, d2, l1, l2⟩ := h
  simp only at d1 d2 l1 l2
  unfold ff3Back Spec.ff3Round
  simp only
  generalize hm : (if i % 2 = 0 then (n + 1) / 2 else n - (n + 1) / 2) = m at *
  have hp : 0 < r ^ m := Nat.pow_pos hr
  rw [List.reverse_reverse, num_str _ _ _ hr (Nat.mod_lt _ hp)]
  have hA := num_lt r _ (digits_rev d1)
  rw [List.length_reverse, l1] at hA
  generalize Spec.ff3y E r tweak i B = y
  have : ((((Spec.num r A.reverse + y) % r ^ m : Nat) : Int) - y) % (r ^ m : Nat) = Spec.num r A.reverse := by
    rw [Int.natCast_emod, Int.emod_sub_emod]
    push_cast
    rw [show (Spec.num r A.reverse : Int) + y - y = Spec.num r A.reverse by ring]
    exact Int.emod_eq_of_lt (by omega) (by exact_mod_cast hA)
  rw [this, Int.toNat_natCast]
  have hs := str_num r _ (digits_rev d1)
  rw [List.length_reverse, l1] at hs
  rw [hs, List.reverse_reverse]

theorem enc_back {E : Bytes → Bytes} {r n : Nat} {tweak : Bytes} {i : Nat} {AB : List Nat × List Nat} (hr : 0 < r)
    (h : St r n (i + 1) AB) : Spec.ff3Round E r n tweak (ff3Back E r n tweak AB i) i = AB := by
  obtain ⟨A, B⟩ := AB
  obtain ⟨d1, d2, l1, l2⟩ := h
  simp only at d1 d2 l1 l2
  have l2' : B.length = if i % 2 = 0 then (n + 1) / 2 else n - (n + 1) / 2 := by rw [l2]; split <;> split <;> omega
  unfold ff3Back Spec.ff3Round
  simp only
  generalize hm : (if i % 2 = 0 then (n + 1) / 2 else n - (n + 1) / 2) = m at *
  have hp : 0 < r ^ m := Nat.pow_pos hr
  generalize Spec.ff3y E r tweak i A = y
  have q1 := Int.emod_nonneg ((Spec.num r B.reverse : Int) - y) (show ((r ^ m : Nat) : Int) ≠ 0 by omega)
  have q2 := Int.emod_lt_of_pos ((Spec.num r B.reverse : Int) - y) (show (0 : Int) < (r ^ m : Nat) by omega)
  rw [List.reverse_reverse, num_str _ _ _ hr (by omega)]
  have hB := num_lt r _ (digits_rev d2)
  rw [List.length_reverse, l2'] at hB
  have : ((((Spec.num r B.reverse : Int) - y) % (r ^ m : Nat)).toNat + y) % r ^ m = Spec.num r B.reverse := by
    have e : ((((((Spec.num r B.reverse : Int) - y) % (r ^ m : Nat)).toNat + y) % r ^ m : Nat) : Int) = Spec.num r B.reverse := by
      rw [Int.natCast_emod, Int.natCast_add, Int.toNat_of_nonneg q1, Int.emod_add_emod]
      rw [show (Spec.num r B.reverse : Int) - y + y = Spec.num r B.reverse by ring]
      exact Int.emod_eq_of_lt (by omega) (by exact_mod_cast hB)
    exact_mod_cast e
  rw [this]
  have hs := str_num r _ (digits_rev d2)
  rw [List.length_reverse, l2'] at hs
  rw [hs, List.reverse_reverse]

theorem num_bound {r n i : Nat} {AB : List Nat × List Nat} (hr : 2 ≤ r) (h : St r n i AB) (hb : r ^ ((n + 1) / 2) ≤ 2 ^ 96) :
    Spec.num r AB.1.reverse < 2 ^ 96 ∧ Spec.num r AB.2.reverse < 2 ^ 96 := by
  constructor
  · refine Nat.lt_of_lt_of_le (num_lt r _ (digits_rev h.d1)) (Nat.le_trans (Nat.pow_le_pow_right (by omega) ?_) hb)
    rw [List.length_reverse, h.l1]; split <;> omega
  · refine Nat.lt_of_lt_of_le (num_lt r _ (digits_rev h.d2)) (Nat.le_trans (Nat.pow_le_pow_right (by omega) ?_) hb)
    rw [List.length_reverse, h.l2]; split <;> omega

theorem st_ne {r n i : Nat} {AB : List Nat × List Nat} (h : St r n i AB) (hn : 2 ≤ n) :
    AB.1.reverse ≠ [] ∧ AB.2.reverse ≠ [] := by
  constructor
  · intro e
    have := congrArg List.length e
    rw [List.length_reverse, h.l1] at this
    simp at this; split at this <;> omega
  · intro e
    have := congrArg List.length e
    rw [List.length_reverse, h.l2] at this
    simp at this; split at this <;> omega

theorem encRound_eq (E : Bytes → Bytes) (r n : Nat) (tweak : Bytes) (hr : 2 ≤ r) (hr2 : r ≤ 62) (hn : 2 ≤ n)
    (ht : tweak.length = 8) (hb : r ^ ((n + 1) / 2) ≤ 2 ^ 96) (i : Nat) (hi : i < 256) (AB : List Nat × List Nat) (h : St r n i AB) :
    ff3EncRound E r ((n + 1) / 2) (n - (n + 1) / 2) tweak (AB.1.map chr, AB.2.map chr) i =
      .ok ((Spec.ff3Round E r n tweak AB i).1.map chr, (Spec.ff3Round E r n tweak AB i).2.map chr) := by
  obtain ⟨b1, b2⟩ := num_bound hr h hb
  obtain ⟨n1, n2⟩ := st_ne h hn
  unfold ff3EncRound Spec.ff3Round
  simp only
  rw [← List.map_reverse, parse_chr r hr2 _ (digits_rev h.d2) n2]
  simp only [Int.natAbs_natCast]
  rw [ff3Y_eq E r tweak i AB.2 ht hi b2]
  simp only
  rw [← List.map_reverse, parse_chr r hr2 _ (digits_rev h.d1) n1]
  simp only
  generalize hm : (if i % 2 = 0 then (n + 1) / 2 else n - (n + 1) / 2) = m
  have hm1 : 1 ≤ m := by rw [← hm]; split <;> omega
  have hp : 0 < r ^ m := Nat.pow_pos (by omega)
  have e : (((Spec.num r AB.1.reverse : Int) + (Spec.ff3y E r tweak i AB.2 : Int)) % (r ^ m : Nat)).toNat =
      (Spec.num r AB.1.reverse + Spec.ff3y E r tweak i AB.2) % r ^ m := by
    rw [← Int.natCast_add, ← Int.natCast_emod, Int.toNat_natCast]
  rw [e, ff3Str_eq r hr m _ hm1 (Nat.mod_lt _ hp)]

theorem decRound_eq (E : Bytes → Bytes) (r n : Nat) (tweak : Bytes) (hr : 2 ≤ r) (hr2 : r ≤ 62) (hn : 2 ≤ n)
    (ht : tweak.length = 8) (hb : r ^ ((n + 1) / 2) ≤ 2 ^ 96) (i : Nat) (hi : i < 256) (AB : List Nat × List Nat)
    (h : St r n (i + 1) AB) :
    ff3DecRound E r ((n + 1) / 2) (n - (n + 1) / 2) tweak (AB.1.map chr, AB.2.map chr) i =
      .ok ((ff3Back E r n tweak AB i).1.map chr, (ff3Back E r n tweak AB i).2.map chr) := by
  obtain ⟨b1, b2⟩ := num_bound hr h hb
  obtain ⟨n1, n2⟩ := st_ne h hn
  unfold ff3DecRound ff3Back
  simp only
  rw [← List.map_reverse, parse_chr r hr2 _ (digits_rev h.d1) n1]
  simp only [Int.natAbs_natCast]
  rw [ff3Y_eq E r tweak i AB.1 ht hi b1]
  simp only
  rw [← List.map_reverse, parse_chr r hr2 _ (digits_rev h.d2) n2]
  simp only
  generalize hm : (if i % 2 = 0 then (n + 1) / 2 else n - (n + 1) / 2) = m
  have hm1 : 1 ≤ m := by rw [← hm]; split <;> omega
  have hp : 0 < r ^ m := Nat.pow_pos (by omega)
  have q2 := Int.emod_lt_of_pos ((Spec.num r AB.2.reverse : Int) - (Spec.ff3y E r tweak i AB.1 : Int))
    (show (0 : Int) < (r ^ m : Nat) by omega)
  rw [ff3Str_eq r hr m _ hm1 (by omega)]

theorem loop_enc (E : Bytes → Bytes) (r n : Nat) (tweak : Bytes) (hr : 2 ≤ r) (hr2 : r ≤ 62) (hn : 2 ≤ n)
    (ht : tweak.length = 8) (hb : r ^ ((n + 1) / 2) ≤ 2 ^ 96) (k : Nat) : ∀ (j : Nat) (AB : List Nat × List Nat),
    j + k ≤ 256 → St r n j AB →
    St r n (j + k) ((List.range' j k).foldl (Spec.ff3Round E r n tweak) AB) ∧
    loopM (ff3EncRound E r ((n + 1) / 2) (n - (n + 1) / 2) tweak) (List.range' j k) (AB.1.map chr, AB.2.map chr) =
      .ok (((List.range' j k).foldl (Spec.ff3Round E r n tweak) AB).1.map chr,
        ((List.range' j k).foldl (Spec.ff3Round E r n tweak) AB).2.map chr) := by
  induction k with
  | zero => intro j AB _ h; exact ⟨h, rfl⟩
  | succ k ih =>
    intro j AB hj h
    rw [List.range'_succ, List.foldl_cons, loopM, encRound_eq E r n tweak hr hr2 hn ht hb j (by omega) AB h]
    have := ih (j + 1) _ (by omega) (st_enc (E := E) (tweak := tweak) (by omega) h)
    rw [show j + 1 + k = j + (k + 1) by omega] at this
    exact this

theorem loop_dec (E : Bytes → Bytes) (r n : Nat) (tweak : Bytes) (hr : 2 ≤ r) (hr2 : r ≤ 62) (hn : 2 ≤ n)
    (ht : tweak.length = 8) (hb : r ^ ((n + 1) / 2) ≤ 2 ^ 96) (k : Nat) : ∀ (AB : List Nat × List Nat),
    k ≤ 256 → St r n k AB →
    St r n 0 ((List.range k).reverse.foldl (ff3Back E r n tweak) AB) ∧
    loopM (ff3DecRound E r ((n + 1) / 2) (n - (n + 1) / 2) tweak) (List.range k).reverse (AB.1.map chr, AB.2.map chr) =
      .ok (((List.range k).reverse.foldl (ff3Back E r n tweak) AB).1.map chr,
        ((List.range k).reverse.foldl (ff3Back E r n tweak) AB).2.map chr) := by
  induction k with
  | zero => intro AB _ h; exact ⟨h, rfl⟩
  | succ k ih =>
    intro AB hk h
    rw [List.range_succ, List.reverse_append, List.reverse_singleton, List.singleton_append, List.foldl_cons, loopM,
      decRound_eq E r n tweak hr hr2 hn ht hb k (by omega) AB h]
    exact ih _ (by omega) (st_dec (E := E) (tweak := tweak) (by omega) h)

theorem fold_back_enc (E : Bytes → Bytes) (r n : Nat) (tweak : Bytes) (hr : 2 ≤ r) (k : Nat) (AB : List Nat × List Nat)
    (h : St r n 0 AB) :
    St r n k ((List.range k).foldl (Spec.ff3Round E r n tweak) AB) ∧
    (List.range k).reverse.foldl (ff3Back E r n tweak) ((List.range k).foldl (Spec.ff3Round E r n tweak) AB) = AB := by
  induction k with
  | zero => exact ⟨h, rfl⟩
  | succ k ih =>
    obtain ⟨i1, i2⟩ := ih
    rw [List.range_succ, List.reverse_append, List.reverse_singleton, List.singleton_append, List.foldl_cons,
      List.foldl_append, List.foldl_cons, List.foldl_nil]
    exact ⟨st_enc (by omega) i1, by rw [back_enc (by omega) i1, i2]⟩

theorem fold_enc_back (E : Bytes → Bytes) (r n : Nat) (tweak : Bytes) (hr : 2 ≤ r) (k : Nat) (AB : List Nat × List Nat)
    (h : St r n k AB) :
    (List.range k).foldl (Spec.ff3Round E r n tweak) ((List.range k).reverse.foldl (ff3Back E r n tweak) AB) = AB := by
  induction k generalizing AB with
  | zero => rfl
  | succ k ih =>
    rw [List.range_succ, List.reverse_append, List.reverse_singleton, List.singleton_append, List.foldl_cons,
      List.foldl_append, List.foldl_cons, List.foldl_nil, ih _ (st_dec (by omega) h), enc_back (by omega) h]

theorem st_init {r : Nat} {X : List Nat} (hX : Digits r X) :
    St r X.length 0 (X.take ((X.length + 1) / 2), X.drop ((X.length + 1) / 2)) :=
  ⟨fun d hd => hX d (List.mem_of_mem_take hd), fun d hd => hX d (List.mem_of_mem_drop hd), by simp; omega, by simp⟩

theorem st_append {r n k : Nat} (hk : k % 2 = 0) {AB : List Nat × List Nat} (h : St r n k AB) :
    Digits r (AB.1 ++ AB.2) ∧ (AB.1 ++ AB.2).length = n ∧ (AB.1 ++ AB.2).take ((n + 1) / 2) = AB.1 ∧
      (AB.1 ++ AB.2).drop ((n + 1) / 2) = AB.2 := by
  have l1 := h.l1
  have l2 := h.l2
  rw [if_pos hk] at l1 l2
  refine ⟨?_, by rw [List.length_append]; omega, List.take_left' l1, List.drop_left' l1⟩
  intro d hd
  rcases List.mem_append.mp hd with h' | h'
  · exact h.d1 d h'
  · exact h.d2 d h'

theorem run_enc (c : Ff3) (hc : c.Good) (X : List Nat) (tweak : Bytes) (hX : Digits c.radix X)
    (h1 : c.minLen ≤ X.length) (h2 : X.length < c.maxLen) (h3 : tweak.length = 8) :
    ff3Run false c (X.map chr) tweak = .ok ((Spec.ff3Enc c.E c.radix tweak X).map chr) := by
  have hr := hc.two
  have hr2 := hc.max
  have hm := hc.min
  have hb := half_bound c hc h2
  have hne : X ≠ [] := by intro h; rw [h] at h1; simp at h1; omega
  have hl := (loop_enc c.E c.radix X.length tweak hr hr2 (by omega) h3 hb 8 0 _ (by omega) (st_init hX)).2
  unfold ff3Run Spec.ff3Enc
  simp only [List.length_map, ← List.map_take, ← List.map_drop]
  rw [if_neg (by omega), if_neg (by omega), parse_chr _ hr2 X hX hne]
  simp only [Bool.false_eq_true, if_false]
  rw [List.range_eq_range', hl]
  simp

theorem run_dec (c : Ff3) (hc : c.Good) (X : List Nat) (tweak : Bytes) (hX : Digits c.radix X)
    (h1 : c.minLen ≤ X.length) (h2 : X.length < c.maxLen) (h3 : tweak.length = 8) :
    ff3Run true c (X.map chr) tweak =
      let AB := (List.range 8).reverse.foldl (ff3Back c.E c.radix X.length tweak)
        (X.take ((X.length + 1) / 2), X.drop ((X.length + 1) / 2))
      .ok ((AB.1 ++ AB.2).map chr) := by
  have hr := hc.two
  have hr2 := hc.max
  have hm := hc.min
  have hb := half_bound c hc h2
  have hne : X ≠ [] := by intro h; rw [h] at h1; simp at h1; omega
  have hst : St c.radix X.length 8 (X.take ((X.length + 1) / 2), X.drop ((X.length + 1) / 2)) := by
    have := st_init hX
    exact ⟨this.d1, this.d2, this.l1, this.l2⟩
  have hl := (loop_dec c.E c.radix X.length tweak hr hr2 (by omega) h3 hb 8 _ (by omega) hst).2
  unfold ff3Run
  simp only [List.length_map, ← List.map_take, ← List.map_drop]
  rw [if_neg (by omega), if_neg (by omega), parse_chr _ hr2 X hX hne]
  simp only [if_true]
  rw [hl]
  simp

/-- Encryption is FF3 of NIST SP 800-38G, for every radix, every tweak of 8 bytes and every string of lower-case numerals
of an accepted length. -/
theorem C118_encrypt (c : Ff3) (hc : c.Good) (X : List Nat) (tweak : Bytes) (hX : Digits c.radix X)
    (h1 : c.minLen ≤ X.length) (h2 : X.length < c.maxLen) (h3 : tweak.length = 8) :
    ff3Run false c (X.map chr) tweak = .ok ((Spec.ff3Enc c.E c.radix tweak X).map chr) ∧
      (Spec.ff3Enc c.E c.radix tweak X).length = X.length ∧ Digits c.radix (Spec.ff3Enc c.E c.radix tweak X) := by
  refine ⟨run_enc c hc X tweak hX h1 h2 h3, ?_⟩
  have hf := (fold_back_enc c.E c.radix X.length tweak hc.two 8 _ (st_init hX)).1
  have ha := st_append (by decide) hf
  exact ⟨ha.2.1, ha.1⟩

/-- Decrypt after Encrypt and Encrypt after Decrypt give back the string. -/
theorem C118_roundtrip_partial (dec : Bool) (c : Ff3) (hc : c.Good) (X : List Nat) (tweak : Bytes) (hX : Digits c.radix X)
    (h1 : c.minLen ≤ X.length) (h2 : X.length < c.maxLen) (h3 : tweak.length = 8) :
    ∃ Z : List Nat, Digits c.radix Z ∧ Z.length = X.length ∧ ff3Run dec c (X.map chr) tweak = .ok (Z.map chr) ∧
      ff3Run (!dec) c (Z.map chr) tweak = .ok (X.map chr) := by
  have hr := hc.two
  have hi := st_init hX
  have hi8 : St c.radix X.length 8 (X.take ((X.length + 1) / 2), X.drop ((X.length + 1) / 2)) :=
    ⟨hi.d1, hi.d2, hi.l1, hi.l2⟩
  have hcat : ((X.take ((X.length + 1) / 2), X.drop ((X.length + 1) / 2)) : List Nat × List Nat).1 ++
      ((X.take ((X.length + 1) / 2), X.drop ((X.length + 1) / 2)) : List Nat × List Nat).2 = X := List.take_append_drop _ _
  cases dec
  · obtain ⟨f1, f2⟩ := fold_back_enc c.E c.radix X.length tweak hr 8 _ hi
    obtain ⟨a1, a2, a3, a4⟩ := st_append (by decide) f1
    refine ⟨Spec.ff3Enc c.E c.radix tweak X, a1, a2, run_enc c hc X tweak hX h1 h2 h3, ?_⟩
    have a2' : (Spec.ff3Enc c.E c.radix tweak X).length = X.length := a2
    rw [Bool.not_false, run_dec c hc (Spec.ff3Enc c.E c.radix tweak X) tweak a1 (by omega) (by omega) h3]
    simp only
    rw [a2', show (Spec.ff3Enc c.E c.radix tweak X).take ((X.length + 1) / 2) = _ from a3,
      show (Spec.ff3Enc c.E c.radix tweak X).drop ((X.length + 1) / 2) = _ from a4, Prod.mk.eta, f2, hcat]
  · have f1 := (loop_dec c.E c.radix X.length tweak hr hc.max (by have := hc.min; omega) h3 (half_bound c hc h2) 8 _
      (by omega) hi8).1
    have f2 := fold_enc_back c.E c.radix X.length tweak hr 8 _ hi8
    obtain ⟨a1, a2, a3, a4⟩ := st_append (by decide) f1
    refine ⟨_, a1, a2, run_dec c hc X tweak hX h1 h2 h3, ?_⟩
    rw [Bool.not_true, run_enc c hc _ tweak a1 (by omega) (by omega) h3]
    unfold Spec.ff3Enc
    simp only
    rw [a2, a3, a4, Prod.mk.eta, f2, hcat]

/-- SP 800-38G allows lengths up to `2⌊log_radix(2^96)⌋`. For even limits the code stops one short: with radix 2, the
permitted length 192 is rejected (`n >= c.maxLen`, ff3.go:107). -/
theorem C118_maxlen_violated (c : Ff3) (hc : c.maxLen = maxLenOf c.radix) (h2 : c.radix = 2) (dec : Bool) (X tweak : Bytes)
    (hX : X.length = 192) : X.length ≤ 2 * Nat.log 2 (2 ^ 96) ∧ ff3Run dec c X tweak = .err := by
  constructor
  · rw [Nat.log_pow (by decide), hX]
  · unfold ff3Run
    simp only
    rw [if_pos]
    right
    rw [hc, h2, maxLenOf, Nat.log_pow (by decide), hX]

/-- No length that the standard forbids is accepted: an accepted length is at most `2⌊log_radix(2^96)⌋`. -/
theorem C118_maxlen (c : Ff3) (hc : c.Good) (dec : Bool) (X tweak Y : Bytes) (h : ff3Run dec c X tweak = .ok Y) :
    X.length ≤ 2 * Nat.log c.radix (2 ^ 96) := by
  have hlt : X.length < c.maxLen := by
    unfold ff3Run at h
    simp only at h
    split at h
    · cases h
    · omega
  have hb := half_bound c hc hlt
  have := Nat.le_log_of_pow_le (by have := hc.two; omega) hb
  omega

/-- With a radix from 11 to 36 upper-case messages are accepted but come back in lower case. -/
theorem C118_case_violated (c : Ff3) (hc : c.Good) (hr : c.radix ≤ 36) (X : List Nat) (tweak : Bytes)
    (hX : Digits c.radix X) (h10 : ∃ d ∈ X, 10 ≤ d)
    (h1 : c.minLen ≤ X.length) (h2 : X.length < c.maxLen) (h3 : tweak.length = 8) :
    ∃ Y X', ff3Run false c (X.map chrUp) tweak = .ok Y ∧ ff3Run true c Y tweak = .ok X' ∧ X' ≠ X.map chrUp := by
  obtain ⟨Z, dZ, lZ, eZ, fZ⟩ := C118_roundtrip_partial false c hc X tweak hX h1 h2 h3
  refine ⟨Z.map chr, X.map chr, ?_, fZ, ?_⟩
  · rw [← eZ]
    have dA : Digits c.radix (X.take ((X.length + 1) / 2)) := fun d hd => hX d (List.mem_of_mem_take hd)
    have dB : Digits c.radix (X.drop ((X.length + 1) / 2)) := fun d hd => hX d (List.mem_of_mem_drop hd)
    unfold ff3Run
    simp only [List.length_map, ← List.map_take, ← List.map_drop]
    rw [parse_up _ hr _ hX]
    simp only [Bool.false_eq_true, if_false]
    have pA := parse_up _ hr _ (digits_rev dA)
    have pB := parse_up _ hr _ (digits_rev dB)
    generalize X.take ((X.length + 1) / 2) = A at *
    generalize X.drop ((X.length + 1) / 2) = B at *
    generalize (X.length + 1) / 2 = u at *
    generalize X.length - u = v
    -- two rounds replace both halves
    have key : loopM (ff3EncRound c.E c.radix u v tweak) (List.range 8) (A.map chrUp, B.map chrUp) =
        loopM (ff3EncRound c.E c.radix u v tweak) (List.range 8) (A.map chr, B.map chr) := by
      rw [show List.range 8 = 0 :: 1 :: [2, 3, 4, 5, 6, 7] by decide]
      -- a round that reads the same numbers returns the same new half
      have r1 : ∀ C : Bytes, ff3EncRound c.E c.radix u v tweak (B.map chrUp, C) 1 =
          ff3EncRound c.E c.radix u v tweak (B.map chr, C) 1 := by
        intro C
        simp only [ff3EncRound, ← List.map_reverse, pB]
      have r0 : (ff3EncRound c.E c.radix u v tweak (A.map chrUp, B.map chrUp) 0 = .err ∧
            ff3EncRound c.E c.radix u v tweak (A.map chr, B.map chr) 0 = .err) ∨
          (ff3EncRound c.E c.radix u v tweak (A.map chrUp, B.map chrUp) 0 = .panic ∧
            ff3EncRound c.E c.radix u v tweak (A.map chr, B.map chr) 0 = .panic) ∨
          (ff3EncRound c.E c.radix u v tweak (A.map chrUp, B.map chrUp) 0 = .hang ∧
            ff3EncRound c.E c.radix u v tweak (A.map chr, B.map chr) 0 = .hang) ∨
          ∃ C, ff3EncRound c.E c.radix u v tweak (A.map chrUp, B.map chrUp) 0 = .ok (B.map chrUp, C) ∧
            ff3EncRound c.E c.radix u v tweak (A.map chr, B.map chr) 0 = .ok (B.map chr, C) := by
        simp only [ff3EncRound, ← List.map_reverse, pA, pB]
        cases parse c.radix (B.reverse.map chr) with
        | none => exact Or.inl ⟨rfl, rfl⟩
        | some b =>
          simp only
          cases ff3Y c.E tweak 0 b.natAbs with
          | ok y =>
            simp only
            cases parse c.radix (A.reverse.map chr) with
            | none => exact Or.inl ⟨rfl, rfl⟩
            | some a => exact Or.inr (Or.inr (Or.inr ⟨_, rfl, rfl⟩))
          | err => exact Or.inl ⟨rfl, rfl⟩
          | panic => exact Or.inr (Or.inl ⟨rfl, rfl⟩)
          | hang => exact Or.inr (Or.inr (Or.inl ⟨rfl, rfl⟩))
      rw [loopM, loopM]
      rcases r0 with ⟨x, y⟩ | ⟨x, y⟩ | ⟨x, y⟩ | ⟨C, x, y⟩ <;> rw [x, y]
      simp only
      rw [loopM, loopM, r1]
    rw [key]
  · intro h
    obtain ⟨d, hd, hd2⟩ := h10
    have := List.map_inj_left.mp h d hd
    exact chrUp_ne d (by have := hX d hd; omega) hd2 this.symm

theorem parseDigits_bad (r : Nat) (c : Byte) (hc : digitVal r c = none) (s t : Bytes) (a : Nat) :
    parseDigits r (s ++ c :: t) a = none := by
  induction s generalizing a with
  | nil => simp [parseDigits, hc]
  | cons x s ih =>
    rw [List.cons_append, parseDigits]
    split
    · exact ih _
    · rfl

theorem sign_none (r : Nat) (c : Byte) (h : c = 45#8 ∨ c = 43#8) : digitVal r c = none := by
  unfold digitVal
  have : ∀ s : Bool, rawVal s 45#8 = none ∧ rawVal s 43#8 = none := by decide
  rcases h with rfl | rfl
  · rw [(this _).1]
  · rw [(this _).2]

/-- Unlike FF1, a string with a sign is always refused (the reversed half ends in the sign). -/
theorem C118_sign (c : Ff3) (hc : c.Good) (dec : Bool) (s : Byte) (X tweak : Bytes) (hs : s = 45#8 ∨ s = 43#8) (Y : Bytes) :
    ff3Run dec c (s :: X) tweak ≠ .ok Y := by
  intro h
  have hm := hc.min
  unfold ff3Run at h
  simp only at h
  split at h
  · cases h
  · rename_i g1
    split at h
    · cases h
    · split at h
      · cases h
      · obtain ⟨u, hu⟩ : ∃ u, ((s :: X).length + 1) / 2 = u + 1 := ⟨((s :: X).length + 1) / 2 - 1, by simp at g1 ⊢; omega⟩
        rw [hu] at h
        simp only [List.take_succ_cons, List.drop_succ_cons] at h
        have hbad : parse c.radix (s :: X.take u).reverse = none := by
          rw [List.reverse_cons]
          have hsn := sign_none c.radix s hs
          unfold parse
          split
          · rfl
          · rename_i x cs he
            have hpd : ∀ a, parseDigits c.radix cs a = none ∨ cs = [] := by
              intro a
              cases hrev : (X.take u).reverse with
              | nil => right; rw [hrev] at he; simp at he; exact he.2
              | cons z zs =>
                left
                rw [hrev] at he
                simp only [List.cons_append, List.cons.injEq] at he
                rw [← he.2]
                exact parseDigits_bad _ _ hsn zs [] a
            have hfull : parseDigits c.radix (x :: cs) 0 = none := by
              rw [← he]; exact parseDigits_bad _ _ hsn _ [] 0
            split
            · split
              · rfl
              · rename_i hne
                rcases hpd 0 with h' | h'
                · rw [h']; rfl
                · exact absurd h' hne
            · split
              · split
                · rfl
                · rename_i hne
                  rcases hpd 0 with h' | h'
                  · rw [h']; rfl
                  · exact absurd h' hne
              · rw [hfull]; rfl
        have hE : ∀ B is, loopM (ff3EncRound c.E c.radix (u + 1) ((s :: X).length - (u + 1)) tweak) (0 :: is) (s :: X.take u, B) = .err
            ∨ loopM (ff3EncRound c.E c.radix (u + 1) ((s :: X).length - (u + 1)) tweak) (0 :: is) (s :: X.take u, B) = .panic := by
          intro B is
          simp only [loopM, ff3EncRound, hbad]
          cases parse c.radix B.reverse with
          | none => left; rfl
          | some b =>
            simp only
            have hY : (∃ y, ff3Y c.E tweak 0 b.natAbs = .ok y) ∨ ff3Y c.E tweak 0 b.natAbs = .panic := by
              unfold ff3Y
              simp only
              split
              · right; rfl
              · left; exact ⟨_, rfl⟩
            rcases hY with ⟨y, hy⟩ | hy
            · rw [hy]; left; rfl
            · rw [hy]; right; rfl
        have hD : ∀ B is, loopM (ff3DecRound c.E c.radix (u + 1) ((s :: X).length - (u + 1)) tweak) (7 :: is) (s :: X.take u, B) = .err := by
          intro B is
          simp only [loopM, ff3DecRound, hbad]
        cases dec
        · simp only [Bool.false_eq_true, if_false] at h
          rw [show List.range 8 = 0 :: [1, 2, 3, 4, 5, 6, 7] by decide] at h
          rcases hE (X.drop u) [1, 2, 3, 4, 5, 6, 7] with h' | h'
          · rw [h'] at h; cases h
          · rw [h'] at h; cases h
        · simp only [if_true] at h
          rw [show (List.range 8).reverse = 7 :: [6, 5, 4, 3, 2, 1, 0] by decide, hD] at h
          cases h

theorem digitVal_lt {r : Nat} {c : Byte} {d : Nat} (h : digitVal r c = some d) : d < r := by
  unfold digitVal at h
  split at h
  · split at h
    · rename_i h'; injection h with h; omega
    · cases h
  · cases h

theorem parseDigits_lt {r : Nat} (s : Bytes) : ∀ {a x : Nat}, parseDigits r s a = some x → x < (a + 1) * r ^ s.length := by
  induction s with
  | nil => intro a x h; simp only [parseDigits, Option.some.injEq] at h; simp; omega
  | cons c s ih =>
    intro a x h
    rw [parseDigits] at h
    split at h
    · rename_i d hd
      have h1 := ih h
      have h2 := digitVal_lt hd
      refine Nat.lt_of_lt_of_le h1 ?_
      rw [List.length_cons, Nat.pow_succ, Nat.mul_comm (r ^ s.length), ← Nat.mul_assoc]
      exact Nat.mul_le_mul_right _ (by nlinarith)
    · cases h

theorem parse_lt {r : Nat} (hr : 2 ≤ r) {s : Bytes} {x : Int} (h : parse r s = some x) : x.natAbs < r ^ s.length := by
  unfold parse at h
  split at h
  · cases h
  · rename_i c cs
    have hp : r ^ cs.length ≤ r ^ (c :: cs).length := Nat.pow_le_pow_right (by omega) (by simp)
    split at h
    · split at h
      · cases h
      · cases h1 : parseDigits r cs 0 with
 | none => rw [h1] at h; simp at h
 | some y =>
   rw [h1] at h
   have := parseDigits_lt cs h1
   simp at h
   rw [← h]
   omega
    · split at h
      · split at h
        · cases h
        · cases h1 : parseDigits r cs 0 with
 | none => rw [h1] at h; simp at h
 | some y =>
   rw [h1] at h
   have := parseDigits_lt cs h1
   simp at h
   rw [← h]
   omega
      · cases h1 : parseDigits r (c :: cs) 0 with
 | none => rw [h1] at h; simp at h
 | some y =>
   rw [h1] at h
   have := parseDigits_lt (c :: cs) h1
   simp at h
   rw [← h]
   omega

theorem ff3Y_ok (E : Bytes → Bytes) (tweak : Bytes) (i x : Nat) (h : x < 2 ^ 96) : ∃ y, ff3Y E tweak i x = .ok y := by
  unfold ff3Y
  simp only
  have hx12 : x < 256 ^ 12 := by norm_num at h ⊢; omega
  have hbl := byteLen_le.mpr hx12
  have hnl : (natBytes x).length = byteLen x := by simp [natBytes]
  rw [if_neg (by omega)]
  exact ⟨_, rfl⟩

/-- Lengths of the halves before round `i`. -/
def Ls (n i : Nat) (s : Bytes × Bytes) : Prop :=
  s.1.length = (if i % 2 = 0 then (n + 1) / 2 else n - (n + 1) / 2) ∧
  s.2.length = (if i % 2 = 0 then n - (n + 1) / 2 else (n + 1) / 2)

/-- A half holds numerals only. -/
def Nums (r : Nat) (s : Bytes) : Prop := ∃ Z : List Nat, Digits r Z ∧ s = Z.map chr

theorem encRound_total (E : Bytes → Bytes) (r n : Nat) (tweak : Bytes) (hr : 2 ≤ r) (hn : 2 ≤ n)
    (hb : r ^ ((n + 1) / 2) ≤ 2 ^ 96) (i : Nat) (s : Bytes × Bytes) (h : Ls n i s) :
    ff3EncRound E r ((n + 1) / 2) (n - (n + 1) / 2) tweak s i = .err ∨
    ∃ C, ff3EncRound E r ((n + 1) / 2) (n - (n + 1) / 2) tweak s i = .ok (s.2, C) ∧ Nums r C ∧ Ls n (i + 1) (s.2, C) := by
  unfold ff3EncRound
  cases hp : parse r s.2.reverse with
  | none => left; rfl
  | some b =>
    have hlt := parse_lt hr hp
    have hle : r ^ s.2.reverse.length ≤ r ^ ((n + 1) / 2) :=
      Nat.pow_le_pow_right (by omega) (by rw [List.length_reverse, h.2]; split <;> omega)
    obtain ⟨y, hy⟩ := ff3Y_ok E tweak i b.natAbs (by omega)
    simp only [hy]
    cases hq : parse r s.1.reverse with
    | none => left; rfl
    | some a =>
      right
      simp only
      generalize hm : (if i % 2 = 0 then (n + 1) / 2 else n - (n + 1) / 2) = m
      have hm1 : 1 ≤ m := by rw [← hm]; split <;> omega
      have hp : 0 < r ^ m := Nat.pow_pos (by omega)
      have q2 := Int.emod_lt_of_pos (a + (y : Int)) (show (0 : Int) < (r ^ m : Nat) by omega)
      rw [ff3Str_eq r hr m _ hm1 (by omega)]
      refine ⟨_, rfl, ⟨_, digits_rev (str_digits _ _ _ (by omega)), rfl⟩, ?_, ?_⟩
      · show s.2.length = _
        rw [h.2]; split <;> split <;> omega
      · simp only [List.length_map, List.length_reverse, str_length]
        rw [← hm]; split <;> split <;> omega

theorem decRound_total (E : Bytes → Bytes) (r n : Nat) (tweak : Bytes) (hr : 2 ≤ r) (hn : 2 ≤ n)
    (hb : r ^ ((n + 1) / 2) ≤ 2 ^ 96) (i : Nat) (s : Bytes × Bytes) (h : Ls n (i + 1) s) :
    ff3DecRound E r ((n + 1) / 2) (n - (n + 1) / 2) tweak s i = .err ∨
    ∃ C, ff3DecRound E r ((n + 1) / 2) (n - (n + 1) / 2) tweak s i = .ok (C, s.1) ∧ Nums r C ∧ Ls n i (C, s.1) := by
  unfold ff3DecRound
  cases hp : parse r s.1.reverse with
  | none => left; rfl
  | some b =>
    have hlt := parse_lt hr hp
    have hle : r ^ s.1.reverse.length ≤ r ^ ((n + 1) / 2) :=
      Nat.pow_le_pow_right (by omega) (by rw [List.length_reverse, h.1]; split <;> omega)
    obtain ⟨y, hy⟩ := ff3Y_ok E tweak i b.natAbs (by omega)
    simp only [hy]
    cases hq : parse r s.2.reverse with
    | none => left; rfl
    | some a =>
      right
      simp only
      generalize hm : (if i % 2 = 0 then (n + 1) / 2 else n - (n + 1) / 2) = m
      have hm1 : 1 ≤ m := by rw [← hm]; split <;> omega
      have hp : 0 < r ^ m := Nat.pow_pos (by omega)
      have q2 := Int.emod_lt_of_pos (a - (y : Int)) (show (0 : Int) < (r ^ m : Nat) by omega)
      rw [ff3Str_eq r hr m _ hm1 (by omega)]
      refine ⟨_, rfl, ⟨_, digits_rev (str_digits _ _ _ (by omega)), rfl⟩, ?_, ?_⟩
      · simp only [List.length_map, List.length_reverse, str_length]
        exact hm.symm
      · show s.1.length = _
        rw [h.1]; split <;> split <;> omega

theorem loop_enc_total (E : Bytes → Bytes) (r n : Nat) (tweak : Bytes) (hr : 2 ≤ r) (hn : 2 ≤ n)
    (hb : r ^ ((n + 1) / 2) ≤ 2 ^ 96) (k : Nat) : ∀ (j : Nat) (s : Bytes × Bytes), Ls n j s →
    loopM (ff3EncRound E r ((n + 1) / 2) (n - (n + 1) / 2) tweak) (List.range' j k) s = .err ∨
    ∃ s', loopM (ff3EncRound E r ((n + 1) / 2) (n - (n + 1) / 2) tweak) (List.range' j k) s = .ok s' ∧ Ls n (j + k) s' ∧
      (Nums r s.2 ∨ 1 ≤ k → Nums r s'.2) ∧ (Nums r s.1 ∧ k = 0 ∨ Nums r s.2 ∧ 1 ≤ k ∨ 2 ≤ k → Nums r s'.1) := by
  induction k with
  | zero => intro j s h; right; exact ⟨s, rfl, h, by simp, by simp⟩
  | succ k ih =>
    intro j s h
    rw [List.range'_succ, loopM]
    rcases encRound_total E r n tweak hr hn hb j s h with e | ⟨C, e, c1, c2⟩
    · left; rw [e]
    · rw [e]
      simp only
      rcases ih (j + 1) _ c2 with e2 | ⟨s', e2, l2, k1, k2⟩
      · left; exact e2
      · right
        refine ⟨s', e2, by rw [show j + (k + 1) = j + 1 + k by omega]; exact l2, fun _ => k1 (Or.inl c1), fun hh => ?_⟩
        apply k2
        by_cases hk : k = 0
        · left
          refine ⟨?_, hk⟩
          rcases hh with hh | hh | hh
          · omega
          · exact hh.1
          · omega
        · right; left; exact ⟨c1, by omega⟩

theorem loop_dec_total (E : Bytes → Bytes) (r n : Nat) (tweak : Bytes) (hr : 2 ≤ r) (hn : 2 ≤ n)
    (hb : r ^ ((n + 1) / 2) ≤ 2 ^ 96) (k : Nat) : ∀ (s : Bytes × Bytes), Ls n k s →
    loopM (ff3DecRound E r ((n + 1) / 2) (n - (n + 1) / 2) tweak) (List.range k).reverse s = .err ∨
    ∃ s', loopM (ff3DecRound E r ((n + 1) / 2) (n - (n + 1) / 2) tweak) (List.range k).reverse s = .ok s' ∧ Ls n 0 s' ∧
      (Nums r s.1 ∨ 1 ≤ k → Nums r s'.1) ∧ (Nums r s.2 ∧ k = 0 ∨ Nums r s.1 ∧ 1 ≤ k ∨ 2 ≤ k → Nums r s'.2) := by
  induction k with
  | zero => intro s h; right; exact ⟨s, rfl, h, by simp, by simp⟩
  | succ k ih =>
    intro s h
    rw [List.range_succ, List.reverse_append, List.reverse_singleton, List.singleton_append, loopM]
    rcases decRound_total E r n tweak hr hn hb k s h with e | ⟨C, e, c1, c2⟩
    · left; rw [e]
    · rw [e]
      simp only
      rcases ih _ c2 with e2 | ⟨s', e2, l2, k1, k2⟩
      · left; exact e2
      · right
        refine ⟨s', e2, l2, fun _ => k1 (Or.inl c1), fun hh => ?_⟩
        apply k2
        by_cases hk : k = 0
        · left
          refine ⟨?_, hk⟩
          rcases hh with hh | hh | hh
          · omega
          · exact hh.1
          · omega
        · right; left; exact ⟨c1, by omega⟩

/-- Whatever the arguments, the outcome is an error or a string of numerals of the same length; there is no panic. -/
theorem C118_total (dec : Bool) (c : Ff3) (hc : c.Good) (X tweak : Bytes) :
    ff3Run dec c X tweak = .err ∨
    ∃ Z : List Nat, Digits c.radix Z ∧ Z.length = X.length ∧ c.minLen ≤ X.length ∧ X.length < c.maxLen ∧ tweak.length = 8 ∧
      ff3Run dec c X tweak = .ok (Z.map chr) := by
  have hr := hc.two
  have hm := hc.min
  unfold ff3Run
  simp only
  by_cases g1 : X.length < c.minLen ∨ X.length ≥ c.maxLen
  · left; rw [if_pos g1]
  rw [if_neg g1]
  by_cases g2 : tweak.length ≠ 8
  · left; rw [if_pos g2]
  rw [if_neg g2]
  have hb := half_bound c hc (n := X.length) (by omega)
  have hL : ∀ i, i % 2 = 0 → Ls X.length i (X.take ((X.length + 1) / 2), X.drop ((X.length + 1) / 2)) := by
    intro i hi
    refine ⟨?_, ?_⟩
    · rw [if_pos hi]; simp; omega
    · rw [if_pos hi]; simp
  have fin : ∀ s' : Bytes × Bytes, Nums c.radix s'.1 → Nums c.radix s'.2 → s'.1.length + s'.2.length = X.length →
      ∃ Z : List Nat, Digits c.radix Z ∧ Z.length = X.length ∧ c.minLen ≤ X.length ∧ X.length < c.maxLen ∧ tweak.length = 8 ∧
        (Res.ok (s'.1 ++ s'.2) : Res Bytes) = .ok (Z.map chr) := by
    rintro s' ⟨Z1, d1, e1⟩ ⟨Z2, d2, e2⟩ hl
    refine ⟨Z1 ++ Z2, ?_, ?_, by omega, by omega, not_not.mp g2, by rw [e1, e2, List.map_append]⟩
    · intro d hd
      rcases List.mem_append.mp hd with h | h
      · exact d1 d h
      · exact d2 d h
    · rw [e1, e2] at hl; simpa using hl
  cases hp : parse c.radix X with
  | none => left; rfl
  | some x =>
    simp only
    cases dec
    · simp only [Bool.false_eq_true, if_false]
      rw [List.range_eq_range']
      rcases loop_enc_total c.E c.radix X.length tweak hr (by omega) hb 8 0 _ (hL 0 rfl) with e | ⟨s', e, l, k1, k2⟩
      · left; rw [e]
      · right; rw [e]
        refine fin s' (k2 (by omega)) (k1 (by omega)) ?_
        have := l.1; have := l.2
        simp at *; omega
    · simp only [if_true]
      rcases loop_dec_total c.E c.radix X.length tweak hr (by omega) hb 8 _ (hL 8 rfl) with e | ⟨s', e, l, k1, k2⟩
      · left; rw [e]
      · right; rw [e]
        refine fin s' (k1 (by omega)) (k2 (by omega)) ?_
        have := l.1; have := l.2
        simp at *; omega

/-! ### non-vacuity -/

def toyC3 : Ff3 := { radix := 10, minLen := 2, maxLen := 57, E := toyE, tweak := [] }
example : toyC3.Good := ⟨by decide, by decide, by decide, by decide +kernel, fun b h => by simp [toyC3, toyE, h]⟩
example : ∃ c k', ff3New (fun _ => toyE) 10 (List.replicate 16 1#8) (List.replicate 8 2#8) = .ok (c, k') :=
  (C118_new _ _ _ _).mpr ⟨by decide, by decide, by decide, by decide⟩
example : ff3Run false toyC3 [0x38, 0x39, 0x30, 0x31, 0x32] (List.replicate 8 2#8) ≠ .err := by decide +kernel

end Verif.Fpe
