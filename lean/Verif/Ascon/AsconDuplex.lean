import Verif.Ascon.AsconPerm
/-! The duplex of Ascon over bytes, for any permutation and rate. -/
namespace Verif.Ascon
open Verif

/-- The last, short block with its padding. -/
def padr (r : Nat) (x : Bytes) : Bytes := x ++ 0x80 :: zs (r - 1 - x.length)

/-- Blocks absorbed, the last without a permutation after it. -/
def bAd (p : Bytes → Bytes) (r : Nat) (S x : Bytes) : Bytes :=
  if 0 < r ∧ r ≤ x.length then bAd p r (p (Spec.xorS S (x.take r))) (x.drop r) else Spec.xorS S (padr r x)
termination_by x.length
decreasing_by rw [List.length_drop]; omega

/-- Encryption. -/
def bEnc (p : Bytes → Bytes) (r : Nat) (S x : Bytes) : Bytes × Bytes :=
  if 0 < r ∧ r ≤ x.length then
    let S := Spec.xorS S (x.take r)
    let t := bEnc p r (p S) (x.drop r)
    (S.take r ++ t.1, t.2)
  else ((Spec.xorS S (padr r x)).take x.length, Spec.xorS S (padr r x))
termination_by x.length
decreasing_by rw [List.length_drop]; omega

/-- Decryption. -/
def bDec (p : Bytes → Bytes) (r : Nat) (S c : Bytes) : Bytes × Bytes :=
  if 0 < r ∧ r ≤ c.length then
    let t := bDec p r (p (c.take r ++ S.drop r)) (c.drop r)
    (xorb (S.take r) (c.take r) ++ t.1, t.2)
  else (xorb (S.take c.length) c, Spec.xorS (c ++ S.drop c.length) (padr r (zs c.length)))
termination_by c.length
decreasing_by rw [List.length_drop]; omega

theorem xorb_len (a b : Bytes) : (xorb a b).length = min a.length b.length := by simp [xorb]

theorem xorS_len (S B : Bytes) (h : B.length ≤ S.length) : (Spec.xorS S B).length = S.length := by
  unfold Spec.xorS; rw [List.length_append, xorb_len, List.length_drop]; omega

theorem padr_len (r : Nat) (x : Bytes) (h : x.length < r) : (padr r x).length = r := by
  unfold padr; simp; omega

theorem xorS_take (S B : Bytes) (n : Nat) (hn : n ≤ B.length) (h : B.length ≤ S.length) :
    (Spec.xorS S B).take n = xorb (S.take n) (B.take n) := by
  unfold Spec.xorS
  rw [List.take_append_of_le_length (by rw [xorb_len]; omega), xorb_take]

theorem xorS_drop (S B : Bytes) (h : B.length ≤ S.length) : (Spec.xorS S B).drop B.length = S.drop B.length := by
  unfold Spec.xorS
  exact List.drop_left' (by rw [xorb_len]; omega)

theorem take_padr (r : Nat) (x : Bytes) : (padr r x).take x.length = x := by
  unfold padr; exact List.take_left' rfl

theorem xorb_nil (a : Bytes) : xorb a [] = [] := by cases a <;> rfl

/-- The state after the last block: the ciphertext, then what was there, with the padding. -/
theorem last_state (r : Nat) (S x : Bytes) (hx : x.length < r) (hr : r ≤ S.length) :
    Spec.xorS S (padr r x) = Spec.xorS (xorb (S.take x.length) x ++ S.drop x.length) (padr r (zs x.length)) := by
  have e1 : S = S.take x.length ++ S.drop x.length := (List.take_append_drop _ _).symm
  have l1 : (S.take x.length).length = x.length := by rw [List.length_take]; omega
  have l2 : (xorb (S.take x.length) x).length = x.length := by rw [xorb_len, l1]; omega
  have hp : (padr r x).length = (padr r (zs x.length)).length := by
    rw [padr_len r x hx, padr_len r _ (by simpa using hx)]
  have d : ∀ a : Bytes, a.length = x.length → padr r a = a ++ 0x80 :: zs (r - 1 - x.length) := by
    intro a ha; unfold padr; rw [ha]
  have hz : xorb (xorb (S.take x.length) x) (zs x.length) = xorb (S.take x.length) x := xorb_zeros_right _ _ (by omega)
  have hlen : r ≤ (xorb (S.take x.length) x ++ S.drop x.length).length := by
    rw [List.length_append, l2, List.length_drop]; omega
  unfold Spec.xorS
  rw [← hp, d x rfl, d (zs x.length) (by simp)]
  conv => lhs; rw [e1]
  rw [xorb_append _ _ _ _ l1, xorb_append _ _ _ _ (by rw [l2]; simp), hz, List.append_assoc, List.append_assoc]
  have hl : (x ++ 0x80 :: zs (r - 1 - x.length) : Bytes).length = r := by simp; omega
  rw [hl]
  have q1 : (S.take x.length ++ S.drop x.length).drop r = S.drop r := by rw [List.take_append_drop]
  have q2 : (xorb (S.take x.length) x ++ S.drop x.length).drop r = S.drop r := by
    rw [List.drop_append, List.drop_of_length_le (by omega), List.drop_drop, l2, List.nil_append]
    congr 1; omega
  rw [q1, q2]

theorem enc_len (p : Bytes → Bytes) (r : Nat) (hr : 0 < r) (hp : ∀ S, S.length = 40 → (p S).length = 40) (hr2 : r ≤ 40) :
    ∀ (n : Nat) (S x : Bytes), x.length ≤ n → S.length = 40 → (bEnc p r S x).1.length = x.length ∧ (bEnc p r S x).2.length = 40 := by
  intro n
  induction n with
  | zero =>
    intro S x hx hS
    rw [bEnc, if_neg (by omega)]
    have hl : (Spec.xorS S (padr r x)).length = 40 := by rw [xorS_len _ _ (by rw [padr_len r x (by omega)]; omega), hS]
    exact ⟨by rw [List.length_take, hl]; omega, hl⟩
  | succ n ih =>
    intro S x hx hS
    rw [bEnc]
    by_cases h : 0 < r ∧ r ≤ x.length
    · rw [if_pos h]
      have hl : (Spec.xorS S (x.take r)).length = 40 := by rw [xorS_len _ _ (by rw [List.length_take]; omega), hS]
      obtain ⟨i1, i2⟩ := ih (p (Spec.xorS S (x.take r))) (x.drop r) (by rw [List.length_drop]; omega) (hp _ hl)
      refine ⟨?_, i2⟩
      simp only [List.length_append, List.length_take, i1, List.length_drop, hl]
      omega
    · rw [if_neg h]
      have hl : (Spec.xorS S (padr r x)).length = 40 := by rw [xorS_len _ _ (by rw [padr_len r x (by omega)]; omega), hS]
      exact ⟨by rw [List.length_take, hl]; omega, hl⟩

/-- Decryption undoes encryption and leaves the same state. -/
theorem dec_enc (p : Bytes → Bytes) (r : Nat) (hr : 0 < r) (hp : ∀ S, S.length = 40 → (p S).length = 40) (hr2 : r ≤ 40) :
    ∀ (n : Nat) (S x : Bytes), x.length ≤ n → S.length = 40 → bDec p r S (bEnc p r S x).1 = (x, (bEnc p r S x).2) := by
  intro n
  induction n using Nat.strongRecOn with
  | ind n ih =>
    intro S x hx hS
    have hlen := (enc_len p r hr hp hr2 n S x hx hS).1
    by_cases h : 0 < r ∧ r ≤ x.length
    · have hl : (Spec.xorS S (x.take r)).length = 40 := by rw [xorS_len _ _ (by rw [List.length_take]; omega), hS]
      have hi := ih (x.drop r).length (by rw [List.length_drop]; omega) (p (Spec.xorS S (x.take r))) (x.drop r) (Nat.le_refl _) (hp _ hl)
      have ee : bEnc p r S x = ((Spec.xorS S (x.take r)).take r ++ (bEnc p r (p (Spec.xorS S (x.take r))) (x.drop r)).1,
          (bEnc p r (p (Spec.xorS S (x.take r))) (x.drop r)).2) := by rw [bEnc, if_pos h]
      have lt : ((Spec.xorS S (x.take r)).take r).length = r := by rw [List.length_take, hl]; omega
      rw [bDec, if_pos ⟨hr, by rw [hlen]; exact h.2⟩, ee]
      simp only []
      rw [List.take_left' lt, List.drop_left' lt]
      have lx : (x.take r).length = r := by rw [List.length_take]; omega
      have e1 : (Spec.xorS S (x.take r)).take r ++ S.drop r = Spec.xorS S (x.take r) := by
        have := xorS_drop S (x.take r) (by omega)
        rw [lx] at this
        rw [← this, List.take_append_drop]
      rw [e1, hi]
      have e2 : xorb (S.take r) ((Spec.xorS S (x.take r)).take r) = x.take r := by
        have ls : (S.take r).length = r := by rw [List.length_take]; omega
        have tt : (x.take r).take r = x.take r := by rw [List.take_take, Nat.min_self]
        rw [xorS_take _ _ _ (by omega) (by omega), tt, xorb_comm, xorb_comm (S.take r), xorb_xorb_cancel_right _ _ (by omega)]
      rw [e2, List.take_append_drop]
    · have hx' : x.length < r := by omega
      have ee : bEnc p r S x = ((Spec.xorS S (padr r x)).take x.length, Spec.xorS S (padr r x)) := by rw [bEnc, if_neg h]
      have e1 : (Spec.xorS S (padr r x)).take x.length = xorb (S.take x.length) x := by
        rw [xorS_take _ _ _ (by rw [padr_len r x hx']; omega) (by rw [padr_len r x hx']; omega), take_padr]
      have ls : (S.take x.length).length = x.length := by rw [List.length_take]; omega
      have lc : (xorb (S.take x.length) x).length = x.length := by rw [xorb_len]; omega
      rw [bDec, if_neg (by rw [hlen]; exact h), ee]
      simp only []
      rw [e1, lc, ← last_state r S x hx' (by omega)]
      rw [xorb_comm (S.take x.length) (xorb _ _), xorb_comm (S.take x.length) x, xorb_xorb_cancel_right _ _ (by omega)]

theorem dec_len (p : Bytes → Bytes) (r : Nat) (hr : 0 < r) (hp : ∀ S, S.length = 40 → (p S).length = 40) (hr2 : r ≤ 40) :
    ∀ (n : Nat) (S c : Bytes), c.length ≤ n → S.length = 40 → (bDec p r S c).1.length = c.length := by
  intro n
  induction n using Nat.strongRecOn with
  | ind n ih =>
    intro S c hc hS
    rw [bDec]
    by_cases h : 0 < r ∧ r ≤ c.length
    · rw [if_pos h]
      have hl : (c.take r ++ S.drop r).length = 40 := by simp; omega
      have i1 := ih (c.drop r).length (by rw [List.length_drop]; omega) (p (c.take r ++ S.drop r)) (c.drop r) (Nat.le_refl _) (hp _ hl)
      simp only [List.length_append, xorb_len, List.length_take, i1, List.length_drop]
      omega
    · rw [if_neg h]
      simp only [xorb_len, List.length_take]
      omega

/-- Encryption undoes decryption and leaves the same state. -/
theorem enc_dec (p : Bytes → Bytes) (r : Nat) (hr : 0 < r) (hp : ∀ S, S.length = 40 → (p S).length = 40) (hr2 : r ≤ 40) :
    ∀ (n : Nat) (S c : Bytes), c.length ≤ n → S.length = 40 → bEnc p r S (bDec p r S c).1 = (c, (bDec p r S c).2) := by
  intro n
  induction n using Nat.strongRecOn with
  | ind n ih =>
    intro S c hc hS
    have hlen := dec_len p r hr hp hr2 n S c hc hS
    by_cases h : 0 < r ∧ r ≤ c.length
    · have hl : (c.take r ++ S.drop r).length = 40 := by simp; omega
      have hi := ih (c.drop r).length (by rw [List.length_drop]; omega) (p (c.take r ++ S.drop r)) (c.drop r) (Nat.le_refl _) (hp _ hl)
      have ee : bDec p r S c = (xorb (S.take r) (c.take r) ++ (bDec p r (p (c.take r ++ S.drop r)) (c.drop r)).1,
          (bDec p r (p (c.take r ++ S.drop r)) (c.drop r)).2) := by rw [bDec, if_pos h]
      have ls : (S.take r).length = r := by rw [List.length_take]; omega
      have lc : (c.take r).length = r := by rw [List.length_take]; omega
      have lt : (xorb (S.take r) (c.take r)).length = r := by rw [xorb_len]; omega
      rw [bEnc, if_pos ⟨hr, by rw [hlen]; exact h.2⟩, ee]
      simp only []
      rw [List.take_left' lt, List.drop_left' lt]
      have e1 : Spec.xorS S (xorb (S.take r) (c.take r)) = c.take r ++ S.drop r := by
        unfold Spec.xorS
        rw [lt]
        have e : xorb S (xorb (S.take r) (c.take r)) = c.take r := by
          conv => lhs; rw [← List.take_append_drop r S]
          have : xorb (S.take r ++ S.drop r) (xorb (List.take r (S.take r ++ S.drop r)) (c.take r) ++ []) =
              xorb (S.take r) (xorb (S.take r) (c.take r)) ++ xorb (S.drop r) [] := by
            rw [List.take_append_drop, ← xorb_append _ _ _ _ (by omega), List.take_append_drop]
          rw [List.append_nil, xorb_nil, List.append_nil] at this
          rw [this, xorb_comm (S.take r) (xorb _ _), xorb_comm (S.take r) (c.take r), xorb_xorb_cancel_right _ _ (by omega)]
        rw [e]
      rw [e1, hi, List.take_left' lc, List.take_append_drop]
    · have hx' : c.length < r := by omega
      have ls : (S.take c.length).length = c.length := by rw [List.length_take]; omega
      have lx : (xorb (S.take c.length) c).length = c.length := by rw [xorb_len]; omega
      have ee : bDec p r S c = (xorb (S.take c.length) c, Spec.xorS (c ++ S.drop c.length) (padr r (zs c.length))) := by rw [bDec, if_neg h]
      have cc : xorb (S.take c.length) (xorb (S.take c.length) c) = c := by
        rw [xorb_comm (S.take c.length) (xorb _ _), xorb_comm (S.take c.length) c, xorb_xorb_cancel_right _ _ (by omega)]
      rw [bEnc, if_neg (by rw [hlen]; exact h), ee]
      simp only []
      have pl : (padr r (xorb (S.take c.length) c)).length = r := padr_len _ _ (by omega)
      have e1 : (Spec.xorS S (padr r (xorb (S.take c.length) c))).take (xorb (S.take c.length) c).length = c := by
        rw [xorS_take _ _ _ (by rw [pl]; omega) (by rw [pl]; omega), take_padr, lx, cc]
      rw [e1, last_state r S _ (by omega) (by omega), lx, cc]

/-! ### The padded blocks of the specification -/

theorem spec_pad_cons (r : Nat) (hr : 0 < r) (x : Bytes) (h : r ≤ x.length) :
    Mode.chunks r (Spec.pad r x) = x.take r :: Mode.chunks r (Spec.pad r (x.drop r)) ∧ Mode.chunks r (Spec.pad r (x.drop r)) ≠ [] := by
  have e : Spec.pad r x = x.take r ++ Spec.pad r (x.drop r) := by
    unfold Spec.pad
    rw [← List.append_assoc, List.take_append_drop, List.length_drop]
    have : (x.length - r) % r = x.length % r := (Nat.mod_eq_sub_mod h).symm
    rw [this]
  have hne : ∀ y : Bytes, Spec.pad r y ≠ [] := by intro y; unfold Spec.pad; simp
  refine ⟨?_, ?_⟩
  · have lx : (x.take r).length = r := by rw [List.length_take]; omega
    rw [e, Mode.chunks_cons r hr _ (by rw [← e]; exact hne x), List.take_left' lx, List.drop_left' lx]
  · rw [Mode.chunks_cons r hr _ (hne _)]; simp

theorem spec_pad_last (r : Nat) (x : Bytes) (h : x.length < r) : Mode.chunks r (Spec.pad r x) = [padr r x] := by
  have e : Spec.pad r x = padr r x := by unfold Spec.pad padr; rw [Nat.mod_eq_of_lt h]
  have hl := padr_len r x h
  have := Mode.chunks_of_flatten r (by omega) [padr r x] (by simp [hl])
  simpa [e] using this

theorem duplex_eq (v : Spec.Var) (hr : 0 < v.r) (hr2 : v.r ≤ 40) (hp : ∀ S : Bytes, S.length = 40 → (Spec.P v.b S).length = 40) :
    ∀ (n : Nat) (S x : Bytes), x.length ≤ n → S.length = 40 →
      (Spec.duplex v S (Mode.chunks v.r (Spec.pad v.r x))).1.take x.length = (bEnc (Spec.P v.b) v.r S x).1 ∧
      (Spec.duplex v S (Mode.chunks v.r (Spec.pad v.r x))).2 = (bEnc (Spec.P v.b) v.r S x).2 := by
  intro n
  induction n using Nat.strongRecOn with
  | ind n ih =>
    intro S x hx hS
    rw [bEnc]
    by_cases h : 0 < v.r ∧ v.r ≤ x.length
    · obtain ⟨e1, e2⟩ := spec_pad_cons v.r hr x h.2
      have hl : (Spec.xorS S (x.take v.r)).length = 40 := by rw [xorS_len _ _ (by rw [List.length_take]; omega), hS]
      obtain ⟨i1, i2⟩ := ih (x.drop v.r).length (by rw [List.length_drop]; omega) (Spec.P v.b (Spec.xorS S (x.take v.r))) (x.drop v.r)
        (Nat.le_refl _) (hp _ hl)
      rw [if_pos h, e1]
      unfold Spec.duplex
      simp only []
      rw [if_neg e2]
      refine ⟨?_, i2⟩
      have lt : ((Spec.xorS S (x.take v.r)).take v.r).length = v.r := by rw [List.length_take, hl]; omega
      rw [List.take_append, List.take_of_length_le (by omega), lt]
      rw [List.length_drop] at i1
      rw [i1]
    · have hx' : x.length < v.r := by omega
      rw [if_neg h, spec_pad_last v.r x hx']
      simp only [Spec.duplex, if_true, List.append_nil]
      refine ⟨?_, trivial⟩
      rw [List.take_take, Nat.min_eq_left (by omega)]

theorem assoc_eq (v : Spec.Var) (hr : 0 < v.r) (n : Nat) :
    ∀ (S x : Bytes), x.length ≤ n →
      (Mode.chunks v.r (Spec.pad v.r x)).foldl (fun S B => Spec.P v.b (Spec.xorS S B)) S = Spec.P v.b (bAd (Spec.P v.b) v.r S x) := by
  induction n using Nat.strongRecOn with
  | ind n ih =>
    intro S x hx
    rw [bAd]
    by_cases h : 0 < v.r ∧ v.r ≤ x.length
    · obtain ⟨e1, _⟩ := spec_pad_cons v.r hr x h.2
      rw [if_pos h, e1, List.foldl_cons]
      exact ih (x.drop v.r).length (by rw [List.length_drop]; omega) _ _ (Nat.le_refl _)
    · rw [if_neg h, spec_pad_last v.r x (by omega)]
      rfl

end Verif.Ascon
