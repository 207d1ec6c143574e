import Verif.Alg.Gf2
import Mathlib.Tactic.IntervalCases
import Mathlib.Tactic.LinearCombination
import Verif.Cipher.Loki97
/-
C175: LOKI97 (cipher/loki97).  The specification is the one of the AES submission, on 64-bit words.
-/
namespace Verif.Cipher.Loki97
set_option maxRecDepth 100000
open Polynomial Verif.Gf2

namespace Spec

/-- The number below `2^n` whose bit `i` is `f i`. -/
def ofBits : Nat → (Nat → Bool) → Nat
  | 0, _ => 0
  | n + 1, f => ofBits n f + if f n then 2 ^ n else 0

/-- `S1(x)`: the low byte of `(x ⊕ 1FFF)^3` in GF(2^13) with the polynomial 2911 (hexadecimal). -/
noncomputable def S1 (x : Nat) : Byte := BitVec.ofNat 8 (ofPoly 13 (poly (x ^^^ 0x1FFF) ^ 3 %ₘ poly 0x2911))
/-- `S2(x)`: the low byte of `(x ⊕ 7FF)^3` in GF(2^11) with the polynomial AA7. -/
noncomputable def S2 (x : Nat) : Byte := BitVec.ofNat 8 (ofPoly 11 (poly (x ^^^ 0x7FF) ^ 3 %ₘ poly 0xAA7))

/-- `KP(A, B)`: the bits of the halves of `A` are exchanged where the right half of `B` has a 1. -/
def KP (A B : BitVec 64) (t : Nat) : Bool := if B.getLsbD (t % 32) then A.getLsbD ((t + 32) % 64) else A.getLsbD t

/-- `E` and `Sa`: byte `k` (0 the lowest) comes from the 13 or 11 bits upwards from bit `8 k`, cyclically; the boxes are S1, S2, S1, S2, S2, S1, S2, S1 from the top. -/
noncomputable def Sa (d : Nat → Bool) (k : Nat) : Byte :=
  if k = 7 ∨ k = 5 ∨ k = 2 ∨ k = 0 then S1 (ofBits 13 fun i => d ((8 * k + i) % 64)) else S2 (ofBits 11 fun i => d ((8 * k + i) % 64))

/-- `P`: bit `m` of byte `k` goes to bit `8 m + 7 - k`. -/
def P (s : Nat → Byte) (t : Nat) : Bool := (s (7 - t % 8)).getLsbD (t / 8)

/-- The bits of the left half of `B` used by byte `m` of `Sb`: the first one and how many. -/
def part : Nat → Nat × Nat
  | 7 => (29, 3) | 6 => (26, 3) | 5 => (21, 5) | 4 => (16, 5) | 3 => (13, 3) | 2 => (10, 3) | 1 => (5, 5) | _ => (0, 5)

/-- `Sb`: the boxes are S2, S2, S1, S1, S2, S2, S1, S1 from the top, a byte of the input below bits of the left half of `B`. -/
noncomputable def Sb (e : Nat → Bool) (B : BitVec 64) (m : Nat) : Byte :=
  (if m % 4 < 2 then S1 else S2) (ofBits (8 + (part m).2) fun i => if i < 8 then e (8 * m + i) else B.getLsbD (32 + (part m).1 + (i - 8)))

/-- `f(A, B) = Sb(P(Sa(E(KP(A, B)))), B)`. -/
noncomputable def f (A B : BitVec 64) : BitVec 64 :=
  BitVec.ofNat 64 (ofBits 64 fun t => (Sb (P (Sa (KP A B))) B (t / 8)).getLsbD (t % 8))

/-- The 64-bit word of 8 bytes from byte `i` on. -/
def word (b : Bytes) (i : Nat) : BitVec 64 := BitVec.ofNat 64 (leN ((b.drop i).take 8).reverse)
def bytes (x : BitVec 64) : Bytes := (leBytes 8 x.toNat).reverse

/-- The key schedule from `k4`, `k3`, `k2`, `k1`: in step `i = 1, 2, …` the subkey is `k4 ⊕ f(k1 + k3 + i·Δ, k2)`, and it becomes `k1`. `n` steps, the first one being `i`. -/
noncomputable def schedule : Nat → Nat → BitVec 64 → BitVec 64 → BitVec 64 → BitVec 64 → List (BitVec 64)
  | 0, _, _, _, _, _ => []
  | n + 1, i, k4, k3, k2, k1 =>
    let x := k4 ^^^ f (k1 + k3 + BitVec.ofNat 64 (i * 0x9E3779B97F4A7C15)) k2
    x :: schedule n (i + 1) k3 k2 k1 x

noncomputable def subkeys (key : Bytes) : List (BitVec 64) :=
  let k4 := word key 0
  let k3 := word key 8
  if key.length = 16 then schedule 48 1 k4 k3 (f k3 k4) (f k4 k3)
  else if key.length = 24 then schedule 48 1 k4 k3 (word key 16) (f k4 k3)
  else schedule 48 1 k4 k3 (word key 16) (word key 24)

/-- Sixteen rounds `(L, R) ↦ (R + K_{3i} + K_{3i+2}, L ⊕ f(R + K_{3i}, K_{3i+1}))`; the halves are exchanged at the end. -/
noncomputable def encrypt (key b : Bytes) : Bytes :=
  let SK (i : Nat) := (subkeys key).getD i 0
  let s := (List.range 16).foldl (fun (s : BitVec 64 × BitVec 64) i => (s.2 + SK (3 * i) + SK (3 * i + 2), s.1 ^^^ f (s.2 + SK (3 * i)) (SK (3 * i + 1))))
    (word b 0, word b 8)
  bytes s.2 ++ bytes s.1

end Spec

/-! The boxes -/

theorem monic_poly {k g : Nat} (hg : g < 2 ^ k) : (poly (g ^^^ 2 ^ k)).Monic ∧ (poly (g ^^^ 2 ^ k)).degree = k := by
  have e : poly (g ^^^ 2 ^ k) = X ^ k + poly g := by rw [poly_xor, poly_two_pow, add_comm]
  have hd := degree_poly_lt hg
  rw [e]
  exact ⟨monic_X_pow_add hd, by rw [degree_add_eq_left_of_degree_lt (by rwa [degree_X_pow]), degree_X_pow]⟩

theorem multLoop_spec {k g : Nat} (hg : g < 2 ^ k) : ∀ (fuel a b p : Nat), a < 2 ^ k → p < 2 ^ k → b < 2 ^ fuel →
    multLoop (g ^^^ 2 ^ k) (2 ^ k) fuel a b p < 2 ^ k ∧
    poly (g ^^^ 2 ^ k) ∣ (poly p + poly a * poly b) - poly (multLoop (g ^^^ 2 ^ k) (2 ^ k) fuel a b p)
  | 0, a, b, p, _, hp, hb => by
    have : b = 0 := by simpa using hb
    subst this
    simp [multLoop, hp, poly_zero]
  | fuel + 1, a, b, p, ha, hp, hb => by
    rw [multLoop]
    split
    · next h => subst h; simp [hp, poly_zero]
    · have ha' : (if 2 * a ≥ 2 ^ k then (2 * a) ^^^ (g ^^^ 2 ^ k) else 2 * a) < 2 ^ k := by
        split
        · next h =>
          apply Nat.lt_pow_two_of_testBit
          intro i hi
          rw [Nat.testBit_xor, Nat.testBit_xor, Nat.testBit_two_pow]
          have hgi : g.testBit i = false := Nat.testBit_lt_two_pow (Nat.lt_of_lt_of_le hg (Nat.pow_le_pow_right (by decide) hi))
          by_cases hik : k = i
          · subst hik
            obtain ⟨r, hr⟩ := Nat.exists_eq_add_of_le h
            have : (2 * a).testBit k = true := by rw [hr, Nat.testBit_two_pow_add_eq, Nat.testBit_lt_two_pow (by omega)]; rfl
            simp [this, hgi]
          · have : (2 * a).testBit i = false := by
              apply Nat.testBit_lt_two_pow
              have := Nat.pow_le_pow_right (n := 2) (by decide) (show k + 1 ≤ i by omega)
              rw [Nat.pow_succ] at this
              omega
            simp [this, hgi, hik]
        · omega
      have hp' : (if b % 2 = 1 then p ^^^ a else p) < 2 ^ k := by
        split
        · exact Nat.xor_lt_two_pow hp ha
        · exact hp
      have ih := multLoop_spec hg fuel _ (b / 2) _ ha' hp' (by rw [Nat.pow_succ] at hb; omega)
      refine ⟨ih.1, ?_⟩
      obtain ⟨q, hq⟩ := ih.2
      have e1 : poly (if b % 2 = 1 then p ^^^ a else p) = poly p + poly a * (if b.testBit 0 then 1 else 0) := by
        rw [Nat.testBit_zero]
        by_cases h : b % 2 = 1
        · simp [h, poly_xor]
        · simp [h]
      have e2 : ∃ c, poly (if 2 * a ≥ 2 ^ k then (2 * a) ^^^ (g ^^^ 2 ^ k) else 2 * a) = X * poly a + c * poly (g ^^^ 2 ^ k) := by
        split
        · exact ⟨1, by rw [poly_xor, poly_double, one_mul]⟩
        · exact ⟨0, by rw [poly_double, zero_mul, add_zero]⟩
      obtain ⟨c, hc⟩ := e2
      refine ⟨q - c * poly (b / 2), ?_⟩
      have eb := poly_mul_bit b
      rw [e1, hc] at hq
      linear_combination hq + poly a * eb

/-- The product in the field. -/
theorem mult_spec {k g : Nat} (hg : g < 2 ^ k) (hk : k ≤ 32) (a b : Nat) (ha : a < 2 ^ k) (hb : b < 2 ^ k) :
    mult a b (g ^^^ 2 ^ k) (2 ^ k) < 2 ^ k ∧ poly (g ^^^ 2 ^ k) ∣ poly a * poly b - poly (mult a b (g ^^^ 2 ^ k) (2 ^ k)) := by
  have := multLoop_spec hg 32 a b 0 ha (Nat.two_pow_pos k) (Nat.lt_of_lt_of_le hb (Nat.pow_le_pow_right (by decide) hk))
  rw [poly_zero, zero_add] at this
  exact this

theorem exp3_spec {k g : Nat} (hg : g < 2 ^ k) (hk : k ≤ 32) (b : Nat) (hb : b < 2 ^ k) :
    exp3 b (g ^^^ 2 ^ k) (2 ^ k) = BitVec.ofNat 8 (ofPoly k (poly b ^ 3 %ₘ poly (g ^^^ 2 ^ k))) := by
  obtain ⟨hm, hd⟩ := monic_poly hg
  rw [exp3]
  split
  · next h =>
    subst h
    rw [poly_zero, zero_pow (by decide), zero_modByMonic, ← poly_zero, ofPoly_poly]
    simp
  · obtain ⟨l1, d1⟩ := mult_spec hg hk b b hb hb
    obtain ⟨l2, d2⟩ := mult_spec hg hk b _ hb l1
    have e : poly b ^ 3 %ₘ poly (g ^^^ 2 ^ k) = poly (mult b (mult b b (g ^^^ 2 ^ k) (2 ^ k)) (g ^^^ 2 ^ k) (2 ^ k)) := by
      refine modByMonic_of_dvd hm ?_ (by rw [hd]; exact degree_poly_lt l2)
      obtain ⟨q1, h1⟩ := d1
      obtain ⟨q2, h2⟩ := d2
      exact ⟨poly b * q1 + q2, by linear_combination poly b * h1 + h2⟩
    rw [e, ofPoly_poly, Nat.mod_eq_of_lt l2]

theorem S1_spec (x : Nat) (h : x < 2 ^ 13) : S1 x = Spec.S1 x := by
  have := exp3_spec (k := 13) (g := 0x911) (by decide) (by decide) (x ^^^ 8191) (Nat.xor_lt_two_pow h (by decide))
  exact this

theorem S2_spec (x : Nat) (h : x < 2 ^ 11) : S2 x = Spec.S2 x := by
  have := exp3_spec (k := 11) (g := 0x2A7) (by decide) (by decide) (x ^^^ 2047) (Nat.xor_lt_two_pow h (by decide))
  exact this

/-! The function `f` -/

/-- A pair of words as one. -/
def pack (u : U) : BitVec 64 := u.l ++ u.r

theorem pack_bit (u : U) (t : Nat) : (pack u).getLsbD t = if t < 32 then u.r.getLsbD t else u.l.getLsbD (t - 32) := by
  rw [pack, BitVec.getLsbD_append]

theorem mod_ofBits (x n : Nat) (f : Nat → Bool) (h : ∀ i < n, x.testBit i = f i) : x % 2 ^ n = Spec.ofBits n f := by
  induction n with
  | zero => simp [Nat.mod_one, Spec.ofBits]
  | succ n ih =>
    rw [Spec.ofBits, Nat.mod_pow_succ, ih (fun i hi => h i (by omega)), ← h n (by omega), Nat.testBit_eq_decide_div_mod_eq]
    rcases Nat.mod_two_eq_zero_or_one (x / 2 ^ n) with h | h <;> simp [h]

theorem toNat_ofBits {w : Nat} (x : BitVec w) (n : Nat) (f : Nat → Bool) (hx : ∀ i, n ≤ i → x.getLsbD i = false) (h : ∀ i < n, x.getLsbD i = f i) :
    x.toNat = Spec.ofBits n f := by
  rw [← mod_ofBits x.toNat n f h, Nat.mod_eq_of_lt]
  exact Nat.lt_pow_two_of_testBit _ hx

theorem mask_toNat (x : W) (n : Nat) (hn : n < 32) (f : Nat → Bool) (h : ∀ i < n, x.getLsbD i = f i) : (x &&& BitVec.ofNat 32 (2 ^ n - 1)).toNat = Spec.ofBits n f := by
  rw [BitVec.toNat_and, BitVec.toNat_ofNat, Nat.mod_eq_of_lt (by have := Nat.pow_lt_pow_right (a := 2) (by decide) hn; omega), Nat.and_two_pow_sub_one_eq_mod]
  exact mod_ofBits _ _ _ h

theorem kp_spec (A B : U) (t : Nat) (ht : t < 64) : (pack (kp A B)).getLsbD t = Spec.KP (pack A) (pack B) t := by
  rw [pack_bit, Spec.KP, pack_bit B, if_pos (Nat.mod_lt t (by decide)), pack_bit A, pack_bit A, kp]
  by_cases h : t < 32
  · simp only [h, if_true, Nat.mod_eq_of_lt h, show (t + 32) % 64 = t + 32 by omega, show ¬ t + 32 < 32 by omega, if_false, Nat.add_sub_cancel]
    simp only [BitVec.getLsbD_or, BitVec.getLsbD_and, BitVec.getLsbD_not, h, decide_true, Bool.true_and]
    cases B.r.getLsbD t <;> simp
  · simp only [h, if_false, show t % 32 = t - 32 by omega, show (t + 32) % 64 = t - 32 by omega, show t - 32 < 32 by omega, if_true]
    simp only [BitVec.getLsbD_or, BitVec.getLsbD_and, BitVec.getLsbD_not, show t - 32 < 32 by omega, decide_true, Bool.true_and]
    cases B.r.getLsbD (t - 32) <;> simp

theorem ofBits_lt (n : Nat) (f : Nat → Bool) : Spec.ofBits n f < 2 ^ n := by
  induction n with
  | zero => exact Nat.one_pos
  | succ n ih => rw [Spec.ofBits, Nat.pow_succ]; split <;> omega

theorem sa_spec (d : U) : sa d = [7, 6, 5, 4, 3, 2, 1, 0].map (Spec.Sa (pack d).getLsbD) := by
  have g (x : W) (k n : Nat) (hn : n < 32) (h : ∀ i < n, x.getLsbD i = (pack d).getLsbD ((8 * k + i) % 64)) :
      (x &&& BitVec.ofNat 32 (2 ^ n - 1)).toNat = Spec.ofBits n fun i => (pack d).getLsbD ((8 * k + i) % 64) := mask_toNat x n hn _ h
  have a (k : Nat) (x : W) (hk : k = 7 ∨ k = 5 ∨ k = 2 ∨ k = 0) (h : ∀ i < 13, x.getLsbD i = (pack d).getLsbD ((8 * k + i) % 64)) :
      S1 (x &&& 0x1FFF).toNat = Spec.Sa (pack d).getLsbD k := by
    have := g x k 13 (by decide) h
    rw [show (0x1FFF : W) = BitVec.ofNat 32 (2 ^ 13 - 1) from rfl, this, S1_spec _ (ofBits_lt _ _), Spec.Sa, if_pos hk]
  have b (k : Nat) (x : W) (hk : ¬ (k = 7 ∨ k = 5 ∨ k = 2 ∨ k = 0)) (h : ∀ i < 11, x.getLsbD i = (pack d).getLsbD ((8 * k + i) % 64)) :
      S2 (x &&& 0x7FF).toNat = Spec.Sa (pack d).getLsbD k := by
    have := g x k 11 (by decide) h
    rw [show (0x7FF : W) = BitVec.ofNat 32 (2 ^ 11 - 1) from rfl, this, S2_spec _ (ofBits_lt _ _), Spec.Sa, if_neg hk]
  rw [sa, a 7, b 6, a 5, b 4, b 3, a 2, b 1, a 0]
  · rfl
  all_goals first
    | decide
    | (intro i hi; rw [pack_bit]; interval_cases i <;> simp)

theorem spread_bit : ∀ (s : Byte) (j0 : Fin 5) (t : Fin 32), (spread s j0).getLsbD t = (decide (t.val % 8 = 7) && s.getLsbD (j0 + t.val / 8)) := by decide +kernel

theorem spread_bit' (s : Byte) (j0 t : Nat) (hj : j0 < 5) : (spread s j0).getLsbD t = (decide (t < 32 ∧ t % 8 = 7) && s.getLsbD (j0 + t / 8)) := by
  by_cases ht : t < 32
  · simpa [ht] using spread_bit s ⟨j0, hj⟩ ⟨t, ht⟩
  · rw [BitVec.getLsbD_of_ge _ _ (by omega)]; simp [ht]

theorem perm_spec (s : Nat → Byte) (t : Nat) (ht : t < 64) : (pack (perm ([7, 6, 5, 4, 3, 2, 1, 0].map s))).getLsbD t = Spec.P s t := by
  rw [pack_bit, Spec.P, perm]
  simp only [P, List.map_cons, List.map_nil, List.getD_cons_zero, List.getD_cons_succ]
  have h0 (s : Byte) (t : Nat) := spread_bit' s 0 t (by decide)
  have h4 (s : Byte) (t : Nat) := spread_bit' s 4 t (by decide)
  simp only [BitVec.getLsbD_or, BitVec.getLsbD_ushiftRight, h0, h4]
  interval_cases t <;> simp

theorem join_bit (a b c d : Byte) (t : Nat) (ht : t < 32) : (join a b c d).getLsbD t = ([d, c, b, a].getD (t / 8) 0).getLsbD (t % 8) := by
  rw [join]
  interval_cases t <;> simp

theorem sb_spec (e B : U) (e' : Nat → Bool) (he : ∀ t < 64, (pack e).getLsbD t = e' t) :
    sb e B.l = ⟨join (Spec.Sb e' (pack B) 7) (Spec.Sb e' (pack B) 6) (Spec.Sb e' (pack B) 5) (Spec.Sb e' (pack B) 4),
      join (Spec.Sb e' (pack B) 3) (Spec.Sb e' (pack B) 2) (Spec.Sb e' (pack B) 1) (Spec.Sb e' (pack B) 0)⟩ := by
  have el (t : Nat) (ht : t < 32) : e.l.getLsbD t = e' (32 + t) := by rw [← he _ (by omega), pack_bit]; simp
  have er (t : Nat) (ht : t < 32) : e.r.getLsbD t = e' t := by rw [← he _ (by omega), pack_bit, if_pos ht]
  have el' (t : Nat) (ht : t < 32) : e.l[t] = e' (32 + t) := by rw [← el t ht, BitVec.getLsbD_eq_getElem ht]
  have er' (t : Nat) (ht : t < 32) : e.r[t] = e' t := by rw [← er t ht, BitVec.getLsbD_eq_getElem ht]
  have b1 (x : W) (m : Nat) (hm : m % 4 < 2) (hx : ∀ i, 13 ≤ i → x.getLsbD i = false)
      (h : ∀ i < 13, x.getLsbD i = if i < 8 then e' (8 * m + i) else (pack B).getLsbD (32 + (Spec.part m).1 + (i - 8))) (hp : (Spec.part m).2 = 5) :
      S1 x.toNat = Spec.Sb e' (pack B) m := by
    rw [toNat_ofBits x 13 _ hx h, S1_spec _ (ofBits_lt _ _), Spec.Sb, if_pos hm, hp]
  have b2 (x : W) (m : Nat) (hm : ¬ m % 4 < 2) (hx : ∀ i, 11 ≤ i → x.getLsbD i = false)
      (h : ∀ i < 11, x.getLsbD i = if i < 8 then e' (8 * m + i) else (pack B).getLsbD (32 + (Spec.part m).1 + (i - 8))) (hp : (Spec.part m).2 = 3) :
      S2 x.toNat = Spec.Sb e' (pack B) m := by
    rw [toNat_ofBits x 11 _ hx h, S2_spec _ (ofBits_lt _ _), Spec.Sb, if_neg hm, hp]
  have hi {n : Nat} (x y m1 m2 : W) (h1 : m1.toNat < 2 ^ n) (h2 : m2.toNat < 2 ^ n) : ∀ i, n ≤ i → ((x &&& m1) ||| (y &&& m2)).getLsbD i = false := by
    intro i hi
    have a1 : m1.getLsbD i = false := Nat.testBit_lt_two_pow (Nat.lt_of_lt_of_le h1 (Nat.pow_le_pow_right (by decide) hi))
    have a2 : m2.getLsbD i = false := Nat.testBit_lt_two_pow (Nat.lt_of_lt_of_le h2 (Nat.pow_le_pow_right (by decide) hi))
    simp [a1, a2]
  rw [sb]
  rw [b2 _ 7 (by decide) (hi _ _ _ _ (by decide) (by decide)) ?_ rfl, b2 _ 6 (by decide) (hi _ _ _ _ (by decide) (by decide)) ?_ rfl,
    b1 _ 5 (by decide) (hi _ _ _ _ (by decide) (by decide)) ?_ rfl, b1 _ 4 (by decide) (hi _ _ _ _ (by decide) (by decide)) ?_ rfl,
    b2 _ 3 (by decide) (hi _ _ _ _ (by decide) (by decide)) ?_ rfl, b2 _ 2 (by decide) (hi _ _ _ _ (by decide) (by decide)) ?_ rfl,
    b1 _ 1 (by decide) (hi _ _ _ _ (by decide) (by decide)) ?_ rfl, b1 _ 0 (by decide) (hi _ _ _ _ (by decide) (by decide)) ?_ rfl]
  all_goals (intro i hi; simp only [pack_bit, Spec.part]; interval_cases i <;> simp [el', er'])

theorem compute_spec (A B : U) : pack (compute A B) = Spec.f (pack A) (pack B) := by
  have h1 : sa (kp A B) = [7, 6, 5, 4, 3, 2, 1, 0].map (Spec.Sa (Spec.KP (pack A) (pack B))) := by
    rw [sa_spec]
    apply List.map_congr_left
    intro k hk
    have : ∀ i, (pack (kp A B)).getLsbD ((8 * k + i) % 64) = Spec.KP (pack A) (pack B) ((8 * k + i) % 64) := fun i => kp_spec A B _ (Nat.mod_lt _ (by decide))
    simp only [Spec.Sa, this]
  rw [compute, h1, sb_spec _ _ _ (perm_spec _), Spec.f]
  generalize Spec.Sb _ _ = F
  apply BitVec.eq_of_toNat_eq
  rw [BitVec.toNat_ofNat, Nat.mod_eq_of_lt (ofBits_lt 64 _)]
  refine toNat_ofBits _ 64 _ (fun i hi => BitVec.getLsbD_of_ge _ _ hi) fun t ht => ?_
  rw [pack_bit]
  split
  · next h =>
    rw [join_bit _ _ _ _ _ h]
    have : [F 0, F 1, F 2, F 3].getD (t / 8) 0 = F (t / 8) := by
      have : t / 8 < 4 := by omega
      interval_cases t / 8 <;> rfl
    rw [this]
  · rw [join_bit _ _ _ _ _ (by omega), show (t - 32) % 8 = t % 8 by omega]
    have : [F 4, F 5, F 6, F 7].getD ((t - 32) / 8) 0 = F (t / 8) := by
      have h2 : (t - 32) / 8 < 4 := by omega
      rw [show t / 8 = (t - 32) / 8 + 4 by omega]
      interval_cases (t - 32) / 8 <;> rfl
    rw [this]

/-! Arithmetic -/

theorem pack_toNat (u : U) : (pack u).toNat = u.l.toNat * 2 ^ 32 + u.r.toNat := by
  rw [pack, BitVec.toNat_append, Nat.shiftLeft_eq, Nat.mul_comm, Nat.two_pow_add_eq_or_of_lt u.r.isLt]

theorem add_spec (a b : U) : pack (add64 a b) = pack a + pack b := by
  apply BitVec.eq_of_toNat_eq
  have := a.l.isLt; have := a.r.isLt; have := b.l.isLt; have := b.r.isLt
  rw [BitVec.toNat_add, pack_toNat, pack_toNat, pack_toNat, add64]
  simp only [apply_ite BitVec.toNat, BitVec.toNat_add, show (1 : W).toNat = 1 from rfl]
  split <;> omega

theorem xor_spec (a b : U) : pack (xor64 a b) = pack a ^^^ pack b := by
  apply BitVec.eq_of_getLsbD_eq
  intro i hi
  rw [BitVec.getLsbD_xor, pack_bit, pack_bit, pack_bit, xor64]
  split <;> simp

theorem toU_spec (b : Bytes) (i : Nat) (h : i + 8 ≤ b.length) : pack (toU b i) = Spec.word b i := by
  have hd : ((b.drop i).take 8).length = 8 := by simp; omega
  have e1 : (b.drop i).take 4 = ((b.drop i).take 8).take 4 := by rw [List.take_take]; rfl
  have e2 : (b.drop (i + 4)).take 4 = ((b.drop i).take 8).drop 4 := by rw [List.drop_take, List.drop_drop]
  rw [toU, Spec.word, e1, e2]
  generalize (b.drop i).take 8 = l at hd
  match l, hd with
  | [b0, b1, b2, b3, b4, b5, b6, b7], _ =>
    apply BitVec.eq_of_toNat_eq
    rw [pack_toNat]
    have := b0.isLt; have := b1.isLt; have := b2.isLt; have := b3.isLt; have := b4.isLt; have := b5.isLt; have := b6.isLt; have := b7.isLt
    simp only [List.take_succ_cons, List.take_zero, List.drop_succ_cons, List.drop_zero, List.reverse_cons, List.reverse_nil, List.nil_append, List.cons_append, leN, BitVec.toNat_ofNat]
    omega

theorem ofU_spec (u : U) : ofU u = Spec.bytes (pack u) := by
  have := u.l.isLt; have := u.r.isLt
  rw [ofU, Spec.bytes, pack_toNat]
  simp only [leBytes, List.reverse_cons, List.reverse_nil, List.nil_append, List.cons_append]
  have e (a b : Nat) (h : a % 256 = b % 256) : BitVec.ofNat 8 a = BitVec.ofNat 8 b := by
    apply BitVec.eq_of_toNat_eq; simpa using h
  congr 1
  · exact e _ _ (by omega)
  congr 1
  · exact e _ _ (by omega)
  congr 1
  · exact e _ _ (by omega)
  congr 1
  · exact e _ _ (by omega)
  congr 1
  · exact e _ _ (by omega)
  congr 1
  · exact e _ _ (by omega)
  congr 1
  · exact e _ _ (by omega)
  congr 1
  exact e _ _ (by omega)

/-! Keys and rounds -/

theorem pack_DELTA : pack DELTA = BitVec.ofNat 64 0x9E3779B97F4A7C15 := by decide +kernel

theorem subkeys_spec (n : Nat) : ∀ (i : Nat) (s : K), pack s.deltan = BitVec.ofNat 64 (i * 0x9E3779B97F4A7C15) →
    (subkeys n s).map pack = Spec.schedule n i (pack s.k4) (pack s.k3) (pack s.k2) (pack s.k1) := by
  induction n with
  | zero => intro i s h; simp only [subkeys, Spec.schedule, List.map_nil]
  | succ n ih =>
    intro i s h
    have hd : pack (add64 s.deltan DELTA) = BitVec.ofNat 64 ((i + 1) * 0x9E3779B97F4A7C15) := by
      rw [add_spec, h, Nat.succ_mul, BitVec.ofNat_add, pack_DELTA]
    have hk : pack (xor64 s.k4 (compute (add64 (add64 s.k1 s.k3) s.deltan) s.k2)) =
        pack s.k4 ^^^ Spec.f (pack s.k1 + pack s.k3 + BitVec.ofNat 64 (i * 0x9E3779B97F4A7C15)) (pack s.k2) := by
      rw [xor_spec, compute_spec, add_spec, add_spec, h]
    have := ih (i + 1) (turn s) hd
    simp only [turn] at this
    simp only [subkeys, Spec.schedule, List.map_cons, turn, this, hk]

theorem makeKey_spec (key : Bytes) (hk : key.length = 16 ∨ key.length = 24 ∨ key.length = 32) : (makeKey key).map pack = Spec.subkeys key := by
  have hd : pack DELTA = BitVec.ofNat 64 (1 * 0x9E3779B97F4A7C15) := by rw [pack_DELTA, Nat.one_mul]
  have hs : pack (start key).deltan = BitVec.ofNat 64 (1 * 0x9E3779B97F4A7C15) := by
    rw [start]
    split
    · exact hd
    · split <;> exact hd
  have w0 := toU_spec key 0 (by omega)
  have w8 := toU_spec key 8 (by omega)
  rw [makeKey, subkeys_spec 48 1 _ hs, Spec.subkeys, start]
  by_cases h16 : key.length = 16
  · rw [if_pos h16, if_pos h16]; simp only [compute_spec, w0, w8]
  · rw [if_neg h16, if_neg h16]
    have w16 := toU_spec key 16 (by omega)
    by_cases h24 : key.length = 24
    · rw [if_pos h24, if_pos h24]; simp only [compute_spec, w0, w8, w16]
    · rw [if_neg h24, if_neg h24]
      have w24 := toU_spec key 24 (by omega)
      simp only [w0, w8, w16, w24]

theorem encB_spec (key b : Bytes) (hk : key.length = 16 ∨ key.length = 24 ∨ key.length = 32) (hb : b.length = 16) : encB key b = Spec.encrypt key b := by
  have hs (i j : Nat) : pack (sk (makeKey key) i j) = (Spec.subkeys key).getD (3 * i + j) 0 := by
    rw [← makeKey_spec key hk, sk, List.getD_eq_getElem?_getD, List.getD_eq_getElem?_getD, List.getElem?_map]
    cases (makeKey key)[3 * i + j]? <;> rfl
  have hf : ∀ (l : List Nat) (s : U × U),
      (fun s : U × U => (pack s.1, pack s.2)) (l.foldl (fun s i => round (sk (makeKey key) i 0) (sk (makeKey key) i 1) (sk (makeKey key) i 2) s) s) =
      l.foldl (fun (s : BitVec 64 × BitVec 64) i => (s.2 + (Spec.subkeys key).getD (3 * i) 0 + (Spec.subkeys key).getD (3 * i + 2) 0,
        s.1 ^^^ Spec.f (s.2 + (Spec.subkeys key).getD (3 * i) 0) ((Spec.subkeys key).getD (3 * i + 1) 0))) (pack s.1, pack s.2) := by
    intro l
    induction l with
    | nil => intro s; rfl
    | cons i l ih =>
      intro s
      rw [List.foldl_cons, List.foldl_cons, ih]
      congr 1
      simp only [round, add_spec, xor_spec, compute_spec, hs, Nat.add_zero]
  rw [encB, blockEncrypt, st, ofU_spec, ofU_spec, Spec.encrypt]
  have := hf (List.range 16) (ld b)
  rw [ld] at this
  simp only [toU_spec b 0 (by omega), toU_spec b 8 (by omega)] at this
  simp only [← this]
  rfl

/-! The property -/

/-- **C175** `NewCipher` accepts exactly the keys of 16, 24 and 32 bytes, and the cipher is a block cipher of 16-byte blocks. -/
theorem C175_block_cipher : Implements newCipher (fun l => l = 16 ∨ l = 24 ∨ l = 32) 16 := implements

/-- **C175** `Encrypt` is LOKI97, for all keys and blocks. -/
theorem C175_loki97 (key : Bytes) (hk : key.length = 16 ∨ key.length = 24 ∨ key.length = 32) :
    ∃ c D, newCipher key = .ok c ∧ IsBlock 16 c.enc c.dec (Spec.encrypt key) D := by
  have hB : BlockFn 16 (encB key) (decB key) :=
    blockFn_of 16 ld st (blockEncrypt (makeKey key)) (blockDecrypt (makeKey key)) (fun s => by simp [st, ofU]) ld_st st_ld (decrypt_encrypt _)
  have hB' : BlockFn 16 (Spec.encrypt key) (decB key) :=
    ⟨fun b h => by rw [← encB_spec key b hk h]; exact hB.lenE b h, hB.lenD, fun b h => by rw [← encB_spec key b hk h]; exact hB.DE b h,
      fun b h => by rw [← encB_spec key _ hk (hB.lenD b h)]; exact hB.ED b h⟩
  have h2 := hB'.isBlock
  refine ⟨_, decB key, if_pos hk, h2.lenE, h2.lenD, h2.DE, h2.ED, fun m dst src => ?_, h2.dec_eq⟩
  refine (guarded_whole ..).trans ?_
  rw [encB_spec key _ hk (by simp [Mem.read])]

/- The vector of the submission, and that the other key sizes are accepted. -/
example : kat newCipher (hx 32 0x000102030405060708090a0b0c0d0e0f101112131415161718191a1b1c1d1e1f) (hx 16 0x000102030405060708090a0b0c0d0e0f) =
    .ok (hx 16 0x75080e359f10fe640144b35c57128dad) := by decide +kernel
example : katD newCipher (hx 32 0x000102030405060708090a0b0c0d0e0f101112131415161718191a1b1c1d1e1f) (hx 16 0x75080e359f10fe640144b35c57128dad) =
    .ok (hx 16 0x000102030405060708090a0b0c0d0e0f) := by decide +kernel
example : ∃ c, newCipher (hx 24 5) = .ok c := ⟨_, rfl⟩

end Verif.Cipher.Loki97
