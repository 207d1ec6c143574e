import Verif.Cipher.Common
import Mathlib.Tactic.NormNum.Prime
import Mathlib.Tactic.Ring
import Mathlib.Tactic.LinearCombination
import Mathlib.Data.Int.ModEq
/-
Model of cipher/idea (idea.go).
-/
namespace Verif.Cipher.Idea

abbrev W := BitVec 16
abbrev St := W × W × W × W

/-- idea.go:209-227 `mul` -/
def mul (x y : W) : W :=
  if y = 0 then 1 - x
  else if x = 0 then 1 - y
  else
    let t32 : BitVec 32 := x.setWidth 32 * y.setWidth 32
    let x : W := t32.setWidth 16
    let y : W := (t32 >>> 16).setWidth 16
    if x < y then x - y + 1 else x - y

/-- idea.go:193-203: the loop of `mulInv`. `x`, `y` are below 2^16; the loop runs at most as often as `y` is large, so `fuel = y` is enough;
`none` is the division by zero (a panic), which is shown not to happen. -/
def invLoop : Nat → (x y : Nat) → (t0 t1 : W) → Option W
  | 0, _, _, _, _ => none
  | fuel + 1, x, y, t0, t1 =>
    if y = 1 then some (1 - t1)
    else if y = 0 then none
    else
      let q := x / y
      let x := x % y
      let t0 := t0 + BitVec.ofNat 16 q * t1
      if x = 1 then some t0
      else if x = 0 then none
      else
        let q := y / x
        let y := y % x
        let t1 := t1 + BitVec.ofNat 16 q * t0
        invLoop fuel x y t0 t1

/-- idea.go:178-206 `mulInv` -/
def mulInv? (x : W) : Option W :=
  if x.toNat ≤ 1 then some x
  else
    let t1 : W := BitVec.ofNat 16 (0x10001 / x.toNat)
    let y := 0x10001 % x.toNat
    if y = 1 then some (1 - t1)
    else invLoop 65536 x.toNat y 1 t1
def mulInv (x : W) : W := (mulInv? x).getD 0

/-- idea.go:81-96: the encryption key table of 52 words. After the eight words of the key, word `n` (`n ≥ 8`, group `g = n / 8`, place `i = n % 8`) is
`EK[i&7]<<9 | EK[(i+1)&7]>>7` of the group before, where the loop's `i` runs from 1 to 8: place `p` is computed with `i = p + 1`. -/
def ekNext (e : List W) (n : Nat) : W :=
  let b := 8 * (n / 8) - 8
  let i := n % 8 + 1
  ((e.getD (b + i % 8) 0) <<< 9) ||| ((e.getD (b + (i + 1) % 8) 0) >>> 7)
def expandKey (key : Bytes) : List W :=
  (List.range 44).foldl (fun e i => e ++ [ekNext e (i + 8)]) (ldBE 16 2 8 key)

/-- idea.go:103-175 `invertKey`: the table is filled from its end with groups taken from the encryption table in order: first the four words of an
outer layer, then, seven times, two words and four words with the middle two exchanged, at last two words and the four words of the outer layer. -/
def invertKey (e : List W) : List W :=
  let k := fun i => e.getD i 0
  let pair := fun r => [k (6 * r + 4), k (6 * r + 5)]
  let four := fun r => [mulInv (k (6 * r)), - k (6 * r + 2), - k (6 * r + 1), mulInv (k (6 * r + 3))]
  [mulInv (k 48), - k 49, - k 50, mulInv (k 51)] ++
  ((List.range 7).reverse.flatMap fun r => pair (r + 1) ++ four (r + 1)) ++
  pair 0 ++ [mulInv (k 0), - k 1, - k 2, mulInv (k 3)]

/-- idea.go:240-266: one round with six keys. -/
def round (s : St) (k : W × W × W × W × W × W) : St :=
  let (x1, x2, x3, x4) := s
  let (k0, k1, k2, k3, k4, k5) := k
  let x1 := mul x1 k0
  let x2 := x2 + k1
  let x3 := x3 + k2
  let x4 := mul x4 k3
  let s3 := x3
  let x3 := x3 ^^^ x1
  let x3 := mul x3 k4
  let s2 := x2
  let x2 := x2 ^^^ x4
  let x2 := x2 + x3
  let x2 := mul x2 k5
  let x3 := x3 + x2
  let x1 := x1 ^^^ x2
  let x4 := x4 ^^^ x3
  let x2 := x2 ^^^ s3
  let x3 := x3 ^^^ s2
  (x1, x2, x3, x4)

def six (K : List W) (r : Nat) : W × W × W × W × W × W :=
  (K.getD (6 * r) 0, K.getD (6 * r + 1) 0, K.getD (6 * r + 2) 0, K.getD (6 * r + 3) 0, K.getD (6 * r + 4) 0, K.getD (6 * r + 5) 0)

/-- idea.go:230-282 `crypt`; the words are stored in the order x1, x3, x2, x4. -/
def crypt (K : List W) (s : St) : St :=
  let (x1, x2, x3, x4) := (List.range 8).foldl (fun s r => round s (six K r)) s
  (mul x1 (K.getD 48 0), x3 + K.getD 49 0, x2 + K.getD 50 0, mul x4 (K.getD 51 0))

def encrypt (key : Bytes) : Bytes → Bytes := enc4BE 16 2 (crypt (expandKey key))
def decrypt (key : Bytes) : Bytes → Bytes := enc4BE 16 2 (crypt (invertKey (expandKey key)))

/-- idea.go:33-78 -/
def newCipher (key : Bytes) : Res Obj :=
  if key.length = 16 then .ok ⟨8, guarded 8 (whole 8 (encrypt key)), guarded 8 (whole 8 (decrypt key))⟩ else .err

/-! Proofs: the multiplication is that of the integers modulo the prime 65537, with 0 for 65536 -/

/-- The number a word stands for. -/
def num (x : W) : Int := if x = 0 then 65536 else x.toNat

theorem num_pos (x : W) : 0 < num x ∧ num x < 65537 := by
  unfold num
  have := x.isLt
  split
  · decide
  · rename_i h
    have : x.toNat ≠ 0 := fun hc => h (BitVec.eq_of_toNat_eq hc)
    omega

theorem num_inj (x y : W) (h : (65537 : Int) ∣ num x - num y) : x = y := by
  have hx := num_pos x
  have hy := num_pos y
  have h0 : num x = num y := by
    obtain ⟨k, hk⟩ := h
    have : k = 0 := by omega
    subst this
    omega
  unfold num at h0
  have := x.isLt
  have := y.isLt
  apply BitVec.eq_of_toNat_eq
  split at h0 <;> split at h0
  · simp_all
  · omega
  · omega
  · omega

theorem toNat_ne {x : W} (h : ¬ x = 0) : x.toNat ≠ 0 := fun hc => h (BitVec.eq_of_toNat_eq hc)

/-- 1 - x stands for -x. -/
theorem num_one_sub (x : W) : (65537 : Int) ∣ num (1 - x) + num x := by
  have hx := x.isLt
  have e : (1 - x : W).toNat = (65536 - x.toNat + 1) % 65536 := by rw [BitVec.toNat_sub]; rfl
  unfold num
  by_cases h0 : x = 0
  · subst h0
    exact ⟨1, by decide⟩
  · have hn := toNat_ne h0
    rw [if_neg h0]
    by_cases h1 : x.toNat = 1
    · have : x = 1 := BitVec.eq_of_toNat_eq h1
      subst this
      exact ⟨1, by decide⟩
    · have hne : ¬ (1 - x : W) = 0 := by
        intro hc
        rw [hc] at e
        have : (0 : W).toNat = 0 := rfl
        omega
      rw [if_neg hne, e]
      exact ⟨1, by omega⟩

theorem num_mul (x y : W) : (65537 : Int) ∣ num (mul x y) - num x * num y := by
  unfold mul
  by_cases hy : y = 0
  · rw [if_pos hy, show num y = 65536 from by rw [hy]; rfl]
    obtain ⟨k, hk⟩ := num_one_sub x
    exact ⟨k - num x, by linear_combination hk⟩
  · rw [if_neg hy]
    by_cases hx : x = 0
    · rw [if_pos hx, show num x = 65536 from by rw [hx]; rfl]
      obtain ⟨k, hk⟩ := num_one_sub y
      exact ⟨k - num y, by linear_combination hk⟩
    · rw [if_neg hx]
      have hx' := toNat_ne hx
      have hy' := toNat_ne hy
      have lx := x.isLt
      have ly := y.isLt
      have hb : x.toNat * y.toNat < 2 ^ 32 := by
        calc x.toNat * y.toNat < 2 ^ 16 * 2 ^ 16 := Nat.mul_lt_mul'' lx ly
          _ = 2 ^ 32 := by decide
      have ht : (x.setWidth 32 * y.setWidth 32 : BitVec 32).toNat = x.toNat * y.toNat := by
        rw [BitVec.toNat_mul, BitVec.toNat_setWidth, BitVec.toNat_setWidth, Nat.mod_eq_of_lt (by omega : x.toNat < 2 ^ 32), Nat.mod_eq_of_lt (by omega : y.toNat < 2 ^ 32), Nat.mod_eq_of_lt hb]
      have hlo : ((x.setWidth 32 * y.setWidth 32 : BitVec 32).setWidth 16 : W).toNat = x.toNat * y.toNat % 65536 := by
        rw [BitVec.toNat_setWidth, ht]
      have hhi : (((x.setWidth 32 * y.setWidth 32 : BitVec 32) >>> 16).setWidth 16 : W).toNat = x.toNat * y.toNat / 65536 := by
        rw [BitVec.toNat_setWidth, BitVec.toNat_ushiftRight, ht, Nat.shiftRight_eq_div_pow]
        exact Nat.mod_eq_of_lt (by omega)
      simp only
      generalize ((x.setWidth 32 * y.setWidth 32 : BitVec 32).setWidth 16 : W) = a at *
      generalize (((x.setWidth 32 * y.setWidth 32 : BitVec 32) >>> 16).setWidth 16 : W) = b at *
      have hxn : num x = x.toNat := if_neg hx
      have hyn : num y = y.toNat := if_neg hy
      have hp : (0 : Nat) < x.toNat * y.toNat := Nat.mul_pos (by omega) (by omega)
      rw [hxn, hyn]
      have hP : ((x.toNat : Int) * (y.toNat : Int)) = ((x.toNat * y.toNat : Nat) : Int) := by push_cast; rfl
      rw [hP]
      -- the product is not a multiple of 65537
      have hnd : ¬ 65537 ∣ x.toNat * y.toNat := by
        intro hd
        have hp : Nat.Prime 65537 := by norm_num
        rcases hp.dvd_mul.1 hd with h | h
        · have := Nat.le_of_dvd (by omega) h; omega
        · have := Nat.le_of_dvd (by omega) h; omega
      generalize x.toNat * y.toNat = p at *
      have la := a.isLt
      have lb := b.isLt
      have hlt : (a < b) ↔ a.toNat < b.toNat := BitVec.lt_def
      have hab : a.toNat ≠ b.toNat := by
        intro hc
        apply hnd
        exact ⟨b.toNat, by omega⟩
      by_cases hl : a < b
      · rw [if_pos hl]
        have hl' := hlt.1 hl
        have e : (a - b + 1 : W).toNat = (65536 + a.toNat - b.toNat + 1) % 65536 := by
          rw [BitVec.toNat_add, BitVec.toNat_sub]
          have : (1 : W).toNat = 1 := rfl
          omega
        unfold num
        by_cases hz : a - b + 1 = 0
        · rw [if_pos hz]
          rw [hz] at e
          have : (0 : W).toNat = 0 := rfl
          exact ⟨1 - b.toNat, by omega⟩
        · rw [if_neg hz]
          have hz' := toNat_ne hz
          exact ⟨1 - b.toNat, by omega⟩
      · rw [if_neg hl]
        have hl' : ¬ a.toNat < b.toNat := fun hc => hl (hlt.2 hc)
        have e : (a - b : W).toNat = a.toNat - b.toNat := by
          rw [BitVec.toNat_sub]
          omega
        unfold num
        have hz : ¬ a - b = 0 := by
          intro hc
          rw [hc] at e
          have : (0 : W).toNat = 0 := rfl
          omega
        rw [if_neg hz, e]
        exact ⟨- b.toNat, by omega⟩

/-- The loop of the extended Euclidean algorithm finds the inverse of `X`. -/
theorem invLoop_spec (X : Int) : ∀ fuel (x y : Nat) (t0 t1 : W), 0 < y → y < x → y ≤ fuel → x < 65536 → 0 < t0.toNat → 0 < t1.toNat →
    x * t1.toNat + y * t0.toNat = 65537 → (65537 : Int) ∣ x - t0.toNat * X → (65537 : Int) ∣ y + t1.toNat * X →
    ∃ r, invLoop fuel x y t0 t1 = some r ∧ (65537 : Int) ∣ num r * X - 1 := by
  intro fuel
  induction fuel with
  | zero => intro x y t0 t1 h0 _ h1; omega
  | succ fuel ih =>
    intro x y t0 t1 hy hyx hf hx ht0 ht1 hN hX hY
    have fin : ∀ t : W, 0 < t.toNat → (65537 : Int) ∣ 1 + t.toNat * X → (65537 : Int) ∣ num (1 - t) * X - 1 := by
      intro t ht h
      have hn : num t = t.toNat := if_neg (fun hc => by rw [hc] at ht; exact absurd ht (by decide))
      obtain ⟨a, ha⟩ := num_one_sub t
      obtain ⟨b, hb⟩ := h
      exact ⟨a * X - b, by rw [hn] at ha; linear_combination X * ha - hb⟩
    unfold invLoop
    by_cases h1 : y = 1
    · rw [if_pos h1]
      refine ⟨_, rfl, fin t1 ht1 ?_⟩
      rw [h1] at hY
      exact_mod_cast hY
    · rw [if_neg h1, if_neg (by omega)]
      simp only
      have hdm := Nat.div_add_mod x y
      have hmod := Nat.mod_lt x hy
      -- x' = x % y is not 0
      have hp : Nat.Prime 65537 := by norm_num
      have nz : x % y ≠ 0 := by
        intro hc
        have hd : y ∣ 65537 := by
          rw [← hN]
          exact Nat.dvd_add (Dvd.dvd.mul_right (Nat.dvd_of_mod_eq_zero hc) _) (Dvd.intro _ rfl)
        rcases (Nat.dvd_prime hp).1 hd with h | h <;> omega
      have hN2 : (x % y) * t1.toNat + y * (t0.toNat + x / y * t1.toNat) = 65537 := by
        have : (x % y) * t1.toNat + y * (t0.toNat + x / y * t1.toNat) = (y * (x / y) + x % y) * t1.toNat + y * t0.toNat := by ring
        rw [this, hdm, hN]
      have hb0 : t0.toNat + x / y * t1.toNat < 65536 := by
        by_contra hc
        have h2 : 2 * (t0.toNat + x / y * t1.toNat) ≤ y * (t0.toNat + x / y * t1.toNat) := Nat.mul_le_mul_right _ (by omega)
        have : 0 < (x % y) * t1.toNat := Nat.mul_pos (by omega) ht1
        omega
      have hq : x / y < 65536 := Nat.lt_of_le_of_lt (Nat.div_le_self _ _) hx
      have e0 : (t0 + BitVec.ofNat 16 (x / y) * t1 : W).toNat = t0.toNat + x / y * t1.toNat := by
        rw [BitVec.toNat_add, BitVec.toNat_mul, BitVec.toNat_ofNat, Nat.mod_eq_of_lt (show x / y < 2 ^ 16 from hq)]
        rw [Nat.add_mod_mod]
        exact Nat.mod_eq_of_lt hb0
      have hX2 : (65537 : Int) ∣ ((x % y : Nat) : Int) - ((t0.toNat + x / y * t1.toNat : Nat) : Int) * X := by
        obtain ⟨a, ha⟩ := hX
        obtain ⟨b, hb⟩ := hY
        refine ⟨a - (x / y : Nat) * b, ?_⟩
        have hd : (x : Int) = (y : Int) * ((x / y : Nat) : Int) + ((x % y : Nat) : Int) := by exact_mod_cast hdm.symm
        have : ((t0.toNat + x / y * t1.toNat : Nat) : Int) = (t0.toNat : Int) + ((x / y : Nat) : Int) * (t1.toNat : Int) := by push_cast; rfl
        rw [this]
        linear_combination ha - ((x / y : Nat) : Int) * hb - hd
      have ht0' : 0 < t0.toNat + x / y * t1.toNat := by omega
      generalize t0 + BitVec.ofNat 16 (x / y) * t1 = u0 at *
      rw [← e0] at hN2 hX2 ht0' hb0
      generalize x % y = x' at *
      by_cases hx1 : x' = 1
      · rw [if_pos hx1]
        refine ⟨_, rfl, ?_⟩
        have hn : num u0 = u0.toNat := if_neg (fun hc => by rw [hc] at ht0'; exact absurd ht0' (by decide))
        rw [hn]
        obtain ⟨a, ha⟩ := hX2
        rw [hx1] at ha
        exact ⟨- a, by linear_combination -ha⟩
      · rw [if_neg hx1, if_neg nz]
        have hdm := Nat.div_add_mod y x'
        have hmod' := Nat.mod_lt y (show 0 < x' by omega)
        have nz2 : y % x' ≠ 0 := by
          intro hc
          have hd : x' ∣ 65537 := by
            rw [← hN2]
            exact Nat.dvd_add (Dvd.intro _ rfl) (Dvd.dvd.mul_right (Nat.dvd_of_mod_eq_zero hc) _)
          rcases (Nat.dvd_prime hp).1 hd with h | h <;> omega
        have hN3 : x' * (t1.toNat + y / x' * u0.toNat) + (y % x') * u0.toNat = 65537 := by
          have : x' * (t1.toNat + y / x' * u0.toNat) + (y % x') * u0.toNat = x' * t1.toNat + (x' * (y / x') + y % x') * u0.toNat := by ring
          rw [this, hdm, hN2]
        have hb1 : t1.toNat + y / x' * u0.toNat < 65536 := by
          by_contra hc
          have h2 : 2 * (t1.toNat + y / x' * u0.toNat) ≤ x' * (t1.toNat + y / x' * u0.toNat) := Nat.mul_le_mul_right _ (by omega)
          have : 0 < (y % x') * u0.toNat := Nat.mul_pos (by omega) ht0'
          omega
        have hq : y / x' < 65536 := Nat.lt_of_le_of_lt (Nat.div_le_self _ _) (by omega)
        have e1 : (t1 + BitVec.ofNat 16 (y / x') * u0 : W).toNat = t1.toNat + y / x' * u0.toNat := by
          rw [BitVec.toNat_add, BitVec.toNat_mul, BitVec.toNat_ofNat, Nat.mod_eq_of_lt (show y / x' < 2 ^ 16 from hq)]
          rw [Nat.add_mod_mod]
          exact Nat.mod_eq_of_lt hb1
        have hY2 : (65537 : Int) ∣ ((y % x' : Nat) : Int) + ((t1.toNat + y / x' * u0.toNat : Nat) : Int) * X := by
          obtain ⟨a, ha⟩ := hX2
          obtain ⟨b, hb⟩ := hY
          refine ⟨b - (y / x' : Nat) * a, ?_⟩
          have hd : (y : Int) = (x' : Int) * ((y / x' : Nat) : Int) + ((y % x' : Nat) : Int) := by exact_mod_cast hdm.symm
          have : ((t1.toNat + y / x' * u0.toNat : Nat) : Int) = (t1.toNat : Int) + ((y / x' : Nat) : Int) * (u0.toNat : Int) := by push_cast; rfl
          rw [this]
          linear_combination hb - ((y / x' : Nat) : Int) * ha - hd
        refine ih x' (y % x') u0 _ (by omega) hmod' (by omega) (by omega) ht0' ?_ ?_ hX2 ?_
        · rw [e1]; omega
        · rw [e1]; exact hN3
        · rw [e1]; exact hY2

/-- `mulInv` is the inverse modulo 65537; it does not divide by zero. -/
theorem mulInv_spec (x : W) : (∃ r, mulInv? x = some r) ∧ (65537 : Int) ∣ num (mulInv x) * num x - 1 := by
  suffices h : ∃ r, mulInv? x = some r ∧ (65537 : Int) ∣ num r * num x - 1 by
    obtain ⟨r, h1, h2⟩ := h
    exact ⟨⟨r, h1⟩, by unfold mulInv; rw [h1]; exact h2⟩
  have lx := x.isLt
  unfold mulInv?
  by_cases h1 : x.toNat ≤ 1
  · rw [if_pos h1]
    refine ⟨_, rfl, ?_⟩
    have : x = 0 ∨ x = 1 := by
      rcases (by omega : x.toNat = 0 ∨ x.toNat = 1) with h | h
      · exact .inl (BitVec.eq_of_toNat_eq h)
      · exact .inr (BitVec.eq_of_toNat_eq h)
    rcases this with rfl | rfl <;> decide
  · rw [if_neg h1]
    simp only
    have hn : num x = x.toNat := if_neg (fun hc => by rw [hc] at h1; exact h1 (by decide))
    have hdm := Nat.div_add_mod 65537 x.toNat
    have hmod := Nat.mod_lt 65537 (show 0 < x.toNat by omega)
    have hq : 65537 / x.toNat < 65536 := by
      have : 65537 / x.toNat ≤ 65537 / 2 := Nat.div_le_div_left (by omega) (by decide)
      omega
    have hq0 : 0 < 65537 / x.toNat := Nat.div_pos (by omega) (by omega)
    have e1 : (BitVec.ofNat 16 (65537 / x.toNat) : W).toNat = 65537 / x.toNat := by
      rw [BitVec.toNat_ofNat]; exact Nat.mod_eq_of_lt hq
    have hY : (65537 : Int) ∣ ((65537 % x.toNat : Nat) : Int) + ((BitVec.ofNat 16 (65537 / x.toNat) : W).toNat : Int) * num x := by
      rw [e1, hn]
      refine ⟨1, ?_⟩
      have : (65537 : Int) = (x.toNat : Int) * ((65537 / x.toNat : Nat) : Int) + ((65537 % x.toNat : Nat) : Int) := by exact_mod_cast hdm.symm
      linear_combination -this
    have nz : 65537 % x.toNat ≠ 0 := by
      intro hc
      have hp : Nat.Prime 65537 := by norm_num
      rcases (Nat.dvd_prime hp).1 (Nat.dvd_of_mod_eq_zero hc) with h | h <;> omega
    by_cases hy : 65537 % x.toNat = 1
    · rw [if_pos hy]
      refine ⟨_, rfl, ?_⟩
      rw [hy] at hY
      obtain ⟨a, ha⟩ := num_one_sub (BitVec.ofNat 16 (65537 / x.toNat))
      obtain ⟨b, hb⟩ := hY
      have hn1 : num (BitVec.ofNat 16 (65537 / x.toNat)) = ((BitVec.ofNat 16 (65537 / x.toNat) : W).toNat : Int) :=
        if_neg (fun hc => by rw [hc] at e1; have : (0 : W).toNat = 0 := rfl; omega)
      rw [hn1] at ha
      exact ⟨a * num x - b, by push_cast at hb; linear_combination (num x) * ha - hb⟩
    · rw [if_neg hy]
      refine invLoop_spec (num x) 65536 x.toNat (65537 % x.toNat) 1 _ (by omega) hmod (by omega) lx (by decide) (by rw [e1]; exact hq0) ?_ ?_ hY
      · rw [e1]
        have : (1 : W).toNat = 1 := rfl
        rw [this]
        omega
      · have : (1 : W).toNat = 1 := rfl
        rw [this, hn]
        exact ⟨0, by push_cast; ring⟩

theorem mul_inv (x k : W) : mul (mul x k) (mulInv k) = x ∧ mul (mul x (mulInv k)) k = x := by
  have h := (mulInv_spec k).2
  obtain ⟨c, hc⟩ := h
  constructor
  · apply num_inj
    obtain ⟨a, ha⟩ := num_mul (mul x k) (mulInv k)
    obtain ⟨b, hb⟩ := num_mul x k
    exact ⟨a + b * num (mulInv k) + num x * c, by linear_combination ha + num (mulInv k) * hb + num x * hc⟩
  · apply num_inj
    obtain ⟨a, ha⟩ := num_mul (mul x (mulInv k)) k
    obtain ⟨b, hb⟩ := num_mul x (mulInv k)
    exact ⟨a + b * num k + num x * c, by linear_combination ha + num k * hb + num x * hc⟩

theorem mulInv_nat (x : W) : ∃ r, mulInv? x = some r ∧ ((if r = 0 then 65536 else r.toNat) * (if x = 0 then 65536 else x.toNat)) % 65537 = 1 := by
  obtain ⟨⟨r, hr⟩, h⟩ := mulInv_spec x
  refine ⟨r, hr, ?_⟩
  have : mulInv x = r := by unfold mulInv; rw [hr]; rfl
  rw [this] at h
  have e : ∀ y : W, num y = ((if y = 0 then 65536 else y.toNat : Nat) : Int) := by
    intro y
    unfold num
    split <;> rfl
  rw [e, e] at h
  have h2 : ((((if r = 0 then 65536 else r.toNat) * (if x = 0 then 65536 else x.toNat) : Nat) : Int) - 1) % 65537 = 0 := by
    apply Int.emod_eq_zero_of_dvd
    push_cast
    push_cast at h
    exact h
  omega

/-! The round structure -/

/-- The key layer. -/
def L (k : W × W × W × W) (s : St) : St := (mul s.1 k.1, s.2.1 + k.2.1, s.2.2.1 + k.2.2.1, mul s.2.2.2 k.2.2.2)
/-- The exchange of the middle words. -/
def P (s : St) : St := (s.1, s.2.2.1, s.2.1, s.2.2.2)
/-- The multiply-add layer. -/
def I (k : W × W) (s : St) : St :=
  let u := mul (s.2.2.1 ^^^ s.1) k.1
  let v := mul ((s.2.1 ^^^ s.2.2.2) + u) k.2
  (s.1 ^^^ v, s.2.1 ^^^ (u + v), s.2.2.1 ^^^ v, s.2.2.2 ^^^ (u + v))

theorem P_P (s : St) : P (P s) = s := rfl
theorem xx (a b c : W) : (a ^^^ c) ^^^ (b ^^^ c) = a ^^^ b := by
  rw [BitVec.xor_assoc, ← BitVec.xor_assoc c, BitVec.xor_comm c b, BitVec.xor_assoc b, BitVec.xor_self]
  congr 1
  exact BitVec.xor_zero
theorem I_I (k : W × W) (s : St) : I k (I k s) = s := by
  obtain ⟨a, b, c, d⟩ := s
  simp only [I, xx]
  generalize mul (c ^^^ a) k.1 = u
  generalize mul ((b ^^^ d) + u) k.2 = v
  simp only [xor_self_right]

theorem round_eq (s : St) (k : W × W × W × W × W × W) :
    round s k = P (I (k.2.2.2.2.1, k.2.2.2.2.2) (L (k.1, k.2.1, k.2.2.1, k.2.2.2.1) s)) := by
  obtain ⟨a, b, c, d⟩ := s
  obtain ⟨k0, k1, k2, k3, k4, k5⟩ := k
  simp only [round, P, I, L]
  generalize mul a k0 = a
  generalize mul d k3 = d
  generalize b + k1 = b
  generalize c + k2 = c
  generalize mul (c ^^^ a) k4 = u
  rw [show mul ((b ^^^ d) + u) k5 ^^^ c = c ^^^ mul ((b ^^^ d) + u) k5 from BitVec.xor_comm _ _,
    show (u + mul ((b ^^^ d) + u) k5) ^^^ b = b ^^^ (u + mul ((b ^^^ d) + u) k5) from BitVec.xor_comm _ _]

/-- The four key words of layer `r`. -/
def Lk (K : List W) (r : Nat) (s : St) : St := L (K.getD (6 * r) 0, K.getD (6 * r + 1) 0, K.getD (6 * r + 2) 0, K.getD (6 * r + 3) 0) s
def Ik (K : List W) (r : Nat) (s : St) : St := I (K.getD (6 * r + 4) 0, K.getD (6 * r + 5) 0) s

theorem fold8 (f : St → Nat → St) (s : St) : (List.range 8).foldl f s = f (f (f (f (f (f (f (f s 0) 1) 2) 3) 4) 5) 6) 7 := rfl

theorem crypt_eq (K : List W) (s : St) : crypt K s =
    Lk K 8 (Ik K 7 (Lk K 7 (P (Ik K 6 (Lk K 6 (P (Ik K 5 (Lk K 5 (P (Ik K 4 (Lk K 4 (P (Ik K 3 (Lk K 3 (P (Ik K 2 (Lk K 2 (P (Ik K 1 (Lk K 1 (P (Ik K 0 (Lk K 0 s))))))))))))))))))))))) := by
  have h : ∀ s r, round s (six K r) = P (Ik K r (Lk K r s)) := fun s r => round_eq s _
  have e : crypt K s = Lk K 8 (P ((List.range 8).foldl (fun s r => round s (six K r)) s)) := rfl
  rw [e, fold8]
  simp only [h, P_P]

theorem L_inv (k0 k1 k2 k3 : W) (s : St) : L (mulInv k0, -k1, -k2, mulInv k3) (L (k0, k1, k2, k3) s) = s := by
  obtain ⟨a, b, c, d⟩ := s
  simp only [L, (mul_inv _ _).1, BitVec.add_assoc, BitVec.add_right_neg]
  refine congr (congrArg _ rfl) (congr (congrArg _ (BitVec.add_zero _)) (congr (congrArg _ (BitVec.add_zero _)) rfl))
theorem L_inv' (k0 k1 k2 k3 : W) (s : St) : L (k0, k1, k2, k3) (L (mulInv k0, -k1, -k2, mulInv k3) s) = s := by
  obtain ⟨a, b, c, d⟩ := s
  simp only [L, (mul_inv _ _).2, BitVec.add_assoc, BitVec.add_left_neg]
  refine congr (congrArg _ rfl) (congr (congrArg _ (BitVec.add_zero _)) (congr (congrArg _ (BitVec.add_zero _)) rfl))
theorem L_P (k0 k1 k2 k3 : W) (s : St) : L (k0, k2, k1, k3) (P s) = P (L (k0, k1, k2, k3) s) := rfl

theorem cancel (L0 L1 L2 L3 L4 L5 L6 L7 L8 M0 M1 M2 M3 M4 M5 M6 M7 M8 I0 I1 I2 I3 I4 I5 I6 I7 P : St → St)
    (hP : ∀ s, P (P s) = s)
    (i0 : ∀ s, I0 (I0 s) = s) (i1 : ∀ s, I1 (I1 s) = s) (i2 : ∀ s, I2 (I2 s) = s) (i3 : ∀ s, I3 (I3 s) = s)
    (i4 : ∀ s, I4 (I4 s) = s) (i5 : ∀ s, I5 (I5 s) = s) (i6 : ∀ s, I6 (I6 s) = s) (i7 : ∀ s, I7 (I7 s) = s)
    (h0 : ∀ s, M8 (L0 s) = s) (h8 : ∀ s, M0 (L8 s) = s)
    (h1 : ∀ s, M7 (P (L1 s)) = P s) (h2 : ∀ s, M6 (P (L2 s)) = P s) (h3 : ∀ s, M5 (P (L3 s)) = P s) (h4 : ∀ s, M4 (P (L4 s)) = P s)
    (h5 : ∀ s, M3 (P (L5 s)) = P s) (h6 : ∀ s, M2 (P (L6 s)) = P s) (h7 : ∀ s, M1 (P (L7 s)) = P s) (s : St) :
    M8 (I0 (M7 (P (I1 (M6 (P (I2 (M5 (P (I3 (M4 (P (I4 (M3 (P (I5 (M2 (P (I6 (M1 (P (I7 (M0 (L8 (I7 (L7 (P (I6 (L6 (P (I5 (L5 (P (I4 (L4 (P (I3 (L3 (P (I2 (L2 (P (I1 (L1 (P (I0 (L0 s))))))))))))))))))))))))))))))))))))))))))))))) = s := by
  rw [h8, i7, h7, hP, i6, h6, hP, i5, h5, hP, i4, h4, hP, i3, h3, hP, i2, h2, hP, i1, h1, hP, i0, h0]

theorem dec_enc (K : List W) (s : St) : crypt (invertKey K) (crypt K s) = s := by
  rw [crypt_eq (invertKey K), crypt_eq K]
  have mid : ∀ r s, L (mulInv (K.getD (6 * r) 0), - K.getD (6 * r + 2) 0, - K.getD (6 * r + 1) 0, mulInv (K.getD (6 * r + 3) 0)) (P (Lk K r s)) = P s := by
    intro r s
    rw [L_P]
    exact congrArg P (L_inv _ _ _ _ s)
  exact cancel (Lk K 0) (Lk K 1) (Lk K 2) (Lk K 3) (Lk K 4) (Lk K 5) (Lk K 6) (Lk K 7) (Lk K 8) _ _ _ _ _ _ _ _ _
    (Ik K 0) (Ik K 1) (Ik K 2) (Ik K 3) (Ik K 4) (Ik K 5) (Ik K 6) (Ik K 7) P P_P (I_I _) (I_I _) (I_I _) (I_I _) (I_I _) (I_I _) (I_I _) (I_I _)
    (L_inv _ _ _ _) (L_inv _ _ _ _) (mid 1) (mid 2) (mid 3) (mid 4) (mid 5) (mid 6) (mid 7) s

theorem enc_dec (K : List W) (s : St) : crypt K (crypt (invertKey K) s) = s := by
  rw [crypt_eq (invertKey K), crypt_eq K]
  have mid : ∀ r s, Lk K r (P (L (mulInv (K.getD (6 * r) 0), - K.getD (6 * r + 2) 0, - K.getD (6 * r + 1) 0, mulInv (K.getD (6 * r + 3) 0)) s)) = P s := by
    intro r s
    rw [← L_P]
    exact L_inv' _ _ _ _ (P s)
  exact cancel _ _ _ _ _ _ _ _ _ (Lk K 0) (Lk K 1) (Lk K 2) (Lk K 3) (Lk K 4) (Lk K 5) (Lk K 6) (Lk K 7) (Lk K 8)
    (Ik K 7) (Ik K 6) (Ik K 5) (Ik K 4) (Ik K 3) (Ik K 2) (Ik K 1) (Ik K 0) P P_P (I_I _) (I_I _) (I_I _) (I_I _) (I_I _) (I_I _) (I_I _) (I_I _)
    (L_inv' _ _ _ _) (L_inv' _ _ _ _) (mid 7) (mid 6) (mid 5) (mid 4) (mid 3) (mid 2) (mid 1) s

theorem implements : Implements newCipher (fun n => n = 16) 8 :=
  implements_of (ok := fun n => n = 16) (f := encrypt) (g := decrypt) fun key _ =>
    isBlock_4BE (w := 16) (sz := 2) 8 rfl rfl (f := crypt (expandKey key)) (g := crypt (invertKey (expandKey key))) (dec_enc _) (enc_dec _)

end Verif.Cipher.Idea
