import Verif.Stream.Trivium
import Verif.Stream.TriviumSpec
import Mathlib.Data.Nat.Bitwise
/-
Theorems about /repo/cipher/trivium.
-/
namespace Verif.Strm.Trivium
open Verif.Mode Verif.Cipher

/-- Bit `n` of the state, counted from 0. -/
def ab (s : Bytes) (n : Nat) : Bool := (s.getD (n / 8) 0).getLsbD (n % 8)

def b2b (b : Bool) : Byte := if b then 1 else 0

theorem b2b_xor (a b : Bool) : b2b a ^^^ b2b b = b2b (a ^^ b) := by cases a <;> cases b <;> rfl
theorem b2b_and (a b : Bool) : b2b a &&& b2b b = b2b (a && b) := by cases a <;> cases b <;> rfl

theorem shr_and_one (x : Byte) (k : Nat) : (x >>> k) &&& 1 = b2b (x.getLsbD k) := by
  apply BitVec.eq_of_getLsbD_eq
  intro i hi
  rw [BitVec.getLsbD_and, BitVec.getLsbD_ushiftRight]
  cases h : x.getLsbD k
  · by_cases h0 : i = 0
    · subst h0; simp [b2b, h]
    · have : (1 : Byte).getLsbD i = false := by
        show (1#8).getLsbD i = false
        rw [BitVec.getLsbD_one]; simp; omega
      rw [this]; simp [b2b]
  · by_cases h0 : i = 0
    · subst h0; simp [b2b, h]
    · have : (1 : Byte).getLsbD i = false := by
        show (1#8).getLsbD i = false
        rw [BitVec.getLsbD_one]; simp; omega
      rw [this]
      show (_ && false) = (1 : Byte).getLsbD i
      rw [this]; simp

theorem getBit_eq (s : Bytes) (n : Nat) : getBit s n = b2b (ab s (n - 1)) := shr_and_one _ _

theorem set_bits (x : Byte) (b : Bool) (k j : Nat) (hk : k < 8) (hj : j < 8) :
    ((x &&& ~~~(1#8 <<< k)) ||| (b2b b <<< k)).getLsbD j = if j = k then b else x.getLsbD j := by
  rw [BitVec.getLsbD_or, BitVec.getLsbD_and, BitVec.getLsbD_not, BitVec.getLsbD_shiftLeft, BitVec.getLsbD_shiftLeft]
  have e : ∀ c : Bool, (b2b c).getLsbD (j - k) = (c && decide (j - k = 0)) := by
    intro c
    cases c
    · simp [b2b]
    · show (1#8).getLsbD _ = _
      rw [BitVec.getLsbD_one]; simp
  rw [e, BitVec.getLsbD_one]
  by_cases h : j = k
  · subst h; simp [hj]
  · rw [if_neg h]
    by_cases h2 : j < k
    · simp [h2, hj]
    · have : ¬ (j - k = 0) := by omega
      simp [this, hj, h2]

theorem getD_set (s : Bytes) (i j : Nat) (v : Byte) (hi : i < s.length) : (s.set i v).getD j 0 = if j = i then v else s.getD j 0 := by
  rw [List.getD_eq_getElem?_getD, List.getD_eq_getElem?_getD, List.getElem?_set]
  by_cases h : i = j
  · subst h; simp [hi]
  · rw [if_neg h, if_neg (fun e => h e.symm)]

theorem ab_setBit (s : Bytes) (hs : s.length = 36) (n : Nat) (hn : n - 1 < 288) (b : Bool) (m : Nat) :
    ab (setBit s n (b2b b)) m = if m = n - 1 then b else ab s m := by
  unfold setBit ab
  rw [getD_set _ _ _ _ (by omega)]
  by_cases h : m / 8 = (n - 1) / 8
  · rw [if_pos h, set_bits _ _ _ _ (Nat.mod_lt _ (by omega)) (Nat.mod_lt _ (by omega))]
    by_cases h2 : m % 8 = (n - 1) % 8
    · rw [if_pos h2, if_pos (by omega)]
    · rw [if_neg h2, if_neg (by omega), h]
  · rw [if_neg h, if_neg (by intro e; rw [e] at h; exact h rfl)]

theorem setBit_length (s : Bytes) (n : Nat) (v : Byte) : (setBit s n v).length = s.length := by simp [setBit]

theorem rotLoop_spec (s : Bytes) (hs : s.length = 36) : ∀ j, j ≤ 35 → (rotLoop j s).length = 36 ∧
    ∀ i, (rotLoop j s).getD i 0 = if 36 - j ≤ i ∧ i < 36 then (s.getD i 0 <<< 1) ||| (s.getD (i - 1) 0 >>> 7) else s.getD i 0
  | 0, _ => ⟨hs, fun i => by rw [if_neg (by omega)]; rfl⟩
  | j + 1, h => by
    obtain ⟨h1, h2⟩ := rotLoop_spec s hs j (by omega)
    refine ⟨by rw [rotLoop, List.length_set, h1], fun i => ?_⟩
    rw [rotLoop, getD_set _ _ _ _ (by rw [h1]; omega)]
    by_cases hi : i = 35 - j
    · rw [if_pos hi, if_pos (by omega), h2, h2, if_neg (by omega), if_neg (by omega), hi]
    · rw [if_neg hi, h2]
      by_cases h3 : 36 - j ≤ i ∧ i < 36
      · rw [if_pos h3, if_pos (by omega)]
      · rw [if_neg h3, if_neg (by omega)]

theorem rotate_length (s : Bytes) (hs : s.length = 36) : (rotate s).length = 36 := by
  rw [rotate, List.length_set, (rotLoop_spec s hs 35 (Nat.le_refl _)).1]

theorem shift_bits (x y : Byte) (j : Nat) (hj : j < 8) :
    ((x <<< 1) ||| (y >>> 7)).getLsbD j = if j = 0 then y.getLsbD 7 else x.getLsbD (j - 1) := by
  rw [BitVec.getLsbD_or, BitVec.getLsbD_shiftLeft, BitVec.getLsbD_ushiftRight]
  by_cases h : j = 0
  · subst h; simp
  · rw [if_neg h, BitVec.getLsbD_of_ge y (7 + j) (by omega)]; simp [hj]; omega

theorem ab_rotate (s : Bytes) (hs : s.length = 36) (m : Nat) (hm : m < 288) :
    ab (rotate s) m = (decide (m ≠ 0) && ab s (m - 1)) := by
  obtain ⟨h1, h2⟩ := rotLoop_spec s hs 35 (Nat.le_refl _)
  unfold rotate ab
  rw [getD_set _ _ _ _ (by rw [h1]; omega)]
  by_cases h0 : m / 8 = 0
  · rw [if_pos h0, h2, if_neg (by omega), BitVec.getLsbD_shiftLeft]
    by_cases hz : m = 0
    · subst hz; simp
    · have e1 : (m - 1) / 8 = 0 := by omega
      have e2 : (m - 1) % 8 = m % 8 - 1 := by omega
      have e3 : ¬ m % 8 < 1 := by omega
      have e4 : m % 8 < 8 := by omega
      simp [hz, e1, e2, e3, e4]
  · rw [if_neg h0, h2, if_pos (by omega), shift_bits _ _ _ (Nat.mod_lt _ (by omega))]
    have hz : m ≠ 0 := by omega
    by_cases hk : m % 8 = 0
    · have e1 : (m - 1) / 8 = m / 8 - 1 := by omega
      have e2 : (m - 1) % 8 = 7 := by omega
      rw [if_pos hk, e1, e2]; simp [hz]
    · have e1 : (m - 1) / 8 = m / 8 := by omega
      have e2 : (m - 1) % 8 = m % 8 - 1 := by omega
      rw [if_neg hk, e1, e2]; simp [hz]

/-- The bytes `s` hold the bits `S`. -/
def Holds (s : Bytes) (S : List Bool) : Prop := s.length = 36 ∧ S.length = 288 ∧ ∀ n, n < 288 → S.getD n false = ab s n

theorem Holds.bit {s : Bytes} {S : List Bool} (h : Holds s S) (n : Nat) (hn : n - 1 < 288) : getBit s n = b2b (TriviumSpec.s S n) := by
  rw [getBit_eq, ← h.2.2 _ hn]; rfl

theorem getD_append' {α : Type} (a b : List α) (n : Nat) (d : α) :
    (a ++ b).getD n d = if n < a.length then a.getD n d else b.getD (n - a.length) d := by
  split
  · rename_i h; simp [List.getD_eq_getElem?_getD, List.getElem?_append_left h]
  · rename_i h; simp [List.getD_eq_getElem?_getD, List.getElem?_append_right (Nat.le_of_not_lt h)]

theorem getD_take' {α : Type} (a : List α) (k n : Nat) (d : α) (h : n < k) : (a.take k).getD n d = a.getD n d := by
  simp [List.getD_eq_getElem?_getD, List.getElem?_take, h]

theorem getD_drop' {α : Type} (a : List α) (k n : Nat) (d : α) : (a.drop k).getD n d = a.getD (k + n) d := by
  simp [List.getD_eq_getElem?_getD]

theorem shiftRegs_getD (S : List Bool) (hS : S.length = 288) (t1 t2 t3 : Bool) (n : Nat) (hn : n < 288) :
    ((t3 :: S.take 92) ++ (t1 :: (S.drop 93).take 83) ++ (t2 :: (S.drop 177).take 110)).getD n false =
      if n = 177 then t2 else if n = 93 then t1 else if n = 0 then t3 else S.getD (n - 1) false := by
  have l1 : (t3 :: S.take 92).length = 93 := by simp [hS]
  have l2 : (t1 :: (S.drop 93).take 83).length = 84 := by simp [hS]
  have hc : ∀ (b : Bool) (l : List Bool) k, (b :: l).getD k false = if k = 0 then b else l.getD (k - 1) false := by
    intro b l k; cases k <;> simp
  rw [getD_append', List.length_append, l1, l2]
  by_cases h : n < 93 + 84
  · rw [if_pos h, getD_append', l1, if_neg (by omega : ¬ n = 177)]
    by_cases h2 : n < 93
    · rw [if_pos h2, if_neg (by omega), hc]
      by_cases h0 : n = 0
      · rw [if_pos h0, if_pos h0]
      · rw [if_neg h0, if_neg h0, getD_take' _ _ _ _ (by omega)]
    · rw [if_neg h2, hc]
      by_cases h0 : n = 93
      · rw [if_pos (by omega), if_pos h0]
      · rw [if_neg (by omega), if_neg h0, if_neg (by omega), getD_take' _ _ _ _ (by omega), getD_drop',
          show 93 + (n - 93 - 1) = n - 1 from by omega]
  · rw [if_neg h, hc]
    by_cases h0 : n = 177
    · rw [if_pos (by omega), if_pos h0]
    · rw [if_neg (by omega), if_neg h0, if_neg (by omega), if_neg (by omega), getD_take' _ _ _ _ (by omega), getD_drop',
        show 177 + (n - (93 + 84) - 1) = n - 1 from by omega]

theorem genBit_holds {s : Bytes} {S : List Bool} (h : Holds s S) :
    (genBit s).1 = b2b (TriviumSpec.step S).1 ∧ Holds (genBit s).2 (TriviumSpec.step S).2 := by
  have hb := fun n hn => h.bit n hn
  constructor
  · simp only [genBit, TriviumSpec.step, hb 66 (by omega), hb 93 (by omega), hb 162 (by omega), hb 177 (by omega),
      hb 243 (by omega), hb 288 (by omega), b2b_xor]
  · simp only [genBit, TriviumSpec.step, hb 66 (by omega), hb 93 (by omega), hb 162 (by omega), hb 177 (by omega),
      hb 243 (by omega), hb 288 (by omega), hb 91 (by omega), hb 92 (by omega), hb 171 (by omega), hb 175 (by omega),
      hb 176 (by omega), hb 264 (by omega), hb 286 (by omega), hb 287 (by omega), hb 69 (by omega), b2b_xor, b2b_and]
    generalize (TriviumSpec.s S 66 ^^ TriviumSpec.s S 93 ^^ (TriviumSpec.s S 91 && TriviumSpec.s S 92) ^^ TriviumSpec.s S 171) = t1
    generalize (TriviumSpec.s S 162 ^^ TriviumSpec.s S 177 ^^ (TriviumSpec.s S 175 && TriviumSpec.s S 176) ^^ TriviumSpec.s S 264) = t2
    generalize (TriviumSpec.s S 243 ^^ TriviumSpec.s S 288 ^^ (TriviumSpec.s S 286 && TriviumSpec.s S 287) ^^ TriviumSpec.s S 69) = t3
    have lr := rotate_length s h.1
    refine ⟨by simp [setBit_length, lr], by simp [h.2.1], fun n hn => ?_⟩
    rw [shiftRegs_getD S h.2.1 t1 t2 t3 n hn, ab_setBit _ (by simp [setBit_length, lr]) _ (by omega),
      ab_setBit _ (by simp [setBit_length, lr]) _ (by omega), ab_setBit _ lr _ (by omega), ab_rotate s h.1 n hn]
    by_cases h1 : n = 177
    · rw [if_pos h1, if_pos h1]
    · rw [if_neg h1, if_neg h1]
      by_cases h2 : n = 93
      · rw [if_pos h2, if_pos h2]
      · rw [if_neg h2, if_neg h2]
        by_cases h3 : n = 0
        · rw [if_pos h3, if_pos h3]
        · rw [if_neg h3, if_neg h3, h.2.2 _ (by omega)]; simp [h3]

theorem run_holds {s : Bytes} {S : List Bool} (h : Holds s S) : ∀ n, Holds (iterate (fun s => (genBit s).2) n s) (TriviumSpec.run n S)
  | 0 => h
  | n + 1 => by rw [iterate_succ]; exact (genBit_holds (run_holds h n)).2

/-! ### The initial state -/

theorem loadLoop_spec (base : Nat) (k s : Bytes) (hs : s.length = 36) (hb : base + 10 ≤ 36) : ∀ n, n ≤ 10 →
    (loadLoop base k n s).length = 36 ∧ ∀ i, (loadLoop base k n s).getD i 0 =
      if base ≤ i ∧ i < base + n then reverseInt8 (k.getD (9 - (i - base)) 0) else s.getD i 0
  | 0, _ => ⟨hs, fun i => by rw [if_neg (by omega)]; rfl⟩
  | n + 1, h => by
    obtain ⟨h1, h2⟩ := loadLoop_spec base k s hs hb n (by omega)
    refine ⟨by rw [loadLoop, List.length_set, h1], fun i => ?_⟩
    rw [loadLoop, getD_set _ _ _ _ (by rw [h1]; omega)]
    by_cases hi : i = base + n
    · rw [if_pos hi, if_pos (by omega)]; congr 2; omega
    · rw [if_neg hi, h2]
      by_cases h3 : base ≤ i ∧ i < base + n
      · rw [if_pos h3, if_pos (by omega)]
      · rw [if_neg h3, if_neg (by omega)]

theorem shiftLoop_spec (s : Bytes) (hs : s.length = 36) : ∀ n, n ≤ 11 → (shiftLoop n s).length = 36 ∧
    ∀ i, (shiftLoop n s).getD i 0 = if 11 ≤ i ∧ i < 11 + n then (s.getD (i + 1) 0 <<< 5) ||| (s.getD i 0 >>> 3) else s.getD i 0
  | 0, _ => ⟨hs, fun i => by rw [if_neg (by omega)]; rfl⟩
  | n + 1, h => by
    obtain ⟨h1, h2⟩ := shiftLoop_spec s hs n (by omega)
    refine ⟨by rw [shiftLoop, List.length_set, h1], fun i => ?_⟩
    rw [shiftLoop, getD_set _ _ _ _ (by rw [h1]; omega)]
    by_cases hi : i = 11 + n
    · rw [if_pos hi, if_pos (by omega), h2, h2, if_neg (by omega), if_neg (by omega), hi]
    · rw [if_neg hi, h2]
      by_cases h3 : 11 ≤ i ∧ i < 11 + n
      · rw [if_pos h3, if_pos (by omega)]
      · rw [if_neg h3, if_neg (by omega)]

theorem shift5_bits (x y : Byte) (j : Nat) (hj : j < 8) :
    ((x <<< 5) ||| (y >>> 3)).getLsbD j = if j < 5 then y.getLsbD (j + 3) else x.getLsbD (j - 5) := by
  rw [BitVec.getLsbD_or, BitVec.getLsbD_shiftLeft, BitVec.getLsbD_ushiftRight]
  by_cases h : j < 5
  · rw [if_pos h]; simp [h, Nat.add_comm]
  · rw [if_neg h, BitVec.getLsbD_of_ge y (3 + j) (by omega)]; simp [h, hj]

theorem reverseInt8_bits : ∀ (n : Fin 256) (j : Fin 8), (reverseInt8 (BitVec.ofFin n)).getLsbD j = (BitVec.ofFin n : Byte).getLsbD (7 - j) := by
  decide +kernel

theorem reverseInt8_getLsbD (v : Byte) (j : Nat) (hj : j < 8) : (reverseInt8 v).getLsbD j = v.getLsbD (7 - j) :=
  reverseInt8_bits v.toFin ⟨j, hj⟩

theorem leN_testBit : ∀ (k : Bytes) (i : Nat), (leN k).testBit i = (k.getD (i / 8) 0).getLsbD (i % 8)
  | [], i => by simp [leN]
  | b :: bs, i => by
    rw [leN, show b.toNat + 256 * leN bs = 2 ^ 8 * leN bs + b.toNat from by omega,
      Nat.testBit_two_pow_mul_add _ (by simpa using b.isLt)]
    by_cases h : i < 8
    · rw [if_pos h, Nat.div_eq_of_lt h, Nat.mod_eq_of_lt h]; rfl
    · rw [if_neg h, leN_testBit bs (i - 8)]
      have e1 : i / 8 = (i - 8) / 8 + 1 := by omega
      have e2 : (i - 8) % 8 = i % 8 := by omega
      rw [e1, e2]; rfl

/-- The bit of the loaded key at position `n`. -/
theorem loaded_bit (k : Bytes) (n : Nat) (hn : n < 80) :
    (reverseInt8 (k.getD (9 - n / 8) 0)).getLsbD (n % 8) = (TriviumSpec.bits80 k).getD n false := by
  rw [reverseInt8_getLsbD _ _ (Nat.mod_lt _ (by omega)), TriviumSpec.bits80]
  have : ((List.range 80).map fun i => (leN k).testBit (79 - i)).getD n false = (leN k).testBit (79 - n) := by
    rw [List.getD_eq_getElem?_getD, List.getElem?_map, List.getElem?_range hn]; rfl
  rw [this]
  rw [leN_testBit]
  have e1 : (79 - n) / 8 = 9 - n / 8 := by omega
  have e2 : (79 - n) % 8 = 7 - n % 8 := by omega
  rw [e1, e2]

theorem getD_replicate' (k n : Nat) : (List.replicate k false).getD n false = false := by
  rw [List.getD_eq_getElem?_getD, List.getElem?_replicate]; split <;> rfl

theorem init_getD (key iv : Bytes) (n : Nat) (hn : n < 288) : (TriviumSpec.init key iv).getD n false =
    if n = 287 then true else if n = 286 then true else if n = 285 then true else
    if n < 80 then (TriviumSpec.bits80 key).getD n false else
    if 93 ≤ n ∧ n < 173 then (TriviumSpec.bits80 iv).getD (n - 93) false else false := by
  have lk : ∀ k, (TriviumSpec.bits80 k).length = 80 := fun k => by simp [TriviumSpec.bits80]
  unfold TriviumSpec.init
  rw [getD_append', getD_append', getD_append', getD_append', getD_append']
  simp only [List.length_append, lk, List.length_replicate, getD_replicate']
  by_cases h1 : n < 80
  · rw [if_pos (by omega), if_pos (by omega), if_pos (by omega), if_neg (by omega), if_neg (by omega), if_neg (by omega), if_pos h1]
  · by_cases h2 : n < 93
    · rw [if_pos (by omega), if_pos (by omega), if_neg h1, if_neg (by omega), if_neg (by omega), if_neg (by omega), if_neg h1,
        if_neg (by omega)]
    · by_cases h3 : n < 173
      · rw [if_pos (by omega), if_neg (by omega), if_pos (by omega), if_neg (by omega), if_neg (by omega), if_neg (by omega),
          if_neg h1, if_pos (by omega)]
      · by_cases h4 : n < 177
        · rw [if_pos (by omega), if_neg (by omega), if_neg (by omega), if_neg (by omega), if_neg (by omega), if_neg (by omega),
            if_neg h1, if_neg (by omega)]
        · by_cases h5 : n < 285
          · rw [if_neg (by omega), if_pos (by omega), if_neg (by omega), if_neg (by omega), if_neg (by omega), if_neg h1, if_neg (by omega)]
          · rw [if_neg (by omega), if_neg (by omega)]
            obtain h | h | h : n = 285 ∨ n = 286 ∨ n = 287 := by omega
            all_goals (subst h; rfl)

theorem load_holds (key iv : Bytes) : Holds (load key iv) (TriviumSpec.init key iv) := by
  obtain ⟨a1, a2⟩ := loadLoop_spec 0 key (List.replicate 36 0) (by simp) (by omega) 10 (Nat.le_refl _)
  obtain ⟨b1, b2⟩ := loadLoop_spec 12 iv _ a1 (by omega) 10 (Nat.le_refl _)
  obtain ⟨c1, c2⟩ := shiftLoop_spec _ b1 11 (Nat.le_refl _)
  refine ⟨by simp only [load, setBit_length]; exact c1, by simp [TriviumSpec.init, TriviumSpec.bits80], fun n hn => ?_⟩
  have z : ∀ i, (List.replicate 36 (0 : Byte)).getD i 0 = 0 := by
    intro i; rw [List.getD_eq_getElem?_getD, List.getElem?_replicate]; split <;> rfl
  have e1 : (1 : Byte) = b2b true := rfl
  rw [init_getD key iv n hn, load, e1, ab_setBit _ (by simp only [setBit_length]; exact c1) _ (by omega),
    ab_setBit _ (by simp only [setBit_length]; exact c1) _ (by omega), ab_setBit _ c1 _ (by omega)]
  by_cases h1 : n = 287
  · rw [if_pos h1, if_pos h1]
  rw [if_neg h1, if_neg h1]
  by_cases h2 : n = 286
  · rw [if_pos h2, if_pos h2]
  rw [if_neg h2, if_neg h2]
  by_cases h3 : n = 285
  · rw [if_pos h3, if_pos h3]
  rw [if_neg h3, if_neg h3]
  -- what the bytes hold before the shift
  have hB : ∀ i, (loadLoop 12 iv 10 (loadLoop 0 key 10 (List.replicate 36 0))).getD i 0 =
      if 12 ≤ i ∧ i < 22 then reverseInt8 (iv.getD (9 - (i - 12)) 0) else if i < 10 then reverseInt8 (key.getD (9 - i) 0) else 0 := by
    intro i
    rw [b2, a2, z]
    by_cases h : 12 ≤ i ∧ i < 22
    · rw [if_pos h, if_pos h]
    · rw [if_neg h, if_neg h]
      by_cases h' : i < 10
      · rw [if_pos (by omega), if_pos h', Nat.sub_zero]
      · rw [if_neg (by omega), if_neg h']
  have zb : ∀ j, (0 : Byte).getLsbD j = false := fun j => BitVec.getLsbD_zero
  unfold ab
  rw [c2]
  by_cases h4 : n < 80
  · rw [if_pos h4, if_neg (by omega), hB, if_neg (by omega), if_pos (by omega), loaded_bit _ _ h4]
  rw [if_neg h4]
  by_cases h5 : 11 ≤ n / 8 ∧ n / 8 < 11 + 11
  · rw [if_pos h5, shift5_bits _ _ _ (Nat.mod_lt _ (by omega)), hB, hB]
    by_cases h6 : 93 ≤ n ∧ n < 173
    · rw [if_pos h6, ← loaded_bit iv (n - 93) (by omega)]
      by_cases h7 : n % 8 < 5
      · rw [if_pos h7, if_pos (by omega), show (n - 93) / 8 = n / 8 - 12 from by omega, show (n - 93) % 8 = n % 8 + 3 from by omega]
      · rw [if_neg h7, if_pos (by omega), show (n - 93) / 8 = n / 8 + 1 - 12 from by omega, show (n - 93) % 8 = n % 8 - 5 from by omega]
    · rw [if_neg h6]
      by_cases h7 : n % 8 < 5
      · rw [if_pos h7, if_neg (by omega), if_neg (by omega), zb]
      · rw [if_neg h7, if_neg (by omega), if_neg (by omega), zb]
  · rw [if_neg h5, hB, if_neg (by omega), if_neg (by omega), if_neg (by omega), zb]

/-! ### Bytes -/

attribute [local irreducible] genBit

theorem byteLoop_state (s : Bytes) : ∀ n, (byteLoop n s).2 = iterate (fun s => (genBit s).2) n s
  | 0 => rfl
  | n + 1 => by rw [byteLoop, iterate_succ, byteLoop_state s n]

theorem gen_state (s : Bytes) (i : Nat) : iterate (fun s => (gen s).2) i s = iterate (fun s => (genBit s).2) (8 * i) s := by
  induction i with
  | zero => rfl
  | succ i ih => rw [iterate_succ, ih, gen, byteLoop_state, ← iterate_add, Nat.mul_succ]

theorem pack8 : ∀ b0 b1 b2 b3 b4 b5 b6 b7 : Bool,
    (((((((((0 : Byte) ||| (b2b b0 <<< 0)) ||| (b2b b1 <<< 1)) ||| (b2b b2 <<< 2)) ||| (b2b b3 <<< 3)) ||| (b2b b4 <<< 4)) |||
      (b2b b5 <<< 5)) ||| (b2b b6 <<< 6)) ||| (b2b b7 <<< 7)) =
    BitVec.ofNat 8 ([b0.toNat * 2 ^ 0, b1.toNat * 2 ^ 1, b2.toNat * 2 ^ 2, b3.toNat * 2 ^ 3, b4.toNat * 2 ^ 4, b5.toNat * 2 ^ 5,
      b6.toNat * 2 ^ 6, b7.toNat * 2 ^ 7].sum) := by
  decide +kernel

theorem genByte_eq' (N : Nat) {s : Bytes} {S : List Bool} (h : Holds s S) (i : Nat) :
    genByte gen (iterate (fun s => (genBit s).2) N s) i =
      BitVec.ofNat 8 (((List.range 8).map fun j => (TriviumSpec.step (TriviumSpec.run (N + (8 * i + j)) S)).1.toNat * 2 ^ j).sum) := by
  have hb : ∀ j, (genBit (iterate (fun s => (genBit s).2) j (iterate (fun s => (gen s).2) i (iterate (fun s => (genBit s).2) N s)))).1 =
      b2b (TriviumSpec.step (TriviumSpec.run (N + (8 * i + j)) S)).1 := by
    intro j
    rw [gen_state, ← iterate_add, ← iterate_add]
    exact (genBit_holds (run_holds h (N + (8 * i + j)))).1
  rw [genByte]
  generalize iterate (fun s => (gen s).2) i (iterate (fun s => (genBit s).2) N s) = s' at hb
  have e : (gen s').1 = (((((((((0 : Byte) ||| ((genBit (iterate (fun s => (genBit s).2) 0 s')).1 <<< 0)) |||
      ((genBit (iterate (fun s => (genBit s).2) 1 s')).1 <<< 1)) ||| ((genBit (iterate (fun s => (genBit s).2) 2 s')).1 <<< 2)) |||
      ((genBit (iterate (fun s => (genBit s).2) 3 s')).1 <<< 3)) ||| ((genBit (iterate (fun s => (genBit s).2) 4 s')).1 <<< 4)) |||
      ((genBit (iterate (fun s => (genBit s).2) 5 s')).1 <<< 5)) ||| ((genBit (iterate (fun s => (genBit s).2) 6 s')).1 <<< 6)) |||
      ((genBit (iterate (fun s => (genBit s).2) 7 s')).1 <<< 7)) := rfl
  rw [e, hb 0, hb 1, hb 2, hb 3, hb 4, hb 5, hb 6, hb 7, pack8]
  rfl

theorem genByte_eq (key iv : Bytes) (i : Nat) : genByte gen (expandKey key iv) i = TriviumSpec.keystream key iv i :=
  genByte_eq' (4 * 288) (load_holds key iv) i

/-- C132 for Trivium, and C133: the object `NewCipher` returns for a 10-byte key and a 10-byte IV is a stream cipher whose
key stream is Trivium's, at every position; other lengths are refused. -/
theorem C133_trivium (key iv : Bytes) :
    (key.length = 10 ∧ iv.length = 10 → ∃ o, newCipher key iv = .ok o ∧ IsStream Any xorKS o (TriviumSpec.keystream key iv)) ∧
    (¬ (key.length = 10 ∧ iv.length = 10) → newCipher key iv = .err) := by
  constructor
  · rintro ⟨hk, hi⟩
    refine ⟨expandKey key iv, ?_, ?_⟩
    · unfold newCipher; rw [if_neg (by omega), if_neg (by omega)]
    · have h := byteStep_stream gen (expandKey key iv)
      rw [show genByte gen (expandKey key iv) = TriviumSpec.keystream key iv from funext (genByte_eq key iv)] at h
      exact h
  · intro hn
    unfold newCipher
    by_cases hk : key.length = 10
    · rw [if_neg (by omega), if_pos (by omega)]
    · rw [if_pos hk]

example : ∃ o, newCipher (hx 10 0x80000000000000000000) (hx 10 0x12345678901234567890) = .ok o := ⟨_, rfl⟩

end Verif.Strm.Trivium
