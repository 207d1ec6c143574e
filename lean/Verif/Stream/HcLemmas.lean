import Verif.Stream.Hc
import Verif.Stream.HcSpec
/-
The sixteen-word caches and the unrolled blocks of /repo/cipher/hc against the recurrences.
-/
namespace Verif.Strm.Hc
open Verif.Mode Verif.Cipher

theorem at_set (l : List W) (i j : Nat) (v : W) (hi : i < l.length) : at' (l.set i v) j = if j = i then v else at' l j := by
  unfold at'
  rw [List.getD_eq_getElem?_getD, List.getD_eq_getElem?_getD, List.getElem?_set]
  by_cases h : i = j
  · subst h; simp [hi]
  · rw [if_neg h, if_neg (fun e => h e.symm)]

/-- The recurrence for one table. -/
def newVal (N : Nat) (u : Upd) (Q : List W) (j : Nat) (P : List W) : W :=
  u Q (at' P j) (at' P ((j + N - 3) % N)) (at' P ((j + N - 10) % N)) (at' P ((j + N - 12) % N)) (at' P ((j + 1) % N))

def sOut (N : Nat) (h : W → List W → W) (Q : List W) (j : Nat) (P : List W) : W := h (at' P ((j + N - 12) % N)) Q ^^^ at' P j

/-- The table after `x` steps from index `i`. -/
def sP (N : Nat) (u : Upd) (Q : List W) (i : Nat) : Nat → List W → List W
  | 0, P => P
  | x + 1, P => (sP N u Q i x P).set (i + x) (newVal N u Q (i + x) (sP N u Q i x P))

theorem sP_zero (N : Nat) (u : Upd) (Q : List W) (i : Nat) (P : List W) : sP N u Q i 0 P = P := rfl

theorem sP_length (N : Nat) (u : Upd) (Q : List W) (i x : Nat) (P : List W) : (sP N u Q i x P).length = P.length := by
  induction x with
  | zero => rfl
  | succ x ih => rw [sP, List.length_set, ih]

/-- The table with its cache, `x` cells into a block that starts at `i`. -/
structure Inv (N : Nat) (u : Upd) (h : W → List W → W) (Q P0 : List W) (i x : Nat) (t : Tab) : Prop where
  tab : t.P = sP N u Q i x P0
  lenP : t.P.length = N
  lenX : t.X.length = 16
  lenB : t.blk.length = 16
  cache : ∀ k, k < 16 → at' t.X k = if k < x then at' t.P (i + k) else at' t.P ((i + k + N - 16) % N)
  out : ∀ k, k < x → at' t.blk k = sOut N h Q (i + k) (sP N u Q i (k + 1) P0)

theorem mod_cases (a N : Nat) (ha : a < 2 * N) : a % N = if a < N then a else a - N := by
  split
  · rename_i h; exact Nat.mod_eq_of_lt h
  · rename_i h; rw [Nat.mod_eq_sub_mod (by omega), Nat.mod_eq_of_lt (by omega)]

/-- A cached value is the table's: `d` back, `1 ≤ d ≤ 15`. -/
theorem Inv.cached {N : Nat} {u : Upd} {h : W → List W → W} {Q P0 : List W} {i x : Nat} {t : Tab} (I : Inv N u h Q P0 i x t)
    (hN : 32 ≤ N) (hi : i + 16 ≤ N) (hx : x < 16) (d : Nat) (h1 : 1 ≤ d) (h2 : d ≤ 15) :
    at' t.X ((x + (16 - d)) % 16) = at' t.P ((i + x + N - d) % N) := by
  rw [I.cache _ (Nat.mod_lt _ (by omega)), mod_cases (x + (16 - d)) 16 (by omega), mod_cases (i + x + N - d) N (by omega)]
  by_cases hd : x + (16 - d) < 16
  · rw [if_pos hd, if_neg (by omega), mod_cases _ N (by omega)]
    congr 1
    split <;> split <;> omega
  · rw [if_neg hd, if_pos (by omega)]
    congr 1
    split <;> omega

theorem cell_inv {N : Nat} {u : Upd} {h : W → List W → W} {Q P0 : List W} {i x : Nat} {t : Tab} (I : Inv N u h Q P0 i x t)
    (hN : 32 ≤ N) (hi : i + 16 ≤ N) (hx : x < 16) (nx : Nat) (hnx : nx = (i + x + 1) % N) :
    Inv N u h Q P0 i (x + 1) (cell u h Q i nx x t) := by
  have c3 := I.cached hN hi hx 3 (by omega) (by omega)
  have c10 := I.cached hN hi hx 10 (by omega) (by omega)
  have c12 := I.cached hN hi hx 12 (by omega) (by omega)
  simp only [Nat.reduceSub] at c3 c10 c12
  have hv : u Q (at' t.P (i + x)) (at' t.X ((x + 13) % 16)) (at' t.X ((x + 6) % 16)) (at' t.X ((x + 4) % 16)) (at' t.P nx) =
      newVal N u Q (i + x) t.P := by
    rw [c3, c10, c12, hnx]; rfl
  unfold cell
  rw [hv]
  have hP : t.P.set (i + x) (newVal N u Q (i + x) t.P) = sP N u Q i (x + 1) P0 := by rw [sP, ← I.tab]
  refine ⟨hP, by simp [I.lenP], by simp [I.lenX], by simp [I.lenB], ?_, ?_⟩
  · intro k hk
    rw [at_set _ _ _ _ (by rw [I.lenX]; omega)]
    by_cases hkx : k = x
    · subst hkx
      rw [if_pos rfl, if_pos (by omega), at_set _ _ _ _ (by rw [I.lenP]; omega), if_pos rfl]
    · rw [if_neg hkx, I.cache k hk]
      by_cases hl : k < x
      · rw [if_pos hl, if_pos (by omega), at_set _ _ _ _ (by rw [I.lenP]; omega), if_neg (by omega)]
      · rw [if_neg hl, if_neg (by omega), at_set _ _ _ _ (by rw [I.lenP]; omega), if_neg]
        rw [mod_cases _ N (by omega)]; split <;> omega
  · intro k hk
    show at' (t.blk.set x _) k = _
    rw [at_set _ _ _ _ (by rw [I.lenB]; omega)]
    by_cases hkx : k = x
    · subst hkx
      rw [if_pos rfl, ← hP, sOut, at_set _ _ _ _ (by rw [I.lenX]; omega), if_neg (by omega), c12]
      congr 2
      rw [at_set _ _ _ _ (by rw [I.lenP]; omega), if_neg]
      rw [mod_cases _ N (by omega)]; split <;> omega
    · rw [if_neg hkx]; exact I.out k (by omega)

theorem cells_inv {N : Nat} {u : Upd} {h : W → List W → W} {Q P0 : List W} {i : Nat} {t : Tab} (I : Inv N u h Q P0 i 0 t)
    (hN : 32 ≤ N) (hi : i + 16 ≤ N) : ∀ n, n ≤ 15 → Inv N u h Q P0 i n (cells u h Q i n t)
  | 0, _ => I
  | n + 1, hn => cell_inv (cells_inv I hN hi n (by omega)) hN hi (by omega) _ (by rw [Nat.mod_eq_of_lt (by omega)]; omega)

theorem genBlock_inv {N : Nat} {u : Upd} {h : W → List W → W} {Q P0 : List W} {i : Nat} {t : Tab} (I : Inv N u h Q P0 i 0 t)
    (hN : 32 ≤ N) (hi : i + 16 ≤ N) : Inv N u h Q P0 i 16 (genBlock N u h Q i t) := by
  apply cell_inv (cells_inv I hN hi 15 (Nat.le_refl _)) hN hi (by omega)
  by_cases he : i = N - 16
  · rw [if_pos he, he, show N - 16 + 15 + 1 = N from by omega, Nat.mod_self]
  · rw [if_neg he, Nat.mod_eq_of_lt (by omega), Nat.add_right_comm]

/-! ### Both tables -/

/-- One step of the recurrences. -/
def sStep (N : Nat) (uP uQ : Upd) (h : W → List W → W) (i : Nat) (T : HcSpec.Tables) : HcSpec.Tables × W :=
  if i % (2 * N) < N then
    let P := T.P.set (i % N) (newVal N uP T.Q (i % N) T.P)
    (⟨P, T.Q⟩, sOut N h T.Q (i % N) P)
  else
    let Q := T.Q.set (i % N) (newVal N uQ T.P (i % N) T.Q)
    (⟨T.P, Q⟩, sOut N h T.P (i % N) Q)

/-- `n` steps from step `i`. -/
def sRun (f : Nat → HcSpec.Tables → HcSpec.Tables) (i : Nat) : Nat → HcSpec.Tables → HcSpec.Tables
  | 0, T => T
  | n + 1, T => f (i + n) (sRun f i n T)

theorem runInit_add (f : Nat → HcSpec.Tables → HcSpec.Tables) (a n : Nat) (T : HcSpec.Tables) :
    HcSpec.runInit f (a + n) T = sRun f a n (HcSpec.runInit f a T) := by
  induction n with
  | zero => rfl
  | succ n ih => show f (a + n) (HcSpec.runInit f (a + n) T) = f (a + n) _; rw [ih]

theorem runInit_congr (f g : Nat → HcSpec.Tables → HcSpec.Tables) (n : Nat) (h : ∀ i T, f i T = g i T) (T : HcSpec.Tables) :
    HcSpec.runInit f n T = HcSpec.runInit g n T := by
  have : f = g := by funext i T; exact h i T
  rw [this]

/-- `T` are the tables of the object after `16 b` steps. -/
structure Rel (N b : Nat) (s : St) (T : HcSpec.Tables) : Prop where
  P : s.P = T.P
  Q : s.Q = T.Q
  lenP : s.P.length = N
  lenQ : s.Q.length = N
  lenX : s.X.length = 16
  lenY : s.Y.length = 16
  lenB : s.blk.length = 16
  words : s.words = 16 * b % (2 * N)
  cacheX : ∀ k, k < 16 → at' s.X k = at' s.P (((if s.words < N then s.words else 0) + k + N - 16) % N)
  cacheY : ∀ k, k < 16 → at' s.Y k = at' s.Q (((if s.words < N then 0 else s.words - N) + k + N - 16) % N)

theorem sRun_P (N : Nat) (uP uQ : Upd) (h : W → List W → W) (i w : Nat) (T : HcSpec.Tables) (hw : i % (2 * N) = w) (hl : w + 16 ≤ N) :
    ∀ x, x ≤ 16 → sRun (fun i T => (sStep N uP uQ h i T).1) i x T = ⟨sP N uP T.Q w x T.P, T.Q⟩ ∧
      (∀ k, k < x → (sStep N uP uQ h (i + k) (sRun (fun i T => (sStep N uP uQ h i T).1) i k T)).2 =
        sOut N h T.Q (w + k) (sP N uP T.Q w (k + 1) T.P))
  | 0, _ => ⟨rfl, fun k hk => absurd hk (Nat.not_lt_zero k)⟩
  | x + 1, hx => by
    obtain ⟨h1, h2⟩ := sRun_P N uP uQ h i w T hw hl x (by omega)
    have e : (i + x) % (2 * N) = w + x := by
      rw [Nat.add_mod, hw, Nat.mod_eq_of_lt (a := x) (by omega), Nat.mod_eq_of_lt (by omega)]
    have e2 : (i + x) % N = w + x := by
      rw [← Nat.mod_mod_of_dvd (i + x) (Nat.dvd_mul_left N 2), e, Nat.mod_eq_of_lt (by omega)]
    have hs : sStep N uP uQ h (i + x) ⟨sP N uP T.Q w x T.P, T.Q⟩ =
        (⟨sP N uP T.Q w (x + 1) T.P, T.Q⟩, sOut N h T.Q (w + x) (sP N uP T.Q w (x + 1) T.P)) := by
      unfold sStep; rw [if_pos (by omega), e2]; rfl
    refine ⟨?_, ?_⟩
    · show (sStep N uP uQ h (i + x) (sRun _ i x T)).1 = _
      rw [h1, hs]
    · intro k hk
      by_cases hkx : k = x
      · subst hkx; rw [h1, hs]
      · exact h2 k (by omega)

theorem sRun_Q (N : Nat) (uP uQ : Upd) (h : W → List W → W) (i w : Nat) (T : HcSpec.Tables) (hw : i % (2 * N) = N + w) (hl : w + 16 ≤ N) :
    ∀ x, x ≤ 16 → sRun (fun i T => (sStep N uP uQ h i T).1) i x T = ⟨T.P, sP N uQ T.P w x T.Q⟩ ∧
      (∀ k, k < x → (sStep N uP uQ h (i + k) (sRun (fun i T => (sStep N uP uQ h i T).1) i k T)).2 =
        sOut N h T.P (w + k) (sP N uQ T.P w (k + 1) T.Q))
  | 0, _ => ⟨rfl, fun k hk => absurd hk (Nat.not_lt_zero k)⟩
  | x + 1, hx => by
    obtain ⟨h1, h2⟩ := sRun_Q N uP uQ h i w T hw hl x (by omega)
    have e : (i + x) % (2 * N) = N + w + x := by
      rw [Nat.add_mod, hw, Nat.mod_eq_of_lt (a := x) (by omega), Nat.mod_eq_of_lt (by omega)]
    have e2 : (i + x) % N = w + x := by
      rw [← Nat.mod_mod_of_dvd (i + x) (Nat.dvd_mul_left N 2), e, Nat.add_assoc, Nat.add_mod_left, Nat.mod_eq_of_lt (by omega)]
    have hs : sStep N uP uQ h (i + x) ⟨T.P, sP N uQ T.P w x T.Q⟩ =
        (⟨T.P, sP N uQ T.P w (x + 1) T.Q⟩, sOut N h T.P (w + x) (sP N uQ T.P w (x + 1) T.Q)) := by
      unfold sStep; rw [if_neg (by omega), e2]; rfl
    refine ⟨?_, ?_⟩
    · show (sStep N uP uQ h (i + x) (sRun _ i x T)).1 = _
      rw [h1, hs]
    · intro k hk
      by_cases hkx : k = x
      · subst hkx; rw [h1, hs]
      · exact h2 k (by omega)

attribute [local irreducible] genBlock sP sOut sRun newVal

/-- One block of the code is sixteen steps of the recurrences, and its words are their outputs. -/
theorem generate_rel {N b : Nat} {uP uQ : Upd} {h : W → List W → W} {s : St} {T : HcSpec.Tables} (R : Rel N b s T)
    (hN : 32 ≤ N) (h16 : N % 16 = 0) :
    Rel N (b + 1) (generate N uP uQ h s) (sRun (fun i T => (sStep N uP uQ h i T).1) (16 * b) 16 T) ∧
    ∀ k, k < 16 → at' (generate N uP uQ h s).blk k =
      (sStep N uP uQ h (16 * b + k) (sRun (fun i T => (sStep N uP uQ h i T).1) (16 * b) k T)).2 := by
  have hw := R.words
  have hwm : s.words % 16 = 0 := by
    rw [hw, Nat.mod_mod_of_dvd _ (show 16 ∣ 2 * N from Nat.dvd_of_mod_eq_zero (by omega))]; omega
  have hwl : s.words < 2 * N := by rw [hw]; exact Nat.mod_lt _ (by omega)
  have hnext : 16 * (b + 1) % (2 * N) = if s.words + 16 = 2 * N then 0 else s.words + 16 := by
    rw [Nat.mul_add, Nat.mul_one, Nat.add_mod, ← hw, Nat.mod_eq_of_lt (a := 16) (by omega)]
    split
    · rename_i he; rw [he, Nat.mod_self]
    · exact Nat.mod_eq_of_lt (by omega)
  unfold generate
  by_cases hlt : s.words < N
  · rw [if_pos hlt]
    have hl16 : s.words + 16 ≤ N := by omega
    have I0 : Inv N uP h s.Q s.P s.words 0 ⟨s.P, s.X, s.blk⟩ := by
      refine ⟨(sP_zero ..).symm, R.lenP, R.lenX, R.lenB, ?_, fun k hk => absurd hk (Nat.not_lt_zero k)⟩
      intro k hk
      rw [if_neg (Nat.not_lt_zero k)]
      have := R.cacheX k hk
      rw [if_pos hlt] at this; exact this
    have I := genBlock_inv I0 hN hl16
    obtain ⟨r1, r2⟩ := sRun_P N uP uQ h (16 * b) s.words T hw.symm hl16 16 (Nat.le_refl _)
    refine ⟨?_, ?_⟩
    · rw [r1]
      refine ⟨?_, R.Q, I.lenP, R.lenQ, I.lenX, R.lenY, I.lenB, ?_, ?_, ?_⟩
      · show (genBlock N uP h s.Q s.words ⟨s.P, s.X, s.blk⟩).P = sP N uP T.Q s.words 16 T.P
        rw [I.tab, R.P, R.Q]
      · rw [hnext, if_neg (by omega)]
      · intro k hk
        show at' (genBlock N uP h s.Q s.words ⟨s.P, s.X, s.blk⟩).X k = at' (genBlock N uP h s.Q s.words ⟨s.P, s.X, s.blk⟩).P _
        rw [I.cache k hk, if_pos hk]
        congr 1
        show _ = ((if s.words + 16 < N then s.words + 16 else 0) + k + N - 16) % N
        by_cases he : s.words + 16 < N
        · rw [if_pos he, show s.words + 16 + k + N - 16 = s.words + k + N from by omega, Nat.add_mod_right, Nat.mod_eq_of_lt (by omega)]
        · rw [if_neg he, Nat.mod_eq_of_lt (by omega)]; omega
      · intro k hk
        have := R.cacheY k hk
        rw [if_pos hlt] at this
        show at' s.Y k = at' s.Q (((if s.words + 16 < N then 0 else s.words + 16 - N) + k + N - 16) % N)
        rw [this]
        by_cases he : s.words + 16 < N
        · rw [if_pos he]
        · rw [if_neg he, show s.words + 16 - N = 0 from by omega]
    · intro k hk
      rw [r2 k hk]
      have := I.out k hk
      rw [R.P, R.Q] at this
      rw [← this, R.P, R.Q]
  · rw [if_neg hlt]
    obtain ⟨w, hwq⟩ : ∃ w, s.words = N + w := ⟨s.words - N, by omega⟩
    have hw2 : s.words - N = w := by omega
    have hl16 : w + 16 ≤ N := by omega
    rw [hw2]
    have I0 : Inv N uQ h s.P s.Q w 0 ⟨s.Q, s.Y, s.blk⟩ := by
      refine ⟨(sP_zero ..).symm, R.lenQ, R.lenY, R.lenB, ?_, fun k hk => absurd hk (Nat.not_lt_zero k)⟩
      intro k hk
      rw [if_neg (Nat.not_lt_zero k)]
      have := R.cacheY k hk
      rw [if_neg hlt, hw2] at this; exact this
    have I := genBlock_inv I0 hN hl16
    obtain ⟨r1, r2⟩ := sRun_Q N uP uQ h (16 * b) w T (by rw [← hw, hwq]) hl16 16 (Nat.le_refl _)
    refine ⟨?_, ?_⟩
    · rw [r1]
      refine ⟨R.P, ?_, R.lenP, I.lenP, R.lenX, I.lenX, I.lenB, ?_, ?_, ?_⟩
      · show (genBlock N uQ h s.P w ⟨s.Q, s.Y, s.blk⟩).P = _
        rw [I.tab, R.P, R.Q]
      · rw [hnext]
      · intro k hk
        have := R.cacheX k hk
        rw [if_neg hlt] at this
        show at' s.X k = at' s.P (((if (if s.words + 16 = 2 * N then 0 else s.words + 16) < N then (if s.words + 16 = 2 * N then 0 else s.words + 16) else 0) + k + N - 16) % N)
        rw [this]
        by_cases he : s.words + 16 = 2 * N
        · rw [if_pos he, if_pos (by omega)]
        · rw [if_neg he, if_neg (by omega)]
      · intro k hk
        show at' (genBlock N uQ h s.P w ⟨s.Q, s.Y, s.blk⟩).X k = at' (genBlock N uQ h s.P w ⟨s.Q, s.Y, s.blk⟩).P
          (((if (if s.words + 16 = 2 * N then 0 else s.words + 16) < N then 0 else (if s.words + 16 = 2 * N then 0 else s.words + 16) - N) + k + N - 16) % N)
        rw [I.cache k hk, if_pos hk]
        congr 1
        by_cases he : s.words + 16 = 2 * N
        · rw [if_pos he, if_pos (by omega), Nat.mod_eq_of_lt (by omega)]; omega
        · rw [if_neg he, if_neg (by omega), show s.words + 16 - N + k + N - 16 = w + k + N from by omega, Nat.add_mod_right, Nat.mod_eq_of_lt (by omega)]
    · intro k hk
      rw [r2 k hk]
      have := I.out k hk
      rw [R.P, R.Q] at this
      rw [← this, R.P, R.Q]

theorem generate_iter {N : Nat} {uP uQ : Upd} {h : W → List W → W} {s : St} {T : HcSpec.Tables} (R : Rel N 0 s T)
    (hN : 32 ≤ N) (h16 : N % 16 = 0) : ∀ b, Rel N b (iterate (generate N uP uQ h) b s)
      (HcSpec.runInit (fun i T => (sStep N uP uQ h i T).1) (16 * b) T)
  | 0 => R
  | b + 1 => by
    rw [iterate_succ, Nat.mul_add, Nat.mul_one, runInit_add]
    exact (generate_rel (generate_iter R hN h16 b) hN h16).1

/-- Word `k` of the block after `b` others. -/
theorem generate_word {N : Nat} {uP uQ : Upd} {h : W → List W → W} {s : St} {T : HcSpec.Tables} (R : Rel N 0 s T)
    (hN : 32 ≤ N) (h16 : N % 16 = 0) (b k : Nat) (hk : k < 16) : at' (iterate (generate N uP uQ h) (b + 1) s).blk k =
      (sStep N uP uQ h (16 * b + k) (HcSpec.runInit (fun i T => (sStep N uP uQ h i T).1) (16 * b + k) T)).2 := by
  rw [iterate_succ, runInit_add]
  exact (generate_rel (generate_iter R hN h16 b) hN h16).2 k hk

/-! ### The formulas -/

theorem ror_eq (x : W) (n : Nat) (h0 : 0 < n) (hn : n < 32) : ror x n = HcSpec.rotr x n := by
  unfold ror rol HcSpec.rotr
  apply BitVec.eq_of_getLsbD_eq
  intro i hi
  rw [BitVec.getLsbD_rotateLeft, BitVec.getLsbD_rotateRight, Nat.mod_eq_of_lt (show 32 - n < 32 by omega), Nat.mod_eq_of_lt hn]
  by_cases h : i < 32 - n
  · simp only [h, ↓reduceIte, decide_true]
    rw [show 32 - (32 - n) + i = n + i from by omega]
  · simp only [h, ↓reduceIte, decide_false]
    simp [h, hi]

theorem byteIx_eq (x : W) (k : Nat) : byteIx x (8 * k) = HcSpec.byte x k := by
  unfold byteIx HcSpec.byte
  rw [BitVec.toNat_ushiftRight, Nat.shiftRight_eq_div_pow, Nat.pow_mul]

theorem mask_eq (x : W) : (x &&& 0x3ff).toNat = x.toNat % 1024 := by
  rw [BitVec.toNat_and]
  exact Nat.and_two_pow_sub_one_eq_mod x.toNat 10

theorem f1_eq (x : W) : f1 x = HcSpec.f1 x := by simp [f1, HcSpec.f1, ror_eq]
theorem f2_eq (x : W) : f2 x = HcSpec.f2 x := by simp [f2, HcSpec.f2, ror_eq]
theorem g1_128_eq (x y z : W) : g1_128 x y z = HcSpec.g1 x y z := by simp [g1_128, HcSpec.g1, ror_eq]
theorem g2_128_eq (x y z : W) : g2_128 x y z = HcSpec.g2 x y z := rfl
theorem h1_128_eq (x : W) (Q : List W) : h1_128 x Q = HcSpec.h Q x := by
  have e0 := byteIx_eq x 0
  have e2 := byteIx_eq x 2
  simp only [Nat.reduceMul] at e0 e2
  rw [h1_128, HcSpec.h, e0, e2]; rfl
theorem h1_eq (x : W) (Q : List W) : h1 x Q = HcSpec.h' Q x := by
  have e0 := byteIx_eq x 0
  have e1 := byteIx_eq x 1
  have e2 := byteIx_eq x 2
  have e3 := byteIx_eq x 3
  simp only [Nat.reduceMul] at e0 e1 e2 e3
  rw [h1, HcSpec.h', e0, e1, e2, e3]; rfl
theorem g1_eq (x y : W) (Q : List W) : g1 x y Q = HcSpec.g Q x y := by
  rw [g1, HcSpec.g, mask_eq, ror_eq _ _ (by omega) (by omega), ror_eq _ _ (by omega) (by omega)]; rfl

theorem wLoop_eq (w0 : List W) (n : Nat) : wLoop w0 n = HcSpec.expand w0 n := by
  induction n with
  | zero => rfl
  | succ n ih => rw [wLoop, HcSpec.expand, ih]; simp only [f1_eq, f2_eq]; rfl

theorem step128_eq (i : Nat) (T : HcSpec.Tables) : sStep 512 updPb updQb h1_128 i T = HcSpec.step128 i T := by
  unfold sStep HcSpec.step128 newVal sOut
  have e : (i % 512 + 512 - 511) % 512 = (i % 512 + 1) % 512 := by omega
  simp only [updPb, updQb, h1_128_eq, g1_128_eq, g2_128_eq, e]
  rfl

theorem init128_eq (i : Nat) (T : HcSpec.Tables) : (sStep 512 updP updQ h1_128 i T).1 = HcSpec.init128 i T := by
  unfold sStep HcSpec.init128 newVal
  have e : (i % 512 + 512 - 511) % 512 = (i % 512 + 1) % 512 := by omega
  simp only [updP, updQ, h1_128_eq, g1_128_eq, g2_128_eq, e]
  split <;> rfl

theorem step256_eq (i : Nat) (T : HcSpec.Tables) : sStep 1024 upd256 upd256 h1 i T = HcSpec.step256 i T := by
  unfold sStep HcSpec.step256 newVal sOut
  have e : (i % 1024 + 1024 - 1023) % 1024 = (i % 1024 + 1) % 1024 := by omega
  simp only [upd256, h1_eq, g1_eq, e]
  rfl

end Verif.Strm.Hc
