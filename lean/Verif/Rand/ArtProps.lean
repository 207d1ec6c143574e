import Verif.Rand.Art
/-
C169: the picture of a fingerprint.  C170: keys from the seeded reader.
-/
namespace Verif.Rand.Art

namespace Spec

/-- The moves of a byte, from its lowest bits up: right or left, down or up. -/
def moves (b : Byte) : List (Bool × Bool) := [(b[0], b[1]), (b[2], b[3]), (b[4], b[5]), (b[6], b[7])]

/-- One move on the board of 17 columns and 9 rows; walls stop it. -/
def go (p : Nat × Nat) (m : Bool × Bool) : Nat × Nat :=
  (if m.1 then min 16 (p.1 + 1) else p.1 - 1, if m.2 then min 8 (p.2 + 1) else p.2 - 1)

/-- The squares a list of moves visits, in order. -/
def path : Nat × Nat → List (Bool × Bool) → List (Nat × Nat)
  | _, [] => []
  | p, m :: ms => go p m :: path (go p m) ms

/-- The end of a walk from the middle of the board. -/
def last (ms : List (Bool × Bool)) : Nat × Nat := (path (8, 4) ms).getLastD (8, 4)

/-- The symbol of a square: `E` where the walk ended, `S` where it began, else by the number of visits. -/
def symbol (ms : List (Bool × Bool)) (x y : Nat) : Char :=
  if (x, y) = last ms then 'E' else if (x, y) = (8, 4) then 'S'
  else " .o+=*BOX@%&#/^".toList.getD (min 14 ((path (8, 4) ms).count (x, y))) ' '

/-- A board in a frame. -/
def board (sym : Nat → Nat → Char) : List Char :=
  ['+'] ++ List.replicate 17 '-' ++ ['+', '\n'] ++
  (List.range 9).flatMap (fun y => ['|'] ++ (List.range 17).map (fun x => sym x y) ++ ['|', '\n']) ++
  ['+'] ++ List.replicate 17 '-' ++ ['+']

/-- The picture of a string. -/
def picture (s : Bytes) : List Char := board (symbol (s.flatMap moves))

end Spec

/-- The state of the code corresponds to the squares visited so far. -/
structure Inv (w : Walk) (p : Nat × Nat) (seen : List (Nat × Nat)) : Prop where
  x : w.x = p.1
  y : w.y = p.2
  hx : p.1 < 17
  hy : p.2 < 9
  f : ∀ a b : Nat, (w.field a b).toNat = min 14 (seen.count (a, b))

theorem bit0 : ∀ b : Byte, (0 < (b &&& 1#8).toNat ↔ b[0] = true) ∧ (0 < (b &&& 2#8).toNat ↔ b[1] = true) := by decide +kernel

theorem bits : ∀ b : Byte, (b >>> 2)[0] = b[2] ∧ (b >>> 2)[1] = b[3] ∧ (b >>> 2 >>> 2)[0] = b[4] ∧ (b >>> 2 >>> 2)[1] = b[5] ∧
    (b >>> 2 >>> 2 >>> 2)[0] = b[6] ∧ (b >>> 2 >>> 2 >>> 2)[1] = b[7] := by decide +kernel

theorem move_spec {w : Walk} {p : Nat × Nat} {seen : List (Nat × Nat)} (iv : Inv w p seen) (b : Byte) :
    ∃ w', move b w = .ok w' ∧ Inv w' (Spec.go p (b[0], b[1])) (seen ++ [Spec.go p (b[0], b[1])]) := by
  have h0 := (bit0 b).1
  have h1 := (bit0 b).2
  have hx := iv.hx
  have hy := iv.hy
  generalize hq : Spec.go p (b[0], b[1]) = q
  have ex : goMin (goMax (if 0 < (b &&& 1#8).toNat then w.x + 1 else w.x + -1) 0) (17 - 1) = q.1 := by
    rw [iv.x, ← hq]
    simp only [Spec.go, goMin, goMax]
    by_cases hb : b[0] = true
    · rw [if_pos (h0.mpr hb), if_pos hb]; repeat' split
      all_goals omega
    · rw [if_neg (mt h0.mp hb), if_neg hb]; repeat' split
      all_goals omega
  have ey : goMin (goMax (if 0 < (b &&& 2#8).toNat then w.y + 1 else w.y - 1) 0) (9 - 1) = q.2 := by
    rw [iv.y, ← hq]
    simp only [Spec.go, goMin, goMax]
    by_cases hb : b[1] = true
    · rw [if_pos (h1.mpr hb), if_pos hb]; repeat' split
      all_goals omega
    · rw [if_neg (mt h1.mp hb), if_neg hb]; repeat' split
      all_goals omega
  have q1 : q.1 < 17 := by rw [← hq]; simp only [Spec.go]; split <;> omega
  have q2 : q.2 < 9 := by rw [← hq]; simp only [Spec.go]; split <;> omega
  simp only [move, ex, ey]
  rw [if_pos ⟨by omega, by omega, by omega, by omega⟩]
  refine ⟨_, rfl, rfl, rfl, q1, q2, ?_⟩
  intro a c
  have hf := iv.f q.1 q.2
  have hac := iv.f a c
  have hcount : (seen ++ [q]).count (a, c) = seen.count (a, c) + if q = (a, c) then 1 else 0 := by
    rw [List.count_append, List.count_singleton]
    simp
  rw [hcount]
  simp only
  by_cases hv : (w.field q.1 q.2).toNat < 16 - 2
  · rw [if_pos hv]
    by_cases hh : q = (a, c)
    · subst hh
      rw [if_pos ⟨rfl, rfl⟩, if_pos rfl, BitVec.toNat_add]
      simp only [] at hf hv ⊢
      rw [hf] at hv ⊢
      simp
      omega
    · rw [if_neg, if_neg hh, hac]
      · simp
      · rintro ⟨e1, e2⟩
        exact hh (Prod.ext (by simp only; omega) (by simp only; omega))
  · rw [if_neg hv]
    by_cases hh : q = (a, c)
    · subst hh
      rw [if_pos rfl]
      simp only [] at hf hv
      omega
    · rw [if_neg hh, hac]; simp

theorem path_append (p : Nat × Nat) : ∀ a b, Spec.path p (a ++ b) = Spec.path p a ++ Spec.path ((Spec.path p a).getLastD p) b
  | [], b => rfl
  | m :: a, b => by
    have := path_append (Spec.go p m) a b
    simp only [List.cons_append, Spec.path, this, List.cons.injEq, true_and]
    congr 2
    cases h : Spec.path (Spec.go p m) a with
    | nil => rfl
    | cons z zs => simp [List.getLastD]

theorem moveByte_spec {w : Walk} {p : Nat × Nat} {seen : List (Nat × Nat)} (iv : Inv w p seen) (b : Byte) :
    ∃ w', moveByte b w = .ok w' ∧ Inv w' ((Spec.path p (Spec.moves b)).getLastD p) (seen ++ Spec.path p (Spec.moves b)) := by
  obtain ⟨b2, b3, b4, b5, b6, b7⟩ := bits b
  obtain ⟨w1, e1, i1⟩ := move_spec iv b
  obtain ⟨w2, e2, i2⟩ := move_spec i1 (b >>> 2)
  obtain ⟨w3, e3, i3⟩ := move_spec i2 (b >>> 2 >>> 2)
  obtain ⟨w4, e4, i4⟩ := move_spec i3 (b >>> 2 >>> 2 >>> 2)
  refine ⟨w4, by rw [moveByte, e1, Res.bind_ok, e2, Res.bind_ok, e3, Res.bind_ok, e4], ?_⟩
  rw [b2, b3, b4, b5, b6, b7] at i4
  simpa [Spec.moves, Spec.path] using i4

theorem walk_spec : ∀ (s : Bytes) {w : Walk} {p : Nat × Nat} {seen : List (Nat × Nat)}, Inv w p seen →
    ∃ w', walk s w = .ok w' ∧ Inv w' ((Spec.path p (s.flatMap Spec.moves)).getLastD p) (seen ++ Spec.path p (s.flatMap Spec.moves))
  | [], w, p, seen, iv => ⟨w, rfl, by simpa [Spec.path] using iv⟩
  | b :: s, w, p, seen, iv => by
    obtain ⟨w1, e1, i1⟩ := moveByte_spec iv b
    obtain ⟨w2, e2, i2⟩ := walk_spec s i1
    refine ⟨w2, by rw [walk, e1, Res.bind_ok, e2], ?_⟩
    rw [List.flatMap_cons, path_append, ← List.append_assoc]
    have key (u v : List (Nat × Nat)) : (u ++ v).getLastD p = v.getLastD (u.getLastD p) := by
      cases v with
      | nil => simp
      | cons z zs => simp [List.getLastD_eq_getLast?]
    rw [key]
    exact i2

theorem aug_getD : ∀ n, n ≤ 14 → augment.getD n ' ' = " .o+=*BOX@%&#/^".toList.getD n ' ' := by decide +kernel

theorem board_length (sym : Nat → Nat → Char) : (Spec.board sym).length = 219 := by
  have hlen : ∀ y, (['|'] ++ (List.range 17).map (fun x => sym x y) ++ ['|', '\n']).length = 20 := by
    intro y; simp
  simp only [Spec.board, List.length_append, List.length_flatMap, hlen, List.length_replicate, List.map_const', List.sum_replicate_nat,
    List.length_range, List.length_cons, List.length_nil]

theorem draw_eq {f : Int → Int → Byte} {sym : Nat → Nat → Char}
    (h : ∀ x y : Nat, augment.getD (goMin ((f x y).toNat : Nat) 16).toNat ' ' = sym x y) : draw f = Spec.board sym := by
  have hrow (y : Nat) : row f y = ['|'] ++ (List.range 17).map (fun x => sym x y) ++ ['|', '\n'] := by
    simp only [row, h]
    rfl
  rw [draw, Spec.board, show row f = fun y => ['|'] ++ (List.range 17).map (fun x => sym x y) ++ ['|', '\n'] from funext hrow]
  generalize (List.range 9).flatMap _ = z
  generalize List.replicate 17 '-' = r
  simp

theorem aug_E : augment.getD (goMin ((16#8).toNat : Nat) 16).toNat ' ' = 'E' := by decide +kernel
theorem aug_S : augment.getD (goMin ((15#8).toNat : Nat) 16).toNat ' ' = 'S' := by decide +kernel

/-- C169. `Randomart` returns the picture of the walk, for every string: no square outside the board is touched and the
characters fit. -/
theorem C169_randomart (s : Bytes) : randomart s = .ok (Spec.picture s) := by
  have i0 : Inv ⟨8, 4, fun _ _ => 0#8⟩ (8, 4) [] := ⟨rfl, rfl, by decide, by decide, fun _ _ => by simp⟩
  obtain ⟨w, e, iv⟩ := walk_spec s i0
  have hx := iv.hx
  have hy := iv.hy
  have ex := iv.x
  have ey := iv.y
  have hd : draw (marked w) = Spec.picture s := by
    refine draw_eq fun x y => ?_
    rw [marked, Spec.symbol]
    have hl : (x, y) = Spec.last (s.flatMap Spec.moves) ↔ (x : Int) = w.x ∧ (y : Int) = w.y := by
      rw [ex, ey, Prod.ext_iff, Spec.last]
      simp only
      omega
    by_cases h1 : (x : Int) = w.x ∧ (y : Int) = w.y
    · rw [if_pos h1, if_pos (hl.mpr h1), aug_E]
    rw [if_neg h1, if_neg (mt hl.mp h1)]
    by_cases h2 : (x, y) = (8, 4)
    · have h3 := Prod.ext_iff.mp h2
      simp only at h3
      rw [if_pos h2, if_pos ⟨by omega, by omega⟩, aug_S]
    · rw [if_neg h2, if_neg (fun h => h2 (Prod.ext (by simp only; omega) (by simp only; omega)))]
      have hf := iv.f x y
      rw [List.nil_append] at hf
      rw [← hf, ← aug_getD _ (by omega)]
      congr 1
      have : (w.field x y).toNat ≤ 14 := by omega
      unfold goMin
      split <;> omega
  rw [randomart, e, Res.bind_ok, if_pos ⟨by omega, by omega, by omega, by omega⟩, hd]
  exact if_pos (by rw [Spec.picture, board_length]; decide)

/-- C169. Every picture has eleven lines, in 219 characters. -/
theorem C169_size (s : Bytes) : ∃ o, randomart s = .ok o ∧ o.length = 219 ∧ o.count '\n' = 10 := by
  refine ⟨_, C169_randomart s, by rw [Spec.picture, board_length], ?_⟩
  have hsym (x y : Nat) : Spec.symbol (s.flatMap Spec.moves) x y ≠ '\n' := by
    unfold Spec.symbol
    have : ∀ n, n ≤ 14 → " .o+=*BOX@%&#/^".toList.getD n ' ' ≠ '\n' := by decide +kernel
    split
    · decide
    · split
      · decide
      · exact this _ (Nat.min_le_left _ _)
  have hcnt : ∀ y, (['|'] ++ (List.range 17).map (fun x => Spec.symbol (s.flatMap Spec.moves) x y) ++ ['|', '\n']).count '\n' = 1 := by
    intro y
    have h0 : ((List.range 17).map (fun x => Spec.symbol (s.flatMap Spec.moves) x y)).count '\n' = 0 := by
      rw [List.count_eq_zero]
      intro h
      obtain ⟨x, _, hx⟩ := List.mem_map.mp h
      exact hsym x y hx
    rw [List.count_append, List.count_append, h0]
    decide
  have hr : (List.replicate 17 '-').count '\n' = 0 := by decide
  rw [Spec.picture, Spec.board]
  simp only [List.count_append, List.count_flatMap, Function.comp_def, hcnt, hr, List.map_const', List.sum_replicate_nat, List.length_range]
  decide

example : (randomart [0x9d, 0x2e, 0xff]).bind (fun o => .ok (o.take 60)) =
    .ok "+-----------------+\n|                 |\n|                 |\n".toList := by decide +kernel

/-- C170. A read of `Prng` gives the first bytes of the double digest of the seed, or fails when more are asked for. -/
theorem C170_read (H : Bytes → Bytes) (seed : Bytes) (n : Nat) :
    prngRead H seed n = if n ≤ (H (H seed)).length then .ok ((H (H seed)).take n) else .err := by
  rw [prngRead]
  by_cases h : n ≤ (H (H seed)).length
  · rw [if_pos h]; exact if_neg (by omega)
  · rw [if_neg h]; exact if_pos (by omega)

/-- C170. A key generated from the seeded reader has `length / 8` bytes and is the prefix of the double digest; the same seed gives
the same key. -/
theorem C170_key (H : Bytes → Bytes) (seed : Bytes) (length : Nat) (h : length / 8 ≤ (H (H seed)).length) :
    generateKey length (prngReader H seed) = .ok ((H (H seed)).take (length / 8)) ∧ ((H (H seed)).take (length / 8)).length = length / 8 := by
  have e : (length : Int).tdiv 8 = ((length / 8 : Nat) : Int) := by
    rw [Int.tdiv_eq_ediv_of_nonneg (by omega)]; norm_cast
  refine ⟨?_, by rw [List.length_take]; omega⟩
  rw [generateKey, e]
  simp only
  rw [if_neg (by omega), Int.toNat_natCast, prngReader, C170_read, if_pos h]
  have hl : ((H (H seed)).take (length / 8)).length = length / 8 := by rw [List.length_take]; omega
  simp only
  rw [hl, Nat.sub_self, List.take_take, Nat.min_self]
  simp

/-- C170. Two reads of one `Prng`, or of two with the same seed, give the same bytes: the reader is not a stream, and keys drawn from
it one after the other do not differ. -/
theorem C170_stream_violated (H : Bytes → Bytes) (seed : Bytes) (n m : Nat) (hnm : n ≤ m) (hm : m ≤ (H (H seed)).length) :
    ∃ a b, prngRead H seed n = .ok a ∧ prngRead H seed m = .ok b ∧ a = b.take n :=
  ⟨_, _, by rw [C170_read, if_pos (by omega)], by rw [C170_read, if_pos hm], by rw [List.take_take, Nat.min_eq_left hnm]⟩

/-- C170. A reader that stores fewer bytes than asked for and reports no error, as `io.Reader` allows, makes a key that ends in
zeros; `GenerateKey` does not notice. -/
theorem C170_short_read_violated (b : Bytes) (length : Nat) (h : b.length ≤ length / 8) :
    generateKey length (fun _ => (b, false)) = .ok (b ++ List.replicate (length / 8 - b.length) 0#8) := by
  have e : (length : Int).tdiv 8 = ((length / 8 : Nat) : Int) := by
    rw [Int.tdiv_eq_ediv_of_nonneg (by omega)]; norm_cast
  rw [generateKey, e]
  simp only
  rw [if_neg (by omega), Int.toNat_natCast, List.take_of_length_le h]
  simp

/-- C170. The zero reader fills every buffer with zeros. -/
theorem C170_zero (n : Nat) : zeroReader n = (List.replicate n 0#8, false) ∧ generateKey (8 * n : Nat) zeroReader = .ok (List.replicate n 0#8) := by
  have e : ((8 * n : Nat) : Int).tdiv 8 = (n : Int) := by
    rw [Int.tdiv_eq_ediv_of_nonneg (by omega)]; omega
  refine ⟨rfl, ?_⟩
  rw [generateKey, e]
  simp only
  rw [if_neg (by omega)]
  simp [zeroReader]

example : generateKey 16 (prngReader (fun m => m.reverse ++ [1, 2]) [7]) = .ok [2, 1] := by decide

end Verif.Rand.Art
