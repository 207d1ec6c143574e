import Verif.Zuc.ZucMacProps
/-
C141: `ZucMac` and `EiaGenerateMac` against 128-EIA3.
-/
namespace Verif.Zuc
open Verif.Cipher

/-! ### The code's tag -/

/-- A key stream with its first word repeated. -/
def dup (z : Nat → W) (i : Nat) : W := if i = 0 then z 0 else z (i - 1)

theorem macBit_single (x : W × W × W × W) :
    macBit256 ([x.1], [x.2.1], x.2.2.1, x.2.2.2) =
      ([(macBit x).1], [(macBit x).2.1], (macBit x).2.2.1, (macBit x).2.2.2) := by
  obtain ⟨t, k0, k1, m⟩ := x
  unfold macBit256 macBit
  simp only [shiftK]
  refine Prod.ext ?_ rfl
  simp only
  split <;> rfl

theorem iter_single (k : Nat) (x : W × W × W × W) :
    Strm.iterate macBit256 k ([x.1], [x.2.1], x.2.2.1, x.2.2.2) =
      ([(Strm.iterate macBit k x).1], [(Strm.iterate macBit k x).2.1], (Strm.iterate macBit k x).2.2.1, (Strm.iterate macBit k x).2.2.2) := by
  induction k with
  | zero => rfl
  | succ k ih => rw [Strm.iterate_succ, ih, macBit_single, Strm.iterate_succ]

theorem absorb_single (k : Nat) (a : Mac) (m : W) : macAbsorb256 k ⟨a.g, [a.t], [a.k0]⟩ m =
    ⟨(macAbsorb k a m).g, [(macAbsorb k a m).t], [(macAbsorb k a m).k0]⟩ := by
  unfold macAbsorb256 macAbsorb
  simp only []
  rw [iter_single k (a.t, a.k0, (keyword a.g).1, m)]

/-- The absorbing state after the whole words `M`. -/
def fam (s : St) (M : Bytes) : Mac :=
  ⟨Strm.iterate workRound (M.length / 4) s, Spec.acc (dup (wordAt s)) 0 (Spec.bits M), Spec.win (dup (wordAt s)) (8 * M.length)⟩

theorem fam_last (s : St) (M : Bytes) (hM : M.length % 4 = 0) (k : Nat) (hk : k ≤ 32) (m : W) : macAbsorb k (fam s M) m =
    ⟨Strm.iterate workRound (M.length / 4 + 1) s, Spec.acc (dup (wordAt s)) 0 (Spec.bits M ++ topBits k m),
      Spec.win (dup (wordAt s)) (8 * M.length + k)⟩ := by
  have hy : ∀ i, wordAt s i = dup (wordAt s) (1 + i) := by
    intro i; unfold dup; rw [if_neg (by omega), show 1 + i - 1 = i by omega]
  have h := fam256_last (dup (wordAt s)) 1 s (fun _ => 0) hy M hM k hk m
  have e : fam256 (dup (wordAt s)) 1 s (fun _ => 0) M = ⟨(fam s M).g, [(fam s M).t], [(fam s M).k0]⟩ := by
    unfold fam256 fam ahead
    simp
  rw [e, absorb_single] at h
  have h1 := congrArg Mac256.g h
  have h2 := congrArg Mac256.t h
  have h3 := congrArg Mac256.k0 h
  simp only [ahead, List.range_one, List.map_cons, List.map_nil, Nat.mul_zero, Nat.add_zero, List.cons.injEq, and_true] at h1 h2 h3
  have z0 : ∀ x : W, 0 ^^^ x = x := by intro x; simp
  rw [z0] at h2
  generalize macAbsorb k (fam s M) m = a at *
  cases a
  simp only at h1 h2 h3
  rw [h1, h2, h3]

theorem fam_absorbs (s : St) : Absorbs (macAbsorb 32) (fam s) := by
  constructor
  intro M d hM hd
  rw [fam_last s M hM 32 (by omega), topBits_buf d hd 32 (by omega),
    List.take_of_length_le (by rw [bits_length]; omega), ← bits_append]
  unfold fam
  rw [List.length_append, hd, show (M.length + 4) / 4 = M.length / 4 + 1 by omega, show 8 * (M.length + 4) = 8 * M.length + 32 by omega]

theorem sum_spec (s : St) (b : Buf Mac) (M data : Bytes) (nbits : Nat) (hb : Holds (fam s) b M) (hn : nbits ≤ 8 * data.length) :
    ∃ b', macSum b data nbits = .ok (Spec.wordBytes (Spec.eia3 (dup (wordAt s)) (Spec.bits M ++ (Spec.bits data).take nbits)), b') := by
  obtain ⟨b', A, k, hk, e, hs, hA, hbits⟩ := sumIn_spec (fam_absorbs s) b M data nbits hb hn
  unfold macSum
  rw [e, hbits]
  simp only [Res.bind]
  refine ⟨_, congrArg Res.ok (Prod.ext ?_ rfl)⟩
  have hlen : (Spec.bits A ++ topBits k (getU32 b'.buf)).length = 8 * A.length + k := by
    rw [List.length_append, bits_length]; simp [topBits]
  simp only []
  rw [putU32_wordBytes]
  congr 1
  unfold Spec.eia3
  rw [hlen]
  by_cases h0 : 0 < k
  · rw [if_pos (by simp [h0]), hs, Int.toNat_natCast, fam_last s A hA k (by omega)]
    simp only [keyword_at]
    unfold dup
    rw [if_neg (by omega), show (8 * A.length + k + 31) / 32 + 1 - 1 = A.length / 4 + 1 by omega]
  · have : k = 0 := by omega
    subst this
    rw [if_neg (by simp), hs]
    simp only [fam, keyword_at]
    rw [show topBits 0 (getU32 b'.buf) = [] from rfl, List.append_nil, Nat.add_zero]
    have e : dup (wordAt s) ((8 * A.length + 31) / 32 + 1) = wordAt s (A.length / 4) := by
      unfold dup
      rw [if_neg (by omega), show (8 * A.length + 31) / 32 + 1 - 1 = A.length / 4 by omega]
    rw [e]

theorem newMac_holds (key iv : Bytes) (hk : key.length = 16) (hv : iv.length = 16) :
    ∃ b l, newMac key iv = .ok b ∧ Spec.word (Spec.load128 key iv) = wordAt (start l) ∧
      l = (List.range 16).map (fun i => makeU31 (key.getD i 0) (at' KD i) (iv.getD i 0)) ∧ Holds (fam (start l)) b [] := by
  obtain ⟨l, hl⟩ : ∃ l, l = (List.range 16).map (fun i => makeU31 (key.getD i 0) (at' KD i) (iv.getD i 0)) := ⟨_, rfl⟩
  have hr := load128_rel key iv
  rw [← hl] at hr
  refine ⟨⟨⟨start l, 0, (keyword (start l)).1⟩, [0, 0, 0, 0], 0⟩, l, ?_, (funext fun i => (start_word hr i).symm), hl, ?_⟩
  · unfold newMac newState init
    rw [if_neg (by omega), if_neg (by omega), if_neg (by omega), if_neg (by omega), if_neg (by omega)]
    simp only [Res.bind]
    rw [hl]
  · refine ⟨?_, rfl, rfl, rfl⟩
    rw [show whole [] = [] from rfl]
    generalize start l = s
    have e : Spec.win (dup (wordAt s)) 0 = (keyword s).1 := win_word (dup (wordAt s)) 0
    unfold fam
    simp only [List.length_nil, Nat.mul_zero, Nat.zero_div]
    rw [e]
    rfl

/-- The tag of `ZucMac`, for every key, iv, cut of the message into `Write` calls and last `Sum(data, nbits)`, depends
only on the bits of the message; but it is 128-EIA3 of the key stream *with its first word repeated*. -/
theorem C141_tag_partial (key iv : Bytes) (hk : key.length = 16) (hv : iv.length = 16) :
    ∃ b, newMac key iv = .ok b ∧ ∀ (chunks : List Bytes) (data : Bytes) (nbits : Nat), nbits ≤ 8 * data.length →
      ∃ b', macSum (chunks.foldl macWr b) data nbits = .ok
        (Spec.wordBytes (Spec.eia3 (dup (Spec.word (Spec.load128 key iv))) (Spec.bits chunks.flatten ++ (Spec.bits data).take nbits)), b') := by
  obtain ⟨b, l, e, hw, -, hb⟩ := newMac_holds key iv hk hv
  rw [hw]
  refine ⟨b, e, fun chunks data nbits hn => ?_⟩
  have hh := writes_hold (fam_absorbs (start l)) chunks b [] hb
  rw [List.nil_append] at hh
  exact sum_spec _ _ _ data nbits hh hn

/-- A message shorter than `nbits` panics, except that an empty slice turns `nbits` into 0. -/
theorem C141_short (b : Buf Mac) (data : Bytes) (nbits : Int) :
    (data ≠ [] → nbits > 8 * data.length → macSum b data nbits = .panic) ∧ macSum b [] nbits = macSum b [] 0 := by
  refine ⟨fun h1 h2 => ?_, rfl⟩
  unfold macSum
  rw [sumIn_short _ _ _ _ h1 h2]
  rfl

theorem getU32_wordBytes (a : W) : getU32 (Spec.wordBytes a) = a := by
  rw [← putU32_wordBytes]
  unfold getU32 putU32
  show ((a >>> 24).setWidth 8).setWidth 32 <<< 24 ||| ((a >>> 16).setWidth 8).setWidth 32 <<< 16 |||
    ((a >>> 8).setWidth 8).setWidth 32 <<< 8 ||| (a.setWidth 8).setWidth 32 = a
  apply BitVec.eq_of_getLsbD_eq
  intro i hi
  simp only [BitVec.getLsbD_or, BitVec.getLsbD_shiftLeft, BitVec.getLsbD_setWidth, BitVec.getLsbD_ushiftRight]
  rcases Nat.lt_or_ge i 8 with h | h
  · have h1 : i < 24 := by omega
    have h2 : i < 16 := by omega
    simp [h, h1, h2, hi]
  · rcases Nat.lt_or_ge i 16 with h' | h'
    · have h1 : i < 24 := by omega
      have h2 : ¬ i < 8 := by omega
      have h3 : i - 8 < 8 := by omega
      have h4 : i - 8 < 32 := by omega
      simp [h', h1, h2, h3, h4, hi, show 8 + (i - 8) = i by omega]
    · rcases Nat.lt_or_ge i 24 with h'' | h''
      · have h2 : ¬ i < 8 := by omega
        have h3 : ¬ i - 8 < 8 := by omega
        have h4 : i - 16 < 32 := by omega
        have h5 : ¬ i < 16 := by omega
        have h6 : i - 16 < 8 := by omega
        simp [h'', h2, h3, h4, h5, h6, hi, show 16 + (i - 16) = i by omega]
      · have h2 : ¬ i < 8 := by omega
        have h3 : ¬ i - 8 < 8 := by omega
        have h5 : ¬ i < 16 := by omega
        have h6 : ¬ i - 16 < 8 := by omega
        have h7 : ¬ i < 24 := by omega
        have h8 : i - 24 < 8 := by omega
        have h9 : i - 24 < 32 := by omega
        simp [h2, h3, h5, h6, h7, h8, h9, hi, show 24 + (i - 24) = i by omega]

/-- `SetEiaIV` is the iv of the standard. -/
theorem eiaIV_eq (count bearer direction : W) (hb : bearer.toNat < 32) (hd : direction.toNat < 2) :
    eiaIV count bearer direction = Spec.eia3IV count.toNat bearer.toNat direction.toNat := by
  have hc := count.isLt
  have sh : ∀ k, ((count >>> k).setWidth 8 : Byte).toNat = count.toNat / 2 ^ k % 256 := by
    intro k; rw [BitVec.toNat_setWidth, BitVec.toNat_ushiftRight, Nat.shiftRight_eq_div_pow]
  have s0 : (count.setWidth 8 : Byte).toNat = count.toNat % 256 := by rw [BitVec.toNat_setWidth]
  have sb : ((bearer <<< 3).setWidth 8 : Byte).toNat = bearer.toNat * 8 % 256 := by
    rw [BitVec.toNat_setWidth, BitVec.toNat_shiftLeft, Nat.shiftLeft_eq]; omega
  have h0 : ((count >>> 24).setWidth 8 : Byte) = BitVec.ofNat 8 ((count.toNat * 2 ^ 32 + bearer.toNat * 2 ^ 27) / 256 ^ (7 - 0)) := by
    apply BitVec.eq_of_toNat_eq; rw [sh 24, BitVec.toNat_ofNat]; omega
  have h1 : ((count >>> 16).setWidth 8 : Byte) = BitVec.ofNat 8 ((count.toNat * 2 ^ 32 + bearer.toNat * 2 ^ 27) / 256 ^ (7 - 1)) := by
    apply BitVec.eq_of_toNat_eq; rw [sh 16, BitVec.toNat_ofNat]; omega
  have h2 : ((count >>> 8).setWidth 8 : Byte) = BitVec.ofNat 8 ((count.toNat * 2 ^ 32 + bearer.toNat * 2 ^ 27) / 256 ^ (7 - 2)) := by
    apply BitVec.eq_of_toNat_eq; rw [sh 8, BitVec.toNat_ofNat]; omega
  have h3 : (count.setWidth 8 : Byte) = BitVec.ofNat 8 ((count.toNat * 2 ^ 32 + bearer.toNat * 2 ^ 27) / 256 ^ (7 - 3)) := by
    apply BitVec.eq_of_toNat_eq; rw [s0, BitVec.toNat_ofNat]; omega
  have h4 : ((bearer <<< 3).setWidth 8 : Byte) = BitVec.ofNat 8 ((count.toNat * 2 ^ 32 + bearer.toNat * 2 ^ 27) / 256 ^ (7 - 4)) := by
    apply BitVec.eq_of_toNat_eq; rw [sb, BitVec.toNat_ofNat]; omega
  have h5 : (0 : Byte) = BitVec.ofNat 8 ((count.toNat * 2 ^ 32 + bearer.toNat * 2 ^ 27) / 256 ^ (7 - 5)) := by
    apply BitVec.eq_of_toNat_eq; rw [BitVec.toNat_ofNat]; show 0 = _; omega
  have h6 : (0 : Byte) = BitVec.ofNat 8 ((count.toNat * 2 ^ 32 + bearer.toNat * 2 ^ 27) / 256 ^ (7 - 6)) := by
    apply BitVec.eq_of_toNat_eq; rw [BitVec.toNat_ofNat]; show 0 = _; omega
  have h7 : (0 : Byte) = BitVec.ofNat 8 ((count.toNat * 2 ^ 32 + bearer.toNat * 2 ^ 27) / 256 ^ (7 - 7)) := by
    apply BitVec.eq_of_toNat_eq; rw [BitVec.toNat_ofNat]; show 0 = _; omega
  unfold eiaIV Spec.eia3IV
  simp only [show List.range 8 = [0, 1, 2, 3, 4, 5, 6, 7] from rfl, List.map_cons, List.map_nil, List.cons_append,
    List.nil_append]
  rw [← h0, ← h1, ← h2, ← h3, ← h4, ← h5, ← h6, ← h7]
  have d1 : ∀ x : Byte, (x.setWidth 32 ^^^ (direction <<< 7)).setWidth 8 = x ^^^ BitVec.ofNat 8 (128 * direction.toNat) := by
    intro x
    have : direction = 0 ∨ direction = 1 := by
      rcases (show direction.toNat = 0 ∨ direction.toNat = 1 by omega) with h | h
      · left; exact BitVec.eq_of_toNat_eq h
      · right; exact BitVec.eq_of_toNat_eq h
    rcases this with rfl | rfl
    · revert x; decide
    · revert x; decide
  have d2 : ((direction <<< 7).setWidth 8 : Byte) = 0 ^^^ BitVec.ofNat 8 (128 * direction.toNat) := by
    rw [← d1 0]
    have : ((0 : Byte).setWidth 32 : W) ^^^ (direction <<< 7) = direction <<< 7 := by simp
    rw [this]
  simp only [d1, d2]
  simp

theorem getU32_putU32 (a : W) (r : Bytes) : getU32 (putU32 a ++ r) = a := by
  have := getU32_wordBytes a
  rw [← putU32_wordBytes] at this
  exact this

theorem bits_words (a : W) : Spec.bits (putU32 a) = topBits 32 a := by
  have h := topBits_getU32 ((a >>> 24).setWidth 8) ((a >>> 16).setWidth 8) ((a >>> 8).setWidth 8) (a.setWidth 8) []
  rw [show ([(a >>> 24).setWidth 8, (a >>> 16).setWidth 8, (a >>> 8).setWidth 8, a.setWidth 8] : Bytes) = putU32 a from rfl] at h
  rw [← h, ← List.append_nil (putU32 a), getU32_putU32]

theorem bits_data (data : List W) : Spec.bits (data.flatMap putU32) =
    (List.range (32 * data.length)).map (Spec.bitOf fun i => data.getD i 0) := by
  induction data with
  | nil => rfl
  | cons a r ih =>
    rw [List.flatMap_cons, bits_append, ih, bits_words, List.length_cons, show 32 * (r.length + 1) = 32 + 32 * r.length by omega,
      List.range_add, List.map_append, List.map_map]
    refine congrArg₂ _ ?_ ?_
    · unfold topBits
      apply List.map_congr_left
      intro i hi
      have hi : i < 32 := List.mem_range.1 hi
      unfold Spec.bitOf
      rw [Nat.mod_eq_of_lt hi, Nat.div_eq_of_lt hi]
      rfl
    · apply List.map_congr_left
      intro i _
      show _ = Spec.bitOf _ (32 + i)
      unfold Spec.bitOf
      rw [show (32 + i) / 32 = i / 32 + 1 by omega, show (32 + i) % 32 = i % 32 by omega]
      rfl

/-- `EiaGenerateMac`, for every key, COUNT, BEARER, DIRECTION and number of bits: the iv is the standard's, the key
stream has its first word repeated. -/
theorem C141_eia_partial (data : List W) (nbits : Nat) (key : Bytes) (count bearer direction : W) (hk : key.length = 16)
    (hb : bearer.toNat < 32) (hd : direction.toNat < 2) (hn : nbits ≤ 32 * data.length) :
    eiaMac data nbits key count bearer direction = .ok
      (Spec.eia3 (dup (Spec.word (Spec.load128 key (Spec.eia3IV count.toNat bearer.toNat direction.toNat))))
        ((List.range nbits).map (Spec.bitOf fun i => data.getD i 0))) := by
  unfold eiaMac
  rw [eiaIV_eq _ _ _ hb hd]
  obtain ⟨b, e, h⟩ := C141_tag_partial key (Spec.eia3IV count.toNat bearer.toNat direction.toNat) hk (by simp [Spec.eia3IV])
  have hl : ∀ d : List W, (d.flatMap putU32).length = 4 * d.length := by
    intro d
    induction d with
    | nil => rfl
    | cons a r ih => rw [List.flatMap_cons, List.length_append, ih, List.length_cons]; show 4 + _ = _; omega
  obtain ⟨b', h⟩ := h [] (data.flatMap putU32) nbits (by rw [hl]; omega)
  rw [e]
  simp only [Res.bind]
  rw [show b = List.foldl macWr b [] from rfl, h]
  simp only [getU32_wordBytes]
  rw [show Spec.bits ([] : List Bytes).flatten = [] from rfl, List.nil_append, bits_data, ← List.map_take, List.take_range, Nat.min_eq_left hn]

/-! ### The violations -/

/-- The repeated word makes forgery easy: whatever the key, iv and rest of the message, replacing a first word 00000000 by
ffffffff leaves the tag unchanged or flips all of its bits. -/
theorem dup_forgery (z : Nat → W) (r : List Bool) :
    Spec.eia3 (dup z) (List.replicate 32 true ++ r) ^^^ Spec.eia3 (dup z) (List.replicate 32 false ++ r) = 0 ∨
    Spec.eia3 (dup z) (List.replicate 32 true ++ r) ^^^ Spec.eia3 (dup z) (List.replicate 32 false ++ r) = 0xffffffff#32 := by
  generalize hy : dup z = y
  have hper : ∀ q, q < 32 → Spec.bitOf y q = Spec.bitOf y (q + 32) := by
    intro q hq
    subst hy
    unfold Spec.bitOf dup
    rw [show q / 32 = 0 by omega, show (q + 32) / 32 = 1 by omega, show (q + 32) % 32 = q % 32 by omega]
    rfl
  have hzero : ∀ n p, Spec.acc y p (List.replicate n false) = 0 := by
    intro n
    induction n with
    | zero => intro p; rfl
    | succ n ih => intro p; rw [List.replicate_succ, Spec.acc, ih]; simp
  -- the sum of the windows of the first word
  have hbit : ∀ n p k, k < 32 → (Spec.acc y p (List.replicate n true)).getLsbD k =
      ((List.range n).map fun i => Spec.bitOf y (p + i + 31 - k)).foldr (fun a b => a ^^ b) false := by
    intro n
    induction n with
    | zero => intro p k _; simp [Spec.acc]
    | succ n ih =>
      intro p k hk
      rw [List.replicate_succ, Spec.acc, if_pos rfl, BitVec.getLsbD_xor, ih (p + 1) k hk, win_bit _ _ _ hk, List.range_succ_eq_map,
        List.map_cons, List.foldr_cons, List.map_map, Nat.add_zero]
      congr 2
      apply List.map_congr_left
      intro i _
      show _ = Spec.bitOf y (p + (i + 1) + 31 - k)
      rw [show p + 1 + i + 31 - k = p + (i + 1) + 31 - k by omega]
  have hstep : ∀ k, k + 1 < 32 → (Spec.acc y 0 (List.replicate 32 true)).getLsbD (k + 1) = (Spec.acc y 0 (List.replicate 32 true)).getLsbD k := by
    intro k hk
    have e1 : Spec.acc y 0 (List.replicate 32 true) = Spec.acc y 0 [true] ^^^ Spec.acc y 1 (List.replicate 31 true) := acc_append y [true] (List.replicate 31 true) 0
    have e2 : Spec.acc y 0 (List.replicate 32 true) = Spec.acc y 0 (List.replicate 31 true) ^^^ Spec.acc y 31 [true] :=
      acc_append y (List.replicate 31 true) [true] 0
    conv => rhs; rw [e2]
    conv => lhs; rw [e1]
    have h1 := hbit 1 0 (k + 1) hk
    have h2 := hbit 31 1 (k + 1) hk
    have h3 := hbit 31 0 k (by omega)
    have h4 := hbit 1 31 k (by omega)
    rw [BitVec.getLsbD_xor, BitVec.getLsbD_xor]
    rw [show [true] = List.replicate 1 true from rfl, h1, h2, h3, h4]
    have e : ∀ i, 1 + i + 31 - (k + 1) = 0 + i + 31 - k := by intro i; omega
    simp only [e]
    simp only [List.range_one, List.map_cons, List.map_nil, List.foldr_cons, List.foldr_nil, Bool.xor_false]
    rw [show 0 + 0 + 31 - (k + 1) = 30 - k by omega, show 31 + 0 + 31 - k = 30 - k + 32 by omega, ← hper (30 - k) (by omega), Bool.xor_comm]
  have hconst : ∀ k, k < 32 → (Spec.acc y 0 (List.replicate 32 true)).getLsbD k = (Spec.acc y 0 (List.replicate 32 true)).getLsbD 0 := by
    intro k
    induction k with
    | zero => intro _; rfl
    | succ k ih => intro h; rw [hstep k h, ih (by omega)]
  have hdiff : Spec.eia3 y (List.replicate 32 true ++ r) ^^^ Spec.eia3 y (List.replicate 32 false ++ r) = Spec.acc y 0 (List.replicate 32 true) := by
    unfold Spec.eia3
    rw [acc_append, acc_append, hzero, List.length_append, List.length_append, List.length_replicate, List.length_replicate]
    generalize Spec.acc y 0 (List.replicate 32 true) = a
    generalize Spec.acc y (0 + 32) r = b
    generalize Spec.win y (32 + r.length) = c
    generalize y ((32 + r.length + 31) / 32 + 1) = d
    apply BitVec.eq_of_getLsbD_eq
    intro i _
    simp only [BitVec.getLsbD_xor]
    cases a.getLsbD i <;> cases b.getLsbD i <;> cases c.getLsbD i <;> cases d.getLsbD i <;> simp
  rw [hdiff]
  generalize Spec.acc y 0 (List.replicate 32 true) = a at *
  cases h0 : a.getLsbD 0
  · left
    apply BitVec.eq_of_getLsbD_eq
    intro i hi
    rw [hconst i hi, h0]
    simp
  · right
    apply BitVec.eq_of_getLsbD_eq
    intro i hi
    rw [hconst i hi, h0]
    have : ∀ j : Fin 32, true = (0xffffffff#32).getLsbD j := by decide
    exact this ⟨i, hi⟩

/-- `EiaGenerateMac` of a message and of the same message with its first word changed from 0 to ffffffff, for every key,
iv parameters and length: the two tags are equal or complementary. -/
theorem C141_forgery_violated (rest : List W) (nbits : Nat) (key : Bytes) (count bearer direction : W) (hk : key.length = 16)
    (hb : bearer.toNat < 32) (hd : direction.toNat < 2) (h32 : 32 ≤ nbits) (hn : nbits ≤ 32 * (rest.length + 1)) :
    ∃ t t', eiaMac (0 :: rest) nbits key count bearer direction = .ok t ∧
      eiaMac (0xffffffff#32 :: rest) nbits key count bearer direction = .ok t' ∧ (t' = t ∨ t' = ~~~ t) := by
  have sp : ∀ (b : Bool) (w : W), (∀ i, i < 32 → w.getLsbD i = b) →
      (List.range nbits).map (Spec.bitOf fun i => (w :: rest).getD i 0) =
        List.replicate 32 b ++ (List.range (nbits - 32)).map (Spec.bitOf fun i => rest.getD i 0) := by
    intro b w hw
    obtain ⟨n, rfl⟩ : ∃ n, nbits = 32 + n := ⟨nbits - 32, by omega⟩
    rw [List.range_add, List.map_append, List.map_map, show 32 + n - 32 = n by omega]
    congr 1
    · rw [List.eq_replicate_iff]
      refine ⟨by simp, fun x hx => ?_⟩
      obtain ⟨i, hi, rfl⟩ := List.mem_map.1 hx
      have hi : i < 32 := List.mem_range.1 hi
      unfold Spec.bitOf
      rw [Nat.mod_eq_of_lt hi, Nat.div_eq_of_lt hi]
      exact hw _ (by omega)
    · apply List.map_congr_left
      intro i _
      show Spec.bitOf _ (32 + i) = _
      unfold Spec.bitOf
      rw [show (32 + i) / 32 = i / 32 + 1 by omega, show (32 + i) % 32 = i % 32 by omega]
      rfl
  refine ⟨_, _, C141_eia_partial _ nbits key count bearer direction hk hb hd (by rw [List.length_cons]; omega),
    C141_eia_partial _ nbits key count bearer direction hk hb hd (by rw [List.length_cons]; omega), ?_⟩
  rw [sp false 0 (by intro i _; simp), sp true 0xffffffff#32 (by
    intro i hi
    have : ∀ j : Fin 32, (0xffffffff#32).getLsbD j = true := by decide
    exact this ⟨i, hi⟩)]
  have hx : ∀ a b c : W, a ^^^ b = c → a = c ^^^ b := by
    intro a b c h
    rw [← h, BitVec.xor_assoc, BitVec.xor_self]; simp
  rcases dup_forgery (Spec.word (Spec.load128 key (Spec.eia3IV count.toNat bearer.toNat direction.toNat)))
    ((List.range (nbits - 32)).map (Spec.bitOf fun i => rest.getD i 0)) with h | h
  · left
    rw [hx _ _ _ h]; simp
  · right
    rw [hx _ _ _ h]
    apply BitVec.eq_of_getLsbD_eq
    intro i hi
    have : ∀ j : Fin 32, (0xffffffff#32).getLsbD j = true := by decide
    rw [BitVec.getLsbD_xor, this ⟨i, hi⟩, BitVec.getLsbD_not]
    simp [hi]

example : ∃ t t', eiaMac [0, 5, 6] 70 (List.replicate 16 7) 1 2 1 = .ok t ∧ eiaMac [0xffffffff#32, 5, 6] 70 (List.replicate 16 7) 1 2 1 = .ok t' ∧
    (t' = t ∨ t' = ~~~ t) :=
  C141_forgery_violated [5, 6] 70 (List.replicate 16 7) 1 2 1 rfl (by decide) (by decide) (by decide) (by decide)

/-- The code's tag is not 128-EIA3: key and iv zero, one zero bit.  The standard's tag is `c8a9595e` (its first test
set). -/
theorem C141_standard_violated :
    ∃ b b', newMac (List.replicate 16 0) (List.replicate 16 0) = .ok b ∧ macSum b [0] 1 = .ok ([0x4e, 0xfd, 0x3e, 0x32], b') ∧
      Spec.eia3 (Spec.word (Spec.load128 (List.replicate 16 0) (List.replicate 16 0))) [false] = 0xc8a9595e := by
  obtain ⟨b, l, e, hw, hl, hb⟩ := newMac_holds (List.replicate 16 0) (List.replicate 16 0) rfl rfl
  have w0 : wordAt (start l) 0 = 0x27bede74 := by rw [hl]; decide +kernel
  have w1 : wordAt (start l) 1 = 0x018082da := by rw [hl]; decide +kernel
  have w2 : wordAt (start l) 2 = 0x87d4e5b6 := by rw [hl]; decide +kernel
  obtain ⟨b', h⟩ := sum_spec (start l) b [] [0] 1 hb (by decide)
  refine ⟨b, b', e, h.trans ?_, ?_⟩
  · have key : ∀ z : Nat → W, z 0 = 0x27bede74#32 → z 1 = 0x018082da#32 →
        Spec.wordBytes (Spec.eia3 (dup z) [false]) = [0x4e, 0xfd, 0x3e, 0x32] := by
      intro z h0 h1
      have d0 : dup z 0 = 0x27bede74#32 := h0
      have d1 : dup z 1 = 0x27bede74#32 := h0
      have d2 : dup z 2 = 0x018082da#32 := h1
      have : Spec.eia3 (dup z) [false] = 0 ^^^ (0 : W) ^^^ (dup z 0 ++ dup z 1).extractLsb' 31 32 ^^^ dup z 2 := rfl
      rw [this, d0, d1, d2]
      decide
    exact congrArg (fun t => Res.ok (t, b')) (key _ w0 w1)
  · rw [hw]
    have key : ∀ z : Nat → W, z 0 = 0x27bede74#32 → z 1 = 0x018082da#32 → z 2 = 0x87d4e5b6#32 →
        Spec.eia3 z [false] = 0xc8a9595e := by
      intro z h0 h1 h2
      have : Spec.eia3 z [false] = 0 ^^^ (0 : W) ^^^ (z 0 ++ z 1).extractLsb' 31 32 ^^^ z 2 := rfl
      rw [this, h0, h1, h2]
      decide
    exact key _ w0 w1 w2

/-- After `Reset` the object no longer computes the MAC of its key: the registers are zero and nothing restores them.
Fresh object, key and iv zero, empty message: the tag before and after `Reset`. -/
theorem C141_reset_violated : ∃ b t b1 t' b2, newMac (List.replicate 16 0) (List.replicate 16 0) = .ok b ∧
    macSum b [] 0 = .ok (t, b1) ∧ macSum (macReset b) [] 0 = .ok (t', b2) ∧ t ≠ t' := by
  obtain ⟨b, l, e, hw, hl, hb⟩ := newMac_holds (List.replicate 16 0) (List.replicate 16 0) rfl rfl
  have eb : b = ⟨⟨start l, 0, (keyword (start l)).1⟩, [0, 0, 0, 0], 0⟩ := by
    have : newMac (List.replicate 16 0) (List.replicate 16 0) = .ok ⟨⟨start l, 0, (keyword (start l)).1⟩, [0, 0, 0, 0], 0⟩ := by rw [hl]; rfl
    rw [this] at e
    exact (Res.ok.inj e).symm
  refine ⟨b, _, _, _, _, e, rfl, rfl, ?_⟩
  subst eb
  rw [hl]
  decide +kernel

/-- `Sum` changes the object: asked again, it gives another tag. -/
theorem C141_sum_again_violated : ∃ b t b1 t' b2, newMac (List.replicate 16 0) (List.replicate 16 0) = .ok b ∧
    macSum b [] 0 = .ok (t, b1) ∧ macSum b1 [] 0 = .ok (t', b2) ∧ t ≠ t' := by
  obtain ⟨b, l, e, hw, hl, hb⟩ := newMac_holds (List.replicate 16 0) (List.replicate 16 0) rfl rfl
  have eb : b = ⟨⟨start l, 0, (keyword (start l)).1⟩, [0, 0, 0, 0], 0⟩ := by
    have : newMac (List.replicate 16 0) (List.replicate 16 0) = .ok ⟨⟨start l, 0, (keyword (start l)).1⟩, [0, 0, 0, 0], 0⟩ := by rw [hl]; rfl
    rw [this] at e
    exact (Res.ok.inj e).symm
  refine ⟨b, _, _, _, _, e, rfl, rfl, ?_⟩
  subst eb
  rw [hl]
  decide +kernel

end Verif.Zuc
