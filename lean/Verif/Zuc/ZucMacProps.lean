import Verif.Zuc.ZucMacLemmas
import Verif.Zuc.ZucProps
/-
C141 (128-EIA3) and C142 (the ZUC-256 MAC).
-/
namespace Verif.Zuc
open Verif.Cipher

/-! ### ZUC-256 -/

theorem win_shift (z : Nat → W) (n p : Nat) : Spec.win (fun i => z (n + i)) p = Spec.win z (32 * n + p) := by
  apply BitVec.eq_of_getLsbD_eq
  intro i hi
  rw [win_bit _ _ _ hi, win_bit _ _ _ hi]
  unfold Spec.bitOf
  rw [show (32 * n + p + 31 - i) / 32 = n + (p + 31 - i) / 32 by omega, show (32 * n + p + 31 - i) % 32 = (p + 31 - i) % 32 by omega]

theorem acc_shift (z : Nat → W) (n : Nat) : ∀ (b : List Bool) (p : Nat),
    Spec.acc (fun i => z (n + i)) p b = Spec.acc z (32 * n + p) b := by
  intro b
  induction b with
  | nil => intro p; rfl
  | cons x b ih =>
    intro p
    rw [Spec.acc, Spec.acc, ih, win_shift, Nat.add_assoc]

/-- The absorbing state after the whole words `M`. -/
def fam256 (y : Nat → W) (n : Nat) (s0 : St) (τ : Nat → W) (M : Bytes) : Mac256 :=
  ⟨Strm.iterate workRound (M.length / 4) s0, (List.range n).map fun j => τ j ^^^ Spec.acc y (32 * j) (Spec.bits M), ahead y n (8 * M.length)⟩

theorem fam256_last (y : Nat → W) (n : Nat) (s0 : St) (τ : Nat → W) (hy : ∀ i, wordAt s0 i = y (n + i)) (M : Bytes) (hM : M.length % 4 = 0)
    (k : Nat) (hk : k ≤ 32) (m : W) : macAbsorb256 k (fam256 y n s0 τ M) m =
      ⟨Strm.iterate workRound (M.length / 4 + 1) s0, (List.range n).map fun j => τ j ^^^ Spec.acc y (32 * j) (Spec.bits M ++ topBits k m),
        ahead y n (8 * M.length + k)⟩ := by
  have e : 8 * M.length = 32 * (M.length / 4) := by omega
  unfold fam256
  rw [e, absorb_spec y n _ s0 _ hy k hk]
  congr 1
  apply List.map_congr_left
  intro j _
  rw [acc_append, bits_length, BitVec.xor_assoc, e, Nat.add_comm (32 * j)]

theorem fam256_absorbs (y : Nat → W) (n : Nat) (s0 : St) (τ : Nat → W) (hy : ∀ i, wordAt s0 i = y (n + i)) :
    Absorbs (macAbsorb256 32) (fam256 y n s0 τ) := by
  constructor
  intro M d hM hd
  rw [fam256_last y n s0 τ hy M hM 32 (by omega), topBits_buf d hd 32 (by omega),
    List.take_of_length_le (by rw [bits_length]; omega), ← bits_append]
  unfold fam256
  rw [List.length_append, hd, show (M.length + 4) / 4 = M.length / 4 + 1 by omega, show 8 * (M.length + 4) = 8 * M.length + 32 by omega]

theorem putU32_wordBytes (a : W) : putU32 a = Spec.wordBytes a := by
  apply List.ext_getElem (by rfl)
  intro i h1 h2
  have := putU32_getD a i h1
  rw [List.getD_eq_getElem?_getD, List.getElem?_eq_getElem h1, Option.getD_some] at this
  rw [this]
  simp [Spec.wordBytes]

/-- The number of tag words a value of `macbits` gives. -/
def macWords (macbits : Int) : Nat := if macbits < 64 then 1 else if macbits = 64 then 2 else 4

/-- A tag after a history of writes. -/
theorem sum256_spec (y : Nat → W) (n : Nat) (s0 : St) (τ : Nat → W) (hy : ∀ i, wordAt s0 i = y (n + i)) (b : Buf Mac256)
    (M data : Bytes) (nbits : Nat) (hb : Holds (fam256 y n s0 τ) b M) (hn : nbits ≤ 8 * data.length) :
    ∃ b', macSum256 b data nbits = .ok (((List.range n).map fun j => τ j ^^^ Spec.acc y (32 * j) (Spec.bits M ++ (Spec.bits data).take nbits) ^^^
      Spec.win y (32 * j + (Spec.bits M ++ (Spec.bits data).take nbits).length)).flatMap Spec.wordBytes, b') := by
  obtain ⟨b', A, k, hk, e, hs, hA, hbits⟩ := sumIn_spec (fam256_absorbs y n s0 τ hy) b M data nbits hb hn
  unfold macSum256
  rw [e, hbits]
  simp only [Res.bind]
  refine ⟨_, congrArg Res.ok (Prod.ext ?_ rfl)⟩
  have hz : ∀ (f g : Nat → W), List.zipWith (· ^^^ ·) ((List.range n).map f) ((List.range n).map g) = (List.range n).map fun j => f j ^^^ g j := by
    intro f g
    rw [List.zipWith_map]
    apply List.ext_getElem (by simp)
    intro j h1 h2
    simp
  have hlen : (Spec.bits A ++ topBits k (getU32 b'.buf)).length = 8 * A.length + k := by
    rw [List.length_append, bits_length]; simp [topBits]
  rw [hlen]
  simp only []
  rw [show putU32 = Spec.wordBytes from funext putU32_wordBytes]
  congr 1
  by_cases h0 : 0 < k
  · rw [if_pos (by simp [h0]), hs, Int.toNat_natCast, fam256_last y n s0 τ hy A hA k (by omega)]
    simp only [ahead]
    rw [hz]
    apply List.map_congr_left
    intro j _
    rw [Nat.add_comm (8 * A.length + k)]
  · have : k = 0 := by omega
    subst this
    rw [if_neg (by simp), hs]
    simp only [fam256, ahead]
    rw [hz]
    apply List.map_congr_left
    intro j _
    rw [Nat.add_comm (8 * A.length), show topBits 0 (getU32 b'.buf) = [] from rfl, List.append_nil, Nat.add_zero]

theorem newMac256_holds (key iv : Bytes) (macbits : Int) (hk : key.length = 32) (hv : iv.length = 23) :
    ∃ b s, newMac256 key iv macbits = .ok b ∧
      (∀ i, wordAt s i = Spec.word (Spec.load256 (32 * macWords macbits) key iv) i) ∧
      Holds (fam256 (fun i => wordAt s (macWords macbits + i)) (macWords macbits) (Strm.iterate workRound (2 * macWords macbits) s) (wordAt s)) b [] := by
  obtain ⟨mb, hmb, hcl, htd, hge⟩ : ∃ mb : Int, (if macbits < 32 then 32 else if macbits > 64 then 128 else macbits) = mb ∧
      macClass mb = 32 * macWords macbits ∧ (mb.tdiv 32).toNat = macWords macbits ∧ -32 < mb := by
    refine ⟨_, rfl, ?_⟩
    by_cases h1 : macbits < 32
    · have : macWords macbits = 1 := by unfold macWords; rw [if_pos (by omega)]
      rw [if_pos h1, this]; decide
    · by_cases h2 : macbits > 64
      · have : macWords macbits = 4 := by unfold macWords; rw [if_neg (by omega), if_neg (by omega)]
        rw [if_neg h1, if_pos h2, this]; decide
      · rw [if_neg h1, if_neg h2]
        by_cases h3 : macbits = 64
        · subst h3; decide
        · have : macWords macbits = 1 := by unfold macWords; rw [if_pos (by omega)]
          rw [Int.tdiv_eq_ediv_of_nonneg (by omega), this]
          unfold macClass
          rw [if_neg (by omega), if_pos (by omega)]
          refine ⟨rfl, by omega, by omega⟩
  obtain ⟨d, hd, e⟩ := newState256_ok key iv mb hk hv hge
  refine ⟨⟨⟨(keywords (macWords macbits) (keywords (macWords macbits) (start (load256 d key iv))).2).2,
      (keywords (macWords macbits) (start (load256 d key iv))).1,
      (keywords (macWords macbits) (keywords (macWords macbits) (start (load256 d key iv))).2).1⟩, [0, 0, 0, 0], 0⟩,
    start (load256 d key iv), ?_, ?_, ?_⟩
  · unfold newMac256
    rw [if_neg (by omega), if_neg (by omega)]
    simp only [hmb, e, Res.bind, htd]
  · intro i
    rw [start_word (load256_rel hd key iv hv), hcl]
  · generalize start (load256 d key iv) = s
    generalize macWords macbits = n
    have k1 : keywords n s = ((List.range n).map (wordAt s), Strm.iterate workRound n s) := by
      have := keywords_spec s n 0
      rw [show Strm.iterate workRound 0 s = s from rfl] at this
      rw [this]
      simp
    have k2 : keywords n (Strm.iterate workRound n s) = ((List.range n).map fun i => wordAt s (n + i), Strm.iterate workRound (n + n) s) :=
      keywords_spec s n n
    refine ⟨?_, rfl, rfl, rfl⟩
    simp only [k1, k2]
    unfold fam256 ahead
    rw [show whole [] = [] from rfl]
    simp only [List.length_nil, Nat.zero_div, Nat.mul_zero, Nat.zero_add]
    rw [show n + n = 2 * n by omega]
    congr 1
    · apply List.map_congr_left
      intro j _
      show _ = _ ^^^ (0 : W)
      simp
    · apply List.map_congr_left
      intro j _
      rw [win_word]

/-- For every key, iv and tag size and however the message is cut into `Write` calls and a last `Sum(data, nbits)`, the
tag is the ZUC-256 MAC of the bits of the message. -/
theorem C142_tag (key iv : Bytes) (macbits : Int) (hk : key.length = 32) (hv : iv.length = 23) :
    ∃ b, newMac256 key iv macbits = .ok b ∧ ∀ (chunks : List Bytes) (data : Bytes) (nbits : Nat), nbits ≤ 8 * data.length →
      ∃ b', macSum256 (chunks.foldl macWr256 b) data nbits = .ok
        ((Spec.mac256 (Spec.word (Spec.load256 (32 * macWords macbits) key iv)) (macWords macbits)
          (Spec.bits chunks.flatten ++ (Spec.bits data).take nbits)).flatMap Spec.wordBytes, b') := by
  obtain ⟨b, s, e, hw, hb⟩ := newMac256_holds key iv macbits hk hv
  refine ⟨b, e, fun chunks data nbits hn => ?_⟩
  have hy : ∀ i, wordAt (Strm.iterate workRound (2 * macWords macbits) s) i = wordAt s (macWords macbits + (macWords macbits + i)) := by
    intro i
    unfold wordAt
    rw [← Strm.iterate_add]
    congr 3
    omega
  have hh := writes_hold (fam256_absorbs _ _ _ (wordAt s) hy) chunks b [] hb
  rw [List.nil_append] at hh
  obtain ⟨b', h⟩ := sum256_spec _ _ _ _ hy _ _ data nbits hh hn
  refine ⟨b', h.trans ?_⟩
  rw [show Spec.word (Spec.load256 (32 * macWords macbits) key iv) = wordAt s from (funext hw).symm]
  refine congrArg (fun l => Res.ok (List.flatMap Spec.wordBytes l, b')) ?_
  unfold Spec.mac256
  apply List.map_congr_left
  intro j _
  rw [acc_shift (wordAt s), win_shift (wordAt s), Nat.add_assoc]

/-- A message shorter than `nbits` panics, except that an empty slice turns `nbits` into 0. -/
theorem C142_short (b : Buf Mac256) (data : Bytes) (nbits : Int) :
    (data ≠ [] → nbits > 8 * data.length → macSum256 b data nbits = .panic) ∧ macSum256 b [] nbits = macSum256 b [] 0 := by
  refine ⟨fun h1 h2 => ?_, rfl⟩
  unfold macSum256
  rw [sumIn_short _ _ _ _ h1 h2]
  rfl

/-- Non-vacuity: the standard's test vector with key and iv zero and 400 zero bits, as 50 bytes in one `Sum` and in three
writes, for the 32-bit tag. -/
example : ∃ b b1 b2, newMac256 (List.replicate 32 0) (List.replicate 23 0) 32 = .ok b ∧
    macSum256 b (List.replicate 50 0) 400 = .ok ([0x9b, 0x97, 0x2a, 0x74], b1) ∧
    macSum256 ([List.replicate 3 0, List.replicate 20 0, List.replicate 6 0].foldl macWr256 b) (List.replicate 30 0) 168 =
      .ok ([0x9b, 0x97, 0x2a, 0x74], b2) := by
  obtain ⟨b, e, h⟩ := C142_tag (List.replicate 32 0) (List.replicate 23 0) 32 rfl rfl
  obtain ⟨b1, h1⟩ := h [] (List.replicate 50 0) 400 (by decide)
  obtain ⟨b2, h2⟩ := h [List.replicate 3 0, List.replicate 20 0, List.replicate 6 0] (List.replicate 30 0) 168 (by decide)
  obtain ⟨d, hd⟩ : ∃ d, d = D256.getD 1 [] := ⟨_, rfl⟩
  have hz : Spec.word (Spec.load256 (32 * macWords 32) (List.replicate 32 0) (List.replicate 23 0)) =
      wordAt (start (load256 d (List.replicate 32 0) (List.replicate 23 0))) := by
    funext i
    rw [hd]
    exact (start_word (load256_rel row1 _ _ rfl) i).symm
  have w : (Spec.mac256 (wordAt (start (load256 d (List.replicate 32 0) (List.replicate 23 0)))) 1 (List.replicate 400 false)).flatMap Spec.wordBytes =
      [0x9b, 0x97, 0x2a, 0x74] := by
    rw [hd]
    decide +kernel
  refine ⟨b, b1, b2, e, h1.trans ?_, h2.trans ?_⟩
  · rw [hz, show Spec.bits ([] : List Bytes).flatten ++ (Spec.bits (List.replicate 50 0)).take 400 = List.replicate 400 false by decide +kernel]
    exact congrArg (fun t => Res.ok (t, b1)) w
  · rw [hz, show Spec.bits ([List.replicate 3 0, List.replicate 20 0, List.replicate 6 0] : List Bytes).flatten ++
      (Spec.bits (List.replicate 30 0)).take 168 = List.replicate 400 false by decide +kernel]
    exact congrArg (fun t => Res.ok (t, b2)) w

theorem zero256 : newMac256 (List.replicate 32 0) (List.replicate 23 0) 32 =
    .ok ⟨⟨(keywords 1 (keywords 1 (start (load256 (D256.getD 1 []) (List.replicate 32 0) (List.replicate 23 0)))).2).2,
      (keywords 1 (start (load256 (D256.getD 1 []) (List.replicate 32 0) (List.replicate 23 0)))).1,
      (keywords 1 (keywords 1 (start (load256 (D256.getD 1 []) (List.replicate 32 0) (List.replicate 23 0)))).2).1⟩, [0, 0, 0, 0], 0⟩ := by
  generalize hl : load256 (D256.getD 1 []) (List.replicate 32 0) (List.replicate 23 0) = l
  have e : newState256 (List.replicate 32 0) (List.replicate 23 0) 32 = .ok (start l) := by rw [← hl]; rfl
  unfold newMac256
  rw [if_neg (by decide), if_neg (by decide), show (if (32 : Int) < 32 then (32 : Int) else if (32 : Int) > 64 then 128 else 32) = 32 from rfl]
  simp only [e, Res.bind]
  rfl

/-- After `Reset` the object no longer computes the MAC of its key. -/
theorem C142_reset_violated : ∃ b t b1 t' b2, newMac256 (List.replicate 32 0) (List.replicate 23 0) 32 = .ok b ∧
    macSum256 b [] 0 = .ok (t, b1) ∧ macSum256 (macReset256 b) [] 0 = .ok (t', b2) ∧ t ≠ t' := by
  refine ⟨_, _, _, _, _, zero256, rfl, rfl, ?_⟩
  decide +kernel

/-- `Sum` changes the object: asked again with no data, it gives the tag before the last word was added, not the tag. -/
theorem C142_sum_again_violated : ∃ b t b1 t' b2, newMac256 (List.replicate 32 0) (List.replicate 23 0) 32 = .ok b ∧
    macSum256 b [] 0 = .ok (t, b1) ∧ macSum256 b1 [] 0 = .ok (t', b2) ∧ t ≠ t' := by
  refine ⟨_, _, _, _, _, zero256, rfl, rfl, ?_⟩
  decide +kernel

end Verif.Zuc
