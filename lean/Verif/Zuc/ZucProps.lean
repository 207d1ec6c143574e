import Verif.Zuc.ZucStream
/-
C140: the ZUC stream ciphers of gm/zuc.
-/
namespace Verif.Zuc
open Verif.Cipher

/-! ### What is claimed -/

/-- A history of successful `XORKeyStream(dst, src)` calls: the buffers before each call and `dst` after it. -/
inductive Hist : St → List (Bytes × Bytes) → List Bytes → St → Prop
  | nil (s) : Hist s [] [] s
  | cons {s s1 s2 dst src o calls outs} : encrypt s dst src = .ok (o, s1) → Hist s1 calls outs s2 →
      Hist s ((dst, src) :: calls) (o :: outs) s2

/-- The key words a call on `n` bytes uses up. -/
def wordsFor (n : Nat) : Nat := (n + 3) / 4

/-- The key word the next call starts with. -/
def posAfter : List (Bytes × Bytes) → Nat
  | [] => 0
  | (_, src) :: r => wordsFor src.length + posAfter r

/-- What each call leaves in its `dst`, when the first call starts at word `q`: every call starts at a fresh word. -/
def expected (z : Nat → BitVec 32) : Nat → List (Bytes × Bytes) → List Bytes
  | _, [] => []
  | q, (dst, src) :: r =>
    (xorb src (Spec.keyBytes z q src.length) ++ dst.drop src.length) :: expected z (q + wordsFor src.length) r

/-- The object produces the key words `z`: after every history of calls the outputs are the expected ones, and the
next call succeeds exactly when `dst` is at least as long as `src`, with the expected result. -/
def Produces (s : St) (z : Nat → BitVec 32) : Prop :=
  ∀ calls outs s', Hist s calls outs s' → outs = expected z 0 calls ∧
    ∀ dst src, (src.length ≤ dst.length → ∃ s2, encrypt s' dst src =
        .ok (xorb src (Spec.keyBytes z (posAfter calls) src.length) ++ dst.drop src.length, s2)) ∧
      (dst.length < src.length → encrypt s' dst src = .panic)

theorem hist_spec (s : St) : ∀ {s1 calls outs s'}, Hist s1 calls outs s' → ∀ q, s1 = Strm.iterate workRound q s →
    outs = expected (wordAt s) q calls ∧ s' = Strm.iterate workRound (q + posAfter calls) s := by
  intro s1 calls outs s' h
  induction h with
  | nil t => intro q hq; exact ⟨rfl, hq⟩
  | @cons t t1 t2 dst src o calls outs he _ ih =>
    intro q hq
    rw [hq, encrypt_spec] at he
    by_cases hl : src.length ≤ dst.length
    · rw [if_pos hl] at he
      obtain ⟨rfl, rfl⟩ := Prod.mk.inj (Res.ok.inj he)
      obtain ⟨e1, e2⟩ := ih _ rfl
      refine ⟨?_, ?_⟩
      · rw [e1]; rfl
      · rw [e2, Nat.add_assoc]; rfl
    · rw [if_neg hl] at he
      exact absurd he (by simp)

theorem produces_of (s : St) : Produces s (wordAt s) := by
  intro calls outs s' h
  obtain ⟨e1, e2⟩ := hist_spec s h 0 rfl
  refine ⟨e1, fun dst src => ⟨fun hl => ?_, fun hl => ?_⟩⟩
  · rw [e2, encrypt_spec, if_pos hl, Nat.zero_add]
    exact ⟨_, rfl⟩
  · rw [e2, encrypt_spec, if_neg (by omega)]

theorem produces_start {l : List W} {c : Spec.Cells} (h : RelC l c) : Produces (start l) (Spec.word c) := by
  have : Spec.word c = wordAt (start l) := by
    funext i; exact (start_word h i).symm
  rw [this]
  exact produces_of _

/-- Every list of buffers with `dst` long enough is a history. -/
theorem hist_exists {s : St} {z : Nat → BitVec 32} (h : Produces s z) (calls : List (Bytes × Bytes))
    (hc : ∀ c ∈ calls, c.2.length ≤ c.1.length) : ∃ outs s', Hist s calls outs s' := by
  have app : ∀ s1 c1 o1 s2 dst src o s3, Hist s1 c1 o1 s2 → encrypt s2 dst src = .ok (o, s3) →
      Hist s1 (c1 ++ [(dst, src)]) (o1 ++ [o]) s3 := by
    intro s1 c1 o1 s2 dst src o s3 h1 h2
    induction h1 with
    | nil => exact .cons h2 (.nil _)
    | cons a _ ih => exact .cons a (ih h2)
  induction calls using List.reverseRecOn with
  | nil => exact ⟨[], s, .nil s⟩
  | append_singleton cs c ih =>
    obtain ⟨outs, s', hh⟩ := ih (fun x hx => hc x (by simp [hx]))
    obtain ⟨s2, e⟩ := ((h _ _ _ hh).2 c.1 c.2).1 (hc c (by simp))
    exact ⟨_, _, app _ _ _ _ _ _ _ _ hh e⟩

/-! ### Constructors -/

/-- `NewCipher`: a 16-byte key and iv give an object that produces the key words of the standard's ZUC-128; a key of
another length gives an error. -/
theorem C140_zuc128 (key iv : Bytes) :
    (key.length ≠ 16 → newCipher key iv = .err) ∧
    (key.length = 16 → iv.length = 16 → ∃ s, newCipher key iv = .ok s ∧ Produces s (Spec.word (Spec.load128 key iv))) := by
  refine ⟨fun h => by unfold newCipher; rw [if_pos h], fun hk hv => ?_⟩
  refine ⟨_, ?_, produces_start (load128_rel key iv)⟩
  unfold newCipher newState init
  rw [if_neg (by omega), if_neg (by omega), if_neg (by omega), if_neg (by omega)]

/-- Non-vacuity: the standard's first test vector, key and iv all zero, and a history of two calls. -/
example : ∃ s, newCipher (List.replicate 16 0) (List.replicate 16 0) = .ok s ∧
    (keywords 2 s).1 = [0x27bede74, 0x018082da] ∧
    ∃ outs s', Hist s [([0, 0, 0, 0, 9], [0, 0, 0, 0]), ([0], [0])] outs s' := by
  obtain ⟨s, e, hp⟩ := (C140_zuc128 (List.replicate 16 0) (List.replicate 16 0)).2 rfl rfl
  refine ⟨s, e, ?_, hist_exists hp _ (by simp)⟩
  have : s = start ((List.range 16).map fun i => makeU31 ((List.replicate 16 (0 : Byte)).getD i 0) (at' KD i)
      ((List.replicate 16 (0 : Byte)).getD i 0)) := (Res.ok.inj e).symm
  rw [this]
  decide +kernel

/-- The constants a value of `macbits` selects. -/
def macClass (macbits : Int) : Nat := if macbits < 32 then 0 else if macbits < 64 then 32 else if macbits < 96 then 64 else 128

theorem row_of (macbits : Int) (h : -32 < macbits) : ∃ d, row256 macbits = .ok d ∧ RowOK d (macClass macbits) := by
  unfold row256 macClass
  rcases lt_or_ge macbits 0 with hn | hn
  · have : macbits.tdiv 32 = 0 := by
      have h1 : (-macbits).tdiv 32 = -macbits / 32 := Int.tdiv_eq_ediv_of_nonneg (by omega)
      rw [Int.neg_tdiv] at h1
      omega
    rw [this]
    refine ⟨D256.getD 0 [], rfl, ?_⟩
    rw [if_pos (by omega)]
    exact row0
  · have e : macbits.tdiv 32 = macbits / 32 := Int.tdiv_eq_ediv_of_nonneg hn
    rw [e]
    by_cases h1 : macbits < 32
    · have : macbits / 32 = 0 := by omega
      rw [this, if_pos h1]
      exact ⟨D256.getD 0 [], rfl, row0⟩
    · by_cases h2 : macbits < 64
      · have : macbits / 32 = 1 := by omega
        rw [this, if_neg h1, if_pos h2]
        exact ⟨D256.getD 1 [], rfl, row1⟩
      · by_cases h3 : macbits < 96
        · have : macbits / 32 = 2 := by omega
          rw [this, if_neg h1, if_neg h2, if_pos h3]
          exact ⟨D256.getD 2 [], rfl, row2⟩
        · rw [if_neg (by omega), if_neg h1, if_neg h2, if_neg h3]
          exact ⟨D256.getD 3 [], rfl, row3⟩

theorem newState256_ok (key iv : Bytes) (macbits : Int) (hk : key.length = 32) (hv : iv.length = 23) (hm : -32 < macbits) :
    ∃ d, RowOK d (macClass macbits) ∧ newState256 key iv macbits = .ok (start (load256 d key iv)) := by
  obtain ⟨d, e, hd⟩ := row_of macbits hm
  refine ⟨d, hd, ?_⟩
  unfold newState256
  rw [if_neg (by omega), if_neg (by omega), e]
  rfl

/-- `New256Cipher` and `New256CipherWithMacbits`: a 32-byte key and a 23-byte iv give an object that produces the key
words of the standard's ZUC-256, with the constants of the stream cipher for 0 and of the MAC for 32, 64 and 128. -/
theorem C140_zuc256 (key iv : Bytes) (macbits : Int) :
    (key.length ≠ 32 → newCipher256 key iv macbits = .err) ∧
    (key.length = 32 → iv.length = 23 → -32 < macbits → ∃ s, newCipher256 key iv macbits = .ok s ∧
      Produces s (Spec.word (Spec.load256 (macClass macbits) key iv))) := by
  refine ⟨fun h => by unfold newCipher256; rw [if_pos h], fun hk hv hm => ?_⟩
  obtain ⟨d, hd, e⟩ := newState256_ok key iv macbits hk hv hm
  refine ⟨_, ?_, produces_start (load256_rel hd key iv hv)⟩
  unfold newCipher256
  rw [if_neg (by omega), e]

example : macClass 0 = 0 ∧ macClass 32 = 32 ∧ macClass 64 = 64 ∧ macClass 128 = 128 := by decide

/-- Non-vacuity: the first key words of the ZUC-256 test vector with key and iv all zero. -/
example : ∃ s, newCipher256 (List.replicate 32 0) (List.replicate 23 0) 0 = .ok s ∧
    (keywords 2 s).1 = [0x58d03ad6, 0x2e032ce2] := by
  have hd' : (Res.ok (start (load256 (D256.getD 0 []) (List.replicate 32 0) (List.replicate 23 0))) : Res St) =
    newState256 (List.replicate 32 0) (List.replicate 23 0) 0 := by
    unfold newState256
    rw [if_neg (by simp), if_neg (by simp)]
    rfl
  refine ⟨start (load256 (D256.getD 0 []) (List.replicate 32 0) (List.replicate 23 0)), ?_, ?_⟩
  · unfold newCipher256
    rw [if_neg (by simp), ← hd']
  · decide +kernel

theorem eeaIV_eq (count bearer direction : W) (hb : bearer.toNat < 32) (hd : direction.toNat < 2) :
    eeaIV count bearer direction = Spec.eea3IV count.toNat bearer.toNat direction.toNat := by
  have hc := count.isLt
  have b4 : ((((bearer <<< 1) ||| (direction &&& 1)) <<< 2).setWidth 8 : Byte).toNat = bearer.toNat * 8 + direction.toNat * 4 := by
    have e : ((bearer <<< 1) ||| (direction &&& 1)).toNat = bearer.toNat * 2 + direction.toNat := by
      have e1 : (bearer <<< 1).toNat = bearer.toNat <<< 1 := by
        rw [BitVec.toNat_shiftLeft, Nat.mod_eq_of_lt (by rw [Nat.shiftLeft_eq]; omega)]
      have e2 : (direction &&& 1).toNat = direction.toNat := by
        rw [BitVec.toNat_and, show BitVec.toNat (1 : W) = 2 ^ 1 - 1 from rfl, Nat.and_two_pow_sub_one_eq_mod]
        omega
      rw [BitVec.toNat_or, e1, e2, ← Nat.shiftLeft_add_eq_or_of_lt (by omega), Nat.shiftLeft_eq]
    rw [BitVec.toNat_setWidth, BitVec.toNat_shiftLeft, e, Nat.shiftLeft_eq]
    omega
  have sh : ∀ k n : Nat, ((count >>> k).setWidth 8 : Byte).toNat = count.toNat / 2 ^ k % 256 := by
    intro k n
    rw [BitVec.toNat_setWidth, BitVec.toNat_ushiftRight, Nat.shiftRight_eq_div_pow]
  have s0 : (count.setWidth 8 : Byte).toNat = count.toNat % 256 := by rw [BitVec.toNat_setWidth]
  unfold eeaIV Spec.eea3IV
  simp only [show List.range 8 = [0, 1, 2, 3, 4, 5, 6, 7] from rfl, List.map_cons, List.map_nil, List.cons_append,
    List.nil_append]
  have h0 : ((count >>> 24).setWidth 8 : Byte) =
      BitVec.ofNat 8 ((count.toNat * 2 ^ 32 + bearer.toNat * 2 ^ 27 + direction.toNat * 2 ^ 26) / 256 ^ (7 - 0)) := by
    apply BitVec.eq_of_toNat_eq; rw [sh 24 0, BitVec.toNat_ofNat]; omega
  have h1 : ((count >>> 16).setWidth 8 : Byte) =
      BitVec.ofNat 8 ((count.toNat * 2 ^ 32 + bearer.toNat * 2 ^ 27 + direction.toNat * 2 ^ 26) / 256 ^ (7 - 1)) := by
    apply BitVec.eq_of_toNat_eq; rw [sh 16 0, BitVec.toNat_ofNat]; omega
  have h2 : ((count >>> 8).setWidth 8 : Byte) =
      BitVec.ofNat 8 ((count.toNat * 2 ^ 32 + bearer.toNat * 2 ^ 27 + direction.toNat * 2 ^ 26) / 256 ^ (7 - 2)) := by
    apply BitVec.eq_of_toNat_eq; rw [sh 8 0, BitVec.toNat_ofNat]; omega
  have h3 : (count.setWidth 8 : Byte) =
      BitVec.ofNat 8 ((count.toNat * 2 ^ 32 + bearer.toNat * 2 ^ 27 + direction.toNat * 2 ^ 26) / 256 ^ (7 - 3)) := by
    apply BitVec.eq_of_toNat_eq; rw [s0, BitVec.toNat_ofNat]; omega
  have h4 : ((((bearer <<< 1) ||| (direction &&& 1)) <<< 2).setWidth 8 : Byte) =
      BitVec.ofNat 8 ((count.toNat * 2 ^ 32 + bearer.toNat * 2 ^ 27 + direction.toNat * 2 ^ 26) / 256 ^ (7 - 4)) := by
    apply BitVec.eq_of_toNat_eq; rw [b4, BitVec.toNat_ofNat]; omega
  have h5 : (0 : Byte) =
      BitVec.ofNat 8 ((count.toNat * 2 ^ 32 + bearer.toNat * 2 ^ 27 + direction.toNat * 2 ^ 26) / 256 ^ (7 - 5)) := by
    apply BitVec.eq_of_toNat_eq; rw [BitVec.toNat_ofNat]; show 0 = _; omega
  have h6 : (0 : Byte) =
      BitVec.ofNat 8 ((count.toNat * 2 ^ 32 + bearer.toNat * 2 ^ 27 + direction.toNat * 2 ^ 26) / 256 ^ (7 - 6)) := by
    apply BitVec.eq_of_toNat_eq; rw [BitVec.toNat_ofNat]; show 0 = _; omega
  have h7 : (0 : Byte) =
      BitVec.ofNat 8 ((count.toNat * 2 ^ 32 + bearer.toNat * 2 ^ 27 + direction.toNat * 2 ^ 26) / 256 ^ (7 - 7)) := by
    apply BitVec.eq_of_toNat_eq; rw [BitVec.toNat_ofNat]; show 0 = _; omega
  rw [← h0, ← h1, ← h2, ← h3, ← h4, ← h5, ← h6, ← h7]

theorem setEeaKey_ok (key : Bytes) (count bearer direction : W) (hk : key.length = 16) (hb : bearer.toNat < 32)
    (hd : direction.toNat < 2) : ∃ l, setEeaKey key count bearer direction = .ok (start l) ∧
      RelC l (Spec.load128 key (Spec.eea3IV count.toNat bearer.toNat direction.toNat)) := by
  refine ⟨_, ?_, load128_rel _ _⟩
  unfold setEeaKey init
  rw [eeaIV_eq _ _ _ hb hd, if_neg]
  have : (Spec.eea3IV count.toNat bearer.toNat direction.toNat).length = 16 := by simp [Spec.eea3IV]
  omega

/-- `NewEEACipher`: the key stream of 128-EEA3, for every COUNT, BEARER and DIRECTION. -/
theorem C140_eea (key : Bytes) (count bearer direction : W) :
    (key.length ≠ 16 → newEEACipher key count bearer direction = .err) ∧
    (key.length = 16 → bearer.toNat < 32 → direction.toNat < 2 → ∃ s, newEEACipher key count bearer direction = .ok s ∧
      Produces s (Spec.word (Spec.load128 key (Spec.eea3IV count.toNat bearer.toNat direction.toNat)))) := by
  refine ⟨fun h => by unfold newEEACipher; rw [if_pos h], fun hk hb hd => ?_⟩
  obtain ⟨l, e, hl⟩ := setEeaKey_ok key count bearer direction hk hb hd
  refine ⟨_, ?_, produces_start hl⟩
  unfold newEEACipher
  rw [if_neg (by omega), e]

example : ∃ s, newEEACipher (List.replicate 16 7) 0x66035492 0xf 1 = .ok s :=
  let ⟨s, e, _⟩ := (C140_eea (List.replicate 16 7) 0x66035492 0xf 1).2 rfl (by decide) (by decide)
  ⟨s, e⟩

/-! ### Violations -/

/-- `NewCipher` and `New256Cipher` report a wrong key length as an error but panic on a wrong iv length. -/
theorem C140_iv_panics_violated (key iv : Bytes) :
    (key.length = 16 → iv.length ≠ 16 → newCipher key iv = .panic) ∧
    (∀ macbits, key.length = 32 → iv.length ≠ 23 → newCipher256 key iv macbits = .panic) := by
  refine ⟨fun hk hv => ?_, fun m hk hv => ?_⟩
  · unfold newCipher newState
    rw [if_neg (by omega), if_neg (by omega), if_pos hv]
  · unfold newCipher256 newState256
    rw [if_neg (by omega), if_neg (by omega), if_pos hv]

example : newCipher (List.replicate 16 1) [] = .panic := (C140_iv_panics_violated _ _).1 rfl (by decide)

/-- `New256CipherWithMacbits` panics on every `macbits` of -32 or less, with a good key and iv. -/
theorem C140_macbits_panics_violated (key iv : Bytes) (macbits : Int) (hk : key.length = 32) (hv : iv.length = 23)
    (hm : macbits ≤ -32) : newCipher256 key iv macbits = .panic := by
  have e : macbits.tdiv 32 < 0 := by
    have h1 : (-macbits).tdiv 32 = -macbits / 32 := Int.tdiv_eq_ediv_of_nonneg (by omega)
    rw [Int.neg_tdiv] at h1
    omega
  unfold newCipher256 newState256 row256
  rw [if_neg (by omega), if_neg (by omega), if_neg (by omega), if_pos (by omega), if_pos e]
  rfl

example : newCipher256 (List.replicate 32 1) (List.replicate 23 1) (-32) = .panic :=
  C140_macbits_panics_violated _ _ _ rfl rfl (by decide)

/-! ### Cutting the data -/

/-- The inputs joined. -/
def joinIn (calls : List (Bytes × Bytes)) : Bytes := (calls.map Prod.snd).flatten

theorem keyBytes_split (z : Nat → BitVec 32) (q n m : Nat) (h : n % 4 = 0) :
    Spec.keyBytes z q (n + m) = Spec.keyBytes z q n ++ Spec.keyBytes z (q + n / 4) m := by
  unfold Spec.keyBytes
  rw [List.range_add, List.map_append, List.map_map]
  congr 1
  apply List.map_congr_left
  intro i _
  simp only [Function.comp]
  congr 1
  omega

/-- The object is a stream when every call but the last is on a whole number of words: the outputs joined are the
inputs joined XOR the key stream.  Missing for the full claim of `cipher.Stream`: calls of other lengths, for which it
is false (below). -/
theorem C140_cut_partial {s : St} {z : Nat → BitVec 32} (hp : Produces s z) (calls : List (Bytes × Bytes)) (dst src : Bytes)
    (outs : List Bytes) (s' : St) (h : Hist s (calls ++ [(dst, src)]) outs s')
    (hm : ∀ c ∈ calls, c.2.length % 4 = 0) (hl : ∀ c ∈ calls ++ [(dst, src)], c.1.length = c.2.length) :
    outs.flatten = xorb (joinIn (calls ++ [(dst, src)])) (Spec.keyBytes z 0 (joinIn (calls ++ [(dst, src)])).length) := by
  rw [(hp _ _ _ h).1]
  have key : ∀ (calls : List (Bytes × Bytes)) (q : Nat), (∀ c ∈ calls, c.2.length % 4 = 0) →
      (∀ c ∈ calls ++ [(dst, src)], c.1.length = c.2.length) →
      (expected z q (calls ++ [(dst, src)])).flatten =
        xorb (joinIn (calls ++ [(dst, src)])) (Spec.keyBytes z q (joinIn (calls ++ [(dst, src)])).length) := by
    intro calls
    induction calls with
    | nil =>
      intro q _ hl
      have := hl (dst, src) (by simp)
      dsimp only at this
      simp [expected, joinIn, ← this]
    | cons c calls ih =>
      intro q hm hl
      obtain ⟨d, x⟩ := c
      have h1 := hl (d, x) (by simp)
      have h2 := hm (d, x) (by simp)
      dsimp only at h1 h2
      have hi := ih (q + wordsFor x.length) (fun c hc => hm c (by simp [hc])) (fun c hc => hl c (by simp only [List.cons_append, List.mem_cons]; exact Or.inr hc))
      have hj : joinIn ((d, x) :: calls ++ [(dst, src)]) = x ++ joinIn (calls ++ [(dst, src)]) := rfl
      rw [hj, List.length_append, keyBytes_split z q _ _ h2, xorb_append _ _ _ _ (by simp [Spec.keyBytes]), List.cons_append, expected,
        List.flatten_cons, hi, List.drop_of_length_le (by omega), List.append_nil]
      have : wordsFor x.length = x.length / 4 := by unfold wordsFor; omega
      rw [this]
  exact key calls 0 hm hl

/-- Two one-byte calls use the first bytes of two different key words, so for every key and iv the result differs from
one call on both bytes unless bytes 1 and 4 of the key stream agree. -/
theorem C140_cut_exact {s : St} {z : Nat → BitVec 32} (hp : Produces s z) (a b : Byte) (outs one : List Bytes) (s1 s2 : St)
    (h : Hist s [([0], [a]), ([0], [b])] outs s1) (h1 : Hist s [([0, 0], [a, b])] one s2) :
    outs.flatten = [a ^^^ Spec.byteOf z 0, b ^^^ Spec.byteOf z 4] ∧ one.flatten = [a ^^^ Spec.byteOf z 0, b ^^^ Spec.byteOf z 1] := by
  rw [(hp _ _ _ h).1, (hp _ _ _ h1).1]
  constructor
  · simp [expected, xorb, Spec.keyBytes, wordsFor]
  · simp [expected, xorb, Spec.keyBytes, show List.range 2 = [0, 1] from rfl]

/-- So XORKeyStream is not a stream: with key and iv all zero, two bytes encrypted in two calls come out otherwise than
in one, and the two-call ciphertext does not decrypt in one call. -/
theorem C140_cut_violated : ∃ s, newCipher (List.replicate 16 0) (List.replicate 16 0) = .ok s ∧
    ∃ o1 o2 o3 s1 s2 s3, Hist s [([0], [0]), ([0], [0])] o1 s1 ∧ Hist s [([0, 0], [0, 0])] o2 s2 ∧
      o1.flatten ≠ o2.flatten ∧ Hist s [([0, 0], o1.flatten)] o3 s3 ∧ o3.flatten ≠ [0, 0] := by
  obtain ⟨s, e, hp⟩ := (C140_zuc128 (List.replicate 16 0) (List.replicate 16 0)).2 rfl rfl
  have hw : ∀ i, Spec.word (Spec.load128 (List.replicate 16 0) (List.replicate 16 0)) i =
      wordAt (start ((List.range 16).map fun i => makeU31 ((List.replicate 16 (0 : Byte)).getD i 0) (at' KD i)
        ((List.replicate 16 (0 : Byte)).getD i 0))) i := fun i => (start_word (load128_rel _ _) i).symm
  have w0 : Spec.word (Spec.load128 (List.replicate 16 0) (List.replicate 16 0)) 0 = 0x27bede74 := by
    rw [hw]; decide +kernel
  have w1 : Spec.word (Spec.load128 (List.replicate 16 0) (List.replicate 16 0)) 1 = 0x018082da := by
    rw [hw]; decide +kernel
  generalize Spec.word (Spec.load128 (List.replicate 16 0) (List.replicate 16 0)) = z at *
  have b0 : Spec.byteOf z 0 = 0x27 := by unfold Spec.byteOf; rw [show 0 / 4 = 0 from rfl, w0]; decide
  have b1 : Spec.byteOf z 1 = 0xbe := by unfold Spec.byteOf; rw [show 1 / 4 = 0 from rfl, w0]; decide
  have b4 : Spec.byteOf z 4 = 0x01 := by unfold Spec.byteOf; rw [show 4 / 4 = 1 from rfl, w1]; decide
  obtain ⟨o1, s1, h1⟩ := hist_exists hp [([0], [0]), ([0], [0])] (by simp)
  obtain ⟨o2, s2, h2⟩ := hist_exists hp [([0, 0], [0, 0])] (by simp)
  obtain ⟨c1, c2⟩ := C140_cut_exact hp 0 0 o1 o2 s1 s2 h1 h2
  rw [b0, b4] at c1
  rw [b0, b1] at c2
  obtain ⟨o3, s3, h3⟩ := hist_exists hp [([0, 0], o1.flatten)] (by rw [c1]; simp)
  refine ⟨s, e, o1, o2, o3, s1, s2, s3, h1, h2, ?_, h3, ?_⟩
  · rw [c1, c2]; decide
  · rw [(hp _ _ _ h3).1, c1]
    have : Spec.keyBytes z 0 2 = [0x27, 0xbe] := by
      simp [Spec.keyBytes, show List.range 2 = [0, 1] from rfl, b0, b1]
    simp only [expected]
    rw [show ([0 ^^^ 0x27, 0 ^^^ 1] : Bytes).length = 2 from rfl, this]
    decide

end Verif.Zuc
