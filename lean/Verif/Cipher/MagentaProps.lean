import Verif.Cipher.Magenta
/-
C173: MAGENTA (cipher/magenta).  The specification is the description of the AES submission, on bytes.
-/
namespace Verif.Cipher.Magenta
set_option maxRecDepth 100000

namespace Spec

/-- Multiplication by `α` in GF(2^8) with the polynomial `x^8 + x^6 + x^5 + x^2 + 1`. -/
def times (b : Byte) : Byte := if b.toNat < 128 then b <<< 1 else (b <<< 1) ^^^ 0x65

/-- `α ^ n`. -/
def pow : Nat → Byte
  | 0 => 1
  | n + 1 => times (pow n)

/-- `f(x) = α ^ x`, and 0 for 255. -/
def f (x : Byte) : Byte := if x = 255 then 0 else pow x.toNat

/-- `A(x, y) = f(x ⊕ f(y))`. -/
def A (x y : Byte) : Byte := f (x ^^^ f y)

/-- `Π(x0 … x15) = (PE(x0, x8), PE(x1, x9), …, PE(x7, x15))` with `PE(x, y) = (A(x, y), A(y, x))`. -/
def Pi (w : Bytes) : Bytes := (List.range 8).flatMap fun i => [A (w.getD i 0) (w.getD (i + 8) 0), A (w.getD (i + 8) 0) (w.getD i 0)]

def T (w : Bytes) : Bytes := Pi (Pi (Pi (Pi w)))

/-- The bytes of even index before those of odd index. -/
def S (w : Bytes) : Bytes := (List.range 8).map (fun i => w.getD (2 * i) 0) ++ (List.range 8).map (fun i => w.getD (2 * i + 1) 0)

/-- `C(1)(w) = T(w)`, `C(n+1)(w) = T(w ⊕ S(C(n)(w)))`; here `C n` is `C(n+1)`. -/
def C : Nat → Bytes → Bytes
  | 0, w => T w
  | n + 1, w => T (xorb w (S (C n w)))

/-- `E(3)`: the first half of `S(C(3)(w))`. -/
def E3 (w : Bytes) : Bytes := (S (C 2 w)).take 8

/-- A round: `(X1, X2) ↦ (X2, X1 ⊕ E(3)(X2 ‖ K))`. -/
def round (X : Bytes × Bytes) (K : Bytes) : Bytes × Bytes := (X.2, xorb X.1 (E3 (X.2 ++ K)))

/-- The order of the 8-byte parts of the key. -/
def order (n : Nat) : List Nat := if n = 16 then [1, 1, 2, 2, 1, 1] else if n = 24 then [1, 2, 3, 3, 2, 1] else [1, 2, 3, 4, 4, 3, 2, 1]

/-- The cipher on bytes. -/
def encrypt (key X : Bytes) : Bytes :=
  let K (i : Nat) : Bytes := (key.drop (8 * (i - 1))).take 8
  let Y := ((order key.length).map K).foldl round (X.take 8, X.drop 8)
  Y.1 ++ Y.2

end Spec

/-- Every four bytes reversed: the package reads big-endian words and takes their bytes from the low end. -/
def swapWords : Bytes → Bytes
  | a :: b :: c :: d :: l => d :: c :: b :: a :: swapWords l
  | _ => []

/-! The words of the package and the bytes of the specification -/

theorem byteN_join4 (a b c d : Byte) : byteN (join4 a b c d) 0 = a ∧ byteN (join4 a b c d) 1 = b ∧ byteN (join4 a b c d) 2 = c ∧ byteN (join4 a b c d) 3 = d := by
  refine ⟨?_, ?_, ?_, ?_⟩ <;> (apply BitVec.eq_of_getLsbD_eq; intro i hi; simp only [byteN, join4, BitVec.getLsbD_setWidth, BitVec.getLsbD_ushiftRight, BitVec.getLsbD_or, BitVec.getLsbD_shiftLeft])
  · simp [hi, show i < 32 by omega, show i < 16 by omega, show i < 24 by omega]
  · simp [hi, show 8 + i < 32 by omega, show 8 + i < 16 by omega, show 8 + i < 24 by omega, show ¬ 8 + i < 8 by omega, show i < 32 by omega]
  · simp [hi, show 16 + i < 32 by omega, show ¬ 16 + i < 16 by omega, show 16 + i < 24 by omega]
    rw [BitVec.getLsbD_of_ge a _ (by omega), BitVec.getLsbD_of_ge b _ (by omega)]; simp [show i < 32 by omega]
  · simp [hi, show 24 + i < 32 by omega, show ¬ 24 + i < 16 by omega, show ¬ 24 + i < 24 by omega]
    rw [BitVec.getLsbD_of_ge a _ (by omega), BitVec.getLsbD_of_ge b _ (by omega), BitVec.getLsbD_of_ge c _ (by omega)]; simp [show i < 32 by omega]

theorem byteN_xor (x y : W) (n : Nat) : byteN (x ^^^ y) n = byteN x n ^^^ byteN y n := by
  apply BitVec.eq_of_getLsbD_eq; intro i hi
  simp [byteN, hi]

def toB (x : W) : Bytes := [byteN x 0, byteN x 1, byteN x 2, byteN x 3]
def toB2 (h : H) : Bytes := toB h.1 ++ toB h.2
def toB4 (v : V) : Bytes := toB v.1 ++ toB v.2.1 ++ toB v.2.2.1 ++ toB v.2.2.2

theorem toB_join4 (a b c d : Byte) : toB (join4 a b c d) = [a, b, c, d] := by
  obtain ⟨h0, h1, h2, h3⟩ := byteN_join4 a b c d
  rw [toB, h0, h1, h2, h3]

theorem sBox_f : ∀ x : Byte, sBox.getD x.toNat 0 = Spec.f x := by decide +kernel

theorem A_eq (x y : Byte) : A x y = Spec.A x y := by rw [A, Spec.A, sBox_f, sBox_f]

theorem pi_eq (v : V) : toB4 (pi v) = Spec.Pi (toB4 v) := by
  obtain ⟨a, b, c, d⟩ := v
  simp only [toB4, pi, toB_join4, A_eq]
  rfl

theorem shuffle_eq (v : V) : toB4 (shuffle v) = Spec.S (toB4 v) := by
  obtain ⟨a, b, c, d⟩ := v
  simp only [toB4, shuffle, toB_join4]
  rfl

theorem xor4_eq (v w : V) : toB4 (xor4 v w) = xorb (toB4 v) (toB4 w) := by
  obtain ⟨a, b, c, d⟩ := v
  obtain ⟨a', b', c', d'⟩ := w
  simp only [toB4, xor4, toB, byteN_xor]
  rfl

theorem e3_eq (v : V) : toB2 (e3 v) = Spec.E3 (toB4 v) := by
  have h (w : V) : toB2 (w.1, w.2.1) = (toB4 w).take 8 := rfl
  rw [e3, h]
  simp only [Spec.E3, Spec.C, Spec.T, shuffle_eq, pi_eq, xor4_eq]

theorem r_eq (x y k : H) : toB2 (r x y k) = xorb (toB2 x) (Spec.E3 (toB2 y ++ toB2 k)) := by
  have h : toB4 (y.1, y.2, k.1, k.2) = toB2 y ++ toB2 k := rfl
  rw [← h, ← e3_eq]
  obtain ⟨a, b⟩ := x
  simp only [r, toB2, toB, byteN_xor]
  rfl

def toP (s : H × H) : Bytes × Bytes := (toB2 s.1, toB2 s.2)

theorem pair_eq (lkey : List W) (s : H × H) (i : Nat) :
    toP (pair lkey s i) = Spec.round (Spec.round (toP s) (toB2 (key lkey (2 * i)))) (toB2 (key lkey (2 * i + 1))) := by
  simp only [pair, toP, Spec.round, r_eq]

theorem rounds_eq (lkey : List W) (klen : Nat) (s : H × H) : toP (rounds lkey klen s) =
    ((List.range (if klen = 4 then 8 else 6)).map fun i => toB2 (key lkey i)).foldl Spec.round (toP s) := by
  unfold rounds
  by_cases h : klen = 4
  · simp only [if_pos h, show List.range 4 = [0, 1, 2, 3] from rfl, show List.range 8 = [0, 1, 2, 3, 4, 5, 6, 7] from rfl, List.foldl_cons, List.foldl_nil,
      List.map_cons, List.map_nil, pair_eq]
  · simp only [if_neg h, show List.range 3 = [0, 1, 2] from rfl, show List.range 6 = [0, 1, 2, 3, 4, 5] from rfl, List.foldl_cons, List.foldl_nil,
      List.map_cons, List.map_nil, pair_eq]

theorem byteN_toNat (x : W) (n : Nat) : (byteN x n).toNat = x.toNat / 256 ^ n % 256 := by
  simp only [byteN, BitVec.toNat_setWidth, BitVec.toNat_ushiftRight, Nat.shiftRight_eq_div_pow, Nat.pow_mul]

theorem toB_eq (x : W) : toB x = leBytes 4 x.toNat := by
  have h (n : Nat) : byteN x n = BitVec.ofNat 8 (x.toNat / 256 ^ n) := by
    apply BitVec.eq_of_toNat_eq; rw [byteN_toNat]; simp
  simp only [toB, h, leBytes, Nat.pow_zero, Nat.div_one, Nat.div_div_eq_div_mul, Nat.reduceMul, Nat.reducePow]

theorem toB_ld (l : Bytes) (h : l.length = 4) : toB (BitVec.ofNat 32 (leN l)) = l := by
  have hlt := leN_lt l
  rw [h] at hlt
  rw [toB_eq, BitVec.toNat_ofNat, Nat.mod_eq_of_lt (by exact hlt), ← h, leBytes_leN]

theorem word_eq : ∀ (i n : Nat) (k : Bytes), i < n → 4 * n ≤ k.length → toB ((ldBE 32 4 n k).getD i 0) = ((swapWords k).drop (4 * i)).take 4
  | i, n + 1, a :: b :: c :: d :: k, hi, hk => by
    match i with
    | 0 =>
      show toB (BitVec.ofNat 32 (leN [d, c, b, a])) = _
      rw [toB_ld _ rfl]
      rfl
    | i + 1 =>
      show toB ((ldBE 32 4 n k).getD i 0) = _
      rw [word_eq i n k (by omega) (by simp only [List.length_cons] at hk; omega)]
      rw [show 4 * (i + 1) = 4 + 4 * i by omega, ← List.drop_drop]
      rfl
  | _, 0, _, hi, _ => by omega
  | _, n + 1, [], _, hk => by simp at hk
  | _, n + 1, [_], _, hk => by simp at hk; omega
  | _, n + 1, [_, _], _, hk => by simp at hk; omega
  | _, n + 1, [_, _, _], _, hk => by simp at hk; omega

theorem swapWords_length : ∀ (k : Bytes), k.length % 4 = 0 → (swapWords k).length = k.length
  | [], _ => rfl
  | _ :: _ :: _ :: _ :: l, h => by simp only [swapWords, List.length_cons] at *; rw [swapWords_length l (by omega)]
  | [_], h => by simp at h
  | [_, _], h => by simp at h
  | [_, _, _], h => by simp at h

theorem half_eq (i n : Nat) (k : Bytes) (hi : 2 * i + 1 < n) (hk : 4 * n ≤ k.length) (h4 : k.length % 4 = 0) :
    toB2 ((ldBE 32 4 n k).getD (2 * i) 0, (ldBE 32 4 n k).getD (2 * i + 1) 0) = ((swapWords k).drop (8 * i)).take 8 := by
  rw [toB2, word_eq _ _ _ (by omega) hk, word_eq _ _ _ hi hk, show 4 * (2 * i) = 8 * i by omega, show 4 * (2 * i + 1) = 8 * i + 4 by omega, ← List.drop_drop]
  have hl := swapWords_length k h4
  generalize hd : (swapWords k).drop (8 * i) = d
  have hd8 : 8 ≤ d.length := by rw [← hd, List.length_drop, hl]; omega
  rw [show (8 : Nat) = 4 + 4 from rfl, List.take_add]

theorem st_eq (v : V) : st4BE 4 v = swapWords (toB4 v) := by
  obtain ⟨a, b, c, d⟩ := v
  simp only [st4BE, four', stBE, ← toB_eq]
  rfl

theorem order_eq (k : Bytes) (hk : k.length = 16 ∨ k.length = 24 ∨ k.length = 32) :
    ((List.range (if (expandKey k).1 = 4 then 8 else 6)).map fun i => toB2 (key (expandKey k).2 i)) =
      (Spec.order k.length).map fun i => ((swapWords k).drop (8 * (i - 1))).take 8 := by
  have h (i : Nat) (hi : 2 * i + 1 < k.length / 4) := half_eq i (k.length / 4) k hi (by omega) (by omega)
  unfold expandKey
  generalize hw : (fun i => (ldBE 32 4 (k.length / 4) k).getD i 0) = w
  have h' (i : Nat) (hi : 2 * i + 1 < k.length / 4) : toB2 (w (2 * i), w (2 * i + 1)) = ((swapWords k).drop (8 * i)).take 8 := by
    rw [← hw]; exact h i hi
  rcases hk with e | e | e <;> rw [e] at h' ⊢
  · have h0 := h' 0 (by decide)
    have h1 := h' 1 (by decide)
    show [toB2 (w 0, w 1), toB2 (w 0, w 1), toB2 (w 2, w 3), toB2 (w 2, w 3), toB2 (w 0, w 1), toB2 (w 0, w 1)] = _
    rw [h0, h1]
    rfl
  · have h0 := h' 0 (by decide)
    have h1 := h' 1 (by decide)
    have h2 := h' 2 (by decide)
    show [toB2 (w 0, w 1), toB2 (w 2, w 3), toB2 (w 4, w 5), toB2 (w 4, w 5), toB2 (w 2, w 3), toB2 (w 0, w 1)] = _
    rw [h0, h1, h2]
    rfl
  · have h0 := h' 0 (by decide)
    have h1 := h' 1 (by decide)
    have h2 := h' 2 (by decide)
    have h3 := h' 3 (by decide)
    show [toB2 (w 0, w 1), toB2 (w 2, w 3), toB2 (w 4, w 5), toB2 (w 6, w 7), toB2 (w 6, w 7), toB2 (w 4, w 5), toB2 (w 2, w 3), toB2 (w 0, w 1)] = _
    rw [h0, h1, h2, h3]
    rfl

/-- C173. What `Encrypt` computes: MAGENTA, with every four bytes of the key, the block and the result reversed. For all keys and blocks. -/
theorem C173_magenta (k X : Bytes) (hk : k.length = 16 ∨ k.length = 24 ∨ k.length = 32) (hX : X.length = 16) :
    encB k X = swapWords (Spec.encrypt (swapWords k) (swapWords X)) := by
  rw [encB, enc4BE, st_eq, Spec.encrypt]
  have hl : (swapWords k).length = k.length := swapWords_length k (by omega)
  have hxl : (swapWords X).length = 16 := by rw [swapWords_length X (by omega), hX]
  simp only [hl, ← order_eq k hk]
  have h0 := half_eq 0 4 X (by decide) (by omega) (by omega)
  have h1 := half_eq 1 4 X (by decide) (by omega) (by omega)
  rw [List.drop_zero] at h0
  rw [List.take_of_length_le (l := (swapWords X).drop (8 * 1)) (by simp [hxl])] at h1
  rw [← h0, ← h1]
  generalize (expandKey k).2 = lk
  generalize (expandKey k).1 = n
  have e : ld4BE 32 4 X = ((ldBE 32 4 4 X).getD 0 0, (ldBE 32 4 4 X).getD 1 0, (ldBE 32 4 4 X).getD 2 0, (ldBE 32 4 4 X).getD 3 0) := rfl
  rw [e]
  have hr := rounds_eq lk n (((ldBE 32 4 4 X).getD 0 0, (ldBE 32 4 4 X).getD 1 0), ((ldBE 32 4 4 X).getD 2 0, (ldBE 32 4 4 X).getD 3 0))
  have hp : toP (((ldBE 32 4 4 X).getD 0 0, (ldBE 32 4 4 X).getD 1 0), ((ldBE 32 4 4 X).getD 2 0, (ldBE 32 4 4 X).getD 3 0)) =
      (toB2 ((ldBE 32 4 4 X).getD (2 * 0) 0, (ldBE 32 4 4 X).getD (2 * 0 + 1) 0), toB2 ((ldBE 32 4 4 X).getD (2 * 1) 0, (ldBE 32 4 4 X).getD (2 * 1 + 1) 0)) := rfl
  rw [← hp, ← hr, encrypt]
  generalize rounds lk n _ = s
  simp [toB4, toP, toB2]

/-- C173: what the methods do to memory, for all keys, buffers and slices. -/
theorem C173_effect : ImplementsSpill newCipher (fun n => n = 16 ∨ n = 24 ∨ n = 32) 16 4 := implements
/-- C173: a block cipher as long as `src` has no further whole word or `dst` is just a block. Missing: longer slices, see the next theorem. -/
theorem C173_block_cipher_partial : ImplementsFor (fun dst src => src.len < 20 ∨ dst.len = 16) newCipher (fun n => n = 16 ∨ n = 24 ∨ n = 32) 16 :=
  C173_effect.short (by decide) (by decide)
/-- C173, violated for longer slices: the bytes after the block are overwritten with zeros. -/
theorem C173_long_slices_violated : ¬ Implements newCipher (fun n => n = 16 ∨ n = 24 ∨ n = 32) 16 := C173_effect.not 16 (.inl rfl) (by decide) (by decide)

/-- C173: the table the package carries is the one `genTab` makes, the powers of `α`. -/
theorem C173_table : genTab 255 1 = sBox ∧ ∀ x : Byte, sBox.getD x.toNat 0 = Spec.f x := ⟨by decide +kernel, sBox_f⟩

/-- The key and the block are not trivial, and decryption gives the block back. -/
example : (kat newCipher (hx 16 0x000102030405060708090a0b0c0d0e0f) (hx 16 0x00112233445566778899aabbccddeeff)).bind
    (katD newCipher (hx 16 0x000102030405060708090a0b0c0d0e0f)) = .ok (hx 16 0x00112233445566778899aabbccddeeff) ∧
    kat newCipher (hx 16 0x000102030405060708090a0b0c0d0e0f) (hx 16 0x00112233445566778899aabbccddeeff) =
      .ok (swapWords (Spec.encrypt (hx 16 0x03020100070605040b0a09080f0e0d0c) (hx 16 0x3322110077665544bbaa9988ffeeddcc))) := by decide +kernel

end Verif.Cipher.Magenta
