import Verif.Cipher.Square
import Mathlib.Tactic.IntervalCases
/-
C178: SQUARE (cipher/square).
-/
namespace Verif.Cipher.Square
set_option maxRecDepth 100000

/-! ## The specification: J. Daemen, L. Knudsen, V. Rijmen, The block cipher Square (FSE 1997), on 4 × 4 matrices of bytes -/
namespace Spec
abbrev Mat := Nat → Nat → Byte
/-- Multiplication by `x` in GF(2^8) modulo `x^8 + x^7 + x^6 + x^5 + x^4 + x^2 + 1`. -/
def dbl (x : Byte) : Byte := (x <<< 1) ^^^ (if x.getLsbD 7 then 0xf5 else 0)
/-- Multiplication by the element with the bits of `c < 16`. -/
def gmul (c : Nat) (x : Byte) : Byte :=
  (if c.testBit 0 then x else 0) ^^^ (if c.testBit 1 then dbl x else 0) ^^^ (if c.testBit 2 then dbl (dbl x) else 0) ^^^ (if c.testBit 3 then dbl (dbl (dbl x)) else 0)
/-- Multiplication of each row, as a polynomial modulo `1 + x^4`, by the polynomial with coefficients `c`. -/
def rowMul (c : List Nat) (a : Mat) : Mat := fun i j =>
  gmul (c.getD (j % 4) 0) (a i 0) ^^^ gmul (c.getD ((j + 3) % 4) 0) (a i 1) ^^^ gmul (c.getD ((j + 2) % 4) 0) (a i 2) ^^^ gmul (c.getD ((j + 1) % 4) 0) (a i 3)
/-- θ. -/
def theta : Mat → Mat := rowMul [2, 1, 1, 3]
/-- The inverse of θ. -/
def thetaInv : Mat → Mat := rowMul [0xe, 9, 0xd, 0xb]
/-- γ. -/
def gamma (S : Byte → Byte) (a : Mat) : Mat := fun i j => S (a i j)
/-- π. -/
def transpose (a : Mat) : Mat := fun i j => a j i
/-- σ. -/
def add (a k : Mat) : Mat := fun i j => a i j ^^^ k i j
/-- ψ: the next round key; the constant of round `t` is `2^t`. -/
def next (k : Mat) (t : Nat) : Mat
  | 0, j => k 0 j ^^^ k 3 ((j + 1) % 4) ^^^ (if j = 0 then 1 <<< t else 0)
  | i + 1, j => k (i + 1) j ^^^ next k t i j
def roundKey (k : Mat) : Nat → Mat
  | 0 => k
  | t + 1 => next (roundKey k t) t
/-- Eight times θ, γ, π and the addition of a round key, after the inverse of θ and the addition of the key. -/
def encrypt (S : Byte → Byte) (k a : Mat) : Mat :=
  (List.range 8).foldl (fun a t => add (transpose (gamma S (theta a))) (roundKey k (t + 1))) (add (thetaInv a) k)
/-- Sixteen bytes, row by row. -/
def ofBytes (b : Bytes) : Mat := fun i j => b.getD (4 * i + j) 0
def toBytes (a : Mat) : Bytes := (List.range 16).map fun n => a (n / 4) (n % 4)
end Spec

/-! ## Words and bytes -/

theorem getb_pk (a b c d : Byte) : getb 0 (pk a b c d) = a ∧ getb 1 (pk a b c d) = b ∧ getb 2 (pk a b c d) = c ∧ getb 3 (pk a b c d) = d := by
  refine ⟨?_, ?_, ?_, ?_⟩
  all_goals
    apply BitVec.eq_of_getLsbD_eq
    intro i hi
    unfold getb pk
    interval_cases i <;> simp

theorem pk_getb (x : W) : pk (getb 0 x) (getb 1 x) (getb 2 x) (getb 3 x) = x := by
  apply BitVec.eq_of_getLsbD_eq
  intro i hi
  unfold getb pk
  interval_cases i <;> simp

theorem getb_xor (k : Nat) (x y : W) : getb k (x ^^^ y) = getb k x ^^^ getb k y := by
  unfold getb
  rw [BitVec.ushiftRight_xor_distrib, BitVec.setWidth_xor]

theorem xor8 (a b c d a' b' c' d' : W) : (a ^^^ a') ^^^ (b ^^^ b') ^^^ (c ^^^ c') ^^^ (d ^^^ d') = (a ^^^ b ^^^ c ^^^ d) ^^^ (a' ^^^ b' ^^^ c' ^^^ d') := by ac_rfl

theorem pk_xor (a b c d a' b' c' d' : Byte) : pk (a ^^^ a') (b ^^^ b') (c ^^^ c') (d ^^^ d') = pk a b c d ^^^ pk a' b' c' d' := by
  unfold pk
  rw [BitVec.setWidth_xor, BitVec.setWidth_xor, BitVec.setWidth_xor, BitVec.setWidth_xor, BitVec.shiftLeft_xor_distrib, BitVec.shiftLeft_xor_distrib, BitVec.shiftLeft_xor_distrib]
  exact xor8 ..

theorem rotr_xor (x y : W) (n : Nat) : rotr (x ^^^ y) n = rotr x n ^^^ rotr y n := rotl_xor ..

/-! ## The tables -/
open Spec (dbl gmul)

theorem dbl_xor (x y : Byte) : dbl (x ^^^ y) = dbl x ^^^ dbl y := by
  unfold dbl
  rw [BitVec.shiftLeft_xor_distrib, BitVec.getLsbD_xor]
  have h (a b c : Byte) : a ^^^ b = (a ^^^ c) ^^^ (b ^^^ c) := by
    rw [show (a ^^^ c) ^^^ (b ^^^ c) = a ^^^ b ^^^ (c ^^^ c) by ac_rfl, BitVec.xor_self, BitVec.xor_zero]
  cases x.getLsbD 7 <;> cases y.getLsbD 7
  · simp
  · simp; ac_rfl
  · simp; ac_rfl
  · simpa using h (x <<< 1) (y <<< 1) 0xf5

theorem gmul_xor (c : Nat) (x y : Byte) : gmul c (x ^^^ y) = gmul c x ^^^ gmul c y := by
  unfold gmul
  rw [dbl_xor, dbl_xor, dbl_xor]
  cases c.testBit 0 <;> cases c.testBit 1 <;> cases c.testBit 2 <;> cases c.testBit 3 <;> simp <;> ac_rfl

/-- A byte times the rows of the matrix of θ or its inverse. -/
def sphi (x : Byte) : W := pk (gmul 2 x) x x (gmul 3 x)
def iphi (x : Byte) : W := pk (gmul 0xe x) (gmul 9 x) (gmul 0xd x) (gmul 0xb x)

theorem sphi_xor (x y : Byte) : sphi (x ^^^ y) = sphi x ^^^ sphi y := by simp only [sphi, gmul_xor, pk_xor]
theorem iphi_xor (x y : Byte) : iphi (x ^^^ y) = iphi x ^^^ iphi y := by simp only [iphi, gmul_xor, pk_xor]

theorem phi_eq : ∀ x, phi x = sphi x := by decide +kernel
theorem te0 : ∀ x, tab Te0Tab x = sphi (Se x) := by decide +kernel
theorem te1' : ∀ x, tab Te1Tab x = rotr (tab Te0Tab x) 8 := by decide +kernel
theorem te1 (x : Byte) : tab Te1Tab x = rotr (sphi (Se x)) 8 := by rw [te1', te0]
theorem te2' : ∀ x, tab Te2Tab x = rotr (tab Te0Tab x) 16 := by decide +kernel
theorem te2 (x : Byte) : tab Te2Tab x = rotr (sphi (Se x)) 16 := by rw [te2', te0]
theorem te3' : ∀ x, tab Te3Tab x = rotr (tab Te0Tab x) 24 := by decide +kernel
theorem te3 (x : Byte) : tab Te3Tab x = rotr (sphi (Se x)) 24 := by rw [te3', te0]
theorem td0 : ∀ x, tab Td0Tab x = iphi (Sd x) := by decide +kernel
theorem td1' : ∀ x, tab Td1Tab x = rotr (tab Td0Tab x) 8 := by decide +kernel
theorem td1 (x : Byte) : tab Td1Tab x = rotr (iphi (Sd x)) 8 := by rw [td1', td0]
theorem td2' : ∀ x, tab Td2Tab x = rotr (tab Td0Tab x) 16 := by decide +kernel
theorem td2 (x : Byte) : tab Td2Tab x = rotr (iphi (Sd x)) 16 := by rw [td2', td0]
theorem td3' : ∀ x, tab Td3Tab x = rotr (tab Td0Tab x) 24 := by decide +kernel
theorem td3 (x : Byte) : tab Td3Tab x = rotr (iphi (Sd x)) 24 := by rw [td3', td0]
theorem Sd_Se : ∀ x, Sd (Se x) = x := by decide +kernel

/-- The matrix times a word. -/
def lin (f : Byte → W) (x : W) : W := f (getb 0 x) ^^^ rotr (f (getb 1 x)) 8 ^^^ rotr (f (getb 2 x)) 16 ^^^ rotr (f (getb 3 x)) 24

theorem lin_xor (f : Byte → W) (hf : ∀ x y, f (x ^^^ y) = f x ^^^ f y) (x y : W) : lin f (x ^^^ y) = lin f x ^^^ lin f y := by
  simp only [lin, getb_xor, hf, rotr_xor]
  exact xor8 ..

theorem theta_eq (x : W) : theta x = lin sphi x := by simp only [theta, lin, phi_eq]

theorem lin0 : ∀ b, lin iphi (lin sphi (pk b 0 0 0)) = pk b 0 0 0 ∧ lin sphi (lin iphi (pk b 0 0 0)) = pk b 0 0 0 := by decide +kernel
theorem lin1 : ∀ b, lin iphi (lin sphi (pk 0 b 0 0)) = pk 0 b 0 0 ∧ lin sphi (lin iphi (pk 0 b 0 0)) = pk 0 b 0 0 := by decide +kernel
theorem lin2 : ∀ b, lin iphi (lin sphi (pk 0 0 b 0)) = pk 0 0 b 0 ∧ lin sphi (lin iphi (pk 0 0 b 0)) = pk 0 0 b 0 := by decide +kernel
theorem lin3 : ∀ b, lin iphi (lin sphi (pk 0 0 0 b)) = pk 0 0 0 b ∧ lin sphi (lin iphi (pk 0 0 0 b)) = pk 0 0 0 b := by decide +kernel

theorem split (x : W) : x = pk (getb 0 x) 0 0 0 ^^^ pk 0 (getb 1 x) 0 0 ^^^ pk 0 0 (getb 2 x) 0 ^^^ pk 0 0 0 (getb 3 x) := by
  rw [← pk_xor, ← pk_xor, ← pk_xor]
  have h1 (a : Byte) : a ^^^ 0 = a := BitVec.xor_zero
  have h2 (a : Byte) : 0 ^^^ a = a := BitVec.zero_xor
  simp only [h1, h2]
  exact (pk_getb x).symm

theorem lin_inv (x : W) : lin iphi (lin sphi x) = x ∧ lin sphi (lin iphi x) = x := by
  rw [split x]
  constructor
  · simp only [lin_xor _ sphi_xor, lin_xor _ iphi_xor, lin0, lin1, lin2, lin3]
  · simp only [lin_xor _ sphi_xor, lin_xor _ iphi_xor, lin0, lin1, lin2, lin3]

/-! ## The rounds -/

theorem round_e (s k : St) : round Te0Tab Te1Tab Te2Tab Te3Tab s k = xor4 (map4 (lin sphi) (sub Se s)) k := by
  simp only [round, col, te0, te1, te2, te3, map4, sub, fin, lin, (getb_pk _ _ _ _).1, (getb_pk _ _ _ _).2.1, (getb_pk _ _ _ _).2.2.1, (getb_pk _ _ _ _).2.2.2]
theorem round_d (s k : St) : round Td0Tab Td1Tab Td2Tab Td3Tab s k = xor4 (map4 (lin iphi) (sub Sd s)) k := by
  simp only [round, col, td0, td1, td2, td3, map4, sub, fin, lin, (getb_pk _ _ _ _).1, (getb_pk _ _ _ _).2.1, (getb_pk _ _ _ _).2.2.1, (getb_pk _ _ _ _).2.2.2]

theorem sub_sub (s : St) : sub Sd (sub Se s) = s := by
  simp only [sub, fin, (getb_pk _ _ _ _).1, (getb_pk _ _ _ _).2.1, (getb_pk _ _ _ _).2.2.1, (getb_pk _ _ _ _).2.2.2, Sd_Se, pk_getb]
theorem xor4_xor4 (s t : St) : xor4 (xor4 s t) t = s := by simp [xor4, BitVec.xor_assoc]
theorem map4_xor4 (s t : St) : map4 (lin iphi) (xor4 s (transform t)) = xor4 (map4 (lin iphi) s) t := by
  simp only [map4, xor4, transform, theta_eq, lin_xor _ iphi_xor, (lin_inv _).1]
theorem map4_inv (s : St) : map4 (lin iphi) (map4 (lin sphi) s) = s ∧ map4 (lin sphi) (map4 (lin iphi) s) = s := by
  simp only [map4, (lin_inv _).1, (lin_inv _).2, Prod.mk.eta, and_self]

/-- One round of `squareEncrypt` undone: the states are `sub Se` of those of `squareEncrypt`. -/
theorem undo (s r : St) : round Td0Tab Td1Tab Td2Tab Td3Tab (sub Se (round Te0Tab Te1Tab Te2Tab Te3Tab s (transform r))) r = sub Se s := by
  rw [round_d, sub_sub, round_e, map4_xor4, (map4_inv _).1, xor4_xor4]

theorem decrypt_encrypt (k s : St) : decrypt (dkey k) (encrypt (ekey k) s) = s := by
  have he (t : Nat) (h : t < 8) : ekey k t = transform (raw k t) := if_pos h
  have hd (t : Nat) (h : t < 8) : dkey k t = raw k (8 - t) := if_pos h
  simp only [decrypt, encrypt, List.foldl_cons, List.foldl_nil, final, he 0 (by decide), he 1 (by decide), he 2 (by decide), he 3 (by decide), he 4 (by decide), he 5 (by decide),
    he 6 (by decide), he 7 (by decide), hd 0 (by decide), hd 1 (by decide), hd 2 (by decide), hd 3 (by decide), hd 4 (by decide), hd 5 (by decide), hd 6 (by decide), hd 7 (by decide),
    show ekey k 8 = raw k 8 from rfl, show dkey k 8 = transform (raw k 0) from rfl, Nat.reduceSub, Nat.sub_zero, xor4_xor4, undo, sub_sub]

theorem blockFn (k : St) : BlockFn 16 (enc4BE 32 4 (encrypt (ekey k))) (enc4BE 32 4 (decrypt (dkey k))) :=
  blockFn_4BE 16 (by decide) (by decide) (decrypt_encrypt k)

/-- **C178** Keys of 16 bytes are accepted and no others; `Encrypt` and `Decrypt` are inverse functions of the first 16 bytes and panic on short or partially overlapping
slices. -/
theorem C178_block_cipher : Implements newCipher (fun l => l = 16) 16 :=
  implements_fn (ok := fun l => l = 16) (f := fun key => enc4BE 32 4 (encrypt (ekey (ld4BE 32 4 key)))) (g := fun key => enc4BE 32 4 (decrypt (dkey (ld4BE 32 4 key)))) fun key _ => blockFn _

example : kat newCipher (hx 16 0x000102030405060708090a0b0c0d0e0f) (hx 16 0x000102030405060708090a0b0c0d0e0f) = .ok (hx 16 0x7c3491d94994e70f0ec2e7a5ccb5a14f) := by decide +kernel

/-! ## Refinement -/

def w (s : St) : Nat → W
  | 0 => s.1
  | 1 => s.2.1
  | 2 => s.2.2.1
  | _ => s.2.2.2

/-- The words are the rows of the matrix. -/
def R (s : St) (a : Spec.Mat) : Prop := ∀ i j, i < 4 → j < 4 → getb j (w s i) = a i j

theorem rotr_pk (a b c d : Byte) : rotr (pk a b c d) 8 = pk d a b c ∧ rotr (pk a b c d) 16 = pk c d a b ∧ rotr (pk a b c d) 24 = pk b c d a := by
  refine ⟨?_, ?_, ?_⟩
  all_goals
    apply BitVec.eq_of_getLsbD_eq
    intro i hi
    unfold rotr rotl pk
    interval_cases i <;> simp [BitVec.getLsbD_rotateLeft]

theorem getb_rotl (x : W) : getb 0 (rotl x 8) = getb 1 x ∧ getb 1 (rotl x 8) = getb 2 x ∧ getb 2 (rotl x 8) = getb 3 x ∧ getb 3 (rotl x 8) = getb 0 x := by
  have h : rotl x 8 = pk (getb 1 x) (getb 2 x) (getb 3 x) (getb 0 x) := by
    conv_lhs => rw [← pk_getb x]
    exact (rotr_pk _ _ _ _).2.2
  rw [h]
  exact getb_pk ..

theorem gmul_one : ∀ x, gmul 1 x = x := by decide +kernel

theorem R_sub (S : Byte → Byte) {s : St} {a : Spec.Mat} (h : R s a) : R (sub S s) (Spec.transpose (Spec.gamma S a)) := by
  intro i j hi hj
  simp only [Spec.transpose, Spec.gamma, ← h j i hj hi]
  interval_cases i <;> interval_cases j <;> simp only [sub, fin, w, (getb_pk _ _ _ _).1, (getb_pk _ _ _ _).2.1, (getb_pk _ _ _ _).2.2.1, (getb_pk _ _ _ _).2.2.2]

theorem R_xor {s k : St} {a b : Spec.Mat} (h : R s a) (h' : R k b) : R (xor4 s k) (Spec.add a b) := by
  intro i j hi hj
  rw [Spec.add, ← h i j hi hj, ← h' i j hi hj, ← getb_xor]
  interval_cases i <;> rfl

theorem w_map4 (f : W → W) (s : St) (i : Nat) (hi : i < 4) : w (map4 f s) i = f (w s i) := by interval_cases i <;> rfl

theorem R_theta {s : St} {a : Spec.Mat} (h : R s a) : R (map4 (lin sphi) s) (Spec.theta a) := by
  intro i j hi hj
  rw [w_map4 _ _ _ hi, lin]
  simp only [Spec.theta, Spec.rowMul, ← h i 0 hi (by decide), ← h i 1 hi (by decide), ← h i 2 hi (by decide), ← h i 3 hi (by decide), sphi, (rotr_pk _ _ _ _).1,
    (rotr_pk _ _ _ _).2.1, (rotr_pk _ _ _ _).2.2, getb_xor]
  interval_cases j <;> simp only [(getb_pk _ _ _ _).1, (getb_pk _ _ _ _).2.1, (getb_pk _ _ _ _).2.2.1, (getb_pk _ _ _ _).2.2.2, Nat.reduceMod, Nat.reduceAdd, List.getD_cons_zero,
    List.getD_cons_succ, gmul_one]

theorem R_thetaInv {s : St} {a : Spec.Mat} (h : R s a) : R (map4 (lin iphi) s) (Spec.thetaInv a) := by
  intro i j hi hj
  rw [w_map4 _ _ _ hi, lin]
  simp only [Spec.thetaInv, Spec.rowMul, ← h i 0 hi (by decide), ← h i 1 hi (by decide), ← h i 2 hi (by decide), ← h i 3 hi (by decide), iphi, (rotr_pk _ _ _ _).1,
    (rotr_pk _ _ _ _).2.1, (rotr_pk _ _ _ _).2.2, getb_xor]
  interval_cases j <;> simp only [(getb_pk _ _ _ _).1, (getb_pk _ _ _ _).2.1, (getb_pk _ _ _ _).2.2.1, (getb_pk _ _ _ _).2.2.2, Nat.reduceMod, Nat.reduceAdd, List.getD_cons_zero,
    List.getD_cons_succ]

theorem offset_getb (t : Nat) (h : t < 8) (j : Nat) (hj : j < 4) : getb j (offset t) = if j = 0 then 1 <<< t else 0 := by
  interval_cases t <;> interval_cases j <;> rfl

theorem R_evolve {k : St} {a : Spec.Mat} (h : R k a) (t : Nat) (ht : t < 8) : R (evolve k t) (Spec.next a t) := by
  have h0 (j : Nat) (hj : j < 4) : getb j (k.1 ^^^ rotl k.2.2.2 8 ^^^ offset t) = Spec.next a t 0 j := by
    rw [getb_xor, getb_xor, offset_getb t ht j hj, Spec.next, ← h 0 j (by decide) hj, ← h 3 ((j + 1) % 4) (by decide) (Nat.mod_lt _ (by decide))]
    have := getb_rotl k.2.2.2
    interval_cases j
    · rw [this.1]; rfl
    · rw [this.2.1]; rfl
    · rw [this.2.2.1]; rfl
    · rw [this.2.2.2]; rfl
  have hn (i j : Nat) (hi : i + 1 < 4) (hj : j < 4) (x : W) (e : getb j x = Spec.next a t i j) : getb j (w k (i + 1) ^^^ x) = Spec.next a t (i + 1) j := by
    rw [getb_xor, Spec.next, e, h (i + 1) j hi hj]
  intro i j hi hj
  have h1 := hn 0 j (by decide) hj _ (h0 j hj)
  have h2 := hn 1 j (by decide) hj _ h1
  have h3 := hn 2 j (by decide) hj _ h2
  interval_cases i
  · exact h0 j hj
  · exact h1
  · exact h2
  · exact h3

theorem R_raw {k : St} {a : Spec.Mat} (h : R k a) : ∀ t, t ≤ 8 → R (raw k t) (Spec.roundKey a t)
  | 0, _ => h
  | t + 1, ht => R_evolve (R_raw h t (by omega)) t (by omega)

/-- `squareEncrypt` in the order of the specification. -/
theorem encrypt_eq (k s : St) : encrypt (ekey k) s =
    (List.range 8).foldl (fun s t => xor4 (sub Se (map4 (lin sphi) s)) (raw k (t + 1))) (xor4 (map4 (lin iphi) s) k) := by
  have hm (s t : St) : map4 (lin sphi) (xor4 s t) = xor4 (map4 (lin sphi) s) (transform t) := by
    simp only [map4, xor4, transform, theta_eq, lin_xor _ sphi_xor]
  have he (t : Nat) (h : t < 8) : ekey k t = transform (raw k t) := if_pos h
  rw [show List.range 8 = [0, 1, 2, 3, 4, 5, 6, 7] from rfl]
  simp only [encrypt, List.foldl_cons, List.foldl_nil, final, round_e, hm, (map4_inv _).2, he 0 (by decide), he 1 (by decide), he 2 (by decide), he 3 (by decide), he 4 (by decide),
    he 5 (by decide), he 6 (by decide), he 7 (by decide), show ekey k 8 = raw k 8 from rfl, Nat.reduceAdd, show raw k 0 = k from rfl]

theorem R_fold {k : St} {a : Spec.Mat} (h : R k a) : ∀ (l : List Nat) (s : St) (b : Spec.Mat), (∀ t ∈ l, t < 8) → R s b →
    R (l.foldl (fun s t => xor4 (sub Se (map4 (lin sphi) s)) (raw k (t + 1))) s)
      (l.foldl (fun a' t => Spec.add (Spec.transpose (Spec.gamma Se (Spec.theta a'))) (Spec.roundKey a (t + 1))) b)
  | [], _, _, _, hs => hs
  | t :: l, s, b, hl, hs => R_fold h l _ _ (fun t ht => hl t (List.mem_cons_of_mem _ ht)) (R_xor (R_sub Se (R_theta hs)) (R_raw h _ (hl t List.mem_cons_self)))

theorem leBytes_getb (x : W) : (leBytes 4 x.toNat).reverse = [getb 0 x, getb 1 x, getb 2 x, getb 3 x] := by
  have h (n : Nat) : BitVec.ofNat 8 (x.toNat >>> n) = (x >>> n).setWidth 8 := by
    apply BitVec.eq_of_toNat_eq
    simp
  have h0 := h 0
  have h1 := h 8
  have h2 := h 16
  have h3 := h 24
  simp only [Nat.shiftRight_eq_div_pow, Nat.reducePow, Nat.div_one] at h0 h1 h2 h3
  simp only [leBytes, Nat.div_div_eq_div_mul, Nat.reduceMul, h0, h1, h2, h3, getb, List.reverse_cons, List.reverse_nil, List.nil_append, List.cons_append, Nat.reduceSub]

theorem st_eq {s : St} {a : Spec.Mat} (h : R s a) : st4BE 4 s = Spec.toBytes a := by
  have e : st4BE 4 s = (List.range 16).map fun n => getb (n % 4) (w s (n / 4)) := by
    rw [st4BE, four', stBE, stBE, stBE, stBE, stBE, leBytes_getb, leBytes_getb, leBytes_getb, leBytes_getb]
    rfl
  rw [e, Spec.toBytes]
  apply List.map_congr_left
  intro n hn
  rw [List.mem_range] at hn
  exact h _ _ (by omega) (by omega)

theorem R_ld (b : Bytes) (hb : b.length = 16) : R (ld4BE 32 4 b) (Spec.ofBytes b) := by
  have e := st4BE_ld (w := 32) (sz := 4) rfl b hb
  generalize ld4BE 32 4 b = s at e
  intro i j hi hj
  rw [Spec.ofBytes, ← e, st4BE, four', stBE, stBE, stBE, stBE, stBE, leBytes_getb, leBytes_getb, leBytes_getb, leBytes_getb]
  interval_cases i <;> interval_cases j <;> rfl

/-- **C178** `Encrypt` is SQUARE, with the substitution table of cipher/square/tabs.go. -/
theorem C178_square (key : Bytes) (hk : key.length = 16) :
    ∃ c E D, newCipher key = .ok c ∧ IsBlock 16 c.enc c.dec E D ∧ ∀ b : Bytes, b.length = 16 → E b = Spec.toBytes (Spec.encrypt Se (Spec.ofBytes key) (Spec.ofBytes b)) := by
  refine ⟨_, enc4BE 32 4 (encrypt (ekey (ld4BE 32 4 key))), enc4BE 32 4 (decrypt (dkey (ld4BE 32 4 key))), if_pos hk, (blockFn _).isBlock, fun b hb => ?_⟩
  rw [enc4BE, encrypt_eq]
  exact st_eq (R_fold (R_ld key hk) _ _ _ (fun t ht => List.mem_range.mp ht) (R_xor (R_thetaInv (R_ld b hb)) (R_ld key hk)))

/-- Multiplication in the field of both arguments. -/
def fmul (a b : Byte) : Byte := (List.range 8).foldl (fun r i => Spec.dbl r ^^^ (if b.getLsbD (7 - i) then a else 0)) 0
/-- Sum of the entries of `c` at the bits of `x`. -/
def bitSum (c : List Byte) (x : Byte) : Byte := (List.range 8).foldl (fun r i => r ^^^ (if x.getLsbD i then c.getD i 0 else 0)) 0

/-- **C178** The substitution is an affine function, over the field with two elements, of the inverse in the field; zero is taken for the inverse of zero. -/
theorem C178_sbox (x : Byte) : ∃ y, (if x = 0 then y = 0 else fmul x y = 1) ∧ Se x = bitSum [0x7f, 0xda, 0xbc, 0x78, 0xf0, 0x60, 0xc0, 0x80] y ^^^ 0xb1 :=
  have h : ∀ x, (if x = 0 then bitSum [0x2f, 0x6a, 0x4c, 0x98, 0xb0, 0xe0, 0xc0, 0x80] (Se x ^^^ 0xb1) = 0 else fmul x (bitSum [0x2f, 0x6a, 0x4c, 0x98, 0xb0, 0xe0, 0xc0, 0x80] (Se x ^^^ 0xb1)) = 1) ∧
      Se x = bitSum [0x7f, 0xda, 0xbc, 0x78, 0xf0, 0x60, 0xc0, 0x80] (bitSum [0x2f, 0x6a, 0x4c, 0x98, 0xb0, 0xe0, 0xc0, 0x80] (Se x ^^^ 0xb1)) ^^^ 0xb1 := by decide +kernel
  ⟨_, h x⟩

end Verif.Cipher.Square
