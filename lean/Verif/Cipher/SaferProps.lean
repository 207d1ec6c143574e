import Verif.Cipher.Safer
/-
C174: SAFER K-64, K-128, SK-64 and SK-128 (cipher/safer).  The specification is Massey's description: states are functions of the byte position 0 … 7.
-/
namespace Verif.Cipher.Safer
set_option maxRecDepth 100000

namespace Spec

/-- `45 ^ x mod 257`, 256 being written 0. -/
def exp (x : Byte) : Byte := BitVec.ofNat 8 (45 ^ x.toNat % 257)
/-- The `x` with `exp x = y`. -/
def log (y : Byte) : Byte := BitVec.ofNat 8 (((List.range 256).find? fun n => exp (BitVec.ofNat 8 n) = y).getD 0)

/-- The first, fourth, fifth and eighth byte of a block. -/
def outer (j : Nat) : Bool := j ∈ [0, 3, 4, 7]

def mix (K s : Nat → Byte) (j : Nat) : Byte := if outer j then s j ^^^ K j else s j + K j
def subst (s : Nat → Byte) (j : Nat) : Byte := if outer j then exp (s j) else log (s j)
def mix' (K s : Nat → Byte) (j : Nat) : Byte := if outer j then s j + K j else s j ^^^ K j

/-- The pseudo-Hadamard transform `(x, y) ↦ (2x + y, x + y)` of the four pairs of adjacent bytes. -/
def hadamard (s : Nat → Byte) (j : Nat) : Byte := if j % 2 = 0 then s j + s j + s (j + 1) else s (j - 1) + s j
/-- The bytes of odd number (first, third, …) before those of even number. -/
def decimate (s : Nat → Byte) (j : Nat) : Byte := if j < 4 then s (2 * j) else s (2 * (j - 4) + 1)

def round (K K' s : Nat → Byte) : Nat → Byte :=
  hadamard (decimate (hadamard (decimate (hadamard (mix' K' (subst (mix K s)))))))

/-- The `m`-th round key, `m = 1, 2, …`, from the halves `kA` and `kB` of the key: the first is `kB`; afterwards the even ones come from `kA` and the odd ones from
`kB`, each byte rotated to the left by `3(m-1)`, plus the bias `exp (exp (9m + j))` with `j` counted from 1. In the strengthened schedule the sum of the eight bytes is a
ninth byte, and the `m`-th key begins at byte `m - 1` of the nine, cyclically. -/
def roundKey (strong : Bool) (kA kB : Bytes) (m j : Nat) : Byte :=
  let u := if m % 2 = 0 then kA.take 8 else kB.take 8
  if m = 1 then u.getD j 0
  else
    let u9 := u ++ [u.foldl (· ^^^ ·) 0]
    (u9.getD (if strong then (m - 1 + j) % 9 else j) 0).rotateLeft (3 * (m - 1)) + exp (exp (BitVec.ofNat 8 (9 * m + (j + 1))))

/-- `r` rounds and the last round key. -/
def encrypt (K : Nat → Nat → Byte) (r : Nat) (b : Bytes) : Bytes :=
  let s := (List.range r).foldl (fun s i => round (K (2 * i + 1)) (K (2 * i + 2)) s) (fun j => b.getD j 0)
  (List.range 8).map (mix (K (2 * r + 1)) s)

/-- The number of rounds used when none is asked for. -/
def defaultRounds (strong : Bool) (keyBytes : Nat) : Nat := if keyBytes = 16 then 10 else if strong then 8 else 6

end Spec

/-! The tables -/

theorem EXP_spec : ∀ x : Byte, EXP x = Spec.exp x := by decide +kernel
theorem LOG_spec : ∀ x : Byte, LOG x = Spec.log x := by decide +kernel

/-! The rounds -/

def ofF (f : Nat → Byte) : S := ⟨f 0, f 1, f 2, f 3, f 4, f 5, f 6, f 7⟩

theorem two_x (x y : Byte) : x + (y + x) = x + x + y := by rw [BitVec.add_comm y x, ← BitVec.add_assoc]

theorem keyA_spec (k K s : Nat → Byte) (h : ∀ j < 8, k j = K j) : keyA k (ofF s) = ofF (Spec.mix K s) := by
  simp [keyA, ofF, Spec.mix, Spec.outer, h]

theorem pht_spec (s : Nat → Byte) : pht1 (ofF s) = ofF (Spec.hadamard s) := by
  simp only [pht1, PHT, two_x]
  simp only [BitVec.add_comm (ofF s).b, BitVec.add_comm (ofF s).d, BitVec.add_comm (ofF s).f, BitVec.add_comm (ofF s).h]
  rfl

theorem round_spec (k K K' s : Nat → Byte) (h : ∀ j < 8, k j = K j) (h' : ∀ j < 8, k (8 + j) = K' j) :
    round k (ofF s) = ofF (Spec.round K K' s) := by
  have e1 : subB (fun j => k (8 + j)) (ofF (Spec.mix K s)) = ofF (Spec.mix' K' (Spec.subst (Spec.mix K s))) := by
    generalize Spec.mix K s = t
    simp only [subB, ofF, Spec.mix', Spec.subst, EXP_spec, LOG_spec]
    rw [h' 0 (by omega), h' 1 (by omega), h' 2 (by omega), h' 3 (by omega), h' 4 (by omega), h' 5 (by omega), h' 6 (by omega), h' 7 (by omega)]
    rfl
  have lin (t : Nat → Byte) : perm (pht3 (pht2 (ofF t))) = ofF (Spec.hadamard (Spec.decimate (Spec.hadamard (Spec.decimate t)))) := by
    have a (s : S) : perm (pht3 s) = pht1 (perm s) := rfl
    have b (t : Nat → Byte) : pht2 (ofF t) = perm (pht1 (ofF (Spec.decimate t))) := rfl
    have d (t : Nat → Byte) : perm (perm (ofF t)) = ofF (Spec.decimate t) := rfl
    rw [b, pht_spec, a, d, pht_spec]
  rw [round, keyA_spec k K s h, e1, pht_spec, lin]
  rfl

/-! The keys -/

theorem rotl_rotl8 (x : Byte) (a b : Nat) : (rotl (rotl x a) b) = rotl x (a + b) := by
  apply BitVec.eq_of_getElem_eq
  intro i hi
  simp only [rotl_getElem]
  congr 1
  omega

theorem expandLoop_get (strong : Bool) : ∀ (t n i j : Nat) (ka kb : Bytes), t < n → j < 8 →
    (expandLoop strong n i ka kb).getD (16 * t + j) 0 = (row strong (ka.map (rotl · (6 * (t + 1)))) (2 * (i + t) - 1) (18 * (i + t) + 1)).getD j 0 ∧
    (expandLoop strong n i ka kb).getD (16 * t + (8 + j)) 0 = (row strong (kb.map (rotl · (6 * (t + 1)))) (2 * (i + t)) (18 * (i + t) + 10)).getD j 0
  | _, 0, _, _, _, _, h, _ => absurd h (by omega)
  | 0, n + 1, i, j, ka, kb, _, hj => by
    have l (s x a b) : (row s x a b).length = 8 := by simp [row]
    rw [expandLoop]
    simp only [List.getD_eq_getElem?_getD, ROL8, Nat.mul_zero, Nat.zero_add, Nat.add_zero, Nat.mul_one]
    constructor
    · rw [List.append_assoc, List.getElem?_append_left (by rw [l]; exact hj)]
    · rw [List.append_assoc, List.getElem?_append_right (by rw [l]; omega), l, List.getElem?_append_left (by rw [l]; omega), Nat.add_sub_cancel_left]
  | t + 1, n + 1, i, j, ka, kb, h, hj => by
    have l (s x a b) : (row s x a b).length = 8 := by simp [row]
    have ih := expandLoop_get strong t n (i + 1) j (ka.map (rotl · 6)) (kb.map (rotl · 6)) (by omega) hj
    have hm (x : Bytes) : (x.map (rotl · 6)).map (rotl · (6 * (t + 1))) = x.map (rotl · (6 * (t + 1 + 1))) := by
      rw [List.map_map]; congr 1; funext y; simp only [Function.comp_apply, rotl_rotl8]; congr 1; omega
    rw [hm, hm, show i + 1 + t = i + (t + 1) by omega] at ih
    rw [← ih.1, ← ih.2, expandLoop]
    simp only [List.getD_eq_getElem?_getD, ROL8]
    constructor
    · rw [List.getElem?_append_right (by rw [List.length_append, l, l]; omega), List.length_append, l, l]; congr 2; omega
    · rw [List.getElem?_append_right (by rw [List.length_append, l, l]; omega), List.length_append, l, l]; congr 2; omega

theorem expandLoop_length (strong : Bool) : ∀ (n i : Nat) (ka kb : Bytes), (expandLoop strong n i ka kb).length = 16 * n
  | 0, _, _, _ => rfl
  | n + 1, i, ka, kb => by simp only [expandLoop, List.length_append, expandLoop_length, row, List.length_map, List.length_range]; omega

theorem foldl_rotl (l : Bytes) (n : Nat) (x : Byte) : (l.map (rotl · n)).foldl (· ^^^ ·) (rotl x n) = rotl (l.foldl (· ^^^ ·) x) n := by
  induction l generalizing x with
  | nil => rfl
  | cons y l ih => rw [List.map_cons, List.foldl_cons, List.foldl_cons, ← rotl_xor, ih]

theorem row_get (strong : Bool) (x : Bytes) (k0 n j : Nat) (hj : j < 8) :
    (row strong x k0 n).getD j 0 = x.getD (if strong then (k0 + j) % 9 else j) 0 + Spec.exp (Spec.exp (BitVec.ofNat 8 (n + j))) := by
  have e : ebox.getD (ebox.getD ((n + j) % 256) 0).toNat 0 = Spec.exp (Spec.exp (BitVec.ofNat 8 (n + j))) := by
    rw [← EXP_spec, ← EXP_spec, EXP, EXP, BitVec.toNat_ofNat]
  rw [row, List.getD_eq_getElem?_getD, List.getElem?_map, List.getElem?_range hj, ← e]
  simp only [Option.map_some, Option.getD_some, Nat.mod_add_mod]

theorem getD_map (x : Bytes) (i n : Nat) : (x.map (rotl · n)).getD i 0 = rotl (x.getD i 0) n := by
  simp only [List.getD_eq_getElem?_getD, List.getElem?_map]
  cases x[i]? with
  | none => simp only [Option.map_none, Option.getD_none, rotl]; apply BitVec.eq_of_getElem_eq; intro i hi; simp [rotl_getElem]
  | some y => rfl

theorem rotl_add8 (x : Byte) (n : Nat) : rotl x (n + 8) = rotl x n := by
  apply BitVec.eq_of_getElem_eq
  intro i hi
  simp only [rotl_getElem]
  congr 1
  omega

theorem expand_get (strong : Bool) (u1 u2 : Bytes) (r : Nat) (h2 : 8 ≤ u2.length) (hr : r ≤ 13) (i j : Nat) (hj : j < 8) :
    (i ≤ r → at' (expand strong u1 u2 r) (16 * i + 1) j = Spec.roundKey strong u1 u2 (2 * i + 1) j) ∧
    (i < r → at' (expand strong u1 u2 r) (16 * i + 1) (8 + j) = Spec.roundKey strong u1 u2 (2 * i + 2) j) := by
  have hk : (u2.take 8).length = 8 := by rw [List.length_take]; omega
  have hmin : min 13 r = r := by omega
  have hz (n : Nat) : (0 : Byte) = rotl 0 n := by apply BitVec.eq_of_getElem_eq; intro i hi; simp [rotl_getElem]
  have hp (l : Bytes) (n : Nat) : (l.map (rotl · n)) ++ [(l.map (rotl · n)).foldl (· ^^^ ·) 0] = (l ++ [l.foldl (· ^^^ ·) 0]).map (rotl · n) := by
    rw [List.map_append, List.map_cons, List.map_nil]
    congr 2
    conv => lhs; rw [hz n]
    exact foldl_rotl l n 0
  have hm (l : Bytes) (a b : Nat) : (l.map (rotl · a)).map (rotl · b) = l.map (rotl · (a + b)) := by
    rw [List.map_map]; congr 1; funext y; simp only [Function.comp_apply, rotl_rotl8]
  -- the two halves of turn `t`
  have key (t : Nat) (ht : t < r) (q : Nat) (hq : q < 16) : at' (expand strong u1 u2 r) (16 * t + 9) q =
      (expandLoop strong r 1 (((u1.take 8) ++ [(u1.take 8).foldl (· ^^^ ·) 0]).map (rotl · 5)) (u2.take 8 ++ [(u2.take 8).foldl (· ^^^ ·) 0])).getD (16 * t + q) 0 := by
    rw [← hp, at', expand]
    simp only [hmin, ROL8, List.getD_eq_getElem?_getD]
    rw [List.getElem?_append_left (by simp only [List.cons_append, List.length_cons, List.length_append, hk, expandLoop_length]; omega)]
    rw [List.cons_append, show 16 * t + 9 + q = (8 + (16 * t + q)) + 1 by omega, List.getElem?_cons_succ, List.getElem?_append_right (by omega), hk, Nat.add_sub_cancel_left]
  constructor
  · intro hi
    cases i with
    | zero =>
      rw [at', expand]
      simp only [hmin, List.getD_eq_getElem?_getD]
      rw [List.getElem?_append_left (by simp only [List.cons_append, List.length_cons, List.length_append, hk, expandLoop_length]; omega)]
      rw [List.cons_append, show 16 * 0 + 1 + j = j + 1 by omega, List.getElem?_cons_succ, List.getElem?_append_left (by omega)]
      simp [Spec.roundKey]
    | succ t =>
      have := key t (by omega) (8 + j) (by omega)
      rw [show 16 * (t + 1) + 1 = 16 * t + 9 + 8 by omega]
      rw [(expandLoop_get strong t r 1 j _ _ (by omega) hj).2, row_get _ _ _ _ _ hj, getD_map] at this
      rw [at'] at this ⊢
      rw [show 16 * t + 9 + 8 + j = 16 * t + 9 + (8 + j) by omega, this, Spec.roundKey]
      simp only [show (2 * (t + 1) + 1) % 2 = 1 by omega, show ¬ 2 * (t + 1) + 1 = 1 by omega, if_false, Nat.one_ne_zero]
      congr 1
      · rw [show 2 * (t + 1) + 1 - 1 + j = 2 * (1 + t) + j by omega, show 3 * (2 * (t + 1) + 1 - 1) = 6 * (t + 1) by omega]; rfl
      · congr 3; omega
  · intro hi
    have := key i hi j (by omega)
    rw [(expandLoop_get strong i r 1 j _ _ (by omega) hj).1, row_get _ _ _ _ _ hj, hm, getD_map] at this
    rw [at'] at this ⊢
    rw [show 16 * i + 1 + (8 + j) = 16 * i + 9 + j by omega, this, Spec.roundKey]
    simp only [show (2 * i + 2) % 2 = 0 by omega, show ¬ 2 * i + 2 = 1 by omega, if_false, if_true]
    congr 1
    · rw [show 2 * (1 + i) - 1 + j = 2 * i + 2 - 1 + j by omega, show 5 + 6 * (i + 1) = 3 * (2 * i + 2 - 1) + 8 by omega, rotl_add8]; rfl
    · congr 3; omega

theorem st_ofF (s : Nat → Byte) : st (ofF s) = (List.range 8).map s := rfl

theorem encrypt_spec (key : Bytes) (K : Nat → Nat → Byte) (r : Nat) (hr : rounds key = r)
    (h : ∀ i j, j < 8 → (i ≤ r → at' key (16 * i + 1) j = K (2 * i + 1) j) ∧ (i < r → at' key (16 * i + 1) (8 + j) = K (2 * i + 2) j)) (b : Bytes) :
    st (encrypt key (ld b)) = Spec.encrypt K r b := by
  have fold : ∀ n, n ≤ r → (List.range n).foldl (fun s i => round (at' key (16 * i + 1)) s) (ld b) =
      ofF ((List.range n).foldl (fun s i => Spec.round (K (2 * i + 1)) (K (2 * i + 2)) s) (fun j => b.getD j 0)) := by
    intro n
    induction n with
    | zero => intro _; rfl
    | succ n ih =>
      intro hn
      rw [List.range_succ, List.foldl_append, List.foldl_append, ih (by omega)]
      simp only [List.foldl_cons, List.foldl_nil]
      exact round_spec _ _ _ _ (fun j hj => (h n j hj).1 (by omega)) (fun j hj => (h n j hj).2 (by omega))
  rw [encrypt, hr, fold r (Nat.le_refl r), keyA_spec _ (K (2 * r + 1)) _ (fun j hj => (h r j hj).1 (Nat.le_refl r)), st_ofF, Spec.encrypt]

theorem rounds_expand (strong : Bool) (u1 u2 : Bytes) (r : Nat) (hr : r ≤ 13) : rounds (expand strong u1 u2 r) = r := by
  rw [rounds, expand]
  simp only [show min 13 r = r by omega, List.cons_append, List.getD_cons_zero, BitVec.toNat_ofNat]
  omega

/-! The property -/

/-- **C174** For every number of rounds, the ciphers made by `NewKCipher`, `NewSKCipher` and `NewCipher` are block ciphers of 8-byte blocks: keys of 8 and 16 bytes are
accepted and no others, `Encrypt` and `Decrypt` are inverse functions of the first 8 bytes and panic on short or partially overlapping slices. -/
theorem C174_block_cipher (strong : Bool) (n : Int) : Implements (newCipher strong n) (fun l => l = 8 ∨ l = 16) 8 := implements strong n

example : kat (newCipher true 0) [1, 2, 3] (hx 8 0) = .err := by decide +kernel

/-- **C174** With 0 (the default) or 6 to 13 rounds, `Encrypt` is SAFER K-64, K-128, SK-64 or SK-128 with that number of rounds. -/
theorem C174_safer (strong : Bool) (n : Int) (key : Bytes) (hk : key.length = 8 ∨ key.length = 16) (hn : n = 0 ∨ 6 ≤ n ∧ n ≤ 13) :
    ∃ c D, newCipher strong n key = .ok c ∧
      IsBlock 8 c.enc c.dec (Spec.encrypt (Spec.roundKey strong key (key.drop (key.length - 8))) (if n = 0 then Spec.defaultRounds strong key.length else n.toNat)) D := by
  refine ⟨_, decB strong n key, if_pos hk, ?_⟩
  have e : encB strong n key =
      Spec.encrypt (Spec.roundKey strong key (key.drop (key.length - 8))) (if n = 0 then Spec.defaultRounds strong key.length else n.toNat) := by
    have hr : (if n = 0 then Spec.defaultRounds strong key.length else n.toNat) ≤ 13 := by
      unfold Spec.defaultRounds
      split
      · split; · omega
        split <;> omega
      · omega
    have hs : setKey strong key n = expand strong key (key.drop (key.length - 8)) (if n = 0 then Spec.defaultRounds strong key.length else n.toNat) := by
      rw [setKey, if_neg (show ¬ (n ≠ 0 ∧ (n < 6 ∨ n > 13)) by omega), Spec.defaultRounds]
      rcases hk with h | h
      · simp only [h, if_true, Nat.sub_self, List.drop_zero, show ¬ (8 : Nat) = 16 by decide, if_false, ite_not]
      · simp only [h, if_true, show ¬ (16 : Nat) = 8 by decide, if_false, ite_not, Nat.reduceSub]
    funext b
    rw [encB, hs]
    exact encrypt_spec _ _ _ (rounds_expand _ _ _ _ hr) (fun i j hj => expand_get strong key _ _ (by rw [List.length_drop]; omega) hr i j hj) b
  rw [← e]
  exact (blockFn_of 8 ld st (encrypt (setKey strong key n)) (decrypt (setKey strong key n)) (fun _ => rfl) (fun _ => rfl)
      (fun b hb => by match b, hb with | [_, _, _, _, _, _, _, _], _ => rfl) (decrypt_encrypt _)).isBlock

/- Massey's example for K-64 with 6 rounds, and the published examples for SK-64 and SK-128. -/
example : kat (newCipher false 0) (hx 8 0x0807060504030201) (hx 8 0x0102030405060708) = .ok [200, 242, 156, 221, 135, 120, 62, 217] := by decide +kernel
example : kat (newCipher true 6) (hx 8 0x0102030405060708) (hx 8 0x0102030405060708) = .ok [95, 206, 155, 162, 5, 132, 56, 199] := by decide +kernel
example : kat (newCipher true 0) (hx 16 0x01020304050607080000000000000000) (hx 8 0x0102030405060708) = .ok [255, 120, 17, 228, 179, 167, 46, 113] := by decide +kernel

/-- **C174, the fault.** With any other number of rounds every key of 8 or 16 bytes is accepted, and `Encrypt` writes the plaintext: the error found when the key is set
is dropped, and the key schedule stays all zero, with zero rounds. -/
theorem C174_bad_rounds_violated (strong : Bool) (n : Int) (key : Bytes) (hk : key.length = 8 ∨ key.length = 16) (hn : n < 0 ∨ 0 < n ∧ n < 6 ∨ 13 < n) :
    ∃ c, newCipher strong n key = .ok c ∧ IsBlock 8 c.enc c.dec id id := by
  refine ⟨_, if_pos hk, ?_⟩
  have hs : setKey strong key n = List.replicate 217 0 := by
    rw [setKey, if_pos (show n ≠ 0 ∧ (n < 6 ∨ n > 13) by omega)]
  have hr : rounds (List.replicate 217 0) = 0 := by decide
  have h0 (j : Nat) : at' (List.replicate 217 0) 1 j = 0 := by
    rw [at', List.getD_eq_getElem?_getD, List.getElem?_replicate]; split <;> rfl
  generalize List.replicate 217 (0 : Byte) = z at hs hr h0
  have hE (s : S) : encrypt z s = s := by
    simp [encrypt, hr, keyA, h0]
  have hD (s : S) : decrypt z s = s := by
    simp [decrypt, hr, ikeyA, h0]
  have st_ld (b : Bytes) (hb : b.length = 8) : st (ld b) = b := by match b, hb with | [_, _, _, _, _, _, _, _], _ => rfl
  refine ⟨fun b h => h, fun b h => h, fun b h => rfl, fun b h => rfl, fun m dst src => ?_, fun m dst src => ?_⟩
  · refine (guarded_whole ..).trans ?_
    rw [encB, hs, hE, st_ld _ (by simp [Mem.read]), id]
  · refine (guarded_whole ..).trans ?_
    rw [decB, hs, hD, st_ld _ (by simp [Mem.read]), id]

example : kat (newCipher true 5) (hx 8 0x0102030405060708) (hx 8 0x1122334455667788) = .ok (hx 8 0x1122334455667788) := by decide +kernel

end Verif.Cipher.Safer
