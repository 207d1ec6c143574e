import Verif.Cipher.Common
/-
Model of cipher/rc5 (rc5.go, cipher16.go, cipher32.go, cipher64.go). The three files are the same algorithm for words of 16, 32 and 64 bits;
the model has the word length `w` as a parameter. cipher16.go has its own rotations `(k << r) | (k >> (16 - r))` of counts below 16.
-/
namespace Verif.Cipher.Rc5

variable {w : Nat}

/-- `P16, Q16, P32, Q32, P64, Q64` -/
def P (w : Nat) : BitVec w := if w = 16 then 0xb7e1 else if w = 32 then 0xB7E15163 else 0xB7E151628AED2A6B
def Q (w : Nat) : BitVec w := if w = 16 then 0x9e37 else if w = 32 then 0x9E3779B9 else 0x9E3779B97F4A7C15

/-- cipher16.go:175-181 `rotl16`, `rotr16` for the counts they are called with (`r < 16`). -/
theorem rotl16_eq (k : BitVec 16) (r : Nat) (h : r < 16) : (k <<< r) ||| (k >>> (16 - r)) = rotl k r := by
  unfold rotl BitVec.rotateLeft BitVec.rotateLeftAux
  rw [Nat.mod_eq_of_lt h]

/-- cipher16.go:103-113, cipher32.go:97-100: `S[i] = S[i-1] + Q`. -/
def initS (t : Nat) : List (BitVec w) := (List.range t).map (fun i => P w + BitVec.ofNat w i * Q w)

/-- State of the mixing loop. -/
structure Mix (w : Nat) where
  S : List (BitVec w)
  L : List (BitVec w)
  A : BitVec w
  B : BitVec w
  i : Nat
  j : Nat

/-- cipher16.go:137-144, cipher32.go:106-113: one step. -/
def mixStep (x : Mix w) : Mix w :=
  let A := rotl (x.S.getD x.i 0 + (x.A + x.B)) 3
  let B := rotl (x.L.getD x.j 0 + (A + x.B)) (A + x.B).toNat
  ⟨x.S.set x.i A, x.L.set x.j B, A, B, (x.i + 1) % x.S.length, (x.j + 1) % x.L.length⟩

/-- The expanded key table (cipher16.go:28-37, 127-146; cipher32.go:83-114). In cipher16.go the loop runs `3 * max(T, LL)` times; `LL ≤ 16 < 18 ≤ T`
for the keys and rounds that `NewCipher` lets pass. -/
def table (w : Nat) (key : Bytes) (rounds : Nat) : List (BitVec w) :=
  let t := 2 * (rounds + 1)
  let sz := w / 8
  ((List.range (3 * t)).foldl (fun x _ => mixStep x) ⟨initS t, ldLE w sz (key.length / sz) key, 0, 0, 0, 0⟩).S

/-- cipher16.go:69-70, cipher32.go:50-51 with the two table words of round `i`. -/
def encRound (S : List (BitVec w)) (s : BitVec w × BitVec w) (i : Nat) : BitVec w × BitVec w :=
  let A := rotl (s.1 ^^^ s.2) s.2.toNat + S.getD (2 * i) 0
  let B := rotl (s.2 ^^^ A) A.toNat + S.getD (2 * i + 1) 0
  (A, B)

/-- cipher16.go:93-94, cipher32.go:75-76. -/
def decRound (S : List (BitVec w)) (s : BitVec w × BitVec w) (i : Nat) : BitVec w × BitVec w :=
  let B := rotl (s.2 - S.getD (2 * i + 1) 0) (negRot w s.1.toNat) ^^^ s.1
  let A := rotl (s.1 - S.getD (2 * i) 0) (negRot w B.toNat) ^^^ B
  (A, B)

/-- cipher16.go:65-75, cipher32.go:46-56 -/
def enc (S : List (BitVec w)) (rounds : Nat) (s : BitVec w × BitVec w) : BitVec w × BitVec w :=
  ((List.range rounds).map (· + 1)).foldl (encRound S) (s.1 + S.getD 0 0, s.2 + S.getD 1 0)

/-- cipher16.go:89-101, cipher32.go:71-81: the rounds from the last to the first. -/
def dec (S : List (BitVec w)) (rounds : Nat) (s : BitVec w × BitVec w) : BitVec w × BitVec w :=
  let r := ((List.range rounds).map (· + 1)).reverse.foldl (decRound S) s
  (r.1 - S.getD 0 0, r.2 - S.getD 1 0)

/-- The block cipher with words of `w` bits. -/
def cipherW (w : Nat) (key : Bytes) (rounds : Nat) : Obj :=
  let S := table w key rounds
  let sz := w / 8
  ⟨2 * sz, guarded (2 * sz) (whole (2 * sz) (enc2LE w sz (enc S rounds))), guarded (2 * sz) (whole (2 * sz) (enc2LE w sz (dec S rounds)))⟩

/-- rc5.go:22-47 `NewCipher` (key, word size, rounds). -/
def newCipher (key : Bytes) (wordSize r : Nat) : Res Obj :=
  if ¬ (key.length = 8 ∨ key.length = 16 ∨ key.length = 24 ∨ key.length = 32) then .err
  else if r < 8 ∨ r > 127 then .err
  else if wordSize = 16 then .ok (cipherW 16 key r)
  else if wordSize = 32 then .ok (cipherW 32 key r)
  else if wordSize = 64 then .ok (cipherW 64 key r)
  else .err

theorem dec_enc (hw : 0 < w) (S : List (BitVec w)) (s) (i : Nat) : decRound S (encRound S s i) i = s := by
  obtain ⟨A, B⟩ := s
  simp only [encRound, decRound, add_sub_right, rotl_neg _ _ hw, xor_self_right]

theorem enc_dec (hw : 0 < w) (S : List (BitVec w)) (s) (i : Nat) : encRound S (decRound S s i) i = s := by
  obtain ⟨A, B⟩ := s
  simp only [encRound, decRound, xor_self_right, rotl_neg' _ _ hw, sub_add_self]

theorem dec_enc_all (hw : 0 < w) (S : List (BitVec w)) (r : Nat) (s) : dec S r (enc S r s) = s := by
  unfold dec enc
  rw [foldl_undo (encRound S) (decRound S) (dec_enc hw S)]
  simp

theorem enc_dec_all (hw : 0 < w) (S : List (BitVec w)) (r : Nat) (s) : enc S r (dec S r s) = s := by
  unfold dec enc
  simp only [sub_add_self]
  exact foldl_undo' (encRound S) (decRound S) (enc_dec hw S) _ _

/-- What `NewCipher` accepts. -/
def Accepts (n wordSize r : Nat) : Prop := (n = 8 ∨ n = 16 ∨ n = 24 ∨ n = 32) ∧ (8 ≤ r ∧ r ≤ 127) ∧ (wordSize = 16 ∨ wordSize = 32 ∨ wordSize = 64)

theorem implements (wordSize r : Nat) : Implements (fun key => newCipher key wordSize r) (fun n => Accepts n wordSize r) (wordSize / 4) := by
  intro key
  constructor
  · rintro ⟨hk, ⟨hr1, hr2⟩, hw⟩
    have h1 : ¬ ¬ (key.length = 8 ∨ key.length = 16 ∨ key.length = 24 ∨ key.length = 32) := by omega
    have h2 : ¬ (r < 8 ∨ r > 127) := by omega
    simp only [newCipher, if_neg h1, if_neg h2]
    rcases hw with rfl | rfl | rfl
    · refine ⟨_, rfl, rfl, _, _, isBlock_2LE (w := 16) (sz := 2) 4 rfl rfl (f := enc (table 16 key r) r) (g := dec (table 16 key r) r) ?_ ?_⟩
      · exact dec_enc_all (by decide) _ _
      · exact enc_dec_all (by decide) _ _
    · refine ⟨_, rfl, rfl, _, _, isBlock_2LE (w := 32) (sz := 4) 8 rfl rfl (f := enc (table 32 key r) r) (g := dec (table 32 key r) r) ?_ ?_⟩
      · exact dec_enc_all (by decide) _ _
      · exact enc_dec_all (by decide) _ _
    · refine ⟨_, rfl, rfl, _, _, isBlock_2LE (w := 64) (sz := 8) 16 rfl rfl (f := enc (table 64 key r) r) (g := dec (table 64 key r) r) ?_ ?_⟩
      · exact dec_enc_all (by decide) _ _
      · exact enc_dec_all (by decide) _ _
  · intro h
    simp only [newCipher]
    by_cases h1 : key.length = 8 ∨ key.length = 16 ∨ key.length = 24 ∨ key.length = 32
    · by_cases h2 : r < 8 ∨ r > 127
      · rw [if_neg (not_not_intro h1), if_pos h2]
      · have h3 : ¬ (wordSize = 16 ∨ wordSize = 32 ∨ wordSize = 64) := fun hc => h ⟨h1, by omega, hc⟩
        rw [if_neg (not_not_intro h1), if_neg h2, if_neg (by omega), if_neg (by omega), if_neg (by omega)]
    · rw [if_pos h1]

end Verif.Cipher.Rc5
