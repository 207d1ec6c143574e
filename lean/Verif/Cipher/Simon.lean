import Verif.Cipher.Common
/-
Model of cipher/simon (simon.go, simon128.go, simon192.go, simon256.go, utils.go): SIMON-128.
-/
namespace Verif.Cipher.Simon

abbrev W := BitVec 64
abbrev St := W × W

/-- utils.go:38-40 `rotater64` -/
def rotr (x : W) (n : Nat) : W := rotl x (64 - n)

/-- utils.go:42-46 `ks` -/
def ks (prev pprev : W) (z : Nat) : W :=
  let tmp := rotr prev 3
  let tmp := tmp ^^^ rotr tmp 1
  0xfffffffffffffffc ^^^ pprev ^^^ BitVec.ofNat 64 z ^^^ tmp

/-- utils.go:52-56 `ks256` -/
def ks256 (iplus3 i iplus1 : W) (z : Nat) : W :=
  let tmp := rotr iplus3 3 ^^^ iplus1
  let tmp := tmp ^^^ rotr tmp 1
  0xfffffffffffffffc ^^^ i ^^^ BitVec.ofNat 64 z ^^^ tmp

/-- utils.go:48-50 `f` -/
def f (x : W) : W := (rotl x 1 &&& rotl x 8) ^^^ rotl x 2

/-- The last arguments of the calls of `ks` in simon128.go:108-173, simon192.go:115-180 and of `ks256` in simon256.go:109-177. -/
def z128 : List Nat := [1, 0, 1, 0, 1, 1, 1, 1, 0, 1, 1, 1, 0, 0, 0, 0, 0, 0, 1, 1, 0, 1, 0, 0, 1, 0, 0, 1, 1, 0, 0, 0, 1, 0, 1, 0, 0, 0, 0, 1, 0, 0, 0, 1, 1, 1, 1, 1, 1, 0, 0, 1, 0, 1, 1, 0, 1, 1, 0, 0, 1, 1, 1, 0, 1, 0]
def z192 : List Nat := [1, 1, 0, 1, 1, 0, 1, 1, 1, 0, 1, 0, 1, 1, 0, 0, 0, 1, 1, 0, 0, 1, 0, 1, 1, 1, 1, 0, 0, 0, 0, 0, 0, 1, 0, 0, 1, 0, 0, 0, 1, 0, 1, 0, 0, 1, 1, 1, 0, 0, 1, 1, 0, 1, 0, 0, 0, 0, 1, 1, 1, 1, 1, 1, 0, 1]
def z256 : List Nat := [1, 1, 0, 1, 0, 0, 0, 1, 1, 1, 1, 0, 0, 1, 1, 0, 1, 0, 1, 1, 0, 1, 1, 0, 0, 0, 1, 0, 0, 0, 0, 0, 0, 1, 0, 1, 1, 1, 0, 0, 0, 0, 1, 1, 0, 0, 1, 0, 1, 0, 0, 1, 0, 0, 1, 1, 1, 0, 1, 1, 1, 1, 1, 1, 0, 1, 0, 0]

/-- simon128.go:101-177, simon192.go:107-184, simon256.go:101-181 `expandKey`: each further word is made from the ones before it. -/
def expand128 (w : List W) (z : Nat) : List W := w ++ [ks (w.getD (w.length - 1) 0) (w.getD (w.length - 2) 0) z]
def expand192 (w : List W) (z : Nat) : List W := w ++ [ks (w.getD (w.length - 1) 0) (w.getD (w.length - 3) 0) z]
def expand256 (w : List W) (z : Nat) : List W :=
  w ++ [ks256 (w.getD (w.length - 1) 0) (w.getD (w.length - 4) 0) (w.getD (w.length - 3) 0) z]

/-- Round key `i`. -/
def rk128 (key : Bytes) (i : Nat) : W := (z128.foldl expand128 (ldLE 64 8 2 key)).getD i 0
def rk192 (key : Bytes) (i : Nat) : W := (z192.foldl expand192 (ldLE 64 8 3 key)).getD i 0
def rk256 (key : Bytes) (i : Nat) : W := (z256.foldl expand256 (ldLE 64 8 4 key)).getD i 0

/-- Body of the loops of `encrypt` and `decrypt` (simon128.go:73-76, 91-94) on `(x, y)`: it uses the round keys `i` and `j`. -/
def pair (rk : Nat → W) (s : St) (ij : Nat × Nat) : St :=
  let x := s.1
  let y := s.2
  let y := y ^^^ f x
  let y := y ^^^ rk ij.1
  let x := x ^^^ f y
  let x := x ^^^ rk ij.2
  (x, y)

/-- The half of the body that simon192.go:79-80, 100-101 has after the loop. -/
def half (rk : Nat → W) (s : St) (i : Nat) : St := (s.1, (s.2 ^^^ f s.1) ^^^ rk i)

/-- simon128.go:65-81, simon256.go:65-81 `encrypt` on the words `(pt[0], pt[1])`, with `2n` round keys: `i = 0, 2, ...` -/
def encEven (n : Nat) (rk : Nat → W) (s : St) : St :=
  let r := (List.range n).foldl (fun s j => pair rk s (2 * j, 2 * j + 1)) (s.2, s.1)
  (r.2, r.1)

/-- simon128.go:83-99, simon256.go:83-99 `decrypt`: `i = 2n-1, 2n-3, ...` -/
def decEven (n : Nat) (rk : Nat → W) (s : St) : St :=
  (List.range n).foldl (fun s j => pair rk s (2 * n - 1 - 2 * j, 2 * n - 1 - 2 * j - 1)) (s.1, s.2)

/-- simon192.go:65-84 `encrypt`, with `2n+1` round keys. -/
def encOdd (n : Nat) (rk : Nat → W) (s : St) : St :=
  half rk ((List.range n).foldl (fun s j => pair rk s (2 * j, 2 * j + 1)) (s.2, s.1)) (2 * n)

/-- simon192.go:86-105 `decrypt`: `i = 2n, 2n-2, ..., 2`, then 0. -/
def decOdd (n : Nat) (rk : Nat → W) (s : St) : St :=
  let r := half rk ((List.range n).foldl (fun s j => pair rk s (2 * n - 2 * j, 2 * n - 2 * j - 1)) (s.1, s.2)) 0
  (r.2, r.1)

def encrypt128 (key : Bytes) : Bytes → Bytes := enc2LE 64 8 (encEven 34 (rk128 key))
def decrypt128 (key : Bytes) : Bytes → Bytes := enc2LE 64 8 (decEven 34 (rk128 key))
def encrypt192 (key : Bytes) : Bytes → Bytes := enc2LE 64 8 (encOdd 34 (rk192 key))
def decrypt192 (key : Bytes) : Bytes → Bytes := enc2LE 64 8 (decOdd 34 (rk192 key))
def encrypt256 (key : Bytes) : Bytes → Bytes := enc2LE 64 8 (encEven 36 (rk256 key))
def decrypt256 (key : Bytes) : Bytes → Bytes := enc2LE 64 8 (decEven 36 (rk256 key))

/-- simon128.go:14-27, 33-63 `NewCipher128` -/
def newCipher128 (key : Bytes) : Res Obj :=
  if key.length = 16 then .ok ⟨16, guarded 16 (whole 16 (encrypt128 key)), guarded 16 (whole 16 (decrypt128 key))⟩ else .err
/-- simon192.go:14-27, 33-63 `NewCipher192` -/
def newCipher192 (key : Bytes) : Res Obj :=
  if key.length = 24 then .ok ⟨16, guarded 16 (whole 16 (encrypt192 key)), guarded 16 (whole 16 (decrypt192 key))⟩ else .err
/-- simon256.go:14-27, 33-63 `NewCipher256` -/
def newCipher256 (key : Bytes) : Res Obj :=
  if key.length = 32 then .ok ⟨16, guarded 16 (whole 16 (encrypt256 key)), guarded 16 (whole 16 (decrypt256 key))⟩ else .err

/-- simon.go:18-30 `NewCipher` -/
def newCipher (key : Bytes) : Res Obj :=
  if key.length = 16 then newCipher128 key
  else if key.length = 24 then newCipher192 key
  else if key.length = 32 then newCipher256 key
  else .err

/-! All loops are sequences of Feistel rounds. -/

def round (rk : Nat → W) (s : St) (i : Nat) : St := (s.2 ^^^ f s.1 ^^^ rk i, s.1)

theorem pair_eq (rk : Nat → W) (s : St) (i j : Nat) : pair rk s (i, j) = [i, j].foldl (round rk) s := by
  simp [pair, round, List.foldl]

theorem fold_pairs (rk : Nat → W) (p q : Nat → Nat) (l : List Nat) (s : St) :
    l.foldl (fun s j => pair rk s (p j, q j)) s = (l.flatMap fun j => [p j, q j]).foldl (round rk) s := by
  induction l generalizing s with
  | nil => rfl
  | cons a l ih => rw [List.foldl_cons, List.flatMap_cons, List.foldl_append, ih, pair_eq]

theorem half_eq (rk : Nat → W) (s : St) (i : Nat) : half rk s i = ((round rk s i).2, (round rk s i).1) := rfl

theorem round_undo (rk : Nat → W) (l : List Nat) (s : St) :
    l.reverse.foldl (round rk) ((l.foldl (round rk) s).2, (l.foldl (round rk) s).1) = (s.2, s.1) := by
  induction l generalizing s with
  | nil => rfl
  | cons a l ih =>
    simp only [List.reverse_cons, List.foldl_append, List.foldl_cons, ih, List.foldl_nil]
    simp [round]

theorem even_undo (n : Nat) (up : ((List.range n).flatMap fun j => [2 * j, 2 * j + 1]) = List.range (2 * n))
    (down : ((List.range n).flatMap fun j => [2 * n - 1 - 2 * j, 2 * n - 1 - 2 * j - 1]) = (List.range (2 * n)).reverse) (rk : Nat → W) (s : St) :
    decEven n rk (encEven n rk s) = s ∧ encEven n rk (decEven n rk s) = s := by
  unfold decEven encEven
  simp only [fold_pairs rk (fun j => 2 * j) (fun j => 2 * j + 1), fold_pairs rk (fun j => 2 * n - 1 - 2 * j) (fun j => 2 * n - 1 - 2 * j - 1), up, down]
  have h1 := round_undo rk (List.range (2 * n)) (s.2, s.1)
  have h2 := round_undo rk (List.range (2 * n)).reverse s
  rw [List.reverse_reverse] at h2
  exact ⟨h1, by rw [h2]⟩

theorem odd_undo (n : Nat) (up : ((List.range n).flatMap fun j => [2 * j, 2 * j + 1]) ++ [2 * n] = List.range (2 * n + 1))
    (down : ((List.range n).flatMap fun j => [2 * n - 2 * j, 2 * n - 2 * j - 1]) ++ [0] = (List.range (2 * n + 1)).reverse) (rk : Nat → W) (s : St) :
    decOdd n rk (encOdd n rk s) = s ∧ encOdd n rk (decOdd n rk s) = s := by
  unfold decOdd encOdd
  simp only [fold_pairs rk (fun j => 2 * j) (fun j => 2 * j + 1), fold_pairs rk (fun j => 2 * n - 2 * j) (fun j => 2 * n - 2 * j - 1), half_eq]
  have e1 : ∀ (l : List Nat) (a : Nat) (s : St), round rk (l.foldl (round rk) s) a = (l ++ [a]).foldl (round rk) s := by
    intro l a s; rw [List.foldl_append]; rfl
  simp only [e1, up, down]
  have h1 := round_undo rk (List.range (2 * n + 1)) (s.2, s.1)
  have h2 := round_undo rk (List.range (2 * n + 1)).reverse s
  rw [List.reverse_reverse] at h2
  exact ⟨h1, by rw [h2]⟩

theorem implements128 : Implements newCipher128 (fun n => n = 16) 16 :=
  implements_of (ok := fun n => n = 16) fun key _ => isBlock_2LE (w := 64) (sz := 8) 16 rfl rfl
    (fun s => (even_undo 34 (by decide) (by decide) (rk128 key) s).1) (fun s => (even_undo 34 (by decide) (by decide) (rk128 key) s).2)
theorem implements192 : Implements newCipher192 (fun n => n = 24) 16 :=
  implements_of (ok := fun n => n = 24) fun key _ => isBlock_2LE (w := 64) (sz := 8) 16 rfl rfl
    (fun s => (odd_undo 34 (by decide) (by decide) (rk192 key) s).1) (fun s => (odd_undo 34 (by decide) (by decide) (rk192 key) s).2)
theorem implements256 : Implements newCipher256 (fun n => n = 32) 16 :=
  implements_of (ok := fun n => n = 32) fun key _ => isBlock_2LE (w := 64) (sz := 8) 16 rfl rfl
    (fun s => (even_undo 36 (by decide) (by decide) (rk256 key) s).1) (fun s => (even_undo 36 (by decide) (by decide) (rk256 key) s).2)

theorem implements : Implements newCipher (fun n => n = 16 ∨ n = 24 ∨ n = 32) 16 := by
  intro key
  unfold newCipher
  constructor
  · rintro (h | h | h)
    · rw [if_pos h]; exact (implements128 key).1 h
    · rw [if_neg (by omega), if_pos h]; exact (implements192 key).1 h
    · rw [if_neg (by omega), if_neg (by omega), if_pos h]; exact (implements256 key).1 h
  · intro h
    rw [if_neg (by omega), if_neg (by omega), if_neg (by omega)]

end Verif.Cipher.Simon
