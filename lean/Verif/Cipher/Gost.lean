import Verif.Cipher.Common2
/-
Model of cipher/gost.
-/
namespace Verif.Cipher.Gost

/-- `SboxDESDerivedParamSet` (cipher/gost/sbox.go:4-13). -/
def dESDerivedParamSet : List Bytes := [
  [14, 4, 13, 1, 2, 15, 11, 8, 3, 10, 6, 12, 5, 9, 0, 7],
  [15, 1, 8, 14, 6, 11, 3, 4, 9, 7, 2, 13, 12, 0, 5, 10],
  [10, 0, 9, 14, 6, 3, 15, 5, 1, 13, 12, 7, 11, 4, 2, 8],
  [7, 13, 14, 3, 0, 6, 9, 10, 1, 2, 8, 5, 11, 12, 4, 15],
  [2, 12, 4, 1, 7, 10, 11, 6, 8, 5, 3, 15, 13, 0, 14, 9],
  [12, 1, 10, 15, 9, 2, 6, 8, 0, 13, 3, 4, 14, 7, 5, 11],
  [4, 11, 2, 14, 15, 0, 8, 13, 3, 12, 9, 7, 5, 10, 6, 1],
  [13, 2, 8, 4, 6, 15, 11, 1, 10, 9, 3, 14, 5, 0, 12, 7]]
/-- `SboxRFC4357TestParamSet` (cipher/gost/sbox.go:16-25). -/
def rFC4357TestParamSet : List Bytes := [
  [4, 10, 9, 2, 13, 8, 0, 14, 6, 11, 1, 12, 7, 15, 5, 3],
  [14, 11, 4, 12, 6, 13, 15, 10, 2, 3, 8, 1, 0, 7, 5, 9],
  [5, 8, 1, 13, 10, 3, 4, 2, 14, 15, 12, 7, 6, 0, 9, 11],
  [7, 13, 10, 1, 0, 8, 9, 15, 14, 4, 6, 12, 11, 2, 5, 3],
  [6, 12, 7, 1, 5, 15, 13, 8, 4, 10, 9, 14, 0, 3, 11, 2],
  [4, 11, 10, 0, 7, 2, 1, 13, 3, 6, 8, 5, 9, 12, 15, 14],
  [13, 11, 4, 1, 3, 15, 5, 9, 0, 10, 14, 7, 6, 8, 2, 12],
  [1, 15, 13, 0, 5, 7, 10, 4, 9, 2, 3, 14, 6, 11, 8, 12]]
/-- `SboxGost2814789TestParamSet` (cipher/gost/sbox.go:31-40). -/
def gost2814789TestParamSet : List Bytes := [
  [4, 2, 15, 5, 9, 1, 0, 8, 14, 3, 11, 12, 13, 7, 10, 6],
  [12, 9, 15, 14, 8, 1, 3, 10, 2, 7, 4, 13, 6, 0, 11, 5],
  [13, 8, 14, 12, 7, 3, 9, 10, 1, 5, 2, 4, 6, 15, 0, 11],
  [14, 9, 11, 2, 5, 15, 7, 1, 0, 13, 12, 6, 10, 4, 3, 8],
  [3, 14, 5, 9, 6, 8, 0, 13, 10, 11, 7, 12, 2, 1, 15, 4],
  [8, 15, 6, 11, 1, 9, 12, 5, 13, 3, 7, 10, 0, 14, 2, 4],
  [9, 11, 12, 0, 3, 6, 7, 5, 4, 8, 14, 15, 1, 10, 2, 13],
  [12, 6, 5, 2, 11, 0, 9, 13, 3, 14, 7, 10, 15, 4, 1, 8]]
/-- `SboxCentralBankTestParamSet` (cipher/gost/sbox.go:43-52). -/
def centralBankTestParamSet : List Bytes := [
  [1, 15, 13, 0, 5, 7, 10, 4, 9, 2, 3, 14, 6, 11, 8, 2],
  [13, 11, 4, 1, 3, 15, 5, 9, 0, 10, 14, 7, 6, 8, 2, 12],
  [4, 11, 10, 0, 7, 2, 1, 13, 3, 6, 8, 5, 9, 12, 15, 14],
  [6, 12, 7, 1, 5, 15, 13, 8, 4, 10, 9, 14, 0, 3, 11, 2],
  [7, 13, 10, 1, 0, 8, 9, 15, 14, 4, 6, 12, 11, 2, 5, 3],
  [5, 8, 1, 13, 10, 3, 4, 2, 14, 15, 12, 7, 6, 0, 9, 11],
  [14, 11, 4, 12, 6, 13, 15, 10, 2, 3, 8, 1, 0, 7, 5, 9],
  [4, 10, 9, 2, 13, 8, 0, 14, 6, 11, 1, 12, 7, 15, 5, 3]]
/-- `SboxTC26gost28147paramZ` (cipher/gost/sbox.go:56-65). -/
def tC26gost28147paramZ : List Bytes := [
  [12, 4, 6, 2, 10, 5, 11, 9, 14, 8, 13, 7, 0, 3, 15, 1],
  [6, 8, 2, 3, 9, 10, 5, 12, 1, 14, 4, 7, 11, 13, 0, 15],
  [11, 3, 5, 8, 2, 15, 10, 13, 14, 1, 7, 4, 12, 9, 6, 0],
  [12, 8, 2, 1, 13, 4, 15, 6, 7, 0, 10, 5, 3, 14, 9, 11],
  [7, 15, 5, 10, 8, 1, 6, 13, 0, 9, 3, 14, 11, 4, 2, 12],
  [5, 13, 15, 6, 9, 2, 12, 10, 11, 7, 8, 1, 4, 3, 14, 0],
  [8, 14, 2, 5, 6, 9, 1, 12, 15, 4, 11, 0, 13, 10, 3, 7],
  [1, 7, 14, 13, 0, 5, 8, 3, 4, 15, 10, 6, 9, 12, 11, 2]]
/-- `SboxGostR341194CryptoProParamSet` (cipher/gost/sbox.go:69-78). -/
def gostR341194CryptoProParamSet : List Bytes := [
  [10, 4, 5, 6, 8, 1, 3, 7, 13, 12, 14, 0, 9, 2, 11, 15],
  [5, 15, 4, 0, 2, 13, 11, 9, 1, 7, 6, 3, 12, 14, 10, 8],
  [7, 15, 12, 14, 9, 4, 1, 0, 3, 11, 5, 2, 6, 10, 8, 13],
  [4, 10, 7, 12, 0, 15, 2, 8, 14, 1, 6, 5, 13, 11, 9, 3],
  [7, 6, 4, 11, 9, 12, 2, 10, 1, 8, 0, 14, 15, 13, 3, 5],
  [7, 6, 2, 4, 13, 9, 15, 0, 10, 1, 5, 11, 8, 14, 12, 3],
  [13, 14, 4, 1, 7, 0, 5, 10, 3, 12, 8, 15, 6, 2, 9, 11],
  [1, 3, 10, 9, 5, 11, 4, 15, 8, 6, 7, 14, 13, 0, 2, 12]]
/-- `SboxGost2814789CryptoProAParamSet` (cipher/gost/sbox.go:81-90). -/
def gost2814789CryptoProAParamSet : List Bytes := [
  [9, 6, 3, 2, 8, 11, 1, 7, 10, 4, 14, 15, 12, 0, 13, 5],
  [3, 7, 14, 9, 8, 10, 15, 0, 5, 2, 6, 12, 11, 4, 13, 1],
  [14, 4, 6, 2, 11, 3, 13, 8, 12, 15, 5, 10, 0, 7, 1, 9],
  [14, 7, 10, 12, 13, 1, 3, 9, 0, 2, 11, 4, 15, 8, 5, 6],
  [11, 5, 1, 9, 8, 13, 15, 0, 14, 4, 2, 3, 12, 7, 10, 6],
  [3, 10, 13, 12, 1, 2, 0, 11, 7, 5, 9, 4, 8, 15, 14, 6],
  [1, 13, 2, 9, 7, 10, 6, 0, 8, 12, 4, 5, 15, 3, 11, 14],
  [11, 10, 15, 5, 0, 12, 14, 8, 6, 2, 3, 9, 1, 7, 13, 4]]
/-- `SboxGost2814789CryptoProBParamSet` (cipher/gost/sbox.go:93-102). -/
def gost2814789CryptoProBParamSet : List Bytes := [
  [8, 4, 11, 1, 3, 5, 0, 9, 2, 14, 10, 12, 13, 6, 7, 15],
  [0, 1, 2, 10, 4, 13, 5, 12, 9, 7, 3, 15, 11, 8, 6, 14],
  [14, 12, 0, 10, 9, 2, 13, 11, 7, 5, 8, 15, 3, 6, 1, 4],
  [7, 5, 0, 13, 11, 6, 1, 2, 3, 10, 12, 15, 4, 14, 9, 8],
  [2, 7, 12, 15, 9, 5, 10, 11, 1, 4, 0, 13, 6, 8, 14, 3],
  [8, 3, 2, 6, 4, 13, 14, 11, 12, 1, 7, 15, 10, 0, 9, 5],
  [5, 2, 10, 11, 9, 1, 12, 3, 7, 4, 13, 0, 6, 15, 8, 14],
  [0, 4, 11, 14, 8, 3, 7, 1, 10, 2, 9, 6, 15, 13, 5, 12]]
/-- `SboxGost2814789CryptoProCParamSet` (cipher/gost/sbox.go:105-114). -/
def gost2814789CryptoProCParamSet : List Bytes := [
  [1, 11, 12, 2, 9, 13, 0, 15, 4, 5, 8, 14, 10, 7, 6, 3],
  [0, 1, 7, 13, 11, 4, 5, 2, 8, 14, 15, 12, 9, 10, 6, 3],
  [8, 2, 5, 0, 4, 9, 15, 10, 3, 7, 12, 13, 6, 14, 1, 11],
  [3, 6, 0, 1, 5, 13, 10, 8, 11, 2, 9, 7, 14, 15, 12, 4],
  [8, 13, 11, 0, 4, 5, 1, 2, 9, 3, 12, 14, 6, 15, 10, 7],
  [12, 9, 11, 1, 8, 14, 2, 4, 7, 3, 6, 5, 10, 0, 15, 13],
  [10, 9, 6, 8, 13, 14, 2, 0, 15, 3, 5, 11, 4, 1, 12, 7],
  [7, 4, 0, 5, 10, 2, 15, 14, 12, 6, 1, 11, 13, 9, 3, 8]]
/-- `SboxGost2814789CryptoProDParamSet` (cipher/gost/sbox.go:117-126). -/
def gost2814789CryptoProDParamSet : List Bytes := [
  [15, 12, 2, 10, 6, 4, 5, 0, 7, 9, 14, 13, 1, 11, 8, 3],
  [11, 6, 3, 4, 12, 15, 14, 2, 7, 13, 8, 0, 5, 10, 9, 1],
  [1, 12, 11, 0, 15, 14, 6, 5, 10, 13, 4, 8, 9, 3, 7, 2],
  [1, 5, 14, 12, 10, 7, 0, 13, 6, 2, 11, 4, 9, 3, 15, 8],
  [0, 12, 8, 9, 13, 2, 10, 11, 7, 3, 6, 5, 4, 14, 15, 1],
  [8, 0, 15, 3, 2, 5, 14, 11, 1, 10, 4, 7, 12, 9, 13, 6],
  [3, 0, 6, 15, 1, 14, 9, 2, 13, 8, 12, 4, 11, 10, 5, 7],
  [1, 10, 6, 8, 15, 11, 0, 4, 12, 3, 5, 9, 7, 13, 2, 14]]
/-- `SboxEACParamSet` (cipher/gost/sbox.go:129-138). -/
def eACParamSet : List Bytes := [
  [11, 4, 8, 10, 9, 7, 0, 3, 1, 6, 2, 15, 14, 5, 12, 13],
  [1, 7, 14, 9, 11, 3, 15, 12, 0, 5, 4, 6, 13, 10, 8, 2],
  [7, 3, 1, 9, 2, 4, 13, 15, 8, 10, 12, 6, 5, 0, 11, 14],
  [10, 5, 15, 7, 14, 11, 3, 9, 2, 8, 1, 12, 0, 4, 6, 13],
  [0, 14, 6, 11, 9, 3, 8, 4, 12, 15, 10, 5, 13, 7, 1, 2],
  [9, 2, 11, 12, 0, 4, 5, 6, 3, 15, 13, 8, 1, 7, 14, 10],
  [4, 0, 14, 1, 5, 11, 8, 3, 12, 2, 9, 7, 6, 10, 13, 15],
  [7, 14, 12, 13, 9, 4, 8, 15, 10, 2, 6, 0, 3, 11, 5, 1]]

/-- One entry of `sboxExpansion` (cipher/gost/utils.go:41-57): `s[hi][i >> 4] << 4 | s[lo][i & 15]`. -/
def entry (s : List Bytes) (hi lo i : Nat) : Byte := ((s.getD hi []).getD (i / 16) 0 <<< 4) ||| (s.getD lo []).getD (i % 16) 0
/-- `sboxExpansion` (cipher/gost/utils.go:41-57). -/
def kbox (s : List Bytes) : List Bytes :=
  [(7, 6), (5, 4), (3, 2), (1, 0)].map fun (p : Nat × Nat) => (List.range 256).map (entry s p.1 p.2)

/-- `kbox[j][(x >> n) & 255]` as a word (cipher/gost/utils.go:61-64). -/
def look (kb : List Bytes) (j n : Nat) (x : BitVec 32) : BitVec 32 := ((kb.getD j []).getD ((x >>> n) &&& 255).toNat 0).setWidth 32
/-- `cycle`, `round` (cipher/gost/utils.go:60-68, cipher/gost/gost.go:164-166). -/
def cycle (kb : List Bytes) (x : BitVec 32) : BitVec 32 :=
  rotl ((look kb 0 24 x <<< 24) ||| (look kb 1 16 x <<< 16) ||| (look kb 2 8 x <<< 8) ||| look kb 3 0 x) 11

abbrev W := BitVec 32 × BitVec 32

/-- One of the assignments of the loops of `encrypt` and `decrypt` (cipher/gost/gost.go:112-129): `n2 ^= this.round(n1 + this.key[j])` if `c.1`, else
`n1 ^= this.round(n2 + this.key[j])`, with `j = c.2`. -/
def step (F : BitVec 32 → BitVec 32) (key : List (BitVec 32)) (n : W) (c : Bool × Nat) : W :=
  if c.1 then (n.1, n.2 ^^^ F (n.1 + key.getD c.2 0)) else (n.1 ^^^ F (n.2 + key.getD c.2 0), n.2)

/-- The loop `for j := 0; j < 8; j++`: n2 is assigned for even `j` (cipher/gost/gost.go:112-118). -/
def up : List (Bool × Nat) := (List.range 8).map fun j => (j % 2 == 0, j)
/-- The loop `for j := 7; j >= 0; j--`: n2 is assigned for odd `j` (cipher/gost/gost.go:122-129). -/
def down : List (Bool × Nat) := (List.range 8).map fun j => ((7 - j) % 2 == 1, 7 - j)

/-- `encrypt` (cipher/gost/gost.go:106-132). -/
def encrypt (F : BitVec 32 → BitVec 32) (key : List (BitVec 32)) (n : W) : W :=
  let n := (up ++ up ++ up ++ down).foldl (step F key) n
  (n.2, n.1)
/-- `decrypt` (cipher/gost/gost.go:135-161). -/
def decrypt (F : BitVec 32 → BitVec 32) (key : List (BitVec 32)) (n : W) : W :=
  let n := (up ++ down ++ down ++ down).foldl (step F key) n
  (n.2, n.1)

/-- The block functions of Encrypt and Decrypt (cipher/gost/gost.go:61-103). -/
def encB (sbox : List Bytes) (key : Bytes) : Bytes → Bytes := enc2LE 32 4 (encrypt (cycle (kbox sbox)) (ldLE 32 4 8 key))
def decB (sbox : List Bytes) (key : Bytes) : Bytes → Bytes := enc2LE 32 4 (decrypt (cycle (kbox sbox)) (ldLE 32 4 8 key))

/-- The size checks of NewCipher on the tables (cipher/gost/gost.go:41-49). -/
def sboxOK (sbox : List Bytes) : Bool := sbox.length == 8 && sbox.all fun r => r.length == 16

/-- NewCipher, Encrypt and Decrypt (cipher/gost/gost.go:36-103). -/
def newCipher (sbox : List Bytes) : Bytes → Res Obj := fun key =>
  if key.length = 32 then (if sboxOK sbox then .ok ⟨8, spill 4 8 (encB sbox key), spill 4 8 (decB sbox key)⟩ else .err) else .err

/-! Proofs -/

theorem step_step (F : BitVec 32 → BitVec 32) (key : List (BitVec 32)) (n : W) (c : Bool × Nat) : step F key (step F key n c) c = n := by
  obtain ⟨b, j⟩ := c
  obtain ⟨x, y⟩ := n
  cases b <;> simp [step]

/-- The steps with the roles of the halves exchanged. -/
def flip (c : Bool × Nat) : Bool × Nat := (!c.1, c.2)
theorem step_flip (F : BitVec 32 → BitVec 32) (key : List (BitVec 32)) (n : W) (c : Bool × Nat) : step F key (n.2, n.1) (flip c) = ((step F key n c).2, (step F key n c).1) := by
  obtain ⟨b, j⟩ := c
  cases b <;> simp [step, flip]
theorem fold_flip (F : BitVec 32 → BitVec 32) (key : List (BitVec 32)) (cs : List (Bool × Nat)) (n : W) :
    (cs.map flip).foldl (step F key) (n.2, n.1) = ((cs.foldl (step F key) n).2, (cs.foldl (step F key) n).1) := by
  induction cs generalizing n with
  | nil => rfl
  | cons c cs ih => rw [List.map_cons, List.foldl_cons, step_flip, ih, List.foldl_cons]

theorem decrypt_encrypt (F : BitVec 32 → BitVec 32) (key : List (BitVec 32)) (n : W) : decrypt F key (encrypt F key n) = n := by
  unfold decrypt encrypt
  simp only
  rw [show up ++ down ++ down ++ down = (up ++ up ++ up ++ down).reverse.map flip from by decide, fold_flip, foldl_undo _ _ (step_step F key)]

theorem blockFn (sbox : List Bytes) (key : Bytes) : BlockFn 8 (encB sbox key) (decB sbox key) :=
  blockFn_2LE (w := 32) (sz := 4) 8 rfl rfl (decrypt_encrypt _ _)

theorem implements (sbox : List Bytes) (h : sboxOK sbox = true) : ImplementsSpill (newCipher sbox) (fun n => n = 32) 8 4 := by
  have := implementsSpill_of (bs := 8) (ws := 4) (ok := fun n => n = 32) (f := encB sbox) (g := decB sbox) (fun key _ => blockFn sbox key)
  have e : newCipher sbox = fun key => if key.length = 32 then .ok ⟨8, spill 4 8 (encB sbox key), spill 4 8 (decB sbox key)⟩ else .err := by
    funext key
    unfold newCipher
    rw [if_pos h]
  rw [e]
  exact this

theorem rejects (sbox : List Bytes) (h : ¬ sboxOK sbox = true) (key : Bytes) : newCipher sbox key = .err := by
  unfold newCipher
  rw [if_neg h]
  split <;> rfl

end Verif.Cipher.Gost
