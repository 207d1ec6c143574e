import Verif.Cipher.Common
/-
Model of cipher/speck (speck.go, utils.go): SPECK-128.
-/
namespace Verif.Cipher.Speck

abbrev W := BitVec 64
abbrev St := W × W

/-- utils.go:38-40 `rotater64` -/
def rotr (x : W) (n : Nat) : W := rotl x (64 - n)

/-- speck.go:128-209 `expandKey128/192/256`, utils.go:42-45 `ks`: `l` starts as the key words after the first, `w` as the first; step `i` makes
`l[i+m]` and `w[i+1]`, where `m` is the number of words `l` starts with. (In `expandKey128` the words of `l` are kept in the two variables `x` and `y`
by turns.) -/
def expand : Nat → Nat → List W → List W → List W
  | 0, _, _, w => w
  | n + 1, i, l, w =>
    let wi := w.getD i 0
    let y := (wi + rotr (l.getD i 0) 8) ^^^ BitVec.ofNat 64 i
    expand n (i + 1) (l ++ [y]) (w ++ [rotl wi 3 ^^^ y])

/-- speck.go:114-126 `expandKey`: 31, 32 or 33 steps. -/
def roundKey (key : Bytes) : List W :=
  let ks := ldLE 64 8 (key.length / 8) key
  expand (if key.length = 16 then 31 else if key.length = 24 then 32 else 33) 0 (ks.drop 1) (ks.take 1)

/-- speck.go:84-88: one round on `(y, x)`. -/
def encRound (s : St) (k : W) : St :=
  let x := rotr s.2 8
  let x := x + s.1
  let x := x ^^^ k
  let y := rotl s.1 3
  let y := y ^^^ x
  (y, x)

/-- speck.go:103-107: one round on `(y, x)`. -/
def decRound (s : St) (k : W) : St :=
  let y := s.1 ^^^ s.2
  let y := rotr y 3
  let x := s.2 ^^^ k
  let x := x - y
  let x := rotl x 8
  (y, x)

/-- speck.go:76-93, 95-112. The loops run over all round keys (`round + 1` of them), for decryption from the last to the first. -/
def encrypt (rk : List W) : Bytes → Bytes := enc2LE 64 8 (fun s => rk.foldl encRound s)
def decrypt (rk : List W) : Bytes → Bytes := enc2LE 64 8 (fun s => rk.reverse.foldl decRound s)

/-- speck.go:25-74 -/
def newCipher (key : Bytes) : Res Obj :=
  if key.length = 16 ∨ key.length = 24 ∨ key.length = 32 then
    .ok ⟨16, guarded 16 (whole 16 (encrypt (roundKey key))), guarded 16 (whole 16 (decrypt (roundKey key)))⟩
  else .err

theorem dec_enc (s : St) (k : W) : decRound (encRound s k) k = s := by
  obtain ⟨y, x⟩ := s
  simp only [encRound, decRound, rotr, xor_self_right]
  rw [rotl_rotl _ 3 (64 - 3) (by decide), add_sub_right, rotl_rotl _ (64 - 8) 8 (by decide)]

theorem enc_dec (s : St) (k : W) : encRound (decRound s k) k = s := by
  obtain ⟨y, x⟩ := s
  simp only [encRound, decRound, rotr]
  rw [rotl_rotl _ 8 (64 - 8) (by decide), rotl_rotl _ (64 - 3) 3 (by decide)]
  simp

theorem implements : Implements newCipher (fun n => n = 16 ∨ n = 24 ∨ n = 32) 16 := by
  refine implements_of (ok := fun n => n = 16 ∨ n = 24 ∨ n = 32) (f := fun key => encrypt (roundKey key)) (g := fun key => decrypt (roundKey key)) fun key _ => ?_
  exact isBlock_2LE (w := 64) (sz := 8) (f := fun s => (roundKey key).foldl encRound s) (g := fun s => (roundKey key).reverse.foldl decRound s) 16 rfl rfl
    (foldl_undo encRound decRound dec_enc _) (foldl_undo' encRound decRound enc_dec _)

end Verif.Cipher.Speck
