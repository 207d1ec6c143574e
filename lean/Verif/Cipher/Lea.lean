import Verif.Cipher.Common
/-
Model of cipher/lea (lea.go, utils.go).
-/
namespace Verif.Cipher.Lea

abbrev W := BitVec 32
abbrev St := W × W × W × W

/-- utils.go:8-11 -/
def delta : List W := [0xc3efe9db, 0x44626b02, 0x79e27c8a, 0x78df30ec, 0x715ea49e, 0xc785da0a, 0xe04ef22a, 0xe5c40957]

/-- utils.go:17-19 `ror` -/
def ror (x : W) (n : Nat) : W := rotl x (32 - n)

/-- Six round-key words. -/
structure RK where
  (k0 k1 k2 k3 k4 k5 : W)
  deriving Inhabited, DecidableEq

/-- utils.go:43-49: number of rounds by key length. -/
def nr (keyLen : Nat) : Nat := if keyLen = 16 then 24 else if keyLen = 24 then 28 else 32

/-- utils.go:72-97: one step of the key schedule on the words `T`. -/
def keyStep (keyLen : Nat) (T : List W) (i : Nat) : List W × RK :=
  let t := fun j => T.getD j 0
  if keyLen = 16 then
    let d := delta.getD (i % 4) 0
    let t0 := rotl (t 0 + rotl d i) 1
    let t1 := rotl (t 1 + rotl d (i + 1)) 3
    let t2 := rotl (t 2 + rotl d (i + 2)) 6
    let t3 := rotl (t 3 + rotl d (i + 3)) 11
    ([t0, t1, t2, t3], ⟨t0, t1, t2, t1, t3, t1⟩)
  else if keyLen = 24 then
    let d := delta.getD (i % 6) 0
    let t0 := rotl (t 0 + rotl d i) 1
    let t1 := rotl (t 1 + rotl d (i + 1)) 3
    let t2 := rotl (t 2 + rotl d (i + 2)) 6
    let t3 := rotl (t 3 + rotl d (i + 3)) 11
    let t4 := rotl (t 4 + rotl d (i + 4)) 13
    let t5 := rotl (t 5 + rotl d (i + 5)) 17
    ([t0, t1, t2, t3, t4, t5], ⟨t0, t1, t2, t3, t4, t5⟩)
  else
    let d := delta.getD (i % 8) 0
    let t0 := rotl (t (6 * i % 8) + rotl d i) 1
    let t1 := rotl (t ((6 * i + 1) % 8) + rotl d (i + 1)) 3
    let t2 := rotl (t ((6 * i + 2) % 8) + rotl d (i + 2)) 6
    let t3 := rotl (t ((6 * i + 3) % 8) + rotl d (i + 3)) 11
    let t4 := rotl (t ((6 * i + 4) % 8) + rotl d (i + 4)) 13
    let t5 := rotl (t ((6 * i + 5) % 8) + rotl d (i + 5)) 17
    (((((((T.set (6 * i % 8) t0).set ((6 * i + 1) % 8) t1).set ((6 * i + 2) % 8) t2).set ((6 * i + 3) % 8) t3).set ((6 * i + 4) % 8) t4).set ((6 * i + 5) % 8) t5),
      ⟨t0, t1, t2, t3, t4, t5⟩)

/-- The round keys in the order in which the loop of utils.go:59-98 makes them. -/
def rkSeq (keyLen : Nat) : Nat → Nat → List W → List RK
  | 0, _, _ => []
  | n + 1, i, T => let r := keyStep keyLen T i; r.2 :: rkSeq keyLen n (i + 1) r.1

/-- utils.go:41-101 `roundKey`: the keys are stored at index `i`, or for decryption at `Nr - i - 1`. -/
def roundKey (K : Bytes) (isEncrypt : Bool) : List RK :=
  let n := nr K.length
  let seq := rkSeq K.length n 0 (ldLE 32 4 (K.length / 4) K)
  (List.range n).foldl (fun rk i => rk.set (if isEncrypt then i else n - i - 1) (seq.getD i default)) (List.replicate n default)

/-- utils.go:104-110 `encRound` -/
def encRound (x : St) (k : RK) : St :=
  (rotl ((x.1 ^^^ k.k0) + (x.2.1 ^^^ k.k1)) 9, ror ((x.2.1 ^^^ k.k2) + (x.2.2.1 ^^^ k.k3)) 5,
    ror ((x.2.2.1 ^^^ k.k4) + (x.2.2.2 ^^^ k.k5)) 3, x.1)

/-- utils.go:113-119 `decRound` -/
def decRound (x : St) (k : RK) : St :=
  let t0 := x.2.2.2
  let t1 := (ror x.1 9 - (t0 ^^^ k.k0)) ^^^ k.k1
  let t2 := (rotl x.2.1 5 - (t1 ^^^ k.k2)) ^^^ k.k3
  let t3 := (rotl x.2.2.1 3 - (t2 ^^^ k.k4)) ^^^ k.k5
  (t0, t1, t2, t3)

/-- utils.go:126-152 `crypt`, with lea.go:77-87. -/
def encrypt (erk : List RK) : Bytes → Bytes := enc4LE 32 4 (fun s => erk.foldl encRound s)
def decrypt (drk : List RK) : Bytes → Bytes := enc4LE 32 4 (fun s => drk.foldl decRound s)

/-- lea.go:26-75. The round keys are computed once. -/
def newCipher (key : Bytes) : Res Obj :=
  if key.length = 16 ∨ key.length = 24 ∨ key.length = 32 then
    .ok ⟨16, guarded 16 (whole 16 (encrypt (roundKey key true))), guarded 16 (whole 16 (decrypt (roundKey key false)))⟩
  else .err

theorem rkSeq_length (kl n i : Nat) (T : List W) : (rkSeq kl n i T).length = n := by
  induction n generalizing i T with
  | zero => rfl
  | succ n ih => simp [rkSeq, ih]

theorem roundKey_rev (K : Bytes) : roundKey K false = (roundKey K true).reverse := by
  have hl := rkSeq_length K.length (nr K.length) 0 (ldLE 32 4 (K.length / 4) K)
  have h1 : roundKey K true = rkSeq K.length (nr K.length) 0 (ldLE 32 4 (K.length / 4) K) := by
    have := fill_id default (rkSeq K.length (nr K.length) 0 (ldLE 32 4 (K.length / 4) K)) (List.replicate (nr K.length) default) (by simp [hl])
    rwa [hl] at this
  have := fill_rev default (rkSeq K.length (nr K.length) 0 (ldLE 32 4 (K.length / 4) K)) (List.replicate (nr K.length) default) (by simp [hl])
  rw [h1, ← this, hl]
  rfl

theorem dec_enc (x : St) (k : RK) : decRound (encRound x k) k = x := by
  obtain ⟨a, b, c, d⟩ := x
  simp only [encRound, decRound, ror]
  rw [rotl_rotl _ 9 (32 - 9) (by decide), rotl_rotl _ (32 - 5) 5 (by decide), rotl_rotl _ (32 - 3) 3 (by decide)]
  simp

theorem enc_dec (x : St) (k : RK) : encRound (decRound x k) k = x := by
  obtain ⟨a, b, c, d⟩ := x
  simp only [encRound, decRound, ror, xor_self_right, add_of_sub]
  rw [rotl_rotl _ (32 - 9) 9 (by decide), rotl_rotl _ 5 (32 - 5) (by decide), rotl_rotl _ 3 (32 - 3) (by decide)]

theorem implements : Implements newCipher (fun n => n = 16 ∨ n = 24 ∨ n = 32) 16 := by
  refine implements_of (ok := fun n => n = 16 ∨ n = 24 ∨ n = 32) (f := fun key => encrypt (roundKey key true)) (g := fun key => decrypt (roundKey key false)) fun key _ => ?_
  rw [roundKey_rev]
  exact isBlock_4LE (w := 32) (sz := 4) (f := fun s => (roundKey key true).foldl encRound s) (g := fun s => (roundKey key true).reverse.foldl decRound s) 16 rfl rfl
    (foldl_undo encRound decRound dec_enc _) (foldl_undo' encRound decRound enc_dec _)

end Verif.Cipher.Lea
