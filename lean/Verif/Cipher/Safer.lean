import Verif.Cipher.Common2
/-
Model of cipher/safer.
-/
namespace Verif.Cipher.Safer

/-- `safer_ebox` (cipher/safer/sbox.go:5-22). -/
def ebox : List Byte := [
  1, 45, 226, 147, 190, 69, 21, 174, 120, 3, 135, 164, 184, 56, 207, 63,
  8, 103, 9, 148, 235, 38, 168, 107, 189, 24, 52, 27, 187, 191, 114, 247,
  64, 53, 72, 156, 81, 47, 59, 85, 227, 192, 159, 216, 211, 243, 141, 177,
  255, 167, 62, 220, 134, 119, 215, 166, 17, 251, 244, 186, 146, 145, 100, 131,
  241, 51, 239, 218, 44, 181, 178, 43, 136, 209, 153, 203, 140, 132, 29, 20,
  129, 151, 113, 202, 95, 163, 139, 87, 60, 130, 196, 82, 92, 28, 232, 160,
  4, 180, 133, 74, 246, 19, 84, 182, 223, 12, 26, 142, 222, 224, 57, 252,
  32, 155, 36, 78, 169, 152, 158, 171, 242, 96, 208, 108, 234, 250, 199, 217,
  0, 212, 31, 110, 67, 188, 236, 83, 137, 254, 122, 93, 73, 201, 50, 194,
  249, 154, 248, 109, 22, 219, 89, 150, 68, 233, 205, 230, 70, 66, 143, 10,
  193, 204, 185, 101, 176, 210, 198, 172, 30, 65, 98, 41, 46, 14, 116, 80,
  2, 90, 195, 37, 123, 138, 42, 91, 240, 6, 13, 71, 111, 112, 157, 126,
  16, 206, 18, 39, 213, 76, 79, 214, 121, 48, 104, 54, 117, 125, 228, 237,
  128, 106, 144, 55, 162, 94, 118, 170, 197, 127, 61, 175, 165, 229, 25, 97,
  253, 77, 124, 183, 11, 238, 173, 75, 34, 245, 231, 115, 35, 33, 200, 5,
  225, 102, 221, 179, 88, 105, 99, 86, 15, 161, 49, 149, 23, 7, 58, 40]
/-- `safer_lbox` (cipher/safer/sbox.go:25-42). -/
def lbox : List Byte := [
  128, 0, 176, 9, 96, 239, 185, 253, 16, 18, 159, 228, 105, 186, 173, 248,
  192, 56, 194, 101, 79, 6, 148, 252, 25, 222, 106, 27, 93, 78, 168, 130,
  112, 237, 232, 236, 114, 179, 21, 195, 255, 171, 182, 71, 68, 1, 172, 37,
  201, 250, 142, 65, 26, 33, 203, 211, 13, 110, 254, 38, 88, 218, 50, 15,
  32, 169, 157, 132, 152, 5, 156, 187, 34, 140, 99, 231, 197, 225, 115, 198,
  175, 36, 91, 135, 102, 39, 247, 87, 244, 150, 177, 183, 92, 139, 213, 84,
  121, 223, 170, 246, 62, 163, 241, 17, 202, 245, 209, 23, 123, 147, 131, 188,
  189, 82, 30, 235, 174, 204, 214, 53, 8, 200, 138, 180, 226, 205, 191, 217,
  208, 80, 89, 63, 77, 98, 52, 10, 72, 136, 181, 86, 76, 46, 107, 158,
  210, 61, 60, 3, 19, 251, 151, 81, 117, 74, 145, 113, 35, 190, 118, 42,
  95, 249, 212, 85, 11, 220, 55, 49, 22, 116, 215, 119, 167, 230, 7, 219,
  164, 47, 70, 243, 97, 69, 103, 227, 12, 162, 59, 28, 133, 24, 4, 29,
  41, 160, 143, 178, 90, 216, 166, 126, 238, 141, 83, 75, 161, 154, 193, 14,
  122, 73, 165, 44, 129, 196, 199, 54, 43, 127, 67, 149, 51, 242, 108, 104,
  109, 240, 2, 40, 206, 221, 155, 234, 94, 153, 124, 20, 134, 207, 229, 66,
  184, 64, 120, 45, 58, 233, 100, 31, 146, 144, 125, 57, 111, 224, 137, 48]

/-- `EXP` (cipher/safer/utils.go:22-24). -/
def EXP (x : Byte) : Byte := ebox.getD x.toNat 0
/-- `LOG` (cipher/safer/utils.go:26-28). -/
def LOG (x : Byte) : Byte := lbox.getD x.toNat 0

/-- The variables `a` to `h` of `encrypt` and `decrypt`. -/
structure S where
  a : Byte
  b : Byte
  c : Byte
  d : Byte
  e : Byte
  f : Byte
  g : Byte
  h : Byte
deriving DecidableEq

/-- `PHT` (cipher/safer/utils.go:30-33): the new `x` and `y`. -/
def PHT (x y : Byte) : Byte × Byte := let y := y + x; (x + y, y)
/-- `IPHT` (cipher/safer/utils.go:35-38). -/
def IPHT (x y : Byte) : Byte × Byte := let x := x - y; (x, y - x)

/-- The addition of eight key bytes (cipher/safer/safer.go:125-140, 182-197). -/
def keyA (k : Nat → Byte) (s : S) : S := ⟨s.a ^^^ k 0, s.b + k 1, s.c + k 2, s.d ^^^ k 3, s.e ^^^ k 4, s.f + k 5, s.g + k 6, s.h ^^^ k 7⟩
/-- The substitution and the second addition of key bytes (cipher/safer/safer.go:142-157). -/
def subB (k : Nat → Byte) (s : S) : S :=
  ⟨EXP s.a + k 0, LOG s.b ^^^ k 1, LOG s.c ^^^ k 2, EXP s.d + k 3, EXP s.e + k 4, LOG s.f ^^^ k 5, LOG s.g ^^^ k 6, EXP s.h + k 7⟩
/-- cipher/safer/safer.go:159-162. -/
def pht1 (s : S) : S := ⟨(PHT s.a s.b).1, (PHT s.a s.b).2, (PHT s.c s.d).1, (PHT s.c s.d).2, (PHT s.e s.f).1, (PHT s.e s.f).2, (PHT s.g s.h).1, (PHT s.g s.h).2⟩
/-- cipher/safer/safer.go:163-166. -/
def pht2 (s : S) : S := ⟨(PHT s.a s.c).1, (PHT s.b s.d).1, (PHT s.a s.c).2, (PHT s.b s.d).2, (PHT s.e s.g).1, (PHT s.f s.h).1, (PHT s.e s.g).2, (PHT s.f s.h).2⟩
/-- cipher/safer/safer.go:167-170. -/
def pht3 (s : S) : S := ⟨(PHT s.a s.e).1, (PHT s.b s.f).1, (PHT s.c s.g).1, (PHT s.d s.h).1, (PHT s.a s.e).2, (PHT s.b s.f).2, (PHT s.c s.g).2, (PHT s.d s.h).2⟩
/-- cipher/safer/safer.go:172-179. -/
def perm (s : S) : S := ⟨s.a, s.e, s.b, s.f, s.c, s.g, s.d, s.h⟩

/-- One turn of the loop of `encrypt` (cipher/safer/safer.go:124-180): `k` are its sixteen key bytes. -/
def round (k : Nat → Byte) (s : S) : S := perm (pht3 (pht2 (pht1 (subB (fun j => k (8 + j)) (keyA k s)))))

/-- cipher/safer/safer.go:235-249. -/
def ikeyA (k : Nat → Byte) (s : S) : S := ⟨s.a ^^^ k 0, s.b - k 1, s.c - k 2, s.d ^^^ k 3, s.e ^^^ k 4, s.f - k 5, s.g - k 6, s.h ^^^ k 7⟩
/-- cipher/safer/safer.go:252-259. -/
def iperm (s : S) : S := ⟨s.a, s.c, s.e, s.g, s.b, s.d, s.f, s.h⟩
/-- cipher/safer/safer.go:261-264. -/
def ipht3 (s : S) : S := ⟨(IPHT s.a s.e).1, (IPHT s.b s.f).1, (IPHT s.c s.g).1, (IPHT s.d s.h).1, (IPHT s.a s.e).2, (IPHT s.b s.f).2, (IPHT s.c s.g).2, (IPHT s.d s.h).2⟩
/-- cipher/safer/safer.go:265-268. -/
def ipht2 (s : S) : S := ⟨(IPHT s.a s.c).1, (IPHT s.b s.d).1, (IPHT s.a s.c).2, (IPHT s.b s.d).2, (IPHT s.e s.g).1, (IPHT s.f s.h).1, (IPHT s.e s.g).2, (IPHT s.f s.h).2⟩
/-- cipher/safer/safer.go:269-272. -/
def ipht1 (s : S) : S := ⟨(IPHT s.a s.b).1, (IPHT s.a s.b).2, (IPHT s.c s.d).1, (IPHT s.c s.d).2, (IPHT s.e s.f).1, (IPHT s.e s.f).2, (IPHT s.g s.h).1, (IPHT s.g s.h).2⟩
/-- cipher/safer/safer.go:274-289. -/
def isub1 (k : Nat → Byte) (s : S) : S := ⟨s.a - k 0, s.b ^^^ k 1, s.c ^^^ k 2, s.d - k 3, s.e - k 4, s.f ^^^ k 5, s.g ^^^ k 6, s.h - k 7⟩
/-- cipher/safer/safer.go:291-306. -/
def isub2 (k : Nat → Byte) (s : S) : S :=
  ⟨LOG s.a ^^^ k 0, EXP s.b - k 1, EXP s.c - k 2, LOG s.d ^^^ k 3, LOG s.e ^^^ k 4, EXP s.f - k 5, EXP s.g - k 6, LOG s.h ^^^ k 7⟩

/-- One turn of the loop of `decrypt` (cipher/safer/safer.go:251-307). -/
def iround (k : Nat → Byte) (s : S) : S := isub2 k (isub1 (fun j => k (8 + j)) (ipht1 (ipht2 (ipht3 (iperm s)))))

/-- `key[n + j]`. -/
def at' (key : Bytes) (n j : Nat) : Byte := key.getD (n + j) 0

/-- `round` of `encrypt` and `decrypt` (cipher/safer/safer.go:116-119, 225-228). -/
def rounds (key : Bytes) : Nat := min 13 (key.getD 0 0).toNat

/-- `encrypt` (cipher/safer/safer.go:100-207). Before turn `i` (counted from 0) `ki` is `16·i`. -/
def encrypt (key : Bytes) (s : S) : S :=
  keyA (at' key (16 * rounds key + 1)) ((List.range (rounds key)).foldl (fun s i => round (at' key (16 * i + 1)) s) s)

/-- `decrypt` (cipher/safer/safer.go:209-317): the rounds in the reverse order. -/
def decrypt (key : Bytes) (s : S) : S :=
  (List.range (rounds key)).reverse.foldl (fun s i => iround (at' key (16 * i + 1)) s) (ikeyA (at' key (16 * rounds key + 1)) s)

/-- `ROL8` (cipher/safer/utils.go:18-20). -/
def ROL8 (x : Byte) (n : Nat) : Byte := rotl x n

/-- The eight key bytes of one half turn (cipher/safer/utils.go:82-103 and 105-126): `x` is `ka` or `kb`, `k0` the value `2*i-1` or `2*i`, and `n` the
number `18*i + 1` or `18*i + 10`; the index runs cyclically modulo 9 when the key is strengthened. -/
def row (strong : Bool) (x : Bytes) (k0 n : Nat) : Bytes :=
  (List.range 8).map fun j => x.getD (if strong then (k0 % 9 + j) % 9 else j) 0 + ebox.getD (ebox.getD ((n + j) % 256) 0).toNat 0

/-- The loop of `Safer_Expand_Userkey` (cipher/safer/utils.go:76-127), `n` turns from `i` on. -/
def expandLoop (strong : Bool) : Nat → Nat → Bytes → Bytes → Bytes
  | 0, _, _, _ => []
  | n + 1, i, ka, kb =>
    let ka := ka.map (ROL8 · 6)
    let kb := kb.map (ROL8 · 6)
    row strong ka (2 * i - 1) (18 * i + 1) ++ row strong kb (2 * i) (18 * i + 10) ++ expandLoop strong n (i + 1) ka kb

/-- `Safer_Expand_Userkey` (cipher/safer/utils.go:40-128) on a zero `key` of 217 bytes. -/
def expand (strong : Bool) (u1 u2 : Bytes) (nof : Nat) : Bytes :=
  let nof := min 13 nof
  let ka := (u1.take 8).map (ROL8 · 5)
  let kb := u2.take 8
  let key := BitVec.ofNat 8 nof :: kb ++ expandLoop strong nof 1 (ka ++ [ka.foldl (· ^^^ ·) 0]) (kb ++ [kb.foldl (· ^^^ ·) 0])
  key ++ List.replicate (217 - key.length) 0

/-- `setK64Key`, `setK128Key`, `setSK64Key`, `setSK128Key` (cipher/safer/safer.go:319-405): the value of `this.key` afterwards. The error they return for a
number of rounds is dropped by the caller. -/
def setKey (strong : Bool) (key : Bytes) (numrounds : Int) : Bytes :=
  if numrounds ≠ 0 ∧ (numrounds < 6 ∨ numrounds > 13) then List.replicate 217 0
  else if key.length = 8 then expand strong key key (if numrounds ≠ 0 then numrounds.toNat else if strong then 8 else 6)
  else expand strong key (key.drop 8) (if numrounds ≠ 0 then numrounds.toNat else 10)

def ld (l : Bytes) : S := ⟨l.getD 0 0, l.getD 1 0, l.getD 2 0, l.getD 3 0, l.getD 4 0, l.getD 5 0, l.getD 6 0, l.getD 7 0⟩
def st (s : S) : Bytes := [s.a, s.b, s.c, s.d, s.e, s.f, s.g, s.h]

def encB (strong : Bool) (n : Int) (key b : Bytes) : Bytes := st (encrypt (setKey strong key n) (ld b))
def decB (strong : Bool) (n : Int) (key b : Bytes) : Bytes := st (decrypt (setKey strong key n) (ld b))

/-- `NewKCipher` (`strong = false`), `NewSKCipher` and `NewCipher` (`strong = true`), `Encrypt`, `Decrypt` (cipher/safer/safer.go:23-95). -/
def newCipher (strong : Bool) (numrounds : Int) (key : Bytes) : Res Obj :=
  if key.length = 8 ∨ key.length = 16 then
    .ok ⟨8, guarded 8 (whole 8 (encB strong numrounds key)), guarded 8 (whole 8 (decB strong numrounds key))⟩
  else .err

/-! Inverses -/

theorem LOG_EXP : ∀ x : Byte, LOG (EXP x) = x := by decide +kernel
theorem EXP_LOG : ∀ x : Byte, EXP (LOG x) = x := by decide +kernel

theorem IPHT_PHT (x y : Byte) : IPHT (PHT x y).1 (PHT x y).2 = (x, y) := by
  have h1 : x + (y + x) - (y + x) = x := BitVec.add_sub_cancel ..
  have h2 : y + x - x = y := BitVec.add_sub_cancel ..
  simp only [IPHT, PHT, h1, h2]

theorem iround_round (k : Nat → Byte) (s : S) : iround k (round k s) = s := by
  have hp (s : S) : iperm (perm s) = s := rfl
  have h3 (s : S) : ipht3 (pht3 s) = s := by simp only [ipht3, pht3, IPHT_PHT]
  have h2 (s : S) : ipht2 (pht2 s) = s := by simp only [ipht2, pht2, IPHT_PHT]
  have h1 (s : S) : ipht1 (pht1 s) = s := by simp only [ipht1, pht1, IPHT_PHT]
  have hx (x y : Byte) : x ^^^ y ^^^ y = x := by rw [BitVec.xor_assoc, BitVec.xor_self, BitVec.xor_zero]
  rw [round, iround, hp, h3, h2, h1]
  simp only [subB, keyA, isub1, isub2, BitVec.add_sub_cancel, hx, LOG_EXP, EXP_LOG]

theorem ikeyA_keyA (k : Nat → Byte) (s : S) : ikeyA k (keyA k s) = s := by
  have hx (x y : Byte) : x ^^^ y ^^^ y = x := by rw [BitVec.xor_assoc, BitVec.xor_self, BitVec.xor_zero]
  simp only [keyA, ikeyA, BitVec.add_sub_cancel, hx]

theorem decrypt_encrypt (key : Bytes) (s : S) : decrypt key (encrypt key s) = s := by
  rw [decrypt, encrypt, ikeyA_keyA]
  exact foldl_undo (fun s i => round (at' key (16 * i + 1)) s) _ (fun s i => iround_round _ s) _ _

theorem implements (strong : Bool) (n : Int) : Implements (newCipher strong n) (fun l => l = 8 ∨ l = 16) 8 :=
  implements_fn (ok := fun l => l = 8 ∨ l = 16) (f := encB strong n) (g := decB strong n) fun key _ =>
    blockFn_of 8 ld st (encrypt (setKey strong key n)) (decrypt (setKey strong key n)) (fun _ => rfl) (fun _ => rfl)
      (fun b hb => by match b, hb with | [_, _, _, _, _, _, _, _], _ => rfl) (decrypt_encrypt _)

end Verif.Cipher.Safer
