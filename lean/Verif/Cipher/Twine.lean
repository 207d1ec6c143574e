import Verif.Cipher.Common2
/-
Model of cipher/twine. The code keeps nibbles in bytes; here they are 4-bit words. That loses nothing: the nibbles of data and key are made by `>> 4` and `& 0x0f`,
and everything they are combined with (S-box entries, `con >> 3` and `con & 7` of constants below 64) is below 16, so that also the indices of the S-box are.
-/
namespace Verif.Cipher.Twine

abbrev N := BitVec 4

/-- `sbox` (cipher/twine/sbox.go:4-7). -/
def sbox : List N := [0xC, 0x0, 0xF, 0xA, 0x2, 0xB, 0x9, 0x5, 0x8, 0x3, 0xD, 0x7, 0x1, 0xE, 0x6, 0x4]
/-- `shuf` (cipher/twine/sbox.go:10-13). -/
def shuf : List Nat := [5, 0, 1, 4, 7, 12, 3, 8, 13, 6, 9, 2, 15, 10, 11, 14]
/-- `shufinv` (cipher/twine/sbox.go:15-18). -/
def shufinv : List Nat := [1, 2, 11, 6, 3, 0, 9, 4, 7, 10, 13, 14, 5, 8, 15, 12]
/-- `roundconst` (cipher/twine/sbox.go:21-24). -/
def roundconst : List Byte := [
  0x01, 0x02, 0x04, 0x08, 0x10, 0x20, 0x03, 0x06, 0x0c, 0x18, 0x30, 0x23, 0x05, 0x0a, 0x14, 0x28, 0x13, 0x26,
  0x0f, 0x1e, 0x3c, 0x3b, 0x35, 0x29, 0x11, 0x22, 0x07, 0x0e, 0x1c, 0x38, 0x33, 0x25, 0x09, 0x12, 0x24, 0x0b]

/-- `sbox[x]`. -/
def S (x : N) : N := sbox.getD x.toNat 0

/-- The nibbles of the bytes of `b` (cipher/twine/twine.go:60-63, 122-125). -/
def nibbles (b : Bytes) : List N := b.flatMap fun (v : Byte) => [(v >>> 4).setWidth 4, v.setWidth 4]
/-- Into the array `x` of 16 nibbles, which starts with zeros (cipher/twine/twine.go:58-63); `b` has at most 8 bytes. -/
def ld (b : Bytes) : List N := (nibbles b ++ List.replicate 16 0).take 16
/-- `x[2*i]<<4 | x[2*i+1]` (cipher/twine/twine.go:83-85). -/
def st (x : List N) : Bytes := (List.range 8).map fun i => ((x.getD (2 * i) 0).setWidth 8 <<< 4) ||| (x.getD (2 * i + 1) 0).setWidth 8

/-- The S-box layer with the round key `k` (cipher/twine/twine.go:66-68). -/
def sub (k x : List N) : List N := (List.range 8).foldl (fun x j => x.set (2 * j + 1) (x.getD (2 * j + 1) 0 ^^^ S (x.getD (2 * j) 0 ^^^ k.getD j 0))) x
/-- The shuffle by a table (cipher/twine/twine.go:70-74). -/
def shuffle (t : List Nat) (x : List N) : List N := (List.range 16).foldl (fun y h => y.set (t.getD h 0) (x.getD h 0)) (List.replicate 16 0)

/-- Encrypt between loading and storing (cipher/twine/twine.go:65-81). -/
def encrypt (rk : List (List N)) (x : List N) : List N :=
  sub (rk.getD 35 []) ((List.range 35).foldl (fun x i => shuffle shuf (sub (rk.getD i []) x)) x)
/-- Decrypt between loading and storing (cipher/twine/twine.go:96-112). -/
def decrypt (rk : List (List N)) (x : List N) : List N :=
  sub (rk.getD 0 []) (((List.range 35).reverse.map (· + 1)).foldl (fun x i => shuffle shufinv (sub (rk.getD i []) x)) x)

/-- `wk[i] ^= v`. -/
def xorAt (wk : List N) (i : Nat) (v : N) : List N := wk.set i (wk.getD i 0 ^^^ v)
/-- The rotation of `wk` by four nibbles, the last four in the order 1, 2, 3, 0 (cipher/twine/twine.go:146-157, 198-209). -/
def rotate (wk : List N) : List N := wk.drop 4 ++ [wk.getD 1 0, wk.getD 2 0, wk.getD 3 0, wk.getD 0 0]
/-- The round constant (cipher/twine/twine.go:142-144, 194-196). -/
def addCon (wk : List N) (i : Nat) : List N :=
  let con := roundconst.getD i 0
  xorAt (xorAt wk 7 ((con >>> 3).setWidth 4)) 19 ((con &&& 7).setWidth 4)

/-- The nibbles of `wk` that make a round key, for keys of 80 bits (cipher/twine/twine.go:129-136) and of 128 bits (cipher/twine/twine.go:178-185). -/
def row80 (wk : List N) : List N := [1, 3, 4, 6, 13, 14, 15, 16].map (wk.getD · 0)
def row128 (wk : List N) : List N := [2, 3, 12, 15, 17, 18, 28, 31].map (wk.getD · 0)
/-- An iteration of the loop of `expandKeys80` (cipher/twine/twine.go:138-157). -/
def step80 (wk : List N) (i : Nat) : List N :=
  let wk := xorAt wk 1 (S (wk.getD 0 0))
  let wk := xorAt wk 4 (S (wk.getD 16 0))
  rotate (addCon wk i)
/-- An iteration of the loop of `expandKeys128` (cipher/twine/twine.go:187-209). -/
def step128 (wk : List N) (i : Nat) : List N :=
  let wk := xorAt wk 1 (S (wk.getD 0 0))
  let wk := xorAt wk 4 (S (wk.getD 16 0))
  let wk := xorAt wk 23 (S (wk.getD 30 0))
  rotate (addCon wk i)
/-- The round keys, the row of `wk` before each of the 35 iterations and after the last (cipher/twine/twine.go:119-220). -/
def rows (row : List N → List N) (step : List N → Nat → List N) : Nat → Nat → List N → List (List N)
  | 0, _, wk => [row wk]
  | n + 1, i, wk => row wk :: rows row step n (i + 1) (step wk i)
/-- `expandKeys80` and `expandKeys128` (cipher/twine/twine.go:119-220). -/
def expandKeys (key : Bytes) : List (List N) :=
  if key.length = 10 then rows row80 step80 35 0 (nibbles key) else rows row128 step128 35 0 (nibbles key)

/-- The function of the bytes of `src`. -/
def encB (key b : Bytes) : Bytes := st (encrypt (expandKeys key) (ld b))
def decB (key b : Bytes) : Bytes := st (decrypt (expandKeys key) (ld b))

/-- Encrypt and Decrypt (cipher/twine/twine.go:57-117): all of `src` is loaded, its ninth byte is out of range of the array; storing needs 8 bytes of `dst`. -/
def method (f : Bytes → Bytes) (m : Mem) (dst src : Slice) : Res Mem :=
  if 8 < src.len then .panic
  else if dst.len < 8 then .panic
  else .ok (m.write dst.ptr (f (m.read src.ptr src.len)))

/-- NewCipher (cipher/twine/twine.go:31-51). -/
def newCipher : Bytes → Res Obj := fun key =>
  if key.length = 10 ∨ key.length = 16 then .ok ⟨8, method (encB key), method (decB key)⟩ else .err

/-! Proofs -/

theorem len16 (x : List N) (h : x.length = 16) : ∃ a b c d e f g i j k l m n o p q, x = [a, b, c, d, e, f, g, i, j, k, l, m, n, o, p, q] := by
  match x, h with
  | [a, b, c, d, e, f, g, i, j, k, l, m, n, o, p, q], _ => exact ⟨a, b, c, d, e, f, g, i, j, k, l, m, n, o, p, q, rfl⟩

theorem sub_eq (r : List N) (a b c d e f g i j k l m n o p q : N) : sub r [a, b, c, d, e, f, g, i, j, k, l, m, n, o, p, q] =
    [a, b ^^^ S (a ^^^ r.getD 0 0), c, d ^^^ S (c ^^^ r.getD 1 0), e, f ^^^ S (e ^^^ r.getD 2 0), g, i ^^^ S (g ^^^ r.getD 3 0),
     j, k ^^^ S (j ^^^ r.getD 4 0), l, m ^^^ S (l ^^^ r.getD 5 0), n, o ^^^ S (n ^^^ r.getD 6 0), p, q ^^^ S (p ^^^ r.getD 7 0)] := rfl
theorem sub_sub (r x : List N) (h : x.length = 16) : sub r (sub r x) = x := by
  obtain ⟨a, b, c, d, e, f, g, i, j, k, l, m, n, o, p, q, rfl⟩ := len16 x h
  simp only [sub_eq, BitVec.xor_assoc, BitVec.xor_self, BitVec.xor_zero]
theorem sub_length (r x : List N) (h : x.length = 16) : (sub r x).length = 16 := by
  obtain ⟨a, b, c, d, e, f, g, i, j, k, l, m, n, o, p, q, rfl⟩ := len16 x h
  rw [sub_eq]
  rfl
theorem shuffle_eq (a b c d e f g i j k l m n o p q : N) : shuffle shuf [a, b, c, d, e, f, g, i, j, k, l, m, n, o, p, q] = [b, c, m, g, d, a, k, e, i, l, o, p, f, j, q, n] := by
  simp [shuffle, shuf, show List.range 16 = [0, 1, 2, 3, 4, 5, 6, 7, 8, 9, 10, 11, 12, 13, 14, 15] from rfl]
theorem unshuffle_eq (a b c d e f g i j k l m n o p q : N) : shuffle shufinv [a, b, c, d, e, f, g, i, j, k, l, m, n, o, p, q] = [f, a, b, e, i, n, d, j, o, g, k, c, q, l, m, p] := by
  simp [shuffle, shufinv, show List.range 16 = [0, 1, 2, 3, 4, 5, 6, 7, 8, 9, 10, 11, 12, 13, 14, 15] from rfl]
theorem shuffle_inv (x : List N) (h : x.length = 16) : shuffle shufinv (shuffle shuf x) = x := by
  obtain ⟨a, b, c, d, e, f, g, i, j, k, l, m, n, o, p, q, rfl⟩ := len16 x h
  rw [shuffle_eq, unshuffle_eq]
theorem shuffle_length (t : List Nat) (x : List N) : (shuffle t x).length = 16 := by
  unfold shuffle
  have : ∀ (l : List Nat) (y : List N), (l.foldl (fun y h => y.set (t.getD h 0) (x.getD h 0)) y).length = y.length := by
    intro l
    induction l with
    | nil => intro y; rfl
    | cons a l ih => intro y; rw [List.foldl_cons, ih, List.length_set]
  rw [this, List.length_replicate]

theorem sandwich_on {T : Type} (P : T → Prop) (A B : Nat → T → T) (G H : T → T) (hA : ∀ i s, P s → P (A i s)) (hP : ∀ s, P s → P (G s))
    (hG : ∀ s, P s → H (G s) = s) (hB : ∀ i s, P s → B i (A i s) = s) (m : Nat) (s : T) (hs : P s) :
    B 0 (((List.range m).reverse.map (· + 1)).foldl (fun s i => H (B i s)) (A m ((List.range m).foldl (fun s i => G (A i s)) s))) = s := by
  have inv : ∀ m, P ((List.range m).foldl (fun s i => G (A i s)) s) := by
    intro m
    induction m with
    | zero => exact hs
    | succ m ih =>
      rw [List.range_succ, List.foldl_append]
      exact hP _ (hA _ _ ih)
  induction m with
  | zero => exact hB 0 s hs
  | succ m ih =>
    have h1 := inv m
    rw [List.range_succ, List.reverse_append, List.map_append]
    simp only [List.reverse_cons, List.reverse_nil, List.nil_append, List.map_cons, List.map_nil, List.foldl_append, List.foldl_cons, List.foldl_nil]
    rw [hB _ _ (hP _ (hA _ _ h1)), hG _ (hA _ _ h1)]
    exact ih

theorem decrypt_encrypt (rk : List (List N)) (x : List N) (h : x.length = 16) : decrypt rk (encrypt rk x) = x :=
  sandwich_on (fun x => x.length = 16) (fun i => sub (rk.getD i [])) (fun i => sub (rk.getD i [])) (shuffle shuf) (shuffle shufinv)
    (fun _ s hs => sub_length _ s hs) (fun s _ => shuffle_length _ s) shuffle_inv (fun _ s hs => sub_sub _ s hs) 35 x h

theorem encrypt_length (rk : List (List N)) (x : List N) (h : x.length = 16) : (encrypt rk x).length = 16 := by
  unfold encrypt
  apply sub_length
  have : ∀ (l : List Nat) (y : List N), y.length = 16 → (l.foldl (fun x i => shuffle shuf (sub (rk.getD i []) x)) y).length = 16 := by
    intro l
    induction l with
    | nil => intro y hy; exact hy
    | cons a l ih => intro y hy; rw [List.foldl_cons]; exact ih _ (shuffle_length _ _)
  exact this _ x h

theorem byte_split (v : Byte) : (((v >>> 4).setWidth 4 : N).setWidth 8 <<< 4) ||| ((v.setWidth 4 : N).setWidth 8) = v := by revert v; decide +kernel
theorem nib_hi (a b : N) : (((a.setWidth 8 <<< 4) ||| b.setWidth 8 : Byte) >>> 4).setWidth 4 = a := by revert a b; decide +kernel
theorem nib_lo (a b : N) : ((a.setWidth 8 <<< 4) ||| b.setWidth 8 : Byte).setWidth 4 = b := by revert a b; decide +kernel

theorem ld_st (x : List N) (h : x.length = 16) : ld (st x) = x := by
  obtain ⟨a, b, c, d, e, f, g, i, j, k, l, m, n, o, p, q, rfl⟩ := len16 x h
  simp [ld, st, nibbles, show List.range 8 = [0, 1, 2, 3, 4, 5, 6, 7] from rfl, nib_hi]
theorem st_ld (b : Bytes) (h : b.length = 8) : st (ld b) = b := by
  match b, h with
  | [a, b, c, d, e, f, g, i], _ =>
    simp [ld, st, nibbles, show List.range 8 = [0, 1, 2, 3, 4, 5, 6, 7] from rfl, byte_split]
theorem nibbles_length (b : Bytes) : (nibbles b).length = 2 * b.length := by
  induction b with
  | nil => rfl
  | cons a b ih =>
    unfold nibbles at ih ⊢
    rw [List.flatMap_cons, List.length_append, ih]
    simp
    omega
theorem ld_length (b : Bytes) : (ld b).length = 16 := by simp [ld]
theorem st_length (x : List N) : (st x).length = 8 := by simp [st]

theorem blockFn (key : Bytes) : BlockFn 8 (encB key) (decB key) :=
  blockFn_left 8 _ _ (fun _ _ => st_length _) (fun _ _ => st_length _) fun b hb => by
    unfold encB decB
    rw [ld_st _ (encrypt_length _ _ (ld_length b)), decrypt_encrypt _ _ (ld_length b), st_ld b hb]

/-- A short source is extended with zeros. -/
theorem ld_short (b : Bytes) (h : b.length ≤ 8) : ld b = ld (b ++ List.replicate (8 - b.length) 0) := by
  have e : nibbles (b ++ List.replicate (8 - b.length) 0) = nibbles b ++ List.replicate (2 * (8 - b.length)) 0 := by
    unfold nibbles
    rw [List.flatMap_append]
    congr 1
    generalize 8 - b.length = n
    induction n with
    | zero => rfl
    | succ n ih =>
      rw [List.replicate_succ, List.flatMap_cons, ih, show 2 * (n + 1) = 2 + 2 * n from by omega, List.replicate_add]
      rfl
  unfold ld
  rw [e, List.append_assoc, ← List.replicate_add]
  rw [List.take_append, List.take_append]
  congr 1
  rw [List.take_replicate, List.take_replicate]
  congr 1
  rw [nibbles_length]
  omega

end Verif.Cipher.Twine
