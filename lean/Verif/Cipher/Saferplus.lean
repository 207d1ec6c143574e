import Verif.Cipher.SaferProps
/-
Model of cipher/saferplus, and C177.
-/
namespace Verif.Cipher.Saferplus
open Verif.Cipher.Safer (S ebox lbox keyA subB pht1 pht2 pht3 perm ikeyA iperm ipht3 ipht2 ipht1 isub1 isub2 at' ld st)

/-- `exp_tab[n]` (cipher/saferplus/sbox.go:3-36): the entries are those of `safer_ebox`. -/
def expTab (n : Nat) : Byte := ebox.getD n 0

/-- Eight bytes of the round keys (cipher/saferplus/saferplus.go:334-349, off = 1, and 351-366, off = 10); `strengthened` is 1. -/
def row (x : Bytes) (c i off : Nat) : Bytes := (List.range 8).map fun j => x.getD ((j + c) % 9) 0 + expTab (expTab (18 * i + j + off)).toNat

/-- The loop of `expandKey` (cipher/saferplus/saferplus.go:325-367), `n` turns from `i` on. -/
def rows : Nat → Nat → Bytes → Bytes → Bytes
  | 0, _, _, _ => []
  | n + 1, i, ka, kb =>
    let ka := ka.map (rotl · 6)
    let kb := kb.map (rotl · 6)
    row ka (2 * i - 1) i 1 ++ (row kb (2 * i) i 10 ++ rows n (i + 1) ka kb)

/-- `expandKey` (cipher/saferplus/saferplus.go:282-375) for a key of 8 or 16 bytes: `local_key`, 217 bytes, those not written being zero. -/
def expandKey (key : Bytes) : Bytes :=
  let buffer (j : Nat) := key.getD j 0
  let ka := (List.range 8).map fun j => rotl (buffer j) 5
  let kb := (List.range 8).map fun j => if key.length > 8 then buffer (j + 8) else buffer j
  let k := 8 :: (kb ++ rows 8 1 (ka ++ [ka.foldl (· ^^^ ·) 0]) (kb ++ [kb.foldl (· ^^^ ·) 0]))
  k ++ List.replicate (217 - k.length) 0

/-- `rnd` (cipher/saferplus/saferplus.go:91-95, 192-196). -/
def rounds (key : Bytes) : Nat := if 13 < (key.getD 0 0).toNat then 13 else (key.getD 0 0).toNat

/-- `encrypt` (cipher/saferplus/saferplus.go:80-179); `xi` is `16·i` before turn `i`. The statements of a turn are, line for line, those of cipher/safer: the definitions
of its steps are used again (cipher/saferplus/saferplus.go:100-115 keyA, 117-132 subB, 134-137 pht1, 139-142 pht2, 143-146 pht3, 148-156 perm). -/
def encrypt (key : Bytes) (s : S) : S :=
  keyA (at' key (16 * rounds key + 1)) ((List.range (rounds key)).foldl (fun s i =>
    perm (pht3 (pht2 (pht1 (subB (fun j => at' key (16 * i + 1) (8 + j)) (keyA (at' key (16 * i + 1)) s)))))) s)

/-- `decrypt` (cipher/saferplus/saferplus.go:181-280; 200-214 ikeyA, 217-225 iperm, 227-230 ipht3, 232-235 ipht2, 237-240 ipht1, 242-257 isub1, 259-274 isub2). -/
def decrypt (key : Bytes) (s : S) : S :=
  (List.range (rounds key)).reverse.foldl (fun s i =>
    isub2 (at' key (16 * i + 1)) (isub1 (fun j => at' key (16 * i + 1) (8 + j)) (ipht1 (ipht2 (ipht3 (iperm s)))))) (ikeyA (at' key (16 * rounds key + 1)) s)

/-- `Encrypt` and `Decrypt` (cipher/saferplus/saferplus.go:48-78, with 85-89 and 186-190): the loop over all of `src` stores into an array of eight bytes, which panics at
the ninth. -/
def method (f : Bytes → Bytes) (m : Mem) (dst src : Slice) : Res Mem :=
  if src.len < 8 then .panic
  else if dst.len < 8 then .panic
  else if inexactOverlap { dst with len := 8 } { src with len := 8 } then .panic
  else if src.len > 8 then .panic
  else .ok (m.write dst.ptr (f (m.read src.ptr 8)))

def encB (key b : Bytes) : Bytes := st (encrypt (expandKey key) (ld b))
def decB (key b : Bytes) : Bytes := st (decrypt (expandKey key) (ld b))

/-- `NewCipher` (cipher/saferplus/saferplus.go:28-42). -/
def newCipher (key : Bytes) : Res Obj :=
  if key.length = 8 ∨ key.length = 16 then .ok ⟨8, method (encB key), method (decB key)⟩ else .err

/-! ## Proofs -/

theorem row_eq (x : Bytes) (c i off : Nat) (h : 18 * i + off + 8 ≤ 256) : row x c i off = Safer.row true x c (18 * i + off) := by
  unfold row Safer.row
  apply List.map_congr_left
  intro j hj
  rw [List.mem_range] at hj
  rw [if_pos rfl, show (c % 9 + j) % 9 = (j + c) % 9 by omega, Nat.mod_eq_of_lt (show 18 * i + off + j < 256 by omega), show 18 * i + off + j = 18 * i + j + off by omega]
  rfl

theorem rows_eq : ∀ (n i : Nat) (ka kb : Bytes), i + n ≤ 12 → rows n i ka kb = Safer.expandLoop true n i ka kb
  | 0, _, _, _, _ => rfl
  | n + 1, i, ka, kb, h => by
    rw [rows, Safer.expandLoop]
    rw [row_eq _ _ _ _ (by omega), row_eq _ _ _ _ (by omega), rows_eq n (i + 1) _ _ (by omega), List.append_assoc]
    rfl

theorem getD_range (l : Bytes) (n : Nat) (h : 8 ≤ l.length - n) : ((List.range 8).map fun j => l.getD (j + n) 0) = (l.drop n).take 8 := by
  apply List.ext_getElem
  · simp; omega
  · intro i h1 h2
    simp only [List.length_map, List.length_range] at h1
    rw [List.getElem_map, List.getElem_range, List.getElem_take, List.getElem_drop, List.getD_eq_getElem?_getD, List.getElem?_eq_getElem (by omega), Option.getD_some]
    congr 1
    omega

theorem expandKey_eq (key : Bytes) (hk : key.length = 8 ∨ key.length = 16) : expandKey key = Safer.setKey true key 8 := by
  have ha : ((List.range 8).map fun j => rotl (key.getD j 0) 5) = (key.take 8).map (rotl · 5) := by
    have := getD_range key 0 (by omega)
    rw [List.drop_zero] at this
    rw [← this, List.map_map]
    rfl
  have hb : ((List.range 8).map fun j => if key.length > 8 then key.getD (j + 8) 0 else key.getD j 0) = (key.drop (key.length - 8)).take 8 := by
    rcases hk with h | h
    · rw [h]
      exact getD_range key 0 (by omega)
    · rw [h]
      exact getD_range key 8 (by omega)
  have hs : Safer.setKey true key 8 = Safer.expand true key (key.drop (key.length - 8)) 8 := by
    rw [Safer.setKey, if_neg (by decide)]
    rcases hk with h | h
    · rw [if_pos h, h]; rfl
    · rw [if_neg (by omega), h]; rfl
  rw [hs, expandKey]
  dsimp only
  rw [ha, hb, rows_eq _ _ _ _ (by omega)]
  rfl

theorem rounds_eq (key : Bytes) : rounds key = Safer.rounds key := by
  unfold rounds Safer.rounds
  split <;> omega

theorem encB_eq (key : Bytes) (hk : key.length = 8 ∨ key.length = 16) : encB key = Safer.encB true 8 key := by
  funext b
  rw [encB, Safer.encB, expandKey_eq key hk, encrypt, Safer.encrypt, rounds_eq]
  rfl
theorem decB_eq (key : Bytes) (hk : key.length = 8 ∨ key.length = 16) : decB key = Safer.decB true 8 key := by
  funext b
  rw [decB, Safer.decB, expandKey_eq key hk, decrypt, Safer.decrypt, rounds_eq]
  rfl

theorem method_eq (f : Bytes → Bytes) (m : Mem) (dst src : Slice) (h : src.len ≤ 8) : method f m dst src =
    if src.len < 8 ∨ dst.len < 8 ∨ inexactOverlap { dst with len := 8 } { src with len := 8 } = true then .panic else .ok (m.write dst.ptr (f (m.read src.ptr 8))) := by
  unfold method
  by_cases h1 : src.len < 8
  · simp [h1]
  · by_cases h2 : dst.len < 8
    · simp [h2]
    · by_cases h3 : inexactOverlap { dst with len := 8 } { src with len := 8 } = true
      · simp [h3]
      · simp [h1, h2, h3, show ¬ 8 < src.len by omega]

/-- **C177** With keys of 8 and 16 bytes, and no others, `NewCipher` gives SAFER SK-64 or SK-128 with 8 rounds; `Encrypt` and `Decrypt` are inverse functions of a block and
panic on short or partially overlapping slices, when `src` is no longer than a block. Missing: longer `src`, and that the cipher is SAFER+, as the package is named. -/
theorem C177_block_cipher_partial (key : Bytes) :
    (¬ (key.length = 8 ∨ key.length = 16) → newCipher key = .err) ∧
    ((key.length = 8 ∨ key.length = 16) → ∃ c D, newCipher key = .ok c ∧ c.bs = 8 ∧
      BlockFn 8 (Safer.Spec.encrypt (Safer.Spec.roundKey true key (key.drop (key.length - 8))) 8) D ∧
      ∀ m dst src, src.len ≤ 8 →
        (c.enc m dst src = if src.len < 8 ∨ dst.len < 8 ∨ inexactOverlap { dst with len := 8 } { src with len := 8 } = true then .panic
          else .ok (m.write dst.ptr (Safer.Spec.encrypt (Safer.Spec.roundKey true key (key.drop (key.length - 8))) 8 (m.read src.ptr 8)))) ∧
        (c.dec m dst src = if src.len < 8 ∨ dst.len < 8 ∨ inexactOverlap { dst with len := 8 } { src with len := 8 } = true then .panic
          else .ok (m.write dst.ptr (D (m.read src.ptr 8))))) := by
  refine ⟨fun h => if_neg h, fun hk => ?_⟩
  have hf : BlockFn 8 (encB key) (decB key) := by
    rw [encB_eq key hk, decB_eq key hk]
    exact blockFn_of 8 ld st (Safer.encrypt (Safer.setKey true key 8)) (Safer.decrypt (Safer.setKey true key 8)) (fun _ => rfl) (fun _ => rfl)
      (fun b hb => by match b, hb with | [_, _, _, _, _, _, _, _], _ => rfl) (Safer.decrypt_encrypt _)
  have e : encB key = Safer.Spec.encrypt (Safer.Spec.roundKey true key (key.drop (key.length - 8))) 8 := by
    funext b
    rw [encB_eq key hk, Safer.encB]
    have hs : Safer.setKey true key 8 = Safer.expand true key (key.drop (key.length - 8)) 8 := by
      rw [Safer.setKey, if_neg (by decide)]
      rcases hk with h | h
      · rw [if_pos h, h]; rfl
      · rw [if_neg (by omega), h]; rfl
    rw [hs]
    exact Safer.encrypt_spec _ _ _ (Safer.rounds_expand _ _ _ _ (by omega)) (fun i j hj => Safer.expand_get true key _ _ (by rw [List.length_drop]; omega) (by omega) i j hj) b
  rw [← e]
  exact ⟨⟨8, method (encB key), method (decB key)⟩, decB key, if_pos hk, rfl, hf, fun m dst src h => ⟨method_eq _ m dst src h, method_eq _ m dst src h⟩⟩

/- The vectors of cipher/saferplus/saferplus_test.go. -/
example : kat newCipher [10, 12, 14, 16, 18, 20, 22, 24] (hx 8 0x0001020304050607) = .ok (hx 8 0xe490eebffd908f34) := by decide +kernel
example : kat newCipher [10, 12, 14, 16, 18, 20, 22, 24, 26, 28, 30, 32, 34, 36, 38, 40] (hx 8 0x0001020304050607) = .ok (hx 8 0x35ed856e2cf90947) := by decide +kernel

/-- **C177, the fault.** `Encrypt` and `Decrypt` panic whenever `src` is longer than a block, whatever the key and the destination. -/
theorem C177_long_source_violated (key : Bytes) (c : Obj) (hc : newCipher key = .ok c) (m : Mem) (dst src : Slice) (h : 8 < src.len) :
    c.enc m dst src = .panic ∧ c.dec m dst src = .panic := by
  have hm (f : Bytes → Bytes) : method f m dst src = .panic := by
    unfold method
    rw [if_pos h]
    simp
  unfold newCipher at hc
  by_cases hk : key.length = 8 ∨ key.length = 16
  · rw [if_pos hk] at hc
    cases Res.ok.inj hc
    exact ⟨hm _, hm _⟩
  · rw [if_neg hk] at hc
    exact absurd hc (by simp)

/-- So the package does not implement cipher.Block. -/
theorem C177_block_interface_violated : ¬ Implements newCipher (fun l => l = 8 ∨ l = 16) 8 := by
  intro h
  obtain ⟨c, hc, _, E, D, hE⟩ := (h [1, 2, 3, 4, 5, 6, 7, 8]).1 (.inl rfl)
  have h1 := (C177_long_source_violated _ c hc default ⟨16, 8, 8⟩ ⟨0, 16, 16⟩ (by decide)).1
  rw [hE.enc_eq, if_neg (by decide)] at h1
  exact absurd h1 (by simp)

end Verif.Cipher.Saferplus
