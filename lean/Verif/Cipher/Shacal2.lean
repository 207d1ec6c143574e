import Verif.Cipher.Common2
/-
Model of cipher/shacal2.
-/
namespace Verif.Cipher.Shacal2

abbrev W := BitVec 32

/-- `rc` (cipher/shacal2/sbox.go:3-12). -/
def rc : List W := [
  0x428A2F98, 0x71374491, 0xB5C0FBCF, 0xE9B5DBA5, 0x3956C25B, 0x59F111F1, 0x923F82A4, 0xAB1C5ED5,
  0xD807AA98, 0x12835B01, 0x243185BE, 0x550C7DC3, 0x72BE5D74, 0x80DEB1FE, 0x9BDC06A7, 0xC19BF174,
  0xE49B69C1, 0xEFBE4786, 0x0FC19DC6, 0x240CA1CC, 0x2DE92C6F, 0x4A7484AA, 0x5CB0A9DC, 0x76F988DA,
  0x983E5152, 0xA831C66D, 0xB00327C8, 0xBF597FC7, 0xC6E00BF3, 0xD5A79147, 0x06CA6351, 0x14292967,
  0x27B70A85, 0x2E1B2138, 0x4D2C6DFC, 0x53380D13, 0x650A7354, 0x766A0ABB, 0x81C2C92E, 0x92722C85,
  0xA2BFE8A1, 0xA81A664B, 0xC24B8B70, 0xC76C51A3, 0xD192E819, 0xD6990624, 0xF40E3585, 0x106AA070,
  0x19A4C116, 0x1E376C08, 0x2748774C, 0x34B0BCB5, 0x391C0CB3, 0x4ED8AA4A, 0x5B9CCA4F, 0x682E6FF3,
  0x748F82EE, 0x78A5636F, 0x84C87814, 0x8CC70208, 0x90BEFFFA, 0xA4506CEB, 0xBEF9A3F7, 0xC67178F2]

/-- `rotr` (cipher/shacal2/utils.go:42-44). -/
def rotr (x : W) (n : Nat) : W := rotl x (32 - n)
/-- `sigma` (cipher/shacal2/utils.go:46-48). -/
def sigma (x : W) (r1 r2 s : Nat) : W := rotr x r1 ^^^ rotr x r2 ^^^ (x >>> s)
/-- `rho` (cipher/shacal2/utils.go:50-52). -/
def rho (x : W) (r1 r2 r3 : Nat) : W := rotr x r1 ^^^ rotr x r2 ^^^ rotr x r3
/-- `choose` (cipher/shacal2/utils.go:54-56). -/
def choose (mask a b : W) : W := b ^^^ (mask &&& (a ^^^ b))
/-- `majority` (cipher/shacal2/utils.go:58-60). -/
def majority (a b c : W) : W := choose (a ^^^ b) c b

/-- `fwd` (cipher/shacal2/utils.go:62-75); the results are the new values of `*D` and `*H`. -/
def fwd (A B C D E F G H RK : W) : W × W :=
  let h := H + (rho E 6 11 25 + choose E F G + RK)
  let d := D + h
  (d, h + (rho A 2 13 22 + majority A B C))
/-- `rev` (cipher/shacal2/utils.go:77-90). -/
def rev (A B C D E F G H RK : W) : W × W :=
  let h := H - (rho A 2 13 22 + majority A B C)
  let d := D - h
  (d, h - (rho E 6 11 25 + choose E F G + RK))

/-- The variables `A` to `H` are the elements 0 to 7 of a list; in round `r` the roles of the parameters of `fwd` are taken by the variables rotated by `r`
(cipher/shacal2/shacal2.go:81-90): parameter number `n` is variable `(n - r) mod 8`. -/
def role (r n : Nat) : Nat := (n + 8 - r % 8) % 8

/-- Round `r` of `encrypt` (cipher/shacal2/shacal2.go:81-90). -/
def fwdAt (rk : List W) (s : List W) (r : Nat) : List W :=
  let v := fun n => s.getD (role r n) 0
  let p := fwd (v 0) (v 1) (v 2) (v 3) (v 4) (v 5) (v 6) (v 7) (rk.getD r 0)
  (s.set (role r 3) p.1).set (role r 7) p.2
/-- The round of `decrypt` that undoes round `r` (cipher/shacal2/shacal2.go:106-115): the key is number `63 - (63 - r)`. -/
def revAt (rk : List W) (s : List W) (r : Nat) : List W :=
  let v := fun n => s.getD (role r n) 0
  let p := rev (v 0) (v 1) (v 2) (v 3) (v 4) (v 5) (v 6) (v 7) (rk.getD r 0)
  (s.set (role r 3) p.1).set (role r 7) p.2

/-- The loop of `encrypt` (cipher/shacal2/shacal2.go:71-94). -/
def encrypt (rk s : List W) : List W := (List.range 64).foldl (fwdAt rk) s
/-- The loop of `decrypt` (cipher/shacal2/shacal2.go:96-119): rounds 63 to 0. -/
def decrypt (rk s : List W) : List W := (List.range 64).reverse.foldl (revAt rk) s

/-- The message schedule (cipher/shacal2/shacal2.go:127-132). -/
def schedule (rk : List W) : List W :=
  ((List.range 48).map (· + 16)).foldl (fun rk i =>
    rk.set i (rk.getD (i - 16) 0 + sigma (rk.getD (i - 15) 0) 7 18 3 + rk.getD (i - 7) 0 + sigma (rk.getD (i - 2) 0) 17 19 10)) rk
/-- `expandKey` (cipher/shacal2/shacal2.go:121-137): the whole words of the key are copied to an array of 64 zero words, as many as fit. -/
def expandKey (key : Bytes) : List W :=
  let rk := (ldBE 32 4 (key.length / 4) key ++ List.replicate 64 0).take 64
  List.zipWith (· + ·) (schedule rk) rc

/-- The block functions. -/
def encB (key : Bytes) : Bytes → Bytes := encNBE 32 4 8 (encrypt (expandKey key))
def decB (key : Bytes) : Bytes → Bytes := encNBE 32 4 8 (decrypt (expandKey key))

/-- NewCipher, Encrypt and Decrypt (cipher/shacal2/shacal2.go:23-69). -/
def newCipher : Bytes → Res Obj := fun key =>
  if 4 ≤ key.length ∧ key.length ≤ 256 then .ok ⟨32, guarded 32 (whole 32 (encB key)), guarded 32 (whole 32 (decB key))⟩ else .err

/-! Proofs -/

theorem rev_fwd (A B C D E F G H RK : W) :
    rev A B C (fwd A B C D E F G H RK).1 E F G (fwd A B C D E F G H RK).2 RK = (D, H) := by
  unfold rev fwd
  simp only [BitVec.add_sub_cancel]

theorem revAt_fwdAt (rk : List W) (s : List W) (hs : s.length = 8) (r : Nat) : revAt rk (fwdAt rk s r) r = s := by
  obtain ⟨A, B, C, D, E, F, G, H, rfl⟩ : ∃ A B C D E F G H, s = [A, B, C, D, E, F, G, H] := by
    match s, hs with
    | [A, B, C, D, E, F, G, H], _ => exact ⟨A, B, C, D, E, F, G, H, rfl⟩
  unfold revAt fwdAt role
  have h8 : r % 8 < 8 := Nat.mod_lt _ (by decide)
  generalize r % 8 = q at h8
  have : q = 0 ∨ q = 1 ∨ q = 2 ∨ q = 3 ∨ q = 4 ∨ q = 5 ∨ q = 6 ∨ q = 7 := by omega
  rcases this with rfl | rfl | rfl | rfl | rfl | rfl | rfl | rfl <;> simp [rev_fwd]

theorem fwdAt_length (rk s : List W) (r : Nat) : (fwdAt rk s r).length = s.length := by simp [fwdAt]
theorem revAt_length (rk s : List W) (r : Nat) : (revAt rk s r).length = s.length := by simp [revAt]

theorem foldl_len (f : List W → Nat → List W) (h : ∀ s k, (f s k).length = s.length) (l : List Nat) (s : List W) : (l.foldl f s).length = s.length := by
  induction l generalizing s with
  | nil => rfl
  | cons a l ih => rw [List.foldl_cons, ih, h]

theorem fold_undo (rk : List W) (l : List Nat) (s : List W) (hs : s.length = 8) : l.reverse.foldl (revAt rk) (l.foldl (fwdAt rk) s) = s := by
  induction l generalizing s with
  | nil => rfl
  | cons k l ih =>
    simp only [List.reverse_cons, List.foldl_append, List.foldl_cons, List.foldl_nil]
    rw [ih _ (by rw [fwdAt_length, hs]), revAt_fwdAt rk s hs]

theorem blockFn (key : Bytes) : BlockFn 32 (encB key) (decB key) :=
  blockFn_NBE (w := 32) (sz := 4) (n := 8) 32 rfl rfl (fun s hs => (foldl_len _ (fwdAt_length _) _ s).trans hs)
    (fun s hs => (foldl_len _ (revAt_length _) _ s).trans hs) (fun s hs => fold_undo _ _ s hs)

theorem implements : Implements newCipher (fun n => 4 ≤ n ∧ n ≤ 256) 32 :=
  implements_fn (ok := fun n => 4 ≤ n ∧ n ≤ 256) fun key _ => blockFn key

/-! Ignored parts of the key -/

/-- One iteration of the schedule. -/
def schedStep (rk : List W) (i : Nat) : List W :=
  rk.set i (rk.getD (i - 16) 0 + sigma (rk.getD (i - 15) 0) 7 18 3 + rk.getD (i - 7) 0 + sigma (rk.getD (i - 2) 0) 17 19 10)

theorem getD_set_ne (l : List W) (i j : Nat) (v : W) (h : i ≠ j) : (l.set i v).getD j 0 = l.getD j 0 := by
  simp only [List.getD_eq_getElem?_getD, List.getElem?_set_ne h]
theorem getD_set_eq (l : List W) (i : Nat) (v : W) (h : i < l.length) : (l.set i v).getD i 0 = v := by
  simp [List.getD_eq_getElem?_getD, h]

/-- After some iterations the words are determined by the first sixteen. -/
theorem sched_agree (a b : List W) (ha : a.length = 64) (hb : b.length = 64) (h : ∀ j, j < 16 → a.getD j 0 = b.getD j 0) (m : Nat) (hm : m ≤ 48) :
    (((List.range m).map (· + 16)).foldl schedStep a).length = 64 ∧ (((List.range m).map (· + 16)).foldl schedStep b).length = 64 ∧
      ∀ j, j < 16 + m → (((List.range m).map (· + 16)).foldl schedStep a).getD j 0 = (((List.range m).map (· + 16)).foldl schedStep b).getD j 0 := by
  induction m with
  | zero => exact ⟨ha, hb, h⟩
  | succ m ih =>
    obtain ⟨la, lb, e⟩ := ih (by omega)
    simp only [List.range_succ, List.map_append, List.foldl_append, List.map_cons, List.map_nil, List.foldl_cons, List.foldl_nil]
    generalize ((List.range m).map (· + 16)).foldl schedStep a = x at la e
    generalize ((List.range m).map (· + 16)).foldl schedStep b = y at lb e
    refine ⟨by simp [schedStep, la], by simp [schedStep, lb], fun j hj => ?_⟩
    unfold schedStep
    by_cases hjm : m + 16 = j
    · subst hjm
      rw [getD_set_eq _ _ _ (by omega), getD_set_eq _ _ _ (by omega), e _ (by omega), e _ (by omega), e _ (by omega), e _ (by omega)]
    · rw [getD_set_ne _ _ _ _ hjm, getD_set_ne _ _ _ _ hjm, e _ (by omega)]

theorem schedule_agree (a b : List W) (ha : a.length = 64) (hb : b.length = 64) (h : ∀ j, j < 16 → a.getD j 0 = b.getD j 0) : schedule a = schedule b := by
  obtain ⟨la, lb, e⟩ := sched_agree a b ha hb h 48 (by decide)
  have e1 : schedule a = ((List.range 48).map (· + 16)).foldl schedStep a := rfl
  have e2 : schedule b = ((List.range 48).map (· + 16)).foldl schedStep b := rfl
  rw [e1, e2]
  apply List.ext_getElem (by rw [la, lb])
  intro i h1 h2
  have := e i (by omega)
  simpa [List.getD_eq_getElem?_getD, h1, h2] using this

theorem ldBE_append (n : Nat) (b t : Bytes) (h : 4 * n ≤ b.length) : ldBE 32 4 n (b ++ t) = ldBE 32 4 n b := by
  induction n generalizing b with
  | zero => rfl
  | succ n ih =>
    simp only [ldBE]
    rw [List.take_append_of_le_length (by omega), List.drop_append_of_le_length (by omega), ih _ (by rw [List.length_drop]; omega)]

theorem ldBE_succ_append (n k : Nat) (b : Bytes) : ∃ t, ldBE 32 4 (n + k) b = ldBE 32 4 n b ++ t := by
  induction n generalizing b with
  | zero => exact ⟨ldBE 32 4 (0 + k) b, rfl⟩
  | succ n ih =>
    obtain ⟨t, ht⟩ := ih (b.drop 4)
    refine ⟨t, ?_⟩
    rw [show n + 1 + k = (n + k) + 1 from by omega]
    simp only [ldBE, ht, List.cons_append]

theorem expandKey_tail (k t : Bytes) (h4 : k.length % 4 = 0) (ht : t.length < 4) : expandKey (k ++ t) = expandKey k := by
  unfold expandKey
  have e : (k ++ t).length / 4 = k.length / 4 := by rw [List.length_append]; omega
  rw [e, ldBE_append _ _ _ (by omega)]

theorem expandKey_long (k t : Bytes) (h : k.length = 64) : expandKey (k ++ t) = expandKey k := by
  unfold expandKey
  obtain ⟨u, hu⟩ := ldBE_succ_append 16 (t.length / 4) (k ++ t)
  have e : (k ++ t).length / 4 = 16 + t.length / 4 := by rw [List.length_append]; omega
  rw [e, hu, ldBE_append _ _ _ (by omega), h]
  have l16 : (ldBE 32 4 16 k).length = 16 := by simp
  simp only [show 64 / 4 = 16 from rfl]
  rw [schedule_agree _ ((ldBE 32 4 16 k ++ List.replicate 64 0).take 64) (by simp; omega) (by simp) (fun j hj => ?_)]
  simp only [List.getD_eq_getElem?_getD]
  rw [List.getElem?_take_of_lt (by omega), List.getElem?_take_of_lt (by omega), List.append_assoc, List.getElem?_append_left (by omega),
    List.getElem?_append_left (by omega)]

end Verif.Cipher.Shacal2
