import Verif.Go.Mem
import Verif.Mode.Cipher
/-
Things shared by the models of the block ciphers under cipher/: words in byte strings (encoding/binary), rotations (math/bits), the
checks every Encrypt/Decrypt method makes, and the meaning of "is a block cipher".
-/
namespace Verif.Cipher

/-! Words in byte strings -/

/-- Value of a little-endian byte string. -/
def leN : Bytes → Nat
  | [] => 0
  | b :: bs => b.toNat + 256 * leN bs

/-- The `n` low bytes of `v`, little-endian. -/
def leBytes : Nat → Nat → Bytes
  | 0, _ => []
  | n + 1, v => BitVec.ofNat 8 v :: leBytes n (v / 256)

@[simp] theorem leBytes_length (n v : Nat) : (leBytes n v).length = n := by
  induction n generalizing v with
  | zero => rfl
  | succ n ih => simp [leBytes, ih]

theorem leN_lt (l : Bytes) : leN l < 256 ^ l.length := by
  induction l with
  | nil => simp [leN]
  | cons b l ih =>
    have := b.isLt
    simp only [leN, List.length_cons, Nat.pow_succ]
    omega

theorem leN_leBytes (n v : Nat) : leN (leBytes n v) = v % 256 ^ n := by
  induction n generalizing v with
  | zero => simp [leBytes, leN, Nat.mod_one]
  | succ n ih =>
    simp only [leBytes, leN, ih, BitVec.toNat_ofNat]
    rw [show (256 : Nat) ^ (n + 1) = 256 * 256 ^ n from by rw [Nat.pow_succ, Nat.mul_comm], Nat.mod_mul]

theorem leBytes_leN (l : Bytes) : leBytes l.length (leN l) = l := by
  induction l with
  | nil => rfl
  | cons b l ih =>
    have := b.isLt
    simp only [leN, List.length_cons, leBytes]
    congr 1
    · apply BitVec.eq_of_toNat_eq
      rw [BitVec.toNat_ofNat]
      omega
    · have e : (b.toNat + 256 * leN l) / 256 = leN l := by omega
      rw [e, ih]

/-- `n` words of `sz` bytes (`w = 8 * sz` bits), little-endian (binary.LittleEndian.Uint16/32/64). -/
def ldLE (w sz : Nat) : Nat → Bytes → List (BitVec w)
  | 0, _ => []
  | n + 1, l => BitVec.ofNat w (leN (l.take sz)) :: ldLE w sz n (l.drop sz)

/-- binary.LittleEndian.PutUint16/32/64 of consecutive words. -/
def stLE {w : Nat} (sz : Nat) : List (BitVec w) → Bytes
  | [] => []
  | x :: xs => leBytes sz x.toNat ++ stLE sz xs

/-- `n` words, big-endian. -/
def ldBE (w sz : Nat) : Nat → Bytes → List (BitVec w)
  | 0, _ => []
  | n + 1, l => BitVec.ofNat w (leN (l.take sz).reverse) :: ldBE w sz n (l.drop sz)

/-- Consecutive words, big-endian. -/
def stBE {w : Nat} (sz : Nat) : List (BitVec w) → Bytes
  | [] => []
  | x :: xs => (leBytes sz x.toNat).reverse ++ stBE sz xs

@[simp] theorem ldLE_length (w sz n : Nat) (l : Bytes) : (ldLE w sz n l).length = n := by
  induction n generalizing l with
  | zero => rfl
  | succ n ih => simp [ldLE, ih]

@[simp] theorem ldBE_length (w sz n : Nat) (l : Bytes) : (ldBE w sz n l).length = n := by
  induction n generalizing l with
  | zero => rfl
  | succ n ih => simp [ldBE, ih]

@[simp] theorem stLE_length {w : Nat} (sz : Nat) (l : List (BitVec w)) : (stLE sz l).length = l.length * sz := by
  induction l with
  | nil => simp [stLE]
  | cons x l ih => simp [stLE, ih, Nat.add_mul]; omega

@[simp] theorem stBE_length {w : Nat} (sz : Nat) (l : List (BitVec w)) : (stBE sz l).length = l.length * sz := by
  induction l with
  | nil => simp [stBE]
  | cons x l ih => simp [stBE, ih, Nat.add_mul]; omega

theorem pow256 (sz : Nat) : (256 : Nat) ^ sz = 2 ^ (8 * sz) := by rw [Nat.pow_mul]

theorem word_le {w sz : Nat} (hw : w = 8 * sz) (x : BitVec w) : BitVec.ofNat w (leN (leBytes sz x.toNat)) = x := by
  apply BitVec.eq_of_toNat_eq
  rw [leN_leBytes, BitVec.toNat_ofNat, pow256, ← hw, Nat.mod_mod]
  exact Nat.mod_eq_of_lt x.isLt

theorem ldLE_stLE {w sz : Nat} (hw : w = 8 * sz) (l : List (BitVec w)) : ldLE w sz l.length (stLE sz l) = l := by
  induction l with
  | nil => rfl
  | cons x l ih =>
    simp only [List.length_cons, ldLE, stLE]
    rw [List.take_left' (leBytes_length _ _), List.drop_left' (leBytes_length _ _), ih, word_le hw]

theorem ldBE_stBE {w sz : Nat} (hw : w = 8 * sz) (l : List (BitVec w)) : ldBE w sz l.length (stBE sz l) = l := by
  induction l with
  | nil => rfl
  | cons x l ih =>
    simp only [List.length_cons, ldBE, stBE]
    rw [List.take_left' (by simp), List.drop_left' (by simp), ih, List.reverse_reverse, word_le hw]

theorem bytes_le {w sz : Nat} (hw : w = 8 * sz) (l : Bytes) (hl : l.length = sz) : leBytes sz (BitVec.ofNat w (leN l)).toNat = l := by
  rw [BitVec.toNat_ofNat, hw, ← pow256, ← hl, Nat.mod_eq_of_lt (leN_lt l), leBytes_leN]

theorem stLE_ldLE {w sz : Nat} (hw : w = 8 * sz) (n : Nat) (l : Bytes) (hl : l.length = n * sz) : stLE sz (ldLE w sz n l) = l := by
  induction n generalizing l with
  | zero => simp at hl; simp [ldLE, stLE, hl]
  | succ n ih =>
    rw [Nat.add_mul, Nat.one_mul] at hl
    simp only [ldLE, stLE]
    rw [ih _ (by simp; omega), bytes_le hw _ (by simp; omega), List.take_append_drop]

theorem stBE_ldBE {w sz : Nat} (hw : w = 8 * sz) (n : Nat) (l : Bytes) (hl : l.length = n * sz) : stBE sz (ldBE w sz n l) = l := by
  induction n generalizing l with
  | zero => simp at hl; simp [ldBE, stBE, hl]
  | succ n ih =>
    rw [Nat.add_mul, Nat.one_mul] at hl
    simp only [ldBE, stBE]
    rw [ih _ (by simp; omega), bytes_le hw _ (by simp; omega), List.reverse_reverse, List.take_append_drop]

/-! Rotations -/

/-- bits.RotateLeft16/32/64 with a non-negative count (the count is taken modulo the width). -/
def rotl {w : Nat} (x : BitVec w) (n : Nat) : BitVec w := x.rotateLeft n

theorem rotl_getElem {w : Nat} (x : BitVec w) (n i : Nat) (h : i < w) :
    (rotl x n)[i] = x[(i + (w - n % w)) % w]'(Nat.mod_lt _ (by omega)) := by
  unfold rotl
  have hn : n % w < w := Nat.mod_lt _ (by omega)
  rw [BitVec.getElem_rotateLeft]
  have key0 : ∀ r, r < w → (i + (w - r)) % w = if i < r then w - r + i else i - r := by
    intro r hn
    split
    · rw [Nat.mod_eq_of_lt (by omega)]; omega
    · rw [show i + (w - r) = (i - r) + w from by omega, Nat.add_mod_right, Nat.mod_eq_of_lt (by omega)]
  have key := key0 (n % w) hn
  simp only [key]
  split
  · simp [*]
  · simp [*]

theorem rotl_rotl {w : Nat} (x : BitVec w) (m n : Nat) (h : (m + n) % w = 0) : rotl (rotl x m) n = x := by
  apply BitVec.eq_of_getElem_eq
  intro i hi
  rw [rotl_getElem, rotl_getElem _ _ _ (Nat.mod_lt _ (by omega))]
  congr 1
  have hm : m % w < w := Nat.mod_lt _ (by omega)
  have hn : n % w < w := Nat.mod_lt _ (by omega)
  have hs : (m % w + n % w) % w = 0 := by rw [← Nat.add_mod]; exact h
  rw [Nat.mod_add_mod, Nat.add_assoc]
  have h3 : (w - n % w + (w - m % w)) % w = 0 := by
    have h4 : m % w + n % w = 0 ∨ m % w + n % w = w := by
      by_cases h5 : m % w + n % w < w
      · left; rwa [Nat.mod_eq_of_lt h5] at hs
      · right
        rw [Nat.mod_eq_sub_mod (by omega), Nat.mod_eq_of_lt (by omega)] at hs
        omega
    rcases h4 with h4 | h4
    · rw [show w - n % w + (w - m % w) = w + w from by omega]; simp
    · rw [show w - n % w + (w - m % w) = w from by omega]; simp
  rw [Nat.add_mod, h3, Nat.add_zero, Nat.mod_mod, Nat.mod_eq_of_lt hi]

/-- The count `-k` of bits.RotateLeft32 and its siblings: `w` minus `k` modulo `w`. -/
def negRot (w k : Nat) : Nat := w - k % w

theorem rotl_neg {w : Nat} (x : BitVec w) (k : Nat) (hw : 0 < w) : rotl (rotl x k) (negRot w k) = x := by
  apply rotl_rotl
  unfold negRot
  have := Nat.mod_lt k hw
  rw [Nat.add_mod]
  by_cases h : k % w = 0
  · simp [h]
  · rw [Nat.mod_eq_of_lt (show w - k % w < w by omega), show k % w + (w - k % w) = w from by omega, Nat.mod_self]

theorem rotl_neg' {w : Nat} (x : BitVec w) (k : Nat) (hw : 0 < w) : rotl (rotl x (negRot w k)) k = x := by
  apply rotl_rotl
  unfold negRot
  have := Nat.mod_lt k hw
  rw [Nat.add_mod]
  by_cases h : k % w = 0
  · simp [h]
  · rw [Nat.mod_eq_of_lt (show w - k % w < w by omega), show w - k % w + k % w = w from by omega, Nat.mod_self]

/-! Arithmetic used to undo rounds -/

@[simp] theorem xor_self_right {w : Nat} (x y : BitVec w) : (x ^^^ y) ^^^ y = x := by
  rw [BitVec.xor_assoc, BitVec.xor_self, BitVec.xor_zero]
@[simp] theorem xor_self_left {w : Nat} (x y : BitVec w) : x ^^^ (x ^^^ y) = y := by
  rw [← BitVec.xor_assoc, BitVec.xor_self, BitVec.zero_xor]
@[simp] theorem xor_self_mid {w : Nat} (x y : BitVec w) : (x ^^^ y) ^^^ x = y := by
  rw [BitVec.xor_comm x y, xor_self_right]

@[simp] theorem xor_undo2 {w : Nat} (x a b : BitVec w) : x ^^^ a ^^^ b ^^^ a ^^^ b = x := by
  rw [BitVec.xor_assoc x a b, BitVec.xor_assoc _ a b, xor_self_right]
@[simp] theorem add_sub_left {w : Nat} (x y : BitVec w) : x + y - x = y := by rw [BitVec.add_comm, BitVec.add_sub_cancel]
@[simp] theorem add_sub_right {w : Nat} (x y : BitVec w) : x + y - y = x := BitVec.add_sub_cancel x y
@[simp] theorem add_of_sub {w : Nat} (x y : BitVec w) : x + (y - x) = y := by rw [BitVec.add_comm, BitVec.sub_add_cancel]
@[simp] theorem sub_add_self {w : Nat} (x y : BitVec w) : x - y + y = x := BitVec.sub_add_cancel x y

/-- Undoing a list of invertible rounds. -/
theorem foldl_undo {S K : Type} (f g : S → K → S) (h : ∀ s k, g (f s k) k = s) (ks : List K) (s : S) :
    ks.reverse.foldl g (ks.foldl f s) = s := by
  induction ks generalizing s with
  | nil => rfl
  | cons k ks ih => simp only [List.reverse_cons, List.foldl_append, List.foldl_cons, ih, List.foldl_nil, h]

theorem foldl_undo' {S K : Type} (f g : S → K → S) (h : ∀ s k, f (g s k) k = s) (ks : List K) (s : S) :
    ks.foldl f (ks.reverse.foldl g s) = s := by
  have := foldl_undo g f h ks.reverse s
  rwa [List.reverse_reverse] at this

theorem range_rev (n : Nat) : (List.range n).map (fun i => n - 1 - i) = (List.range n).reverse := by
  apply List.ext_getElem
  · simp
  · intro i h1 h2; simp [List.getElem_reverse]

/-- Filling an array in a loop. -/
theorem fold_set {α : Type} (d : α) (n : Nat) (pos : Nat → Nat) (f : Nat → α) (hp : ∀ i, i < n → pos i < n)
    (hi : ∀ i j, i < n → j < n → pos i = pos j → i = j) (l : List α) (hl : l.length = n) :
    ∀ k, k ≤ n → ((List.range k).foldl (fun a i => a.set (pos i) (f i)) l).length = n ∧
      ∀ i, i < k → ((List.range k).foldl (fun a i => a.set (pos i) (f i)) l).getD (pos i) d = f i := by
  intro k
  induction k with
  | zero => intro _; exact ⟨by simpa using hl, fun i h => absurd h (Nat.not_lt_zero i)⟩
  | succ k ih =>
    intro hk
    obtain ⟨h1, h2⟩ := ih (by omega)
    rw [List.range_succ, List.foldl_append, List.foldl_cons, List.foldl_nil]
    refine ⟨by simp [h1], fun i hik => ?_⟩
    by_cases he : i = k
    · subst he
      rw [List.getD_eq_getElem?_getD, List.getElem?_set_self (by rw [h1]; exact hp i (by omega))]; rfl
    · have : pos k ≠ pos i := fun x => he (hi i k (by omega) (by omega) x.symm)
      rw [List.getD_eq_getElem?_getD, List.getElem?_set_ne this, ← List.getD_eq_getElem?_getD, h2 i (by omega)]

theorem fill_id {α : Type} (d : α) (l : List α) (l0 : List α) (h0 : l0.length = l.length) :
    (List.range l.length).foldl (fun a i => a.set i (l.getD i d)) l0 = l := by
  obtain ⟨q1, q2⟩ := fold_set d l.length (fun i => i) (fun i => l.getD i d) (fun i h => h) (fun i j _ _ h => h) l0 h0 _ (Nat.le_refl _)
  generalize hr : (List.range l.length).foldl (fun a i => a.set i (l.getD i d)) l0 = r at q1 q2 ⊢
  apply List.ext_getElem q1
  intro i a b
  have := q2 i b
  rw [List.getD_eq_getElem?_getD, List.getD_eq_getElem?_getD, List.getElem?_eq_getElem a, List.getElem?_eq_getElem b] at this
  exact this

theorem fill_rev {α : Type} (d : α) (l : List α) (l0 : List α) (h0 : l0.length = l.length) :
    (List.range l.length).foldl (fun a i => a.set (l.length - i - 1) (l.getD i d)) l0 = l.reverse := by
  obtain ⟨q1, q2⟩ := fold_set d l.length (fun i => l.length - i - 1) (fun i => l.getD i d) (fun i h => by omega) (fun i j _ _ h => by omega) l0 h0 _ (Nat.le_refl _)
  generalize hr : (List.range l.length).foldl (fun a i => a.set (l.length - i - 1) (l.getD i d)) l0 = r at q1 q2 ⊢
  apply List.ext_getElem (by rw [q1, List.length_reverse])
  intro i a b
  have h := q2 (l.length - 1 - i) (by omega)
  rw [show l.length - (l.length - 1 - i) - 1 = i from by omega, List.getD_eq_getElem?_getD, List.getD_eq_getElem?_getD, List.getElem?_eq_getElem a,
    List.getElem?_eq_getElem (by omega)] at h
  rw [List.getElem_reverse]
  exact h

/-! The methods -/

/-- The checks at the start of Encrypt and Decrypt, the same in nearly all packages (e.g. cipher/lea/lea.go:45-57): too short input, too short
output, inexact overlap of the two blocks (tool/alias). -/
def guarded (bs : Nat) (body : Mem → Nat → Nat → Res Mem) (m : Mem) (dst src : Slice) : Res Mem :=
  if src.len < bs then .panic
  else if dst.len < bs then .panic
  else if inexactOverlap { dst with len := bs } { src with len := bs } then .panic
  else body m dst.ptr src.ptr

/-- A body that reads the whole block before it writes the result. -/
def whole (bs : Nat) (f : Bytes → Bytes) (m : Mem) (d s : Nat) : Res Mem := .ok (m.write d (f (m.read s bs)))

/-- What users of the `cipher.Block` interface rely on: for fixed functions `E` and `D` on blocks of `bs` bytes that are inverse to each other,
`Encrypt(dst, src)` panics exactly on too short slices and on partly overlapping blocks, and otherwise puts `E` of the first `bs` bytes of `src` into the
first `bs` bytes of `dst` and changes nothing else; `Decrypt` the same with `D`. -/
structure IsBlock (bs : Nat) (enc dec : Mem → Slice → Slice → Res Mem) (E D : Bytes → Bytes) : Prop where
  lenE : ∀ b, b.length = bs → (E b).length = bs
  lenD : ∀ b, b.length = bs → (D b).length = bs
  DE : ∀ b, b.length = bs → D (E b) = b
  ED : ∀ b, b.length = bs → E (D b) = b
  enc_eq : ∀ m dst src, enc m dst src =
    if src.len < bs ∨ dst.len < bs ∨ inexactOverlap { dst with len := bs } { src with len := bs } = true then .panic
    else .ok (m.write dst.ptr (E (m.read src.ptr bs)))
  dec_eq : ∀ m dst src, dec m dst src =
    if src.len < bs ∨ dst.len < bs ∨ inexactOverlap { dst with len := bs } { src with len := bs } = true then .panic
    else .ok (m.write dst.ptr (D (m.read src.ptr bs)))

theorem guarded_whole (bs : Nat) (f : Bytes → Bytes) (m : Mem) (dst src : Slice) : guarded bs (whole bs f) m dst src =
    if src.len < bs ∨ dst.len < bs ∨ inexactOverlap { dst with len := bs } { src with len := bs } = true then .panic
    else .ok (m.write dst.ptr (f (m.read src.ptr bs))) := by
  unfold guarded whole
  by_cases h1 : src.len < bs
  · simp [h1]
  · by_cases h2 : dst.len < bs
    · simp [h2]
    · by_cases h3 : inexactOverlap { dst with len := bs } { src with len := bs } = true
      · simp [h1, h2, h3]
      · simp [h1, h2, h3]

/-- A `cipher.Block` value: BlockSize(), Encrypt, Decrypt. The methods of the modelled packages keep no state between calls. -/
structure Obj where
  bs : Nat
  enc : Mem → Slice → Slice → Res Mem
  dec : Mem → Slice → Slice → Res Mem

/-- The property of a package's `NewCipher`: it returns an error exactly for keys of a length outside `keyOK`; otherwise it returns a block cipher with
blocks of `bs` bytes. -/
def Implements (new : Bytes → Res Obj) (keyOK : Nat → Prop) (bs : Nat) : Prop :=
  ∀ key, (keyOK key.length → ∃ c, new key = .ok c ∧ c.bs = bs ∧ ∃ E D, IsBlock bs c.enc c.dec E D) ∧
    (¬ keyOK key.length → new key = .err)

theorem implements_of {bs : Nat} {ok : Nat → Prop} [DecidablePred ok] {f g : Bytes → Bytes → Bytes}
    (h : ∀ key : Bytes, ok key.length → IsBlock bs (guarded bs (whole bs (f key))) (guarded bs (whole bs (g key))) (f key) (g key)) :
    Implements (fun key => if ok key.length then .ok ⟨bs, guarded bs (whole bs (f key)), guarded bs (whole bs (g key))⟩ else .err) ok bs :=
  fun key => ⟨fun hk => ⟨_, if_pos hk, rfl, f key, g key, h key hk⟩, fun hk => if_neg hk⟩

/-- The value `Encrypt` leaves in a fresh output block. -/
def Obj.encB (c : Obj) (b : Bytes) : Res Bytes :=
  match c.enc (Mem.write (fun _ => 0) 0 b) ⟨b.length, c.bs, c.bs⟩ ⟨0, b.length, b.length⟩ with
  | .ok m => .ok (m.read b.length c.bs)
  | .err => .err
  | .panic => .panic
  | .hang => .hang
/-- The value `Decrypt` leaves in a fresh output block. -/
def Obj.decB (c : Obj) (b : Bytes) : Res Bytes :=
  match c.dec (Mem.write (fun _ => 0) 0 b) ⟨b.length, c.bs, c.bs⟩ ⟨0, b.length, b.length⟩ with
  | .ok m => .ok (m.read b.length c.bs)
  | .err => .err
  | .panic => .panic
  | .hang => .hang

/-- For test vectors: encrypt with a new cipher. -/
def kat (new : Bytes → Res Obj) (key pt : Bytes) : Res Bytes := do let c ← new key; c.encB pt
def katD (new : Bytes → Res Obj) (key ct : Bytes) : Res Bytes := do let c ← new key; c.decB ct

/-- `n` bytes written as one hexadecimal number. -/
def hx (n v : Nat) : Bytes := (leBytes n v).reverse

/-- Methods that load a state, run two mutually inverse functions on it and store it. -/
theorem isBlock_of {S : Type} (bs : Nat) (ld : Bytes → S) (st : S → Bytes) (f g : S → S) (len : ∀ s, (st s).length = bs)
    (h1 : ∀ s, ld (st s) = s) (h2 : ∀ b, b.length = bs → st (ld b) = b) (gf : ∀ s, g (f s) = s) (fg : ∀ s, f (g s) = s) :
    IsBlock bs (guarded bs (whole bs fun b => st (f (ld b)))) (guarded bs (whole bs fun b => st (g (ld b))))
      (fun b => st (f (ld b))) (fun b => st (g (ld b))) where
  lenE := fun _ _ => len _
  lenD := fun _ _ => len _
  DE := fun b hb => by simp only [h1, gf, h2 b hb]
  ED := fun b hb => by simp only [h1, fg, h2 b hb]
  enc_eq := guarded_whole bs _
  dec_eq := guarded_whole bs _

/-- The same on the level of bytes. -/
theorem isBlock_bytes (bs : Nat) (f g : Bytes → Bytes) (lf : ∀ b, b.length = bs → (f b).length = bs) (lg : ∀ b, b.length = bs → (g b).length = bs)
    (gf : ∀ b, b.length = bs → g (f b) = b) (fg : ∀ b, b.length = bs → f (g b) = b) :
    IsBlock bs (guarded bs (whole bs f)) (guarded bs (whole bs g)) f g where
  lenE := lf
  lenD := lg
  DE := gf
  ED := fg
  enc_eq := guarded_whole bs _
  dec_eq := guarded_whole bs _

/-- Such a cipher is one the theorems on modes of operation are about. -/
def IsBlock.toBlockCipher {bs : Nat} {enc dec : Mem → Slice → Slice → Res Mem} {E D : Bytes → Bytes} (h : IsBlock bs enc dec E D) (hp : 0 < bs) : BlockCipher where
  bs := bs
  E := E
  D := D
  bs_pos := hp
  lenE := h.lenE
  lenD := h.lenD
  DE := h.DE

/-! States of two, four and eight words -/

def two {α : Type} [Inhabited α] (l : List α) : α × α := (l.getD 0 default, l.getD 1 default)
def four {α : Type} [Inhabited α] (l : List α) : α × α × α × α := (l.getD 0 default, l.getD 1 default, l.getD 2 default, l.getD 3 default)
def two' {α : Type} (x : α × α) : List α := [x.1, x.2]
def four' {α : Type} (x : α × α × α × α) : List α := [x.1, x.2.1, x.2.2.1, x.2.2.2]

theorem two'_two {α : Type} [Inhabited α] (l : List α) (h : l.length = 2) : two' (two l) = l := by
  match l, h with | [a, b], _ => rfl
theorem four'_four {α : Type} [Inhabited α] (l : List α) (h : l.length = 4) : four' (four l) = l := by
  match l, h with | [a, b, c, d], _ => rfl

/-- Load and store of a block of four little-endian words. -/
def ld4LE (w sz : Nat) (b : Bytes) : BitVec w × BitVec w × BitVec w × BitVec w := four (ldLE w sz 4 b)
def st4LE {w : Nat} (sz : Nat) (x : BitVec w × BitVec w × BitVec w × BitVec w) : Bytes := stLE sz (four' x)
def ld4BE (w sz : Nat) (b : Bytes) : BitVec w × BitVec w × BitVec w × BitVec w := four (ldBE w sz 4 b)
def st4BE {w : Nat} (sz : Nat) (x : BitVec w × BitVec w × BitVec w × BitVec w) : Bytes := stBE sz (four' x)
def ld2LE (w sz : Nat) (b : Bytes) : BitVec w × BitVec w := two (ldLE w sz 2 b)
def st2LE {w : Nat} (sz : Nat) (x : BitVec w × BitVec w) : Bytes := stLE sz (two' x)
def ld2BE (w sz : Nat) (b : Bytes) : BitVec w × BitVec w := two (ldBE w sz 2 b)
def st2BE {w : Nat} (sz : Nat) (x : BitVec w × BitVec w) : Bytes := stBE sz (two' x)

section
variable {w sz : Nat}
theorem ld4LE_st (hw : w = 8 * sz) (x) : ld4LE w sz (st4LE sz x) = x := by
  unfold ld4LE st4LE; rw [show (4 : Nat) = (four' x).length from rfl, ldLE_stLE hw]; rfl
theorem ld4BE_st (hw : w = 8 * sz) (x) : ld4BE w sz (st4BE sz x) = x := by
  unfold ld4BE st4BE; rw [show (4 : Nat) = (four' x).length from rfl, ldBE_stBE hw]; rfl
theorem ld2LE_st (hw : w = 8 * sz) (x) : ld2LE w sz (st2LE sz x) = x := by
  unfold ld2LE st2LE; rw [show (2 : Nat) = (two' x).length from rfl, ldLE_stLE hw]; rfl
theorem ld2BE_st (hw : w = 8 * sz) (x) : ld2BE w sz (st2BE sz x) = x := by
  unfold ld2BE st2BE; rw [show (2 : Nat) = (two' x).length from rfl, ldBE_stBE hw]; rfl
theorem st4LE_ld (hw : w = 8 * sz) (b : Bytes) (h : b.length = 4 * sz) : st4LE sz (ld4LE w sz b) = b := by
  unfold ld4LE st4LE; rw [four'_four _ (by simp), stLE_ldLE hw _ _ h]
theorem st4BE_ld (hw : w = 8 * sz) (b : Bytes) (h : b.length = 4 * sz) : st4BE sz (ld4BE w sz b) = b := by
  unfold ld4BE st4BE; rw [four'_four _ (by simp), stBE_ldBE hw _ _ h]
theorem st2LE_ld (hw : w = 8 * sz) (b : Bytes) (h : b.length = 2 * sz) : st2LE sz (ld2LE w sz b) = b := by
  unfold ld2LE st2LE; rw [two'_two _ (by simp), stLE_ldLE hw _ _ h]
theorem st2BE_ld (hw : w = 8 * sz) (b : Bytes) (h : b.length = 2 * sz) : st2BE sz (ld2BE w sz b) = b := by
  unfold ld2BE st2BE; rw [two'_two _ (by simp), stBE_ldBE hw _ _ h]
@[simp] theorem st4LE_length (x : BitVec w × BitVec w × BitVec w × BitVec w) : (st4LE sz x).length = 4 * sz := by simp [st4LE, four']
@[simp] theorem st4BE_length (x : BitVec w × BitVec w × BitVec w × BitVec w) : (st4BE sz x).length = 4 * sz := by simp [st4BE, four']
@[simp] theorem st2LE_length (x : BitVec w × BitVec w) : (st2LE sz x).length = 2 * sz := by simp [st2LE, two']
@[simp] theorem st2BE_length (x : BitVec w × BitVec w) : (st2BE sz x).length = 2 * sz := by simp [st2BE, two']
end

/-- Block methods on states of four little-endian words, and so on. -/
def enc4LE (w sz : Nat) (f : BitVec w × BitVec w × BitVec w × BitVec w → BitVec w × BitVec w × BitVec w × BitVec w) (b : Bytes) : Bytes := st4LE sz (f (ld4LE w sz b))
def enc4BE (w sz : Nat) (f : BitVec w × BitVec w × BitVec w × BitVec w → BitVec w × BitVec w × BitVec w × BitVec w) (b : Bytes) : Bytes := st4BE sz (f (ld4BE w sz b))
def enc2LE (w sz : Nat) (f : BitVec w × BitVec w → BitVec w × BitVec w) (b : Bytes) : Bytes := st2LE sz (f (ld2LE w sz b))
def enc2BE (w sz : Nat) (f : BitVec w × BitVec w → BitVec w × BitVec w) (b : Bytes) : Bytes := st2BE sz (f (ld2BE w sz b))

theorem isBlock_4LE {w sz : Nat} (bs : Nat) (hw : w = 8 * sz) (hb : bs = 4 * sz) {f g} (gf : ∀ s, g (f s) = s) (fg : ∀ s, f (g s) = s) :
    IsBlock bs (guarded bs (whole bs (enc4LE w sz f))) (guarded bs (whole bs (enc4LE w sz g))) (enc4LE w sz f) (enc4LE w sz g) :=
  isBlock_of bs (ld4LE w sz) (st4LE sz) f g (by simp [hb]) (ld4LE_st hw) (fun b h => st4LE_ld hw b (by omega)) gf fg
theorem isBlock_4BE {w sz : Nat} (bs : Nat) (hw : w = 8 * sz) (hb : bs = 4 * sz) {f g} (gf : ∀ s, g (f s) = s) (fg : ∀ s, f (g s) = s) :
    IsBlock bs (guarded bs (whole bs (enc4BE w sz f))) (guarded bs (whole bs (enc4BE w sz g))) (enc4BE w sz f) (enc4BE w sz g) :=
  isBlock_of bs (ld4BE w sz) (st4BE sz) f g (by simp [hb]) (ld4BE_st hw) (fun b h => st4BE_ld hw b (by omega)) gf fg
theorem isBlock_2LE {w sz : Nat} (bs : Nat) (hw : w = 8 * sz) (hb : bs = 2 * sz) {f g} (gf : ∀ s, g (f s) = s) (fg : ∀ s, f (g s) = s) :
    IsBlock bs (guarded bs (whole bs (enc2LE w sz f))) (guarded bs (whole bs (enc2LE w sz g))) (enc2LE w sz f) (enc2LE w sz g) :=
  isBlock_of bs (ld2LE w sz) (st2LE sz) f g (by simp [hb]) (ld2LE_st hw) (fun b h => st2LE_ld hw b (by omega)) gf fg
theorem isBlock_2BE {w sz : Nat} (bs : Nat) (hw : w = 8 * sz) (hb : bs = 2 * sz) {f g} (gf : ∀ s, g (f s) = s) (fg : ∀ s, f (g s) = s) :
    IsBlock bs (guarded bs (whole bs (enc2BE w sz f))) (guarded bs (whole bs (enc2BE w sz g))) (enc2BE w sz f) (enc2BE w sz g) :=
  isBlock_of bs (ld2BE w sz) (st2BE sz) f g (by simp [hb]) (ld2BE_st hw) (fun b h => st2BE_ld hw b (by omega)) gf fg

theorem rotl_xor {w : Nat} (a b : BitVec w) (n : Nat) : rotl (a ^^^ b) n = rotl a n ^^^ rotl b n := by
  apply BitVec.eq_of_getLsbD_eq
  intro i hi
  simp only [rotl, BitVec.getLsbD_rotateLeft, BitVec.getLsbD_xor]
  by_cases h : i < n % w <;> simp [h, hi]

/-- The high part `T(x >> m)`, the low part `T(x)` and the joining `U(a) << m | U(b)`. -/
def hiP (n m : Nat) (x : BitVec (n + m)) : BitVec n := (x >>> m).setWidth n
def loP (n m : Nat) (x : BitVec (n + m)) : BitVec m := x.setWidth m

theorem hiP_append {n m : Nat} (a : BitVec n) (b : BitVec m) : hiP n m (a ++ b) = a := by
  apply BitVec.eq_of_getLsbD_eq
  intro i h
  simp only [hiP, BitVec.getLsbD_setWidth, BitVec.getLsbD_ushiftRight, BitVec.getLsbD_append]
  simp [h]
theorem loP_append {n m : Nat} (a : BitVec n) (b : BitVec m) : loP n m (a ++ b) = b := by
  apply BitVec.eq_of_getLsbD_eq
  intro i h
  simp only [loP, BitVec.getLsbD_setWidth, BitVec.getLsbD_append]
  simp [h]
theorem append_hiP_loP {n m : Nat} (x : BitVec (n + m)) : hiP n m x ++ loP n m x = x := by
  apply BitVec.eq_of_getLsbD_eq
  intro i h
  simp only [hiP, loP, BitVec.getLsbD_setWidth, BitVec.getLsbD_ushiftRight, BitVec.getLsbD_append]
  by_cases hm : i < m
  · simp [hm]
  · simp [hm, show m + (i - m) = i by omega]; intro; omega

/-! Feistel structures: a step undone by itself up to a permutation of the state -/

theorem feistel {S K : Type} (step : S → K → S) (sw : S → S) (h : ∀ s k, step (sw (step s k)) k = sw s) (l : List K) (s : S) :
    l.reverse.foldl step (sw (l.foldl step s)) = sw s := by
  induction l generalizing s with
  | nil => rfl
  | cons a l ih =>
    simp only [List.reverse_cons, List.foldl_append, List.foldl_cons, List.foldl_nil]
    rw [ih, h]

theorem feistel' {S K : Type} (step : S → K → S) (sw : S → S) (h : ∀ s k, step (sw (step s k)) k = sw s) (hs : ∀ s, sw (sw s) = s) (l : List K) (s : S) :
    sw (l.reverse.foldl step (sw (l.foldl step s))) = s ∧ sw (l.foldl step (sw (l.reverse.foldl step s))) = s := by
  refine ⟨by rw [feistel step sw h, hs], ?_⟩
  have := feistel step sw h l.reverse s
  rw [List.reverse_reverse] at this
  rw [this, hs]

end Verif.Cipher
