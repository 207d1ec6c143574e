import Verif.Cipher.Common2
/-
Model of cipher/whirlx.
-/
namespace Verif.Cipher.Whirlx

/-- `rotr` (cipher/whirlx/utils.go:19-21). -/
def rotr (x : Byte) (n : Nat) : Byte := rotl x (negRot 8 n)

/-- `confuse` (cipher/whirlx/utils.go:33-38). -/
def confuse (x : Byte) : Byte := rotl ((x ^^^ 0xA5) + 0x3C) 3
/-- `deconfuse` (cipher/whirlx/utils.go:40-45). -/
def deconfuse (x : Byte) : Byte := (rotr x 3 - 0x3C) ^^^ 0xA5
/-- `confuseN` (cipher/whirlx/utils.go:47-52). -/
def confuseN (x : Byte) (n : Nat) : Byte := (List.range n).foldl (fun x _ => confuse x) x
/-- `deconfuseN` (cipher/whirlx/utils.go:54-59). -/
def deconfuseN (x : Byte) (n : Nat) : Byte := (List.range n).foldl (fun x _ => deconfuse x) x

/-- One iteration of `mixState` (cipher/whirlx/utils.go:63), for a state of 16 bytes. -/
def mixAt (s : Bytes) (i : Nat) : Bytes := s.set i (rotl (s.getD i 0 ^^^ s.getD ((i + 1) % 16) 0) 3)
/-- One iteration of `invMixState` (cipher/whirlx/utils.go:69). -/
def unmixAt (s : Bytes) (i : Nat) : Bytes := s.set i (rotr (s.getD i 0) 3 ^^^ s.getD ((i + 1) % 16) 0)
/-- `mixState` (cipher/whirlx/utils.go:61-65). -/
def mixState (s : Bytes) : Bytes := (List.range 16).foldl mixAt s
/-- `invMixState` (cipher/whirlx/utils.go:67-71). -/
def invMixState (s : Bytes) : Bytes := (List.range 16).reverse.foldl unmixAt s

/-- `round` (cipher/whirlx/utils.go:73-80). -/
def round (x k : Byte) (r : Nat) : Byte := rotl (rotl (confuseN (x + k) 4) ((r + 3) % 8) ^^^ k) ((r + 5) % 8)
/-- `invRound` (cipher/whirlx/utils.go:82-89). -/
def invRound (x k : Byte) (r : Nat) : Byte := deconfuseN (rotr (rotr x ((r + 5) % 8) ^^^ k) ((r + 3) % 8)) 4 - k
/-- `subKey` (cipher/whirlx/utils.go:91-95). -/
def subKey (k : Bytes) (round i : Nat) : Byte :=
  rotl (k.getD ((i + round) % k.length) 0 ^^^ BitVec.ofNat 8 (i * 73 + round * 91)) ((round + i) % 8)

/-- `encrypt` (cipher/whirlx/whirlx.go:73-87). -/
def encrypt (key m : Bytes) : Bytes :=
  (List.range 16).foldl (fun enc r => mixState (enc.mapIdx fun i x => round x (subKey key r i) r)) m
/-- `decrypt` (cipher/whirlx/whirlx.go:89-103). -/
def decrypt (key m : Bytes) : Bytes :=
  (List.range 16).reverse.foldl (fun plain r => (invMixState plain).mapIdx fun i x => invRound x (subKey key r i) r) m

/-- NewCipher, Encrypt and Decrypt (cipher/whirlx/whirlx.go:20-71). -/
def newCipher : Bytes → Res Obj := fun key =>
  if key.length = 16 ∨ key.length = 32 then .ok ⟨16, guarded 16 (whole 16 (encrypt key)), guarded 16 (whole 16 (decrypt key))⟩ else .err

/-! Proofs -/

theorem rotr_rotl (x : Byte) (n : Nat) : rotr (rotl x n) n = x := rotl_neg x n (by decide)
theorem deconfuse_confuse (x : Byte) : deconfuse (confuse x) = x := by
  unfold deconfuse confuse
  rw [rotr_rotl, BitVec.add_sub_cancel, BitVec.xor_assoc, BitVec.xor_self, BitVec.xor_zero]
theorem deconfuseN_confuseN (x : Byte) : deconfuseN (confuseN x 4) 4 = x := by
  simp [deconfuseN, confuseN, show List.range 4 = [0, 1, 2, 3] from rfl, deconfuse_confuse]
theorem invRound_round (x k : Byte) (r : Nat) : invRound (round x k r) k r = x := by
  unfold invRound round
  rw [rotr_rotl, BitVec.xor_assoc, BitVec.xor_self, BitVec.xor_zero, rotr_rotl, deconfuseN_confuseN, BitVec.add_sub_cancel]

theorem unmix_mix (s : Bytes) (i : Nat) : unmixAt (mixAt s i) i = s := by
  unfold unmixAt mixAt
  by_cases hi : i < s.length
  · have hne : (i + 1) % 16 ≠ i := by omega
    rw [List.set_set]
    have e1 : ∀ v : Byte, (s.set i v).getD i 0 = v := fun v => by simp [hi]
    have e2 : ∀ v : Byte, (s.set i v).getD ((i + 1) % 16) 0 = s.getD ((i + 1) % 16) 0 := fun v => by
      simp only [List.getD_eq_getElem?_getD]
      rw [List.getElem?_set_ne (by omega)]
    rw [e1, e2, rotr_rotl, BitVec.xor_assoc, BitVec.xor_self, BitVec.xor_zero]
    simp [hi]
  · rw [List.set_eq_of_length_le (by simp; omega), List.set_eq_of_length_le (by omega)]
theorem inv_mix (s : Bytes) : invMixState (mixState s) = s := foldl_undo _ _ unmix_mix _ s

theorem mix_length (s : Bytes) : (mixState s).length = s.length := by
  unfold mixState
  have : ∀ (l : List Nat) (s : Bytes), (l.foldl mixAt s).length = s.length := by
    intro l
    induction l with
    | nil => intro s; rfl
    | cons a l ih => intro s; rw [List.foldl_cons, ih]; simp [mixAt]
  exact this _ s
theorem invMix_length (s : Bytes) : (invMixState s).length = s.length := by
  unfold invMixState
  have : ∀ (l : List Nat) (s : Bytes), (l.foldl unmixAt s).length = s.length := by
    intro l
    induction l with
    | nil => intro s; rfl
    | cons a l ih => intro s; rw [List.foldl_cons, ih]; simp [unmixAt]
  exact this _ s

theorem foldl_len {K : Type} (f : Bytes → K → Bytes) (h : ∀ s k, (f s k).length = s.length) (l : List K) (s : Bytes) : (l.foldl f s).length = s.length := by
  induction l generalizing s with
  | nil => rfl
  | cons a l ih => rw [List.foldl_cons, ih, h]

theorem decrypt_encrypt (key b : Bytes) : decrypt key (encrypt key b) = b := by
  unfold decrypt encrypt
  refine foldl_undo _ _ (fun s r => ?_) _ b
  rw [inv_mix, List.mapIdx_mapIdx]
  apply List.ext_getElem
  · simp
  · intro i h1 h2
    simp [invRound_round]

theorem blockFn (key : Bytes) : BlockFn 16 (encrypt key) (decrypt key) :=
  blockFn_left 16 _ _ (fun b hb => (foldl_len _ (fun s r => by rw [mix_length, List.length_mapIdx]) _ b).trans hb)
    (fun b hb => (foldl_len _ (fun s r => by rw [List.length_mapIdx, invMix_length]) _ b).trans hb) fun b _ => decrypt_encrypt key b

theorem implements : Implements newCipher (fun n => n = 16 ∨ n = 32) 16 :=
  implements_fn (ok := fun n => n = 16 ∨ n = 32) fun key _ => blockFn key

end Verif.Cipher.Whirlx
