import Verif.Cipher.Gost
/-
Model of cipher/magma.
-/
namespace Verif.Cipher.Magma

/-- `keyCompatible` (cipher/magma/magma.go:92-98): the bytes of each of the eight words reversed. -/
def keyCompatible (key : Bytes) : Bytes := (List.range 8).flatMap fun i => [key.getD (i * 4 + 3) 0, key.getD (i * 4 + 2) 0, key.getD (i * 4 + 1) 0, key.getD (i * 4) 0]

/-- Encrypt as a function of the block (cipher/magma/magma.go:47-67): into the buffer in reverse, the gost cipher in place, and back in reverse. -/
def encB (key : Bytes) (b : Bytes) : Bytes := (Gost.encB Gost.tC26gost28147paramZ (keyCompatible key) b.reverse).reverse
/-- Decrypt (cipher/magma/magma.go:69-89). -/
def decB (key : Bytes) (b : Bytes) : Bytes := (Gost.decB Gost.tC26gost28147paramZ (keyCompatible key) b.reverse).reverse

/-- NewCipher, Encrypt and Decrypt for one caller at a time (cipher/magma/magma.go:28-113). gost.NewCipher accepts the key, which has 32 bytes, and the tables. -/
def newCipher : Bytes → Res Obj := fun key =>
  if key.length = 32 then .ok ⟨8, unchecked 8 (encB key), unchecked 8 (decB key)⟩ else .err

/-! Two calls at once -/

/-- The buffer `blk` of the cipher object, and the results of two calls. -/
structure Shared where
  blk : Bytes
  dst1 : Option Bytes
  dst2 : Option Bytes

/-- What a call of Encrypt does with the buffer (cipher/magma/magma.go:47-67), in three steps: fill it, encrypt it in place, read it. The steps themselves are
taken as atomic, which leaves out further interleavings. -/
inductive Act | load | crypt | store
deriving DecidableEq

/-- One step of the first (`true`) or second call, with inputs `s1` and `s2`. -/
def act (key s1 s2 : Bytes) (st : Shared) : Bool × Act → Shared
  | (b, .load) => { st with blk := (if b then s1 else s2).reverse }
  | (_, .crypt) => { st with blk := Gost.encB Gost.tC26gost28147paramZ (keyCompatible key) st.blk }
  | (true, .store) => { st with dst1 := some st.blk.reverse }
  | (false, .store) => { st with dst2 := some st.blk.reverse }

/-- A schedule of two calls: the steps of each call in order. -/
def Schedule (l : List (Bool × Act)) : Prop :=
  (l.filter (·.1)).map (·.2) = [.load, .crypt, .store] ∧ (l.filter (!·.1)).map (·.2) = [.load, .crypt, .store]

/-! Proofs -/

theorem blockFn (key : Bytes) : BlockFn 8 (encB key) (decB key) := by
  have h := Gost.blockFn Gost.tC26gost28147paramZ (keyCompatible key)
  refine blockFn_left 8 _ _ (fun b hb => ?_) (fun b hb => ?_) fun b hb => ?_
  · unfold encB
    rw [List.length_reverse, h.lenE _ (by rw [List.length_reverse, hb])]
  · unfold decB
    rw [List.length_reverse, h.lenD _ (by rw [List.length_reverse, hb])]
  · unfold encB decB
    rw [List.reverse_reverse, h.DE _ (by rw [List.length_reverse, hb]), List.reverse_reverse]

theorem implements : ImplementsU newCipher (fun n => n = 32) 8 :=
  implementsU_of (ok := fun n => n = 32) fun key _ => blockFn key

end Verif.Cipher.Magma
