import Verif.Kdf.Pbkdf2Lemmas
import Verif.Kdf.Instances
/-
C84: PBKDF2 (kdf/pbkdf2) and its GOST variant (kdf/gost_pbkdf2).
-/
namespace Verif.Kdf
open Verif.Cipher

/-- For every keyed hash, every password, salt, iteration count `c ≥ 1` and key length, `Key` returns the RFC 8018 key. -/
theorem C84_pbkdf2 (P : Prf) (password salt : Bytes) (c L : Nat) (hc : 1 ≤ c) :
    Pbkdf2.key P password salt c L = .ok (Spec.pbkdf2 (P.f password) P.size salt c L) := by
  rw [Pbkdf2.key_eq]
  have : ((c : Int) - 1).toNat + 1 = c := by omega
  rw [this]

/-- With HMAC as the keyed hash: PBKDF2-HMAC. -/
theorem C84_pbkdf2_hmac (H : HashFn) (password salt : Bytes) (c L : Nat) (hc : 1 ≤ c) :
    Pbkdf2.key H.hmac password salt c L = .ok (Spec.pbkdf2 (hmac H password) H.size salt c L) := C84_pbkdf2 H.hmac password salt c L hc

/-- The key has the length asked for, and a shorter key is a prefix of a longer one. -/
theorem C84_pbkdf2_prefix (P : Prf) (password salt : Bytes) (iter : Int) (L L' : Nat) (h : L ≤ L') :
    ∃ k k', Pbkdf2.key P password salt iter L = .ok k ∧ Pbkdf2.key P password salt iter L' = .ok k' ∧ k.length = L ∧ k = k'.take L := by
  rw [Pbkdf2.key_eq, Pbkdf2.key_eq]
  refine ⟨_, _, rfl, rfl, ?_, ?_⟩
  · exact outBytes_length _ _ _ P.pos fun i => F_length _ _ (P.len password) _ _ _
  · rw [Spec.pbkdf2, Spec.pbkdf2, ← take_chunks _ P.size L ((L' + P.size - 1) / P.size) P.pos (fun i => F_length _ _ (P.len password) _ _ _)
      (Nat.le_trans h (ceil_mul L' P.size P.pos)), outBytes, List.take_take, Nat.min_eq_left h]

/-- Iteration counts below one, which RFC 8018 excludes, silently act as one: the caller gets no error. -/
theorem C84_pbkdf2_iterations_unchecked_violated (P : Prf) (password salt : Bytes) (iter : Int) (L : Nat) (h : iter ≤ 0) :
    Pbkdf2.key P password salt iter L = Pbkdf2.key P password salt 1 L := by
  rw [Pbkdf2.key_eq, Pbkdf2.key_eq]
  have : (iter - 1).toNat = 0 := by omega
  rw [this]; rfl

/-- A negative key length panics. -/
theorem C84_pbkdf2_negative (P : Prf) (password salt : Bytes) (iter L : Int) (h : L < 0) : Pbkdf2.key P password salt iter L = .panic := by
  rw [Pbkdf2.key, if_pos h]

/-! ### gost_pbkdf2 -/

/-- Full claim: for every hash, password, salt, `c ≥ 1` and key length the GOST variant returns the PBKDF2-HMAC key and
leaves the caller's memory alone.  Proved: for passwords shorter than a block, when the salt does not lie in the spare
capacity behind the password; all memory is kept except the spare capacity of the two slices.  Missing, because it is
false of the code: the excluded cases, below. -/
theorem C84_gost_pbkdf2_partial (H : HashFn) (slack : Nat → Nat) (h : Heap) (password salt : Slice) (c L : Nat) (hc : 1 ≤ c)
    (hp : password.Valid h) (hs : salt.Valid h) (hlen : password.len < H.block)
    (hd : salt.ptr + salt.len ≤ password.ptr + password.len ∨ password.ptr + password.cap ≤ salt.ptr ∨ salt.len = 0) :
    ∃ h', GostPbkdf2.key H slack h password salt c L = .ok (h', Spec.pbkdf2 (hmac H (h.bytes password)) H.size (h.bytes salt) c L) ∧
      ∀ a, a < h.brk → (a < password.ptr + password.len ∨ password.ptr + password.cap ≤ a) →
        (a < salt.ptr + salt.len ∨ salt.ptr + salt.cap ≤ a) → h'.mem a = h.mem a := by
  have := GostPbkdf2.key_eq H slack h password salt c L hp hs hlen hd
  rwa [show ((c : Int) - 1).toNat + 1 = c by omega] at this

namespace GostPbkdf2

theorem of_match {α : Type} (r : Res α) (p : α → Prop) [DecidablePred p] (h : (match r with | .ok a => decide (p a) | _ => false) = true) :
    ∃ a, r = .ok a ∧ p a := by
  cases r with
  | ok a => exact ⟨a, rfl, of_decide_eq_true h⟩
  | _ => cases h

/-- A heap with a 64-byte password of zeros at address 0 and the salt "salt" at address 100. -/
def heapA : Heap := ⟨fun i => if i = 100 then 0x73 else if i = 101 then 0x61 else if i = 102 then 0x6c else if i = 103 then 0x74 else 0, 200⟩

def pA (r : Heap × Bytes) : Prop := r.2 ≠ Spec.pbkdf2 (hmac fast256 (heapA.bytes ⟨0, 64, 64⟩)) 32 (heapA.bytes ⟨100, 4, 4⟩) 1 32
instance : DecidablePred pA := fun r => by unfold pA; infer_instance
def rA : Res (Heap × Bytes) := key fast256 (fun _ => 0) heapA ⟨0, 64, 64⟩ ⟨100, 4, 4⟩ 1 32
theorem testA : ∃ r, rA = .ok r ∧ pA r := of_match rA pA (by decide +kernel)

/-- A buffer holding "password" and right behind it "salt". -/
def heapB : Heap := ⟨fun i => [0x70, 0x61, 0x73, 0x73, 0x77, 0x6f, 0x72, 0x64, 0x73, 0x61, 0x6c, 0x74].getD i 0, 200⟩

def pB (r : Heap × Bytes) : Prop := r.2 = Spec.pbkdf2 (hmac fast512 (heapB.bytes ⟨0, 8, 200⟩)) 64 [0, 0, 0, 0] 1 64 ∧
  r.2 ≠ Spec.pbkdf2 (hmac fast512 (heapB.bytes ⟨0, 8, 200⟩)) 64 (heapB.bytes ⟨8, 4, 192⟩) 1 64
instance : DecidablePred pB := fun r => by unfold pB; infer_instance
def rB : Res (Heap × Bytes) := key fast512 (fun _ => 0) heapB ⟨0, 8, 200⟩ ⟨8, 4, 192⟩ 1 64
theorem testB : ∃ r, rB = .ok r ∧ pB r := of_match rB pB (by decide +kernel)

end GostPbkdf2

/-- A password of exactly one block (64 bytes) is padded with another block of zeros, so the key is not the PBKDF2 key. -/
theorem C84_gost_pbkdf2_block_password_violated : ∃ (h : Heap) (password salt : Slice) (h' : Heap) (k : Bytes),
    password.Valid h ∧ salt.Valid h ∧ password.len = password.cap ∧ salt.len = salt.cap ∧ password.len = 64 ∧
    GostPbkdf2.key streebog256 (fun _ => 0) h password salt 1 32 = .ok (h', k) ∧
    k ≠ Spec.pbkdf2 (hmac streebog256 (h.bytes password)) 32 (h.bytes salt) 1 32 := by
  rw [streebog256_fast]
  exact GostPbkdf2.testA.elim fun r ⟨e, hr⟩ => ⟨GostPbkdf2.heapA, ⟨0, 64, 64⟩, ⟨100, 4, 4⟩, r.1, r.2, ⟨by decide, by decide⟩, ⟨by decide, by decide⟩, rfl, rfl, rfl, e, hr⟩

/-- When password and salt are neighbouring parts of one buffer, the zero padding of the password overwrites the salt
before it is used: the key is the one for a salt of zeros, and the caller's salt is gone. -/
theorem C84_gost_pbkdf2_salt_overwritten_violated : ∃ (h : Heap) (password salt : Slice) (h' : Heap) (k : Bytes),
    password.Valid h ∧ salt.Valid h ∧ h.bytes salt = [0x73, 0x61, 0x6c, 0x74] ∧ password.ptr + password.len = salt.ptr ∧
    GostPbkdf2.key streebog512 (fun _ => 0) h password salt 1 64 = .ok (h', k) ∧
    k = Spec.pbkdf2 (hmac streebog512 (h.bytes password)) 64 [0, 0, 0, 0] 1 64 ∧
    k ≠ Spec.pbkdf2 (hmac streebog512 (h.bytes password)) 64 (h.bytes salt) 1 64 := by
  rw [streebog512_fast]
  exact GostPbkdf2.testB.elim fun r ⟨e, hr⟩ => ⟨GostPbkdf2.heapB, ⟨0, 8, 200⟩, ⟨8, 4, 192⟩, r.1, r.2, ⟨by decide, by decide⟩, ⟨by decide, by decide⟩, by decide, rfl, e, hr.1, hr.2⟩

/-- The answers of the package's tests (R 50.1.111-2016) for "password", "salt" and one and two iterations. -/
def gostTest (c : Nat) (want : Nat) : Bool :=
  Spec.pbkdf2 (hmac fast512 [0x70, 0x61, 0x73, 0x73, 0x77, 0x6f, 0x72, 0x64]) 64 [0x73, 0x61, 0x6c, 0x74] c 64 = hx 64 want

example : gostTest 1 0x64770af7f748c3b1c9ac831dbcfd85c26111b30a8a657ddc3056b80ca73e040d2854fd36811f6d825cc4ab66ec0a68a490a9e5cf5156b3a2b7eecddbf9a16b47 = true ∧
    gostTest 2 0x5a585bafdfbb6e8830d6d68aa3b43ac00d2e4aebce01c9b31c2caed56f0236d4d34b2b8fbd2c4e89d54d46f50e47d45bbac301571743119e8d3c42ba66d348de = true := by
  constructor <;> decide +kernel

/-- The hypotheses of the GOST theorem: two separate slices with spare capacity. -/
example : (⟨0, 8, 16⟩ : Slice).Valid GostPbkdf2.heapB ∧ (⟨100, 4, 10⟩ : Slice).Valid GostPbkdf2.heapB ∧ (8 : Nat) < streebog512.block :=
  ⟨⟨by decide, by decide⟩, ⟨by decide, by decide⟩, by decide⟩

end Verif.Kdf
