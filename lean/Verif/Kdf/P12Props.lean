import Verif.Kdf.P12Lemmas
import Verif.Kdf.Instances
/-
C85: the PKCS #12 key derivation (kdf/pbkdf).
-/
namespace Verif.Kdf
open Verif.Cipher

/-- For every hash with digests of `u` bytes, every block size `v > 0`, salt, password, count `r ≥ 1`, purpose byte and
size, `Key` returns, without panic, the bytes RFC 7292 defines. -/
theorem C85_pkcs12_kdf (H : HashFn) (v : Nat) (hv : 0 < v) (salt password : Bytes) (r : Nat) (hr : 1 ≤ r) (ID : Byte) (n : Nat) :
    P12.key H H.size v salt password r ID n = .ok (Spec.pkcs12 H.f H.size v salt password r ID n) := by
  rw [P12.key_eq H v hv]
  rw [show (r : Int).toNat - 1 + 1 = r by omega]

/-- A shorter key is a prefix of a longer one, and lengths are as asked. -/
theorem C85_pkcs12_prefix (H : HashFn) (v : Nat) (hv : 0 < v) (salt password : Bytes) (r : Int) (ID : Byte) (n n' : Nat) (h : n ≤ n') :
    ∃ k k', P12.key H H.size v salt password r ID n = .ok k ∧ P12.key H H.size v salt password r ID n' = .ok k' ∧ k.length = n ∧ k = k'.take n := by
  rw [P12.key_eq H v hv, P12.key_eq H v hv]
  refine ⟨_, _, rfl, rfl, outBytes_length _ _ _ H.pos fun i => P12.iter_length _ _ _, ?_⟩
  rw [Spec.pkcs12, Spec.pkcs12, ← take_chunks _ H.size n ((n' + H.size - 1) / H.size) H.pos (fun i => P12.iter_length _ _ _)
      (Nat.le_trans h (ceil_mul n' H.size H.pos)), outBytes, List.take_take, Nat.min_eq_left h]

/-- Counts below one silently act as one. -/
theorem C85_pkcs12_iterations_unchecked_violated (H : HashFn) (v : Nat) (hv : 0 < v) (salt password : Bytes) (r : Int) (hr : r ≤ 0) (ID : Byte) (n : Nat) :
    P12.key H H.size v salt password r ID n = P12.key H H.size v salt password 1 ID n := by
  rw [P12.key_eq H v hv, P12.key_eq H v hv]
  have : r.toNat - 1 = 0 := by omega
  rw [this]; rfl

/-- The hypotheses; and the model, run on a salt and a password that are not multiples of the block size, for two
rounds, gives the specified key. -/
def p12Test : Bool := match P12.key fast256 32 64 [1, 2, 3] [0, 0x73, 0, 0x6d, 0, 0] 2 1 40 with
  | .ok k => k = Spec.pkcs12 fast256.f 32 64 [1, 2, 3] [0, 0x73, 0, 0x6d, 0, 0] 2 1 40 ∧ k.length = 40
  | _ => false

example : p12Test = true ∧ (0 : Nat) < streebog256.block := ⟨by decide +kernel, by decide⟩

end Verif.Kdf
