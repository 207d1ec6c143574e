import Verif.Kdf.Common
import Verif.Hash.StreebogFast
/-
Hash functions of this repository as instances of `HashFn`.
-/
namespace Verif.Kdf
open Verif.Cipher Verif.Hash

theorem streebog_length (sz : Nat) (hz : sz = 32 ∨ sz = 64) (M : Bytes) : (Streebog.Spec.hash 64 sz M).length = sz := by
  rw [Streebog.Fast.hash_eq, Streebog.Fast.hash]
  rcases hz with rfl | rfl
  · simp only [if_true, List.length_drop, leBytes_length]
  · simp only [show ¬ (64 : Nat) = 32 by decide, if_false, leBytes_length]

/-- Streebog-256 and Streebog-512, as the packages' hashes compute them (C82). -/
def streebog256 : HashFn := ⟨Streebog.Spec.hash 64 32, 32, 64, by decide, streebog_length 32 (Or.inl rfl)⟩
def streebog512 : HashFn := ⟨Streebog.Spec.hash 64 64, 64, 64, by decide, streebog_length 64 (Or.inr rfl)⟩

/-- The same in the form the kernel evaluates quickly. -/
def fast256 : HashFn := ⟨Streebog.Fast.hash 64 32, 32, 64, by decide, fun M => by rw [← Streebog.Fast.hash_eq]; exact streebog_length 32 (Or.inl rfl) M⟩
def fast512 : HashFn := ⟨Streebog.Fast.hash 64 64, 64, 64, by decide, fun M => by rw [← Streebog.Fast.hash_eq]; exact streebog_length 64 (Or.inr rfl) M⟩

theorem hashFn_ext (f g : Bytes → Bytes) (h : f = g) (s b : Nat) (p : 0 < s) (l : ∀ m, (f m).length = s) (l' : ∀ m, (g m).length = s) :
    HashFn.mk f s b p l = HashFn.mk g s b p l' := by subst h; rfl

theorem streebog256_fast : streebog256 = fast256 := hashFn_ext _ _ (funext fun M => Streebog.Fast.hash_eq 64 32 M) _ _ _ _ _
theorem streebog512_fast : streebog512 = fast512 := hashFn_ext _ _ (funext fun M => Streebog.Fast.hash_eq 64 64 M) _ _ _ _ _

end Verif.Kdf
