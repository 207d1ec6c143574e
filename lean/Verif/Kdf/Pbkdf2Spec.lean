import Verif.Kdf.Common
/-
RFC 8018, section 5.2: PBKDF2.
-/
namespace Verif.Kdf.Spec
open Verif.Cipher

/-- `U_1 = PRF(P, S ‖ INT(i))`, `U_{j+1} = PRF(P, U_j)`; the argument counts from zero. -/
def U (prf : Bytes → Bytes) (S : Bytes) (i : Nat) : Nat → Bytes
  | 0 => prf (S ++ hx 4 i)
  | j + 1 => prf (U prf S i j)

/-- `F = U_1 xor … xor U_c`, for `c = n + 1`. -/
def F (prf : Bytes → Bytes) (S : Bytes) (i : Nat) : Nat → Bytes
  | 0 => U prf S i 0
  | n + 1 => xorb (F prf S i n) (U prf S i (n + 1))

/-- PBKDF2 for `c ≥ 1` iterations: the first `L` bytes of `T_1 ‖ T_2 ‖ …`, `T_i = F(P, S, c, i)`; `hLen` is the output
size of the pseudorandom function. -/
def pbkdf2 (prf : Bytes → Bytes) (hLen : Nat) (S : Bytes) (c L : Nat) : Bytes :=
  outBytes (fun i => F prf S (i + 1) (c - 1)) hLen L

end Verif.Kdf.Spec
