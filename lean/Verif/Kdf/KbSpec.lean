import Verif.Kdf.Common
/-
NIST SP 800-108 (and TTAK.KO-12.0272): key derivation in counter, feedback and double-pipeline mode.  `[i]` is the block
number in `r` bytes, `[L]` the requested length in bits, big-endian, in as few bytes as possible but at least one.
-/
namespace Verif.Kdf.Spec
open Verif.Cipher

/-- The shortest nonempty big-endian form of `v`. -/
def shortest (v : Nat) : Bytes := hx (v.log2 / 8 + 1) v

/-- `Label ‖ 0x00 ‖ Context ‖ [L]`. -/
def fixed (label context : Bytes) (n : Nat) : Bytes := label ++ [0] ++ context ++ shortest (8 * n)

/-- `K(i) = PRF(K_I, [i] ‖ Label ‖ 0x00 ‖ Context ‖ [L])`, for `i = 1, 2, …`; the result is `K(1) ‖ K(2) ‖ …`, cut to `n` bytes. -/
def counterMode (prf : Bytes → Bytes) (size r : Nat) (label context : Bytes) (n : Nat) : Bytes :=
  outBytes (fun i => prf (hx r (i + 1) ++ fixed label context n)) size n

/-- `K(0) = IV`, `K(i) = PRF(K_I, K(i-1) ‖ [i] ‖ …)`. -/
def feedbackK (prf : Bytes → Bytes) (r : Nat) (label context iv : Bytes) (n : Nat) : Nat → Bytes
  | 0 => iv
  | i + 1 => prf (feedbackK prf r label context iv n i ++ hx r (i + 1) ++ fixed label context n)

def feedbackMode (prf : Bytes → Bytes) (size r : Nat) (label context iv : Bytes) (n : Nat) : Bytes :=
  outBytes (fun i => feedbackK prf r label context iv n (i + 1)) size n

/-- `A(0) = Label ‖ 0x00 ‖ Context ‖ [L]`, `A(i) = PRF(K_I, A(i-1))`. -/
def pipelineA (prf : Bytes → Bytes) (label context : Bytes) (n : Nat) : Nat → Bytes
  | 0 => fixed label context n
  | i + 1 => prf (pipelineA prf label context n i)

/-- `K(i) = PRF(K_I, A(i) ‖ [i] ‖ …)`. -/
def pipelineMode (prf : Bytes → Bytes) (size r : Nat) (label context : Bytes) (n : Nat) : Bytes :=
  outBytes (fun i => prf (pipelineA prf label context n (i + 1) ++ hx r (i + 1) ++ fixed label context n)) size n

end Verif.Kdf.Spec
