import Verif.Kdf.Common
import Verif.Hash.Stream
/-
RFC 7292, appendix B.2: the PKCS #12 key derivation.
-/
namespace Verif.Kdf.Spec
open Verif.Cipher Verif.Hash

/-- `x` repeated and cut to `n` bytes. -/
def cycle (x : Bytes) (n : Nat) : Bytes := (List.range n).map fun i => x.getD (i % x.length) 0

/-- RFC 7292, B.2, steps 2 and 3: `x` repeated to a multiple of `v` bytes, "the final copy may be truncated"; the empty
string stays empty. -/
def stretch (v : Nat) (x : Bytes) : Bytes := cycle x (v * ((x.length + v - 1) / v))

/-- `H^r`. -/
def iter (f : Bytes → Bytes) : Nat → Bytes → Bytes
  | 0, x => x
  | n + 1, x => f (iter f n x)

/-- Step 6C: every `v`-byte block of `I` becomes `I_j + B + 1 mod 2^(8v)`, as big-endian numbers. -/
def bump (v : Nat) (B I : Bytes) : Bytes :=
  (fullBlocks v I).flatMap fun Ij => hx v ((leN Ij.reverse + leN B.reverse + 1) % 256 ^ v)

/-- `I` before round `i` (from zero). -/
def p12I (f : Bytes → Bytes) (v r : Nat) (ID : Byte) (salt password : Bytes) : Nat → Bytes
  | 0 => stretch v salt ++ stretch v password
  | i + 1 =>
      let I := p12I f v r ID salt password i
      bump v (cycle (iter f r (List.replicate v ID ++ I)) v) I

/-- RFC 7292, B.2: `A_1 ‖ A_2 ‖ …`, `A_i = H^r(D ‖ I)`, cut to `n` bytes; `u` is the digest size. -/
def pkcs12 (f : Bytes → Bytes) (u v : Nat) (salt password : Bytes) (r : Nat) (ID : Byte) (n : Nat) : Bytes :=
  outBytes (fun i => iter f r (List.replicate v ID ++ p12I f v r ID salt password i)) u n

end Verif.Kdf.Spec
