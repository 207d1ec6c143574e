import Verif.Kdf.Common
namespace Verif.Kdf.Spec
open Verif.Cipher

/-- RFC 7836, 4.5, KDF_TREE_GOSTR3411_2012_256 with R = 1: `K(i) = HMAC(K_in, [i] ‖ label ‖ 0x00 ‖ seed ‖ [L])`, where
`L` is the length of the output in bits, here in two bytes; the output is `K(1) ‖ … ‖ K(k)`. -/
def kdfTree (mac : Bytes → Bytes) (size : Nat) (label seed : Bytes) (k : Nat) : Bytes :=
  (List.range k).flatMap fun i => mac (hx 1 (i + 1) ++ label ++ [0] ++ seed ++ hx 2 (8 * (k * size)))

/-- RFC 7296, 2.13: `T1 = prf(K, S ‖ 0x01)`, `T2 = prf(K, T1 ‖ S ‖ 0x02)`, …; `prf+` is `T1 ‖ T2 ‖ …`. -/
def prfPlusT (prf : Bytes → Bytes) (S : Bytes) : Nat → Bytes
  | 0 => prf (S ++ [1])
  | i + 1 => prf (prfPlusT prf S i ++ S ++ hx 1 (i + 2))

def prfPlus (prf : Bytes → Bytes) (size : Nat) (S : Bytes) (n : Nat) : Bytes := outBytes (prfPlusT prf S) size n

/-- GB/T 32918.4, 5.4.3 (ANSI X9.63): `H(Z ‖ 00000001) ‖ H(Z ‖ 00000002) ‖ …`, cut to `n` bytes. -/
def smKdf (H : Bytes → Bytes) (size : Nat) (z : Bytes) (n : Nat) : Bytes := outBytes (fun i => H (z ++ hx 4 (i + 1))) size n

/-- The first `n` bytes of `s ‖ s ‖ s ‖ …` (`n` copies are enough; nothing if `s` is empty). -/
def repeatTo (s : Bytes) (n : Nat) : Bytes := ((List.replicate n s).flatten).take n

/-- RFC 4880, 3.7.1: hash number `i` is preloaded with `i` zero octets; salt and passphrase are fed in repeatedly until
`count` octets have been hashed, at least once in full. -/
def s2k (H : Bytes → Bytes) (size : Nat) (password salt : Bytes) (count : Nat) (n : Nat) : Bytes :=
  outBytes (fun i => H (List.replicate i 0#8 ++ repeatTo (salt ++ password) (max count (salt ++ password).length))) size n

/-- OpenBSD's bcrypt_pbkdf: `U_1 = bh(sha(salt ‖ [block]))`, `U_{j+1} = bh(sha(U_j))`, block value `U_1 ⊕ … ⊕ U_rounds`;
byte `p` of the key is byte `p / nb` of block `p mod nb + 1`, of `nb` blocks. -/
def bcU (sha bh : Bytes → Bytes) (salt : Bytes) (block : Nat) : Nat → Bytes
  | 0 => bh (sha (salt ++ hx 4 block))
  | j + 1 => bh (sha (bcU sha bh salt block j))

def bcBlock (sha bh : Bytes → Bytes) (salt : Bytes) (rounds block : Nat) : Bytes :=
  (List.range (rounds - 1)).foldl (fun acc j => xorb acc (bcU sha bh salt block (j + 1))) (bcU sha bh salt block 0)

def bcryptKdf (sha bh : Bytes → Bytes) (salt : Bytes) (rounds n : Nat) : Bytes :=
  let nb := (n + 31) / 32
  (List.range n).map fun p => (bcBlock sha bh salt rounds (p % nb + 1)).getD (p / nb) 0

end Verif.Kdf.Spec
