import Verif.Pkcs.Pem1Spec
import Verif.Kdf.P12Spec
import Verif.Pkcs.Pbes1
/-
What PKCS #5 version 1 (RFC 8018, sections 5.1 and 6.1) and PKCS #12 (RFC 7292, appendix B and C) encryption is, as functions of the parameters in the table.
-/
namespace Verif.Pkcs.Spec
open Verif.Asn1

/-- RFC 8018, 5.1 and 6.1.1: `T_1 = Hash(P ‖ S)`, `T_i = Hash(T_(i-1))`; `T_c` holds the key and then the IV. -/
def pbkdf1 (f : Bytes → Bytes) (P S : Bytes) : (c : Nat) → Bytes
  | 0 => P ++ S
  | c + 1 => f (pbkdf1 f P S c)

/-- The key and the IV, for an iteration count `r ≥ 1`. -/
def keyIv (E : Pbes1.Env) (c : Pbes1.Cph) (P S : Bytes) (r : Nat) : Bytes × Bytes :=
  let H := E.hash c.hash
  match c.kdf with
  | .pkcs12 => (Kdf.Spec.pkcs12 H.f H.size 64 S P r 1 c.keySize, Kdf.Spec.pkcs12 H.f H.size 64 S P r 2 c.blockSize)
  | .pbkdf1 => ((pbkdf1 H.f P S r).take c.keySize, ((pbkdf1 H.f P S r).drop c.keySize).take c.blockSize)

/-- BMPString of a password, with the terminator (RFC 7292, B.1), for characters of the basic plane. -/
def bmp (cs : List Nat) : Bytes := cs.flatMap fun c => [BitVec.ofNat 8 (c / 256), BitVec.ofNat 8 (c % 256)]

/-- The DER of `EncryptedPrivateKeyInfo` with `PBEParameter`; `x1` to `x4` are bytes behind the known fields. -/
def file (oid : List Nat) (salt count x1 x2 ct x3 x4 : Bytes) : Bytes :=
  tlv 0x30#8 (tlv 0x30#8 (tlv 0x06#8 (oidBytes oid) ++ tlv 0x30#8 (tlv 0x04#8 salt ++ tlv 0x02#8 count ++ x1) ++ x2) ++ tlv 0x04#8 ct ++ x3) ++ x4

end Verif.Pkcs.Spec
