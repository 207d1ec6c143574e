import Verif.Pkcs.Modes
/-
What OpenSSL's traditional encrypted PEM is (RFC 1421, RFC 1423 and `EVP_BytesToKey` with MD5 and one round), stated without the code, and the
modes of SP 800-38A.
-/
namespace Verif.Pkcs.Spec
open Verif.Padding Verif.Padding.Spec

/-- `D_1 = MD5(password ‖ salt)`, `D_(i+1) = MD5(D_i ‖ password ‖ salt)`. -/
def opensslD (H : Bytes → Bytes) (password salt : Bytes) : Nat → Bytes
  | 0 => []
  | i + 1 => H (opensslD H password salt i ++ password ++ salt)

/-- The first `n` bytes of `D_1 ‖ D_2 ‖ …`. -/
def IsOpensslKey (H : Bytes → Bytes) (password salt : Bytes) (n : Nat) (key : Bytes) : Prop :=
  key.length = n ∧ ∃ k, key <+: ((List.range k).map fun i => opensslD H password salt (i + 1)).flatten

/-- Cipher block chaining: `C_i = E(P_i xor C_(i-1))`, `C_0 = IV`. -/
def cbc (E : Bytes → Bytes) : Bytes → List Bytes → List Bytes
  | _, [] => []
  | v, p :: ps => E (xorb p v) :: cbc E (E (xorb p v)) ps

/-- `P_i = D(C_i) xor C_(i-1)`. -/
def cbcDec (D : Bytes → Bytes) : Bytes → List Bytes → List Bytes
  | _, [] => []
  | v, q :: qs => xorb (D q) v :: cbcDec D q qs

/-- PKCS #7 padding: 1 to `bs` bytes, each saying how many there are. -/
def pad7 (bs : Nat) (x : Bytes) : Bytes := x ++ List.replicate (bs - x.length % bs) (BitVec.ofNat 8 (bs - x.length % bs))

/-- The ciphertext body of each mode for a message `x`, after PKCS #7 padding where the mode needs whole blocks. -/
def body (md : Md) (c : BlockCipher) (iv x : Bytes) : Bytes :=
  match md with
  | .ecb => ((Mode.chunks c.bs (pad7 c.bs x)).map c.E).flatten
  | .cbc => (cbc c.E iv (Mode.chunks c.bs (pad7 c.bs x))).flatten
  | .cfb => (Mode.Spec.cfb c.E iv (Mode.chunks c.bs x)).flatten
  | .cfb1 => md.enc c iv x
  | .cfb8 => (Mode.Spec.cfbSeg c.E iv (Mode.chunks 1 x)).flatten
  | .ofb => xorb x (Mode.Spec.keyBytes (Mode.Spec.streamOf c.bs (Mode.Spec.ofbBlock c.E iv)) 0 x.length)
  | .ctr => xorb x (Mode.Spec.keyBytes (Mode.Spec.streamOf c.bs fun j => c.E (Mode.Spec.natBe c.bs (Mode.Spec.beNat iv + j))) 0 x.length)

/-- The message that a body stands for, before padding is looked at. -/
def plain (md : Md) (c : BlockCipher) (iv x : Bytes) : Bytes :=
  match md with
  | .ecb => ((Mode.chunks c.bs x).map c.D).flatten
  | .cbc => (cbcDec c.D iv (Mode.chunks c.bs x)).flatten
  | .cfb => (Mode.Spec.cfbDec c.E iv (Mode.chunks c.bs x)).flatten
  | .cfb1 => md.dec c iv x
  | .cfb8 => md.dec c iv x
  | .ofb => xorb x (Mode.Spec.keyBytes (Mode.Spec.streamOf c.bs (Mode.Spec.ofbBlock c.E iv)) 0 x.length)
  | .ctr => xorb x (Mode.Spec.keyBytes (Mode.Spec.streamOf c.bs fun j => c.E (Mode.Spec.natBe c.bs (Mode.Spec.beNat iv + j))) 0 x.length)

/-- The library's reading of a padded message: the padding is taken off when there is one, and otherwise the message is left as it is. -/
def Strip (p out : Bytes) : Prop := PKCS7 out p ∨ ((∀ t, ¬ PKCS7 t p) ∧ out = p)

end Verif.Pkcs.Spec
