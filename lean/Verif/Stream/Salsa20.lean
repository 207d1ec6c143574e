import Verif.Stream.Base
import Verif.Cipher.Common
/-
Model of /repo/cipher/salsa20.  The block function is `golang.org/x/crypto/salsa20/salsa`, outside the repository: it is a parameter
`core key counter`, 64 bytes for a key and a 16-byte input.
-/
namespace Verif.Strm.Salsa20
open Verif.Mode Verif.Cipher

/-- What `salsa.XORKeyStream` relies on: 64 bytes from a key and 16 bytes of nonce and counter. -/
abbrev Core := Bytes → Bytes → Bytes

/-- golang.org/x/crypto/salsa20/salsa `XORKeyStream`, from its documentation: block `i` uses the input whose last 8 bytes, a
little-endian counter, were increased by `i` (modulo 2^64). -/
def libXor (core : Core) (key ctr src : Bytes) : Bytes :=
  xorb src ((List.range src.length).map fun i =>
    (core key (ctr.take 8 ++ leBytes 8 (leN (ctr.drop 8) + i / 64))).getD (i % 64) 0)

/-- cipher/salsa20/salsa20.go:13-17 `Cipher`, the key and the nonce buffer aside. -/
abbrev Counter := BitVec 64

/-- cipher/salsa20/salsa20.go:63-65: `subNonce`. -/
def subNonce (nonce : Bytes) (c : Counter) : Bytes :=
  ((nonce.take 16 ++ List.replicate (16 - nonce.length) 0).take 8) ++ leBytes 8 (c.toNat / 64)

/-- cipher/salsa20/salsa20.go:50-72 `XORKeyStream`, with the current content of the nonce buffer. -/
def xorKS (core : Core) (key nonce : Bytes) (c : Counter) (m : Mem) (dst src : Slice) : Res (Mem × Counter) :=
  if src.len = 0 then .ok (m, c)
  else if dst.len < src.len then .panic
  else if inexactOverlap ⟨dst.ptr, src.len, dst.cap⟩ src then .panic
  else
    let pad := c.toNat % 64
    let buf := List.replicate pad 0 ++ m.read src.ptr src.len
    let buf := libXor core key (subNonce nonce c) buf
    .ok (m.write dst.ptr (buf.drop pad), c + BitVec.ofNat 64 src.len)

/-- cipher/salsa20/salsa20.go:19-48 `NewCipherWithCounter`; `NewCipher` is the case of counter 0.  The nonce is not looked at. -/
def newCipher (key : Bytes) (counter : Counter) : Res Counter := if key.length ≠ 32 then .err else .ok counter

/-- cipher/salsa20/salsa20.go:28-31: the object keeps the slice `nonce`, not a copy: every call reads it again. -/
def xorKSRef (core : Core) (key : Bytes) (nonce : Slice) (c : Counter) (m : Mem) (dst src : Slice) : Res (Mem × Counter) :=
  xorKS core key (m.read nonce.ptr nonce.len) c m dst src

end Verif.Strm.Salsa20
