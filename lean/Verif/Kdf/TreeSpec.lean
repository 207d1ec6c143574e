import Verif.Kdf.Common
/-
The key trees without any cache: RFC 7836 KDF_GOSTR3411_2012_256, and the trees of R 1323565.1.035-2021 (ESP) and
R 1323565.1.030-2020 / RFC 9189 section 8.1 (TLS).
-/
namespace Verif.Kdf.Spec
open Verif.Cipher

/-- RFC 7836, section 4.4. -/
def kdf256 (H : HashFn) (key label seed : Bytes) : Bytes := hmac H key ([1] ++ label ++ [0] ++ seed ++ [1, 0])

/-- The ASCII string "level" followed by one digit. -/
def lvl (d : Byte) : Bytes := [0x6c, 0x65, 0x76, 0x65, 0x6c, d]

/-- ESP: the index bytes are `i1` (one byte, preceded by a zero), `i2` and `i3` (two bytes each). -/
def esp (H : HashFn) (root : Bytes) (i1 : Byte) (i2 i3 : Bytes) : Bytes :=
  kdf256 H (kdf256 H (kdf256 H root (lvl 0x31) [0, i1]) (lvl 0x32) i2) (lvl 0x33) i3

/-- The ESP key for an index of five bytes. -/
def espKey (H : HashFn) (root is : Bytes) : Bytes := esp H root (is.getD 0 0) [is.getD 1 0, is.getD 2 0] [is.getD 3 0, is.getD 4 0]

/-- RFC 9189: `TLSTREE(K_root, i) = KDF_3(KDF_2(KDF_1(K_root, STR_8(i & C_1)), STR_8(i & C_2)), STR_8(i & C_3))`. -/
def tlsKey (H : HashFn) (c1 c2 c3 : BitVec 64) (root : Bytes) (i : BitVec 64) : Bytes :=
  kdf256 H (kdf256 H (kdf256 H root (lvl 0x31) (hx 8 (i &&& c1).toNat)) (lvl 0x32) (hx 8 (i &&& c2).toNat)) (lvl 0x33) (hx 8 (i &&& c3).toNat)

end Verif.Kdf.Spec
