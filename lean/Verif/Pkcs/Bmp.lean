import Verif.Go.Utf8
/-
Model of /repo/tool/bmp_string/bmp_string.go.
-/
namespace Verif.Pkcs
open Verif.Utf8

/-- bmp_string.go:23-40 (`BmpString`).  `utf16.EncodeRune` gives a surrogate pair exactly for the runes above U+FFFF. -/
def bmpString (s : Bytes) : Res Bytes :=
  let rs := runes s
  if rs.any fun r => decide (0x10000 ≤ r) then .err else .ok (rs.flatMap fun r => [BitVec.ofNat 8 (r / 256), BitVec.ofNat 8 (r % 256)])

/-- bmp_string.go:9-20 (`BmpStringZeroTerminated`). -/
def bmpZ (s : Bytes) : Res Bytes := (bmpString s).bind fun r => .ok (r ++ [0, 0])

/-- bmp_string.go:53-57: pairs of bytes as 16-bit numbers. -/
def units : Bytes → List Nat
  | a :: b :: r => (a.toNat * 256 + b.toNat) :: units r
  | _ => []

/-- `utf16.Decode`. -/
def utf16Dec : List Nat → List Nat
  | [] => []
  | [a] => [if 0xd800 ≤ a ∧ a < 0xe000 then 0xfffd else a]
  | a :: b :: r =>
    if 0xd800 ≤ a ∧ a < 0xdc00 ∧ 0xdc00 ≤ b ∧ b < 0xe000 then ((a - 0xd800) * 1024 + (b - 0xdc00) + 0x10000) :: utf16Dec r
    else (if 0xd800 ≤ a ∧ a < 0xe000 then 0xfffd else a) :: utf16Dec (b :: r)

/-- bmp_string.go:43-60 (`DecodeBMPString`); the runes it makes are scalar values, which `string` writes in UTF-8. -/
def decodeBMP (b : Bytes) : Res Bytes :=
  if b.length % 2 ≠ 0 then .err
  else
    let b := if 2 ≤ b.length ∧ b.getD (b.length - 1) 0 = 0 ∧ b.getD (b.length - 2) 0 = 0 then b.take (b.length - 2) else b
    .ok ((utf16Dec (units b)).flatMap enc)

end Verif.Pkcs
