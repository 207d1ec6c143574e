import Verif.Xoodyak.Cyclist
/-!
# Hash and MAC objects

Model of /repo/cipher/xoodoo/xoodyak/hash.go:28-114 and mac.go:10-16.
-/
namespace Verif.Xoodyak
open Verif

/-- `digest`, hash.go:31-36; `buf` is `d.x[:d.nx]`. -/
structure Dig where
  xk : Xk
  buf : Bytes
  cd : Byte

/-- `NewXoodyakHash`, hash.go:40-46. -/
def newHash : Res Dig := (instantiate [] [] []).bind fun x => .ok ⟨x, [], 3⟩
/-- `NewXoodyakMac`, mac.go:10-16. -/
def newMac (key : Bytes) : Res Dig := (instantiate key [] []).bind fun x => .ok ⟨x, [], 3⟩
/-- `Reset`, hash.go:95-101. -/
def reset (_ : Dig) : Res Dig := newHash

/-- The loop of `Write`, hash.go:64-68, with what it leaves of `p`; the fuel is `len(p)`. -/
def writeLoop : Nat → Dig → Bytes → Dig × Bytes
  | 0, d, p => (d, p)
  | k + 1, d, p =>
    if d.xk.absorbSize ≤ p.length then
      writeLoop k { d with xk := absorbBlock d.xk (p.take d.xk.absorbSize) d.cd, cd := 0 } (p.drop d.xk.absorbSize)
    else (d, p)

/-- `Write`, hash.go:50-74. -/
def write (d : Dig) (p : Bytes) : Dig :=
  let a := d.xk.absorbSize
  let r : Dig × Bytes :=
    if d.buf.length > 0 then
      let nn := min (a - d.buf.length) p.length
      let buf := d.buf ++ p.take nn
      let d := if buf.length = a then { d with xk := absorbBlock d.xk buf d.cd, buf := [] } else { d with buf := buf }
      (d, p.drop nn)
    else (d, p)
  let r := writeLoop r.2.length r.1 r.2
  if r.2.length > 0 then { r.1 with buf := r.2 } else r.1

/-- `Sum(nil)`, hash.go:79-92: the object afterwards and the hash. -/
def sum (d : Dig) : Dig × Bytes :=
  let d := if d.buf.length > 0 then { d with xk := absorbBlock d.xk d.buf d.cd, cd := 0 } else d
  let d := if d.cd = 3 then { d with xk := absorbBlock d.xk [] d.cd } else d
  let r := squeeze d.xk 32
  ({ d with xk := r.1 }, r.2)

end Verif.Xoodyak
