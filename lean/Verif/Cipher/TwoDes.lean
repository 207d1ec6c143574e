import Verif.Cipher.Common2
import Verif.Go.Heap
/-
Model of cipher/des (two key triple DES), over the constructor of crypto/des.
-/
namespace Verif.Cipher.TwoDes

/-- Encrypt and Decrypt (cipher/des/des.go:47-77): the checks, then the method of crypto/des. -/
def method (f : Mem → Slice → Slice → Res Mem) (m : Mem) (dst src : Slice) : Res Mem :=
  if src.len < 8 then .panic
  else if dst.len < 8 then .panic
  else if inexactOverlap { dst with len := 8 } { src with len := 8 } then .panic
  else f m dst src

/-- `NewTwoDESCipher` (cipher/des/des.go:25-41) on the heap: `key = append(key, key[:8]...)`, then the constructor `T` of crypto/des with what the slice holds. -/
def newCipher (slack : Nat → Nat) (T : Bytes → Res Obj) (h : Heap) (key : Slice) : Res (Heap × Obj) :=
  if key.len ≠ 16 then .err
  else
    let r := appendM slack h key ((h.bytes key).take 8)
    match T (r.1.bytes r.2) with
    | .ok c => .ok (r.1, ⟨8, method c.enc, method c.dec⟩)
    | .err => .err
    | .panic => .panic
    | .hang => .hang

end Verif.Cipher.TwoDes
