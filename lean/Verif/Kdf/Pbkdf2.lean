import Verif.Kdf.Common
import Verif.Go.Heap
/-
Models of kdf/pbkdf2 and kdf/gost_pbkdf2.
-/
namespace Verif.Kdf
open Verif.Cipher

namespace Pbkdf2

/-- pbkdf2.go:26-29, the four bytes of the block number. -/
def buf4 (block : Nat) : Bytes := [BitVec.ofNat 8 (block >>> 24), BitVec.ofNat 8 (block >>> 16), BitVec.ofNat 8 (block >>> 8), BitVec.ofNat 8 block]

/-- pbkdf2.go:36-43, the loop over `n = 2, …, iter` on `(U, T)`. -/
def inner (P : Prf) (key : Bytes) : Nat → Bytes × Bytes → Bytes × Bytes
  | 0, s => s
  | n + 1, (U, T) =>
      let U := P.f key U
      inner P key n (U, xorb T U)

/-- pbkdf2.go:20-44, one round of the outer loop on `(dk, U)`; `T` is the last `hashLen` bytes of `dk`, updated in
place. -/
def blockStep (P : Prf) (key salt : Bytes) (iter : Int) (s : Bytes × Bytes) (block : Nat) : Bytes × Bytes :=
  let dk := s.1 ++ P.f key (salt ++ buf4 block)
  let T := dk.drop (dk.length - P.size)
  let U := copyInto s.2 T
  let r := inner P key (iter - 1).toNat (U, T)
  (dk.take (dk.length - P.size) ++ r.2, r.1)

/-- pbkdf2.go:5-47.  A negative `keyLen` panics, in `make` or in the last slice expression; `iter` may be any integer. -/
def key (P : Prf) (password salt : Bytes) (iter keyLen : Int) : Res Bytes :=
  if keyLen < 0 then .panic
  else
    let L := keyLen.toNat
    let numBlocks := (L + P.size - 1) / P.size
    let r := (List.range numBlocks).foldl (fun s i => blockStep P password salt iter s (i + 1)) ([], List.replicate P.size 0#8)
    .ok (r.1.take L)

end Pbkdf2

namespace GostPbkdf2

/-- gost_pbkdf2.go:32-43, `prf`: both hash objects are reset and keyed anew at every call. -/
def prf (H : HashFn) (innerPassword outerPassword msg : Bytes) : Bytes :=
  H.f (outerPassword ++ H.f (innerPassword ++ msg))

/-- big.Int.SetBytes. -/
def beN (b : Bytes) : Nat := leN b.reverse

/-- gost_pbkdf2.go:62-65, the loop of `iterations - 1` rounds on `(prev, rkey)`. -/
def rounds (H : HashFn) (ip op : Bytes) : Nat → Bytes × Nat → Bytes × Nat
  | 0, s => s
  | n + 1, (prev, rkey) =>
      let prev := prf H ip op prev
      rounds H ip op n (prev, rkey ^^^ beN prev)

/-- gost_pbkdf2.go:53-71, on the heap: `append(salt, loopBytes[:]...)` may write into the caller's array.  The loop runs
until `dklen` bytes are there; `fuel` bounds the rounds, running out of it is `hang`.  `loop` is a `uint32`.
`rkey.FillBytes` panics when the number does not fit. -/
def loop (H : HashFn) (slack : Nat → Nat) (ip op : Bytes) (salt : Slice) (iterations : Int) (dklen : Nat) :
    Nat → Heap → Bytes → BitVec 32 → Res (Heap × Bytes)
  | 0, _, _, _ => .hang
  | fuel + 1, h, dkey, lp =>
      if dkey.length < dklen then
        let a := appendM slack h salt (hx 4 lp.toNat)
        let prev := prf H ip op (a.1.bytes a.2)
        let r := rounds H ip op (iterations - 1).toNat (prev, beN prev)
        if r.2 ≥ 256 ^ H.size then .panic
        else loop H slack ip op salt iterations dklen fuel a.1 (dkey ++ hx H.size r.2) (lp + 1)
      else .ok (h, dkey)

/-- gost_pbkdf2.go:11-75.  `password` and `salt` are slices of the caller, `slack` is the spare capacity a growing
`append` allocates; returns the heap and the key.  A negative `dklen` panics in the last slice expression. -/
def key (H : HashFn) (slack : Nat → Nat) (h : Heap) (password salt : Slice) (iterations dklen : Int) : Res (Heap × Bytes) := do
  let a := appendM slack h password (List.replicate (H.block - password.len % H.block) 0#8)
  let pw := a.1.bytes a.2
  let ip := pw.map (· ^^^ 0x36#8)
  let op := pw.map (· ^^^ 0x5c#8)
  let r ← loop H slack ip op salt iterations dklen.toNat (dklen.toNat + 1) a.1 [] 1
  if dklen < 0 then .panic else .ok (r.1, r.2.take dklen.toNat)

end GostPbkdf2
end Verif.Kdf
