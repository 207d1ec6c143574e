import Verif.Aead.Base
/-
Model of mode/mgm/mgm.go.  `Mode.incBe` is its `incr` (mgm.go:52-59). The size limits (mgm.go:149-157, 182-190) compare
with 2^64-1 and never apply. `subtle.XORBytes` is modelled on buffers that are equal or disjoint.
-/
namespace Verif.Aead
open Verif.Mode.Spec (natBe beNat)

/-- mode/mgm/mgm.go:32-42 `NewMGM`. -/
def mgmNew (c : BlockCipher) : Res Unit := if c.bs = 16 then .ok () else .err

/-- mode/mgm/mgm.go:218-230: the loop of `mul` on big integers (`y` shrinks, so `fuel` bits suffice). -/
def mgmMulLoop : Nat → Nat → Nat → Nat → Nat
  | 0, _, _, z => z
  | fuel + 1, x, y, z =>
    if y = 0 then z
    else
      let z := if y % 2 = 1 then z ^^^ x else z
      let x := if x.testBit 127 then (2 * (x - 2 ^ 127)) ^^^ 0x87 else 2 * x
      mgmMulLoop fuel x (y / 2) z

/-- mode/mgm/mgm.go:212-240 `mul`. -/
def mgmMul (x y : Bytes) : Bytes := natBe 16 (mgmMulLoop (8 * y.length) (beNat x) (beNat y) 0)

/-- mode/mgm/mgm.go:71-89 and again 91-109: absorb `data` block by block into (sum, bufP). -/
def mgmAbsorb (E : Bytes → Bytes) : Nat → Bytes → Bytes → Bytes → Bytes × Bytes
  | 0, sum, p, _ => (sum, p)
  | fuel + 1, sum, p, data =>
    if 16 ≤ data.length then
      mgmAbsorb E fuel (xorb sum (mgmMul (E p) (data.take 16))) (Mode.incBe (p.take 8) ++ p.drop 8) (data.drop 16)
    else if 0 < data.length then
      (xorb sum (mgmMul (E p) (data ++ List.replicate (16 - data.length) 0)), Mode.incBe (p.take 8) ++ p.drop 8)
    else (sum, p)

/-- mode/mgm/mgm.go:61-120 `auth`: the tag (the byte lengths times 8 are stored modulo 2^64). -/
def mgmAuth (E : Bytes → Bytes) (text ad icn : Bytes) : Bytes :=
  let icn := icn.set 0 (icn.getD 0 0 ||| 0x80)
  let p := E icn
  let a := mgmAbsorb E (ad.length + 1) (List.replicate 16 0) p ad
  let b := mgmAbsorb E (text.length + 1) a.1 a.2 text
  let bufP := E b.2
  let bufC := natBe 8 (ad.length * 8) ++ natBe 8 (text.length * 8)
  E (xorb b.1 (mgmMul bufP bufC))

/-- mode/mgm/mgm.go:128-138: the loop of `crypt`, from address `inp` to address `out`. -/
def mgmCryptLoop (E : Bytes → Bytes) : Nat → Mem → Nat → Nat → Nat → Bytes → Mem
  | 0, m, _, _, _, _ => m
  | fuel + 1, m, out, inp, n, p =>
    if 16 ≤ n then
      mgmCryptLoop E fuel (m.write out (xorb (E p) (m.read inp 16))) (out + 16) (inp + 16) (n - 16)
        (p.take 8 ++ Mode.incBe (p.drop 8))
    else if 0 < n then m.write out (xorb (m.read inp n) (E p))
    else m

/-- mode/mgm/mgm.go:122-139 `crypt`. -/
def mgmCryptM (E : Bytes → Bytes) (m : Mem) (out inp n : Nat) (icn : Bytes) : Mem :=
  mgmCryptLoop E (n + 1) m out inp n (E (icn.set 0 (icn.getD 0 0 &&& 0x7F)))

/-- mode/mgm/mgm.go:141-173 `Seal`. -/
def mgmSeal (c : BlockCipher) (h : Heap) (dst nonce pt ad : Slice) : Res (Heap × Slice) :=
  if nonce.len ≠ 16 ∨ (h.bytes nonce).getD 0 0 &&& 0x80 ≠ 0 then .panic
  else if pt.len = 0 ∧ ad.len = 0 then .panic
  else
    let a := sliceForAppend h dst (pt.len + 16)
    let icn := a.1.bytes nonce
    let out := a.2.2
    let m := mgmCryptM c.E a.1.mem out.ptr pt.ptr pt.len icn
    let tag := mgmAuth c.E (m.read out.ptr pt.len) (m.read ad.ptr ad.len) (icn.set 0 (icn.getD 0 0 &&& 0x7F))
    .ok (⟨m.write (out.ptr + pt.len) tag, a.1.brk⟩, a.2.1)

/-- mode/mgm/mgm.go:175-210 `Open`: heap afterwards, and the slice unless an error is returned. -/
def mgmOpen (c : BlockCipher) (h : Heap) (dst nonce ct ad : Slice) : Res (Heap × Option Slice) :=
  if nonce.len ≠ 16 ∨ (h.bytes nonce).getD 0 0 &&& 0x80 ≠ 0 then .panic
  else if ct.len = 0 ∧ ad.len = 0 then .panic
  else if ct.len < 16 then .panic
  else
    let n := ct.len - 16
    let a := sliceForAppend h dst n
    let icn := a.1.bytes nonce
    if mgmAuth c.E (a.1.mem.read ct.ptr n) (a.1.bytes ad) icn ≠ a.1.mem.read (ct.ptr + n) 16 then .ok (a.1, none)
    else
      .ok (⟨mgmCryptM c.E a.1.mem a.2.2.ptr ct.ptr n (icn.set 0 (icn.getD 0 0 ||| 0x80)), a.1.brk⟩, some a.2.1)

end Verif.Aead
