import Verif.Mode.Blocks
/-
Model of the block modes of /repo/mode: ecb.go, pcbc.go, bc.go, ige.go, g3413cbc.go, ofbnlf.go.
`iv` fields are buffers owned by the object (the constructors copy the caller's iv), so they are values here.
The optional fast paths (`b.(pcbcEncAble)` etc.) are not modelled: no cipher in this repository has them.
-/
namespace Verif.Mode
open Verif

/-- mode/ecb.go:40-44 -/
def ecbEncStep (c : BlockCipher) (_ : Unit) (m : Mem) (d s _l : Nat) : Res (Nat × Mem × Unit) :=
  .ok (c.bs, c.encM m d s, ())

/-- mode/ecb.go:31-45 `ecbEncrypter.CryptBlocks` (no overlap check). -/
def ecbEnc (c : BlockCipher) := cryptBlocks false c.bs (ecbEncStep c)

/-- mode/ecb.go:68-72 -/
def ecbDecStep (c : BlockCipher) (_ : Unit) (m : Mem) (d s _l : Nat) : Res (Nat × Mem × Unit) :=
  .ok (c.bs, c.decM m d s, ())

/-- mode/ecb.go:59-73 `ecbDecrypter.CryptBlocks`. -/
def ecbDec (c : BlockCipher) := cryptBlocks false c.bs (ecbDecStep c)

/-- mode/pcbc.go:37-47 `NewPCBCEncrypter` (and Decrypter, :98-108): the iv length check and the copy. -/
def pcbcNew (c : BlockCipher) (iv : Bytes) : Res Bytes := if iv.length ≠ c.bs then .panic else .ok iv

/-- mode/pcbc.go:76-81 : XOR into dst, encrypt dst in place, then `iv = src ^ dst` (both read from memory
after dst was written). -/
def pcbcEncStep (c : BlockCipher) (iv : Bytes) (m : Mem) (d s _l : Nat) : Res (Nat × Mem × Bytes) :=
  let m1 := m.write d (xorb (m.read s c.bs) iv)
  let m2 := c.encM m1 d d
  .ok (c.bs, m2, xorb (m2.read s c.bs) (m2.read d c.bs))

/-- mode/pcbc.go:60-82 `pcbcEncrypter.CryptBlocks` -/
def pcbcEnc (c : BlockCipher) := cryptBlocks true c.bs (pcbcEncStep c)

/-- mode/pcbc.go:142-147 -/
def pcbcDecStep (c : BlockCipher) (iv : Bytes) (m : Mem) (d s _l : Nat) : Res (Nat × Mem × Bytes) :=
  let m1 := c.decM m d s
  let m2 := m1.write d (xorb (m1.read d c.bs) iv)
  .ok (c.bs, m2, xorb (m2.read d c.bs) (m2.read s c.bs))

/-- mode/pcbc.go:122-148 `pcbcDecrypter.CryptBlocks` -/
def pcbcDec (c : BlockCipher) := cryptBlocks true c.bs (pcbcDecStep c)

/-- mode/pcbc.go:84-90, :150-156 (also bc.go:77-83, ofbnlf.go:87-93, g3413cbc.go:103-108) `SetIV`. -/
def setIV (old iv : Bytes) : Res Bytes := if iv.length ≠ old.length then .panic else .ok (copyInto old iv)

/-- mode/bc.go:34-44, :91-101 -/
def bcNew (c : BlockCipher) (iv : Bytes) : Res Bytes :=
  if iv.length ≠ c.bs then .panic else .ok (copyInto (List.replicate c.bs 0) iv)

/-- mode/bc.go:65-69 -/
def bcEncStep (c : BlockCipher) (iv : Bytes) (m : Mem) (d s _l : Nat) : Res (Nat × Mem × Bytes) :=
  let m1 := m.write d (xorb (m.read s c.bs) iv)
  let m2 := c.encM m1 d d
  .ok (c.bs, m2, xorb iv (m2.read d c.bs))

/-- mode/bc.go:50-75 `bcEncrypter.CryptBlocks` -/
def bcEnc (c : BlockCipher) := cryptBlocks true c.bs (bcEncStep c)

/-- mode/bc.go:127-133 : nextIV is computed from src before dst is written. -/
def bcDecStep (c : BlockCipher) (iv : Bytes) (m : Mem) (d s _l : Nat) : Res (Nat × Mem × Bytes) :=
  let nextIV := xorb iv (m.read s c.bs)
  let m1 := c.decM m d s
  let m2 := m1.write d (xorb (m1.read d c.bs) iv)
  .ok (c.bs, m2, copyInto iv nextIV)

/-- mode/bc.go:107-138 `bcDecrypter.CryptBlocks` -/
def bcDec (c : BlockCipher) := cryptBlocks true c.bs (bcDecStep c)

/-- Registers of mode/ige.go:5-10. -/
structure Ige where
  lastplaintext : Bytes
  lastciphertext : Bytes
  deriving DecidableEq, Repr

/-- mode/ige.go:14-26, 64-69, 93-98 : `lastciphertext = iv[:bs]`, `lastplaintext = iv[bs:]`. -/
def igeNew (c : BlockCipher) (iv : Bytes) : Res Ige :=
  if iv.length ≠ c.bs * 2 then .panic
  else .ok { lastciphertext := iv.take c.bs, lastplaintext := iv.drop c.bs }

/-- mode/ige.go:42-58, with `crypt` = the cipher's Encrypt or Decrypt. -/
def igeStep (bs : Nat) (crypt : Bytes → Bytes) (x : Ige) (m : Mem) (d s _l : Nat) :
    Res (Nat × Mem × Ige) :=
  let lc := xorb x.lastciphertext (m.read s bs)
  let lc := crypt lc
  let lc := xorb lc x.lastplaintext
  let lp := m.read s bs
  .ok (bs, m.write d lc, { lastplaintext := lp, lastciphertext := lc })

/-- mode/ige.go:75-78 `igeEncrypter.CryptBlocks` -/
def igeEnc (c : BlockCipher) := cryptBlocks false c.bs (igeStep c.bs c.E)

/-- mode/ige.go:102-112 `igeDecrypter.CryptBlocks`: the two registers are exchanged around the loop. -/
def igeDec (c : BlockCipher) (x : Ige) (m : Mem) (dst src : Slice) : Res (Mem × Ige) := do
  let (m, y) ← cryptBlocks false c.bs (igeStep c.bs c.D)
    { lastciphertext := x.lastplaintext, lastplaintext := x.lastciphertext } m dst src
  .ok (m, { lastciphertext := y.lastplaintext, lastplaintext := y.lastciphertext })

/-- mode/ige.go:80-86, :114-116 `SetIV`: `lastplaintext = iv[:bs]`, `lastciphertext = iv[bs:]`. -/
def igeSetIV (c : BlockCipher) (_x : Ige) (iv : Bytes) : Res Ige :=
  if iv.length ≠ c.bs * 2 then .panic
  else .ok { lastplaintext := iv.take c.bs, lastciphertext := iv.drop c.bs }

/-- mode/g3413cbc.go:20-36 -/
def g3413cbcNew (c : BlockCipher) (iv : Bytes) : Res Bytes :=
  if iv.length ≠ 2 * c.bs then .panic else .ok (copyInto (List.replicate (2 * c.bs) 0) iv)

/-- mode/g3413cbc.go:86-97 : the register of two blocks is shifted by one block. -/
def g3413cbcEncStep (c : BlockCipher) (iv : Bytes) (m : Mem) (d s _l : Nat) : Res (Nat × Mem × Bytes) :=
  let m1 := m.write d (xorb (m.read s c.bs) (iv.take c.bs))
  let m2 := c.encM m1 d d
  let iv1 := copyInto iv (iv.drop c.bs)
  let iv2 := iv1.take c.bs ++ copyInto (iv1.drop c.bs) (m2.read d c.bs)
  .ok (c.bs, m2, iv2)

/-- mode/g3413cbc.go:73-101 `g3413cbcEncrypter.CryptBlocks` -/
def g3413cbcEnc (c : BlockCipher) := cryptBlocks true c.bs (g3413cbcEncStep c)

/-- Decrypt block `k` in place in dst and XOR with `mask` (the two statements at mode/g3413cbc.go:174-175,
186-187, 193-194). -/
def g3413cbcDecBlock (c : BlockCipher) (m : Mem) (d s k : Nat) (mask : Mem → Bytes) : Mem :=
  let m1 := c.decM m (d + k * c.bs) (s + k * c.bs)
  m1.write (d + k * c.bs) (xorb (m1.read (d + k * c.bs) c.bs) (mask m1))

/-- The backwards loop mode/g3413cbc.go:173-182 over blocks `k, k-1, …, 2`; block `k` is XORed with source
block `k-2`. -/
def g3413cbcDecLoop (c : BlockCipher) (d s : Nat) : Nat → Mem → Mem
  | 0, m => m
  | 1, m => m
  | k + 2, m =>
    g3413cbcDecLoop c d s (k + 1)
      (g3413cbcDecBlock c m d s (k + 2) (fun m => m.read (s + k * c.bs) c.bs))

/-- mode/g3413cbc.go:146-195 `g3413cbcDecrypter.CryptBlocks` : `x.iv` is never updated. -/
def g3413cbcDec (c : BlockCipher) (iv : Bytes) (m : Mem) (dst src : Slice) : Res (Mem × Bytes) :=
  if src.len % c.bs ≠ 0 then .panic
  else if dst.len < src.len then .panic
  else if inexactOverlap ⟨dst.ptr, src.len, dst.cap⟩ src then .panic
  else if src.len = 0 then .ok (m, iv)
  else
    let n := src.len / c.bs
    let m := if src.len > c.bs then
        let m := if src.len > c.bs * 2 then g3413cbcDecLoop c dst.ptr src.ptr (n - 1) m else m
        g3413cbcDecBlock c m dst.ptr src.ptr 1 (fun _ => iv.drop c.bs)
      else m
    .ok (g3413cbcDecBlock c m dst.ptr src.ptr 0 (fun _ => iv.take c.bs), iv)

/-- mode/ofbnlf.go:33-46, 97-110 : build the base cipher from `key`, check the iv. -/
def ofbnlfNew (newKey : Bytes → Option BlockCipher) (key iv : Bytes) : Res (BlockCipher × Bytes) :=
  match newKey key with
  | none => .panic
  | some b => if iv.length ≠ b.bs then .panic else .ok (b, copyInto (List.replicate b.bs 0) iv)

/-- mode/ofbnlf.go:68-81 : `k = E(iv)`, encrypt the block under the key `k`, `iv = k`. -/
def ofbnlfEncStep (newKey : Bytes → Option BlockCipher) (b : BlockCipher) (iv : Bytes) (m : Mem)
    (d s _l : Nat) : Res (Nat × Mem × Bytes) :=
  let k := b.E iv
  match newKey k with
  | none => .panic
  | some c => .ok (b.bs, c.encM m d s, copyInto iv k)

/-- mode/ofbnlf.go:52-85 -/
def ofbnlfEnc (newKey : Bytes → Option BlockCipher) (b : BlockCipher) :=
  cryptBlocks true b.bs (ofbnlfEncStep newKey b)

/-- mode/ofbnlf.go:136-149 -/
def ofbnlfDecStep (newKey : Bytes → Option BlockCipher) (b : BlockCipher) (iv : Bytes) (m : Mem)
    (d s _l : Nat) : Res (Nat × Mem × Bytes) :=
  let k := b.E iv
  match newKey k with
  | none => .panic
  | some c => .ok (b.bs, c.decM m d s, copyInto iv k)

/-- mode/ofbnlf.go:116-153 -/
def ofbnlfDec (newKey : Bytes → Option BlockCipher) (b : BlockCipher) :=
  cryptBlocks true b.bs (ofbnlfDecStep newKey b)

end Verif.Mode
