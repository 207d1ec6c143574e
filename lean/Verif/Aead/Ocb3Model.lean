import Verif.Aead.Base
import Verif.Aead.OcbSpec
/-
Model of mode/ocb3/ocb3.go on a 64-bit machine.  `bits.TrailingZeros` is `Spec.ntz` (its arguments are positive).
-/
namespace Verif.Aead
open Verif.Mode (chunks)
open Verif.Mode.Spec (natBe beNat)

/-- A loop that reads 16 bytes at `inp`, writes 16 at `out`, and carries a state; used for loops whose every round
first reads the block and then writes it. -/
def memBlocks {σ : Type} (f : σ → Bytes → Bytes × σ) : Nat → Mem → Nat → Nat → σ → Mem × σ
  | 0, m, _, _, s => (m, s)
  | k + 1, m, out, inp, s =>
    let r := f s (m.read inp 16)
    memBlocks f k (m.write out r.1) (out + 16) (inp + 16) r.2

/-- mode/ocb3/ocb3.go:456-458 `uint128`. -/
structure U128 where
  lo : BitVec 64
  hi : BitVec 64

/-- Componentwise XOR, as in `off.lo ^= l.lo; off.hi ^= l.hi`. -/
def U128.xor (a b : U128) : U128 := ⟨a.lo ^^^ b.lo, a.hi ^^^ b.hi⟩

/-- `binary.BigEndian.PutUint64` twice. -/
def U128.bytes (a : U128) : Bytes := natBe 8 a.lo.toNat ++ natBe 8 a.hi.toNat

/-- `binary.BigEndian.Uint64(b[0:8])`, `binary.BigEndian.Uint64(b[8:16])`. -/
def U128.of (b : Bytes) : U128 := ⟨BitVec.ofNat 64 (beNat (b.take 8)), BitVec.ofNat 64 (beNat ((b.drop 8).take 8))⟩

/-- mode/ocb3/ocb3.go:471-484 `double`; `int64(x.lo)>>63` is all ones or zero. -/
def U128.double (x : U128) : U128 :=
  ⟨x.lo <<< 1 ||| x.hi >>> 63, x.hi <<< 1 ^^^ (x.lo.sshiftRight 63 &&& 135)⟩

/-- mode/ocb3/ocb3.go:171-187 `encipher` (`f = E`), `decipher` (`f = D`). -/
def U128.cipher (f : Bytes → Bytes) (x : U128) : U128 := U128.of (f x.bytes)

/-- mode/ocb3/ocb3.go:69-94 (without `b` and `buf`). -/
structure Ocb3 where
  nonceSize : Nat
  tagSize : Nat
  Lstar : U128
  Ldollar : U128
  L : List U128

/-- mode/ocb3/ocb3.go:166-168 : `k` further entries after `x`. -/
def ocb3Table : Nat → U128 → List U128
  | 0, _ => []
  | k + 1, x => x :: ocb3Table k x.double

/-- mode/ocb3/ocb3.go:128-169 `NewWithNonceAndTagSize`, `setup`. -/
def ocb3New (c : BlockCipher) (nonceSize tagSize : Int) : Res Ocb3 :=
  if tagSize < 12 ∨ tagSize > 16 then .err
  else if nonceSize ≤ 0 then .err
  else if c.bs ≠ 16 then .err
  else
    let ls := U128.cipher c.E ⟨0, 0⟩
    .ok ⟨nonceSize.toNat, tagSize.toNat, ls, ls.double, ocb3Table 58 ls.double.double⟩

/-- mode/ocb3/ocb3.go:189-219 `init`. A nonce of more than 15 bytes makes an index or slice expression panic. -/
def ocb3Init (c : BlockCipher) (x : Ocb3) (nonce : Bytes) : Res U128 :=
  if nonce.length > 15 then .panic
  else
    let n0 := (List.replicate 16 (0 : Byte)).set 0 (BitVec.ofNat 8 ((x.tagSize * 8) % 128) <<< 1)
    let n1 := n0.take (16 - nonce.length) ++ nonce
    let n := n1.set (16 - nonce.length - 1) (n1.getD (16 - nonce.length - 1) 0 ||| 1)
    let b := (n.getD 15 0 &&& 0x3f).toNat
    let u := U128.of n
    let k := U128.cipher c.E ⟨u.lo, u.hi &&& ~~~0x3f⟩
    let s2 := k.lo ^^^ (k.lo <<< 8 ||| k.hi >>> 56)
    .ok ⟨k.lo <<< b ||| k.hi >>> (64 - b), k.hi <<< b ||| s2 >>> (64 - b)⟩

/-- `q := make([]byte, 16); n := copy(q, x); q[n] = 1 << 7` for `len(x) < 16`. -/
def ocb3Pad (x : Bytes) : Bytes := (x ++ List.replicate (16 - x.length) 0).set x.length 0x80

/-- mode/ocb3/ocb3.go:226-241: loop over whole blocks of the additional data, state (off, sum, i). -/
def ocb3HashLoop (c : BlockCipher) (x : Ocb3) : Nat → U128 → U128 → Nat → Bytes → U128 × U128 × Bytes
  | 0, off, s, _, a => (off, s, a)
  | fuel + 1, off, s, i, a =>
    if 16 ≤ a.length then
      let off := off.xor (x.L.getD (Spec.ntz i % x.L.length) ⟨0, 0⟩)
      ocb3HashLoop c x fuel off (s.xor (U128.cipher c.E ((U128.of (a.take 16)).xor off))) (i + 1) (a.drop 16)
    else (off, s, a)

/-- mode/ocb3/ocb3.go:221-258 `hash`. -/
def ocb3Hash (c : BlockCipher) (x : Ocb3) (ad : Bytes) : U128 :=
  let r := ocb3HashLoop c x (ad.length + 1) ⟨0, 0⟩ ⟨0, 0⟩ 1 ad
  if 0 < r.2.2.length then
    r.2.1.xor (U128.cipher c.E ((U128.of (ocb3Pad r.2.2)).xor (r.1.xor x.Lstar)))
  else r.2.1

/-- mode/ocb3/ocb3.go:286-304: one round of `Seal`, state (off, ck, i); the index of `L` is below 58 because of the size
limit (getD never uses its default, see `ocb3_ntz_lt`). -/
def ocb3SealStep (c : BlockCipher) (x : Ocb3) (s : U128 × U128 × Nat) (b : Bytes) : Bytes × (U128 × U128 × Nat) :=
  let off := s.1.xor (x.L.getD (Spec.ntz s.2.2) ⟨0, 0⟩)
  let p := U128.of b
  (((U128.cipher c.E (p.xor off)).xor off).bytes, (off, s.2.1.xor p, s.2.2 + 1))

/-- mode/ocb3/ocb3.go:383-403: one round of `Open`. -/
def ocb3OpenStep (c : BlockCipher) (x : Ocb3) (s : U128 × U128 × Nat) (b : Bytes) : Bytes × (U128 × U128 × Nat) :=
  let off := s.1.xor (x.L.getD (Spec.ntz s.2.2) ⟨0, 0⟩)
  let p := (U128.cipher c.D ((U128.of b).xor off)).xor off
  (p.bytes, (off, s.2.1.xor p, s.2.2 + 1))

/-- mode/ocb3/ocb3.go:330-340, 429-439: the tag from the final offset and checksum. -/
def ocb3Tag (c : BlockCipher) (x : Ocb3) (off ck : U128) (ad : Bytes) : Bytes :=
  ((U128.cipher c.E (ck.xor (off.xor x.Ldollar))).xor (ocb3Hash c x ad)).bytes

/-- mode/ocb3/ocb3.go:260-350 `Seal`. `writeTag` (490-504) stores the first `tagSize` bytes of the tag, which for
`tagSize = 16` is the other branch. -/
def ocb3Seal (c : BlockCipher) (x : Ocb3) (h : Heap) (dst nonce pt ad : Slice) : Res (Heap × Slice) :=
  if nonce.len ≠ x.nonceSize then .panic
  else if pt.len > 2 ^ 52 ∨ 2 ^ 52 - pt.len < ad.len then .panic
  else
    let a := sliceForAppend h dst (pt.len + x.tagSize)
    let out := a.2.2
    if inexactOverlap out pt then .panic
    else do
      let off ← ocb3Init c x (a.1.bytes nonce)
      let q := pt.len / 16
      let r := memBlocks (ocb3SealStep c x) q a.1.mem out.ptr pt.ptr (off, ⟨0, 0⟩, 1)
      let m := r.1
      let rem := pt.len % 16
      if 0 < rem then
        let off := r.2.1.xor x.Lstar
        let pad := (U128.cipher c.E off).bytes
        let m := m.write (out.ptr + 16 * q) (xorb (m.read (pt.ptr + 16 * q) rem) pad)
        let ck := r.2.2.1.xor (U128.of (ocb3Pad (m.read (pt.ptr + 16 * q) rem)))
        .ok (⟨m.write (out.ptr + pt.len) ((ocb3Tag c x off ck (m.read ad.ptr ad.len)).take x.tagSize), a.1.brk⟩, a.2.1)
      else
        .ok (⟨m.write (out.ptr + pt.len) ((ocb3Tag c x r.2.1 r.2.2.1 (m.read ad.ptr ad.len)).take x.tagSize), a.1.brk⟩, a.2.1)

/-- mode/ocb3/ocb3.go:446-452: compare the tags; on a mismatch the `n` bytes of what is left of `out` are cleared. -/
def ocb3Finish (x : Ocb3) (m : Mem) (brk : Nat) (ret : Slice) (tag expected : Bytes) (p n : Nat) : Res (Heap × Option Slice) :=
  if expected.take x.tagSize ≠ tag then .ok (⟨m.write p (List.replicate n 0), brk⟩, none)
  else .ok (⟨m, brk⟩, some ret)

/-- mode/ocb3/ocb3.go:352-453 `Open`. The subtraction in line 364 is exact because of the check before it. -/
def ocb3Open (c : BlockCipher) (x : Ocb3) (h : Heap) (dst nonce ct ad : Slice) : Res (Heap × Option Slice) :=
  if nonce.len ≠ x.nonceSize then .panic
  else if ct.len < x.tagSize then .ok (h, none)
  else if ct.len > 2 ^ 52 ∨ 2 ^ 52 + x.tagSize - ct.len < ad.len then .panic
  else
    let n := ct.len - x.tagSize
    let a := sliceForAppend h dst n
    let out := a.2.2
    if inexactOverlap out ct then .panic
    else do
      let off ← ocb3Init c x (a.1.bytes nonce)
      let q := n / 16
      let r := memBlocks (ocb3OpenStep c x) q a.1.mem out.ptr ct.ptr (off, ⟨0, 0⟩, 1)
      let m := r.1
      let rem := n % 16
      if 0 < rem then
        let off := r.2.1.xor x.Lstar
        let pad := (U128.cipher c.E off).bytes
        let m := m.write (out.ptr + 16 * q) (xorb (m.read (ct.ptr + 16 * q) rem) pad)
        let ck := r.2.2.1.xor (U128.of (ocb3Pad (m.read (out.ptr + 16 * q) rem)))
        ocb3Finish x m a.1.brk a.2.1 (m.read (ct.ptr + n) x.tagSize) (ocb3Tag c x off ck (m.read ad.ptr ad.len))
          (out.ptr + 16 * q) rem
      else
        ocb3Finish x m a.1.brk a.2.1 (m.read (ct.ptr + n) x.tagSize) (ocb3Tag c x r.2.1 r.2.2.1 (m.read ad.ptr ad.len))
          (out.ptr + 16 * q) rem

end Verif.Aead
