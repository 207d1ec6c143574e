import Verif.Stream.Base
import Verif.Cipher.Common
/-
Model of /repo/gm/zuc: the ZUC-128 and ZUC-256 key stream generators, the stream ciphers over them, 128-EEA3
and the incremental `Zuc` object.

Simplifications.  Buffers are lists, with the length and the capacity of a slice equal, so `out[:4]` panics when
fewer than four bytes are left.  `out` and `in` are separate or the same bytes (the word-by-word loop reads a word
of `in` before it writes the word of `out`, so both behave alike), except in `EeaEncrypt`, where the two cases
differ and are both modelled.  When a call panics, what it wrote before that is not modelled.
-/
namespace Verif.Zuc
open Verif.Cipher

abbrev W := BitVec 32

/-- gm/zuc/sbox.go:3-6 `KD`. -/
def KD : List W :=
  [0x44D7, 0x26BC, 0x626B, 0x135E, 0x5789, 0x35E2, 0x7135, 0x09AF,
   0x4D78, 0x2F13, 0x6BC4, 0x1AF1, 0x5E26, 0x3C4D, 0x789A, 0x47AC]

/-- gm/zuc/sbox.go:8-25 `S0`, entry 0 in the most significant digits. -/
def S0N : Nat :=
  0x3e725b47cae0003304d1549809b96dcb7b1bf932af9d6aa5b82dfc1d085303904d4e8499e4ced991ddb685488b296eaccdc1f81e734369c6b5bdfd396320d438767db2a7cfed57c5f32cbb142106559be3ef5e314f7f5aa40d8251495fba581c4a16d517a892241f8cffd8ae2e01d3ad3b4bda46ebc9de9a8f87d73a806f2fc8b1b437f70a2213287ccc3c89c7c3965607bf7ef00b2b975235417961a64c10febc2695888ab0a3fbc01894f2e1e5e95dd0dc1166645cec59427512f5749caa230e86abbe2a02e767e644a26cc2939ff1f6fa36d250689e6271153dd640c4e20f8e83776b25053f0c30ea70b7a1e8a9658d271adb81b3a0f4457a19dfee783460
/-- gm/zuc/sbox.go:27-44 `S1`, entry 0 in the most significant digits. -/
def S1N : Nat :=
  0x55c263713bc847869f3cda5b29aafd778cc5940ca61a1300e3a8167240f9f8424426689681d9453e1076c6a78b3943e13ab5562ac06db3052266bfdc0bfa6248dd20110636c9c1cff62752bb69f5d4877f844cd29c57a4bc4f9adffed68d7aeb2b53d85ca11417fb23d57d3067730809eeb7703f61b2198e4ee54b938f5ddba9adf1ae2ecb0dfcf42d466e1d97e8d1e94d37a5755e839eab829db91ce0cd498901b6bd5824a25f387899159050b895e4d091c7ceed0fb46fa0ccf0024a79c3dea3efea51e66b18ec1b2c80f774e7ff215a6a541e41319235c433070aba7e0e3488b1987cf33d606c7bcad31f3265042864be859b2f598ad7b025acaf1203e2f2

/-- gm/zuc/sbox.go:8-25, one entry (the index, a `uint32` below 256 in every use). -/
def S0 (x : W) : Byte := BitVec.ofNat 8 (S0N >>> (8 * (255 - x.toNat)))
/-- gm/zuc/sbox.go:27-44, one entry. -/
def S1 (x : W) : Byte := BitVec.ofNat 8 (S1N >>> (8 * (255 - x.toNat)))

/-- gm/zuc/utils.go:57-59 `GETU32` of the first four bytes (missing bytes read as 0: every use has four). -/
def getU32 (b : Bytes) : W :=
  (b.getD 0 0).setWidth 32 <<< 24 ||| (b.getD 1 0).setWidth 32 <<< 16 ||| (b.getD 2 0).setWidth 32 <<< 8 |||
    (b.getD 3 0).setWidth 32
/-- gm/zuc/utils.go:61-63 `PUTU32`. -/
def putU32 (a : W) : Bytes := [(a >>> 24).setWidth 8, (a >>> 16).setWidth 8, (a >>> 8).setWidth 8, a.setWidth 8]

/-- gm/zuc/utils.go:65-67 `ROT31`. -/
def rot31 (a : W) (k : Nat) : W := ((a <<< k) ||| (a >>> (31 - k))) &&& 0x7FFFFFFF#32
/-- gm/zuc/utils.go:69-71 `ROT32`. -/
def rot32 (a : W) (k : Nat) : W := (a <<< k) ||| (a >>> (32 - k))
/-- gm/zuc/utils.go:73-76 `ADD31`. -/
def add31 (a b : W) : W := ((a + b) &&& 0x7fffffff#32) + ((a + b) >>> 31)
/-- gm/zuc/utils.go:78-84 `L1`. -/
def l1 (x : W) : W := x ^^^ rot32 x 2 ^^^ rot32 x 10 ^^^ rot32 x 18 ^^^ rot32 x 24
/-- gm/zuc/utils.go:86-92 `L2`. -/
def l2 (x : W) : W := x ^^^ rot32 x 8 ^^^ rot32 x 14 ^^^ rot32 x 22 ^^^ rot32 x 30

/-- A register cell. -/
def at' (l : List W) (i : Nat) : W := l.getD i 0

/-- gm/zuc/utils.go:94-109 `LFSRWithInitialisationMode` (the shift loop as drop-and-append). -/
def lfsrInit (u : W) (l : List W) : List W :=
  let v := at' l 0
  let v := add31 v (rot31 (at' l 0) 8)
  let v := add31 v (rot31 (at' l 4) 20)
  let v := add31 v (rot31 (at' l 10) 21)
  let v := add31 v (rot31 (at' l 13) 17)
  let v := add31 v (rot31 (at' l 15) 15)
  let v := add31 v u
  l.drop 1 ++ [v]

/-- gm/zuc/utils.go:112-122, the feedback value of `LFSRWithWorkMode`, in 64 bits. -/
def workVal (l : List W) : W :=
  let a : BitVec 64 := (at' l 0).setWidth 64
  let a := a + (at' l 0).setWidth 64 <<< 8
  let a := a + (at' l 4).setWidth 64 <<< 20
  let a := a + (at' l 10).setWidth 64 <<< 21
  let a := a + (at' l 13).setWidth 64 <<< 17
  let a := a + (at' l 15).setWidth 64 <<< 15
  let a := (a &&& 0x7fffffff#64) + (a >>> 31)
  ((a &&& 0x7fffffff#64) + (a >>> 31)).setWidth 32

/-- gm/zuc/utils.go:111-129 `LFSRWithWorkMode`. -/
def lfsrWork (l : List W) : List W := l.drop 1 ++ [workVal l]

/-- gm/zuc/utils.go:136-138 `BitReconstruction3`, X0. -/
def br0 (l : List W) : W := ((at' l 15 &&& 0x7FFF8000#32) <<< 1) ||| (at' l 14 &&& 0xFFFF#32)
/-- gm/zuc/utils.go:131-134 `BitReconstruction2`, X1. -/
def br1 (l : List W) : W := ((at' l 11 &&& 0xFFFF#32) <<< 16) ||| (at' l 9 >>> 15)
/-- gm/zuc/utils.go:131-134 `BitReconstruction2`, X2. -/
def br2 (l : List W) : W := ((at' l 7 &&& 0xFFFF#32) <<< 16) ||| (at' l 5 >>> 15)
/-- gm/zuc/utils.go:142-146 `BitReconstruction4`, X3. -/
def br3 (l : List W) : W := ((at' l 2 &&& 0xFFFF#32) <<< 16) ||| (at' l 0 >>> 15)

/-- gm/zuc/utils.go:148-152 `MAKEU31`. -/
def makeU31 (k : Byte) (d : W) (iv : Byte) : W := k.setWidth 32 <<< 23 ||| d <<< 8 ||| iv.setWidth 32
/-- gm/zuc/utils.go:154-159 `MAKEU32`. -/
def makeU32 (a b c d : Byte) : W :=
  a.setWidth 32 <<< 24 ||| b.setWidth 32 <<< 16 ||| c.setWidth 32 <<< 8 ||| d.setWidth 32

/-- gm/zuc/utils.go:168-173, 174-179, the four table lookups on a word. -/
def sub (u : W) : W := makeU32 (S0 (u >>> 24)) (S1 ((u >>> 16) &&& 0xFF#32)) (S0 ((u >>> 8) &&& 0xFF#32)) (S1 (u &&& 0xFF#32))

/-- gm/zuc/utils.go:161-180 `F_`: the new R1 and R2. -/
def f' (r1 r2 x1 x2 : W) : W × W :=
  let w1 := r1 + x1
  let w2 := r2 ^^^ x2
  let u := l1 ((w1 <<< 16) ||| (w2 >>> 16))
  let v := l2 ((w2 <<< 16) ||| (w1 >>> 16))
  (sub u, sub v)

/-- gm/zuc/zuc.go:7-11 `ZucState`; gm/zuc/zuc256.go:29-33 `Zuc256State` has the same fields and is cast to it. -/
structure St where
  lfsr : List W
  r1 : W
  r2 : W
deriving DecidableEq

/-- gm/zuc/zuc.go:41-45, gm/zuc/zuc256.go:108-112, one initialisation round: `W = F(…)`, then the register with `W >> 1`.
gm/zuc/utils.go:182-188 `F` returns `(X0 ^ R1) + R2` for the old R1 and R2. -/
def initRound (s : St) : St :=
  let w := (br0 s.lfsr ^^^ s.r1) + s.r2
  let r := f' s.r1 s.r2 (br1 s.lfsr) (br2 s.lfsr)
  ⟨lfsrInit (w >>> 1) s.lfsr, r.1, r.2⟩

/-- gm/zuc/zuc.go:47-49: `F_` and one work step, nothing output. -/
def workRound (s : St) : St :=
  let r := f' s.r1 s.r2 (br1 s.lfsr) (br2 s.lfsr)
  ⟨lfsrWork s.lfsr, r.1, r.2⟩

/-- gm/zuc/zuc.go:38-53, gm/zuc/zuc256.go:105-120: from the loaded register on. -/
def start (l : List W) : St := workRound (Strm.iterate initRound 32 ⟨l, 0, 0⟩)

/-- gm/zuc/zuc.go:28-53 `init`: an index past the end of key or iv panics (`SetEeaKey` passes the key unchecked). -/
def init (key iv : Bytes) : Res St :=
  if key.length < 16 ∨ iv.length < 16 then .panic
  else .ok (start ((List.range 16).map fun i => makeU31 (key.getD i 0) (at' KD i) (iv.getD i 0)))

/-- gm/zuc/zuc.go:13-26 `NewZucState`. -/
def newState (key iv : Bytes) : Res St :=
  if key.length ≠ 16 then .panic else if iv.length ≠ 16 then .panic else init key iv

/-- gm/zuc/zuc.go:55-69 `GenerateKeyword`. -/
def keyword (s : St) : W × St :=
  (br3 s.lfsr ^^^ ((br0 s.lfsr ^^^ s.r1) + s.r2), workRound s)

/-- gm/zuc/zuc.go:71-85 `GenerateKeystream`: the words, for a buffer that is long enough. -/
def keywords : Nat → St → List W × St
  | 0, s => ([], s)
  | n + 1, s =>
    let r := keyword s
    let t := keywords n r.2
    (r.1 :: t.1, t.2)

/-- gm/zuc/zuc.go:101-121, the loop over whole words and the last part: the bytes written, `none` when `out` is too
short for `in`. -/
def encGo : Nat → Bytes → Nat → St → Option (Bytes × St)
  | 0, inp, outLen, s =>
    if 0 < inp.length then
      if outLen < inp.length then none
      else some (xorb inp ((putU32 (keyword s).1).take inp.length), (keyword s).2)
    else some ([], s)
  | n + 1, inp, outLen, s =>
    if outLen < 4 then none
    else match encGo n (inp.drop 4) (outLen - 4) (keyword s).2 with
      | some (o, s') => some (xorb (inp.take 4) (putU32 (keyword s).1) ++ o, s')
      | none => none

/-- gm/zuc/zuc.go:87-124 `Encrypt(out, in)`: the new contents of `out` and the new state.  gm/zuc/cipher.go:27-29,
58-60, 87-89 `XORKeyStream(dst, src)` is this, and so is gm/zuc/zuc256.go:144-150. -/
def encrypt (s : St) (out inp : Bytes) : Res (Bytes × St) :=
  match encGo (inp.length / 4) inp out.length s with
  | some (o, s') => .ok (o ++ out.drop o.length, s')
  | none => .panic

/-- gm/zuc/cipher.go:12-25 `NewCipher`. -/
def newCipher (key iv : Bytes) : Res St := if key.length ≠ 16 then .err else newState key iv

/-- gm/zuc/zuc256.go:3-20 `ZUC256_D`. -/
def D256 : List Bytes :=
  [[0x22, 0x2F, 0x24, 0x2A, 0x6D, 0x40, 0x40, 0x40, 0x40, 0x40, 0x40, 0x40, 0x40, 0x52, 0x10, 0x30],
   [0x22, 0x2F, 0x25, 0x2A, 0x6D, 0x40, 0x40, 0x40, 0x40, 0x40, 0x40, 0x40, 0x40, 0x52, 0x10, 0x30],
   [0x23, 0x2F, 0x24, 0x2A, 0x6D, 0x40, 0x40, 0x40, 0x40, 0x40, 0x40, 0x40, 0x40, 0x52, 0x10, 0x30],
   [0x23, 0x2F, 0x25, 0x2A, 0x6D, 0x40, 0x40, 0x40, 0x40, 0x40, 0x40, 0x40, 0x40, 0x52, 0x10, 0x30]]

/-- gm/zuc/zuc256.go:22-27 `ZUC256_MAKEU31`. -/
def make256 (a b c d : Byte) : W := a.setWidth 32 <<< 23 ||| b.setWidth 32 <<< 16 ||| c.setWidth 32 <<< 8 ||| d.setWidth 32

/-- gm/zuc/zuc256.go:73-103, the loaded register. -/
def load256 (D K IV : Bytes) : List W :=
  let d := fun i => D.getD i 0
  let k := fun i => K.getD i 0
  let v := fun i => IV.getD i 0
  let iv17 := v 17 >>> 2
  let iv18 := ((v 17 &&& 0x3#8) <<< 4) ||| (v 18 >>> 4)
  let iv19 := ((v 18 &&& 0xf#8) <<< 2) ||| (v 19 >>> 6)
  let iv20 := v 19 &&& 0x3f#8
  let iv21 := v 20 >>> 2
  let iv22 := ((v 20 &&& 0x3#8) <<< 4) ||| (v 21 >>> 4)
  let iv23 := ((v 21 &&& 0xf#8) <<< 2) ||| (v 22 >>> 6)
  let iv24 := v 22 &&& 0x3f#8
  [make256 (k 0) (d 0) (k 21) (k 16), make256 (k 1) (d 1) (k 22) (k 17), make256 (k 2) (d 2) (k 23) (k 18),
   make256 (k 3) (d 3) (k 24) (k 19), make256 (k 4) (d 4) (k 25) (k 20), make256 (v 0) (d 5 ||| iv17) (k 5) (k 26),
   make256 (v 1) (d 6 ||| iv18) (k 6) (k 27), make256 (v 10) (d 7 ||| iv19) (k 7) (v 2),
   make256 (k 8) (d 8 ||| iv20) (v 3) (v 11), make256 (k 9) (d 9 ||| iv21) (v 12) (v 4),
   make256 (v 5) (d 10 ||| iv22) (k 10) (k 28), make256 (k 11) (d 11 ||| iv23) (v 6) (v 13),
   make256 (k 12) (d 12 ||| iv24) (v 7) (v 14), make256 (k 13) (d 13) (v 15) (v 8),
   make256 (k 14) (d 14 ||| (k 31 >>> 4)) (v 16) (v 9), make256 (k 15) (d 15 ||| (k 31 &&& 0x0F#8)) (k 30) (k 29)]

/-- gm/zuc/zuc256.go:82-86: the row of the constant table, by Go's division towards zero; a negative row panics. -/
def row256 (macbits : Int) : Res Bytes :=
  if macbits.tdiv 32 < 3 then
    if macbits.tdiv 32 < 0 then .panic else .ok (D256.getD (macbits.tdiv 32).toNat [])
  else .ok (D256.getD 3 [])

/-- gm/zuc/zuc256.go:50-63 `NewZuc256StateWithMacbits` with `setMacKey`; gm/zuc/zuc256.go:35-48 `NewZuc256State` is
this with 0. -/
def newState256 (key iv : Bytes) (macbits : Int) : Res St :=
  if key.length ≠ 32 then .panic else if iv.length ≠ 23 then .panic
  else (row256 macbits).bind fun d => .ok (start (load256 d key iv))

/-- gm/zuc/cipher.go:43-56 `New256CipherWithMacbits`; gm/zuc/cipher.go:38-40 `New256Cipher` is this with 0. -/
def newCipher256 (key iv : Bytes) (macbits : Int) : Res St :=
  if key.length ≠ 32 then .err else newState256 key iv macbits

/-- gm/zuc/eea.go:4-15, the iv of `SetEeaKey`. -/
def eeaIV (count bearer direction : W) : Bytes :=
  let b0 : Byte := (count >>> 24).setWidth 8
  let b1 : Byte := (count >>> 16).setWidth 8
  let b2 : Byte := (count >>> 8).setWidth 8
  let b3 : Byte := count.setWidth 8
  let b4 : Byte := (((bearer <<< 1) ||| (direction &&& 1)) <<< 2).setWidth 8
  [b0, b1, b2, b3, b4, 0, 0, 0, b0, b1, b2, b3, b4, 0, 0, 0]

/-- gm/zuc/eea.go:3-18 `SetEeaKey`. -/
def setEeaKey (key : Bytes) (count bearer direction : W) : Res St := init key (eeaIV count bearer direction)

/-- gm/zuc/cipher.go:69-85 `NewEEACipher`. -/
def newEEACipher (key : Bytes) (count bearer direction : W) : Res St :=
  if key.length ≠ 16 then .err else setEeaKey key count bearer direction

/-- gm/zuc/eea.go:20-43 `EeaEncrypt(in, out, nbits, …)`, nbits not negative: the new contents of `out`.  `same` says
that `in` and `out` are the same slice, which the key stream overwrites before it is read. -/
def eeaEncrypt (inp out : List W) (same : Bool) (nbits : Nat) (key : Bytes) (count bearer direction : W) : Res (List W) :=
  (setEeaKey key count bearer direction).bind fun s =>
    let nwords := (nbits + 31) / 32
    if out.length < nwords ∨ inp.length < nwords then .panic
    else
      let ks := (keywords nwords s).1
      let src := if same then ks else inp.take nwords
      let o := List.zipWith (· ^^^ ·) ks src
      let o := if nbits % 32 ≠ 0 then o.set (nwords - 1) (at' o (nwords - 1) &&& (0xffffffff <<< (32 - nbits % 32))) else o
      .ok (o ++ out.drop nwords)

/-- gm/zuc/eea.go:90-94 `Zuc`: the state, the pending bytes (the first `block_nbytes` of `block`; the others are
never read). -/
structure Obj where
  s : St
  pend : Bytes
deriving DecidableEq

/-- gm/zuc/eea.go:96-116 `NewZucEncrypt`, `NewZucDecrypt`. -/
def newZuc (key iv : Bytes) : Res Obj := (newState key iv).bind fun s => .ok ⟨s, []⟩

/-- gm/zuc/eea.go:153-172, the part of `Write` after the pending block: whole words, then what is left. -/
def objRest (s : St) (done : Bytes) (inp out : Bytes) : Res (Bytes × Obj) :=
  if 4 ≤ inp.length then
    let d := inp.length / 4 * 4
    (encrypt s out (inp.take d)).bind fun r => .ok (done ++ r.1, ⟨r.2, inp.drop d⟩)
  else .ok (done ++ out, ⟨s, inp⟩)

/-- gm/zuc/eea.go:118-173 `Write(in, out)`: the new contents of `out`. -/
def objWrite (z : Obj) (inp out : Bytes) : Res (Bytes × Obj) :=
  if z.pend.length ≥ 4 then .panic
  else if 0 < z.pend.length then
    let left := 4 - z.pend.length
    if inp.length < left then .ok (out, ⟨z.s, z.pend ++ inp⟩)
    else
      (encrypt z.s out (z.pend ++ inp.take left)).bind fun r =>
        objRest r.2 (r.1.take 4) (inp.drop left) (r.1.drop 4)
  else objRest z.s [] inp out

/-- gm/zuc/eea.go:175-185 `Sum(data)`. -/
def objSum (z : Obj) (data : Bytes) : Res (Bytes × Obj) :=
  if z.pend.length ≥ 4 then .panic
  else (encrypt z.s (List.replicate z.pend.length 0) z.pend).bind fun r => .ok (data ++ r.1, ⟨r.2, z.pend⟩)

end Verif.Zuc
