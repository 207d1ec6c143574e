import Verif.Mode.StreamModel
/-
Model of /repo/mode/wrap.go (RFC 3394) and wrap_pad.go (RFC 5649).  The objects hold only `iv`, which no call
changes (`copy(x.iv, iv)` copies a slice onto itself), so the methods are functions of the memory.
Every write of the inner loop goes to `R`, a part of dst; the loop is modelled on the contents of
`dst[8:8+inlen]` (resp. `out[:inlen]`) and stored at the end: nothing else reads memory meanwhile.
-/
namespace Verif.Mode

/-- mode/wrap.go:9-12 -/
def wrapDefaultIv : Bytes := List.replicate 8 0xA6

/-- mode/wrap.go:14-17 -/
def wrapDefaultAiv : Bytes := [0xA6, 0x59, 0x59, 0xA6]

/-- mode/wrap.go:21 -/
def wrapMax : Nat := 2 ^ 31

/-- mode/wrap.go:29-47 `newWrap`; `none` is a nil iv.  The result is the buffer `x.iv`. -/
def wrapNew (c : BlockCipher) (iv : Option Bytes) : Res Bytes :=
  let iv := iv.getD wrapDefaultIv
  if iv.length < 8 then .panic else .ok (copyInto (List.replicate c.bs 0) iv)

/-- `b.Encrypt(A, A)` on a 16-byte buffer: only the first block of it is encrypted. -/
def wrapCrypt (bs : Nat) (f : Bytes → Bytes) (A : Bytes) : Bytes := f (A.take bs) ++ A.drop bs

/-- mode/wrap.go:108-113, 214-219 : XOR the step number into bytes 4..7 of `A`. -/
def wrapXorT (A : Bytes) (t : Nat) : Bytes :=
  let A := A.set 7 (A.getD 7 0 ^^^ BitVec.ofNat 8 t)
  if t > 0xff then
    let A := A.set 6 (A.getD 6 0 ^^^ BitVec.ofNat 8 (t >>> 8))
    let A := A.set 5 (A.getD 5 0 ^^^ BitVec.ofNat 8 (t >>> 16))
    A.set 4 (A.getD 4 0 ^^^ BitVec.ofNat 8 (t >>> 24))
  else A

/-- mode/wrap.go:103-116, one iteration; `i` is the offset of `R`. -/
def wrapEncStep (c : BlockCipher) (t i : Nat) (s : Bytes × Bytes) : Bytes × Bytes :=
  let A := copyAt s.1 8 ((s.2.drop i).take 8)
  let A := wrapCrypt c.bs c.E A
  let A := wrapXorT A t
  (A, copyAt s.2 i (A.drop 8))

/-- mode/wrap.go:102-116, the loop over `i` (`n` iterations left). -/
def wrapEncPass (c : BlockCipher) : (n i t : Nat) → Bytes × Bytes → Bytes × Bytes
  | 0, _, _, s => s
  | n + 1, i, t, s => wrapEncPass c n (i + 8) (t + 1) (wrapEncStep c t i s)

/-- mode/wrap.go:97-117, the loop over `j` (`j` passes left); each pass adds `n` to `t`. -/
def wrapEncLoop (c : BlockCipher) (n : Nat) : (j t : Nat) → Bytes × Bytes → Bytes × Bytes
  | 0, _, s => s
  | j + 1, t, s => wrapEncLoop c n j (t + n) (wrapEncPass c n 0 t s)

/-- mode/wrap.go:75-122 `wrapEncrypter.CryptBlocks`.  `iv[:8]` panics for blocks shorter than 8 bytes, and the
ciphers of this repository panic when given a buffer shorter than their block. -/
def wrapEnc (c : BlockCipher) (iv : Bytes) (m : Mem) (dst src : Slice) : Res Mem :=
  if src.len % 8 ≠ 0 then .panic
  else if dst.len < src.len + 8 then .panic
  else if src.len < 16 ∨ src.len > wrapMax then .panic
  else if c.bs < 8 then .panic
  else if c.bs > 16 then .panic
  else
    let s := wrapEncLoop c (src.len / 8) 6 1 (iv.take 8 ++ List.replicate 8 0, m.read src.ptr src.len)
    .ok ((m.write (dst.ptr + 8) s.2).write dst.ptr (s.1.take 8))

/-- mode/wrap.go:214-225, one iteration; `o` is the offset of `R`. -/
def wrapDecStep (c : BlockCipher) (t o : Nat) (s : Bytes × Bytes) : Bytes × Bytes :=
  let A := wrapXorT s.1 t
  let A := copyAt A 8 ((s.2.drop o).take 8)
  let A := wrapCrypt c.bs c.D A
  (A, copyAt s.2 o (A.drop 8))

/-- mode/wrap.go:213-226, the loop over `i`: offsets `inlen-8-i`. -/
def wrapDecPass (c : BlockCipher) (inlen : Nat) : (n i t : Nat) → Bytes × Bytes → Bytes × Bytes
  | 0, _, _, s => s
  | n + 1, i, t, s => wrapDecPass c inlen n (i + 8) (t - 1) (wrapDecStep c t (inlen - 8 - i) s)

/-- mode/wrap.go:207-227, the loop over `j`. -/
def wrapDecLoop (c : BlockCipher) (n : Nat) : (j t : Nat) → Bytes × Bytes → Bytes × Bytes
  | 0, _, s => s
  | j + 1, t, s => wrapDecLoop c n j (t - n) (wrapDecPass c (8 * n) n 0 t s)

/-- mode/wrap.go:194-233 `cryptBlocks`: the recovered IV and the memory; `err` = the length check. -/
def wrapDecBlocks (c : BlockCipher) (m : Mem) (out inp : Slice) : Res (Bytes × Mem) :=
  let inlen := inp.len - 8
  if inp.len < 8 ∨ inlen % 8 ≠ 0 ∨ inlen < 16 ∨ inlen > wrapMax then .err
  else if c.bs > 16 then .panic
  else
    let s := wrapDecLoop c (inlen / 8) 6 (6 * (inlen / 8))
      (m.read inp.ptr 8 ++ List.replicate 8 0, m.read (inp.ptr + 8) inlen)
    .ok (s.1.take 8, m.write out.ptr s.2)

/-- mode/wrap.go:162-192 `wrapDecrypter.CryptBlocks`; errors and a wrong IV only zero dst. -/
def wrapDec (c : BlockCipher) (iv : Bytes) (m : Mem) (dst src : Slice) : Res Mem :=
  if src.len % 8 ≠ 0 then .panic
  else if dst.len + 8 < src.len then .panic
  else if src.len = 0 then .ok m
  else
    match wrapDecBlocks c m dst src with
    | .ok (gotIv, m') =>
      if c.bs < 8 then .panic
      else if gotIv ≠ iv.take 8 then .ok (m'.write dst.ptr (List.replicate (src.len - 8) 0))
      else .ok m'
    | .err => .ok (m.write dst.ptr (List.replicate (src.len - 8) 0))
    | .panic => .panic
    | .hang => .hang

/-- mode/wrap_pad.go:14-32 `newWrapPad` -/
def wrapPadNew (c : BlockCipher) (iv : Option Bytes) : Res Bytes :=
  let iv := iv.getD wrapDefaultAiv
  if iv.length < 4 then .panic else .ok (copyInto (List.replicate c.bs 0) iv)

/-- mode/wrap_pad.go:91-97 : the alternative initial value. -/
def wrapAiv (icv : Bytes) (inlen : Nat) : Bytes :=
  icv.take 4 ++ [BitVec.ofNat 8 (inlen >>> 24), BitVec.ofNat 8 (inlen >>> 16), BitVec.ofNat 8 (inlen >>> 8),
    BitVec.ofNat 8 inlen]

/-- mode/wrap_pad.go:60-117 `wrapPadEncrypter.CryptBlocks` (16-byte ciphers only). -/
def wrapPadEnc (c : BlockCipher) (icv : Bytes) (m : Mem) (dst src : Slice) : Res Mem :=
  if src.len % 8 ≠ 0 then .panic
  else if dst.len < src.len + 8 then .panic
  else
    let paddedLen := (src.len + 7) / 8 * 8
    if src.len = 0 ∨ src.len ≥ wrapMax then .ok m
    else if c.bs < 4 then .panic
    else if dst.len < paddedLen + 8 then .panic
    else
      let aiv := wrapAiv icv src.len
      if paddedLen = 8 then
        let m := (m.write (dst.ptr + 8) (m.read src.ptr src.len)).write dst.ptr aiv
        if dst.len < c.bs then .panic
        else .ok (c.encM m dst.ptr dst.ptr)
      else do
        let iv ← wrapNew c (some aiv)
        wrapEnc c iv m dst src

/-- The value `ptext_len` (mode/wrap_pad.go:230-233). -/
def wrapPtextLen (aiv : Bytes) : Nat :=
  (aiv.getD 4 0).toNat * 2 ^ 24 + (aiv.getD 5 0).toNat * 2 ^ 16 + (aiv.getD 6 0).toNat * 2 ^ 8
    + (aiv.getD 7 0).toNat

/-- mode/wrap_pad.go:215-249, after the AIV was recovered: the checks; `paddedLen` is 0 in the one-block case.
`zeros[:padding_len]` panics for a negative `padding_len`. -/
def wrapPadCheck (icv aiv : Bytes) (paddedLen : Nat) (m : Mem) (dst src : Slice) : Res Mem :=
  let n := src.len / 8 - 1
  let empty := List.replicate (src.len - 8) 0
  let ptextLen := wrapPtextLen aiv
  if aiv.take 4 ≠ icv.take 4 then .ok (m.write dst.ptr empty)
  else if 8 * (n - 1) ≥ ptextLen ∨ ptextLen > 8 * n then .ok (m.write dst.ptr empty)
  else if dst.len > ptextLen then
    if paddedLen < ptextLen then .panic
    else if m.read (dst.ptr + ptextLen) (dst.len - ptextLen) = List.replicate (paddedLen - ptextLen) 0 then
      .ok (m.write dst.ptr empty)
    else .ok m
  else .ok m

/-- mode/wrap_pad.go:153-250 `wrapPadDecrypter.CryptBlocks` (ciphers with blocks of at most 16 bytes). -/
def wrapPadDec (c : BlockCipher) (icv : Bytes) (m : Mem) (dst src : Slice) : Res Mem :=
  if src.len % 8 ≠ 0 then .panic
  else if dst.len + 8 < src.len then .panic
  else if src.len = 0 then .ok m
  else if src.len < 16 ∨ src.len > wrapMax then .ok m
  else if c.bs < 4 then .panic
  else if c.bs > 16 then .panic
  else if src.len = 16 then
    let buff := c.D (m.read src.ptr c.bs) ++ List.replicate (16 - c.bs) 0
    wrapPadCheck icv (buff.take 8) 0 (m.write dst.ptr ((buff.drop 8).take 8)) dst src
  else
    match wrapDecBlocks c m dst src with
    | .ok (aiv, m') => wrapPadCheck icv aiv (src.len - 8) m' dst src
    | .err => .ok (m.write dst.ptr (List.replicate (src.len - 8) 0))
    | .panic => .panic
    | .hang => .hang

end Verif.Mode
