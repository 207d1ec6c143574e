import Verif.Hash.Rabin
/-
Model of hash/rabin/chunker.go. Positions in the stream are numbers without a bound; in Go they are uint64.
-/
namespace Verif.Rabin

/-- A reader: the bytes it has still to deliver and the number of calls of Read so far. -/
structure Rd where
  data : Bytes
  calls : Nat
/-- How it behaves. It may deliver fewer bytes than asked for, at least one, differently at each call (`sz`); it may report the end together with the last bytes (`eager`) or
by a further call, as io.Reader allows; it may have a method Discard (`disc`). -/
structure Env where
  sz : Nat → Nat
  eager : Bool
  disc : Bool

/-- `Read(p)` with `len(p) = k`: the bytes, and whether the error is io.EOF. -/
def Rd.read (e : Env) (r : Rd) (k : Nat) : Bytes × Bool × Rd :=
  if r.data = [] then ([], true, { r with calls := r.calls + 1 })
  else
    let n := min k (e.sz r.calls + 1)
    (r.data.take n, e.eager && (r.data.drop n).isEmpty, ⟨r.data.drop n, r.calls + 1⟩)

/-- `Chunker` (hash/rabin/chunker.go:11-33). The only error of these readers is io.EOF, and they never return nothing without an error, so `ioErr` is a Bool. -/
structure Ck where
  tab : Table
  rd : Rd
  buf : Bytes
  head : Nat
  tail : Nat
  mn : Nat
  mx : Nat
  mask : BitVec 64
  ioErr : Bool

/-- `for 1<<logBufSize < table.window*2 { logBufSize++ }` (hash/rabin/chunker.go:79-85). -/
def bufLog (w : Nat) : Nat → Nat → Nat
  | 0, l => l
  | f + 1, l => if 2 ^ l < w * 2 then bufLog w f (l + 1) else l

/-- `NewChunker` (hash/rabin/chunker.go:65-93); the four panics. -/
def newChunker (t : Table) (data : Bytes) (mn avg mx : Int) : Res Ck :=
  if t.window ≤ 0 then .panic
  else if mn < t.window then .panic
  else if mx < mn then .panic
  else if BitVec.ofInt 64 avg &&& (BitVec.ofInt 64 avg - 1) ≠ 0 then .panic
  else .ok { tab := t, rd := ⟨data, 0⟩, buf := List.replicate (2 ^ bufLog t.window.toNat t.window.toNat 10) 0, head := 0, tail := 0,
             mn := mn.toNat, mx := mx.toNat, mask := BitVec.ofInt 64 avg - 1, ioErr := false }

/-- The loop of `discard` (hash/rabin/chunker.go:216-230): whether it ended with an error. The bytes read go to the beginning of the buffer. `f` bounds the number of
iterations; more than `n` are not needed. -/
def discardLoop (e : Env) : Nat → Nat → Ck → Res (Bool × Ck)
  | 0, _, _ => .hang
  | f + 1, n, c =>
    if n = 0 then .ok (false, c)
    else
      let r := c.rd.read e (min c.buf.length n)
      let c := { c with rd := r.2.2, buf := r.1 ++ c.buf.drop r.1.length, tail := c.tail + r.1.length }
      if r.2.1 then .ok (true, { c with ioErr := true }) else discardLoop e f (n - r.1.length) c
/-- `discard` (hash/rabin/chunker.go:200-232). A reader's own Discard skips `n` bytes, or what there is, with io.EOF. -/
def discard (e : Env) (n : Nat) (c : Ck) : Res (Bool × Ck) :=
  if c.ioErr then .ok (true, c)
  else if e.disc then
    let m := min n c.rd.data.length
    .ok (m < n, { c with rd := ⟨c.rd.data.drop m, c.rd.calls⟩, tail := c.tail + m, ioErr := m < n })
  else discardLoop e (n + 1) n c

/-- `more` (hash/rabin/chunker.go:236-264): whether it returned an error. `x & bufMask` is `x` modulo the length of the buffer, a power of two. -/
def more (e : Env) (c : Ck) : Bool × Ck :=
  if c.ioErr then (true, c)
  else
    let wtail := c.tail % c.buf.length
    let whead := c.head % c.buf.length
    let k := if whead ≤ wtail then c.buf.length - wtail else whead - wtail
    let r := c.rd.read e k
    if 0 < r.1.length then
      (false, { c with rd := r.2.2, buf := c.buf.take wtail ++ r.1 ++ c.buf.drop (wtail + r.1.length), tail := c.tail + r.1.length, ioErr := r.2.1 })
    else (true, { c with rd := r.2.2, ioErr := true })

/-- `for c.tail < c.head+window` (hash/rabin/chunker.go:141-149): whether it ended with an error. -/
def prime (e : Env) (w : Nat) : Nat → Ck → Res (Bool × Ck)
  | 0, _ => .hang
  | f + 1, c =>
    if c.tail < c.head + w then
      let r := more e c
      if r.1 then .ok (true, r.2) else prime e w f r.2
    else .ok (false, c)

/-- The loop that looks for a boundary (hash/rabin/chunker.go:167-187): the position it stops at. -/
def seek (e : Env) (w limit : Nat) : Nat → Nat → Nat → BitVec 64 → Ck → Res (Nat × Ck)
  | 0, _, _, _, _ => .hang
  | f + 1, head, refill, hash, c =>
    if hash &&& c.mask ≠ c.mask ∧ head < limit then
      let go (refill : Nat) (c : Ck) : Res (Nat × Ck) :=
        let pop := c.buf.getD (head % c.buf.length) 0
        let push := c.buf.getD ((head + w) % c.buf.length) 0
        seek e w limit f (head + 1) refill (step c.tab (hash ^^^ c.tab.pop.getD pop.toNat 0) push) c
      if head = refill then
        let r := more e { c with head := head }
        if r.1 then .ok (head, r.2) else go (r.2.tail - w) r.2
      else go refill c
    else .ok (head, c)

/-- `Next` (hash/rabin/chunker.go:112-196): the length, and whether the error is io.EOF. -/
def next (e : Env) (c : Ck) : Res ((Nat × Bool) × Ck) :=
  if c.ioErr then .ok ((0, true), c)
  else
    let start := c.head
    let w := c.tab.window.toNat
    let c := { c with head := c.head + (c.mn - w) }
    (if c.tail < c.head then discard e (c.head - c.tail) c else .ok (false, c)).bind fun r =>
      let c := r.2
      if r.1 then .ok ((c.tail - start, false), c)
      else (prime e w (w + 1) c).bind fun r =>
        let c := r.2
        if r.1 then (if c.tail ≠ start then .ok ((c.tail - start, false), c) else .ok ((0, true), c))
        else
          let b := c.buf.drop (c.head % c.buf.length)
          let b1 := if w ≤ b.length then b.take w else b
          let b2 := if w ≤ b.length then [] else c.buf.take (w - b.length)
          let hash := update c.tab (update c.tab 0 b1) b2
          (seek e w (start + c.mx - w) (c.mx + 1) c.head (c.tail - w) hash c).bind fun r =>
            .ok ((r.1 + w - start, false), { r.2 with head := r.1 + w })

/-- `Reset` (hash/rabin/chunker.go:104-107), with the reader then at `data`. -/
def resetCk (c : Ck) (data : Bytes) : Ck := { c with head := 0, tail := 0, ioErr := false, rd := ⟨data, c.rd.calls⟩ }

end Verif.Rabin
