import Verif.Go.Basic
import Verif.Alg.Gf2
/-
Model of hash/rabin: polynomials, tables and the rolling hash.
-/
namespace Verif.Rabin

/-! ### poly.go; a polynomial is the number whose bits are its coefficients -/

/-- `big.Int.BitLen`. -/
def bitLen (n : Nat) : Nat := if n = 0 then 0 else Nat.log2 n + 1
/-- The loop of `Mod` (hash/rabin/poly.go:88-93), from `i = n - 1` down to 0. -/
def modLoop (b db : Nat) : Nat → Nat → Nat
  | 0, out => out
  | i + 1, out => modLoop b db i (if out.testBit (i + db) then out ^^^ (b <<< i) else out)
/-- `Mod` (hash/rabin/poly.go:73-99), for `b ≠ 0`. The loop runs `da - db + 1` times, not at all if that is negative. -/
def polyMod (a b : Nat) : Nat := modLoop b (bitLen b - 1) (bitLen a + 1 - bitLen b) a

/-! ### rabin.go -/

/-- `Table` (hash/rabin/rabin.go:34-40). -/
structure Table where
  push : List (BitVec 64)
  pop : List (BitVec 64)
  degree : Nat
  shift : Nat
  window : Int

/-- `NewTable` (hash/rabin/rabin.go:57-96). `Uint64` of a longer number gives its low 64 bits. The pop table is left as zeros without a window. -/
def newTable (polynomial : BitVec 64) (window : Int) : Res Table :=
  let p := polynomial.toNat
  if bitLen p < 9 then .panic
  else
    let n := bitLen p - 1
    .ok { degree := n, shift := n - 8, window := window,
          push := (List.range 256).map fun i => BitVec.ofNat 64 (i <<< n ^^^ polyMod (i <<< n) p),
          pop := if 0 < window then (List.range 256).map fun i => BitVec.ofNat 64 (polyMod (i <<< ((window.toNat - 1) * 8)) p) else List.replicate 256 0 }

/-- One byte (hash/rabin/rabin.go:139-140). -/
def step (t : Table) (hash : BitVec 64) (b : Byte) : BitVec 64 :=
  let top := (hash >>> (t.shift % 64)).setWidth 8
  (hash <<< 8 ||| b.setWidth 64) ^^^ t.push.getD top.toNat 0
/-- `update` (hash/rabin/rabin.go:100-144). -/
def update (t : Table) (hash : BitVec 64) (p : Bytes) : BitVec 64 := p.foldl (step t) hash

/-- `Hash` (hash/rabin/rabin.go:149-154). -/
structure Obj where
  tab : Table
  hash : BitVec 64
  msg : Option Bytes
  pos : Nat

/-- `New` (hash/rabin/rabin.go:158-168). -/
def new (t : Table) : Obj := ⟨t, 0, if 0 < t.window then some (List.replicate t.window.toNat 0) else none, 0⟩
/-- `Reset` (hash/rabin/rabin.go:171-179). -/
def reset (h : Obj) : Obj :=
  match h.msg with
  | none => { h with hash := 0 }
  | some msg => { h with hash := 0, msg := some (List.replicate msg.length 0), pos := 0 }

/-- A step of the loop of `Write` (hash/rabin/rabin.go:231-241). -/
def roll (t : Table) (w : Nat) (s : Bytes × Nat × BitVec 64) (b : Byte) : Bytes × Nat × BitVec 64 :=
  let pop := s.1.getD s.2.1 0
  (s.1.set s.2.1 b, (if s.2.1 + 1 = w then 0 else s.2.1 + 1), step t (s.2.2 ^^^ t.pop.getD pop.toNat 0) b)

/-- `Write` (hash/rabin/rabin.go:208-245). -/
def write (h : Obj) (p : Bytes) : Obj :=
  match h.msg with
  | none => { h with hash := update h.tab h.hash p }
  | some msg =>
    if msg.length ≤ p.length then
      let p := p.drop (p.length - msg.length)
      { h with msg := some p, pos := 0, hash := update h.tab 0 p }
    else
      let s := p.foldl (roll h.tab msg.length) (msg, h.pos, h.hash)
      { h with msg := some s.1, pos := s.2.1, hash := s.2.2 }

/-- A use of the object: calls of `Write` and `Reset`. -/
inductive Op where
  | write (p : Bytes)
  | reset
def act (h : Obj) : Op → Obj
  | .write p => write h p
  | .reset => reset h

/-- `Size` (hash/rabin/rabin.go:183-186). -/
def size (h : Obj) : Nat := (h.tab.degree + 1 + 7) / 8
/-- `Sum(nil)` (hash/rabin/rabin.go:249-256). -/
def sum (h : Obj) : Bytes := ((List.range 8).map fun i => (h.hash >>> (i * 8)).setWidth 8).take (size h)
/-- `Sum64` (hash/rabin/rabin.go:259-261). -/
def sum64 (h : Obj) : BitVec 64 := h.hash

end Verif.Rabin
