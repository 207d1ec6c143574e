import Verif.Stream.Base
import Verif.Cipher.Common
/-
Model of /repo/cipher/panama.
-/
namespace Verif.Strm.Panama
open Verif.Mode Verif.Cipher

abbrev W := BitVec 32

def at' (l : List W) (i : Nat) : W := l.getD i 0

/-- cipher/panama/data.go:72-95 `GAMMA`: the seventeen calls `GAMMA_i(i, i+1, i+2)`, indices modulo 17. -/
def gamma (a : List W) : List W := (List.range 17).map fun i => at' a i ^^^ (at' a ((i + 1) % 17) ||| ~~~(at' a ((i + 2) % 17)))

/-- cipher/panama/data.go:101-119, the arguments `(j, k)` of `PI_i(i, j, k)`, `i` from 0 (the first line copies). -/
def piArgs : List (Nat × Nat) := [(0, 0), (7, 1), (14, 3), (4, 6), (11, 10), (1, 15), (8, 21), (15, 28), (5, 4), (12, 13), (2, 23), (9, 2),
  (16, 14), (6, 27), (13, 9), (3, 24), (10, 8)]
/-- cipher/panama/data.go:96-119 `PI`. -/
def pi (g : List W) : List W := piArgs.map fun t => (at' g t.1).rotateLeft t.2

/-- cipher/panama/data.go:122-145 `THETA`. -/
def theta (p : List W) : List W := (List.range 17).map fun i => at' p i ^^^ at' p ((i + 1) % 17) ^^^ at' p ((i + 4) % 17)

/-- cipher/panama/data.go:147-176 `SIGMA`. -/
def sigma (t L b : List W) : List W :=
  (at' t 0 ^^^ 1) :: ((List.range 8).map fun i => at' t (i + 1) ^^^ at' L i) ++ ((List.range 8).map fun i => at' t (i + 9) ^^^ at' b i)

/-- cipher/panama/struct.go:20-31: the buffer with its tap, and the state. -/
structure St where
  stage : List (List W)
  tap : Nat
  a : List W

def stg (s : List (List W)) (i : Nat) : List W := s.getD i []

/-- cipher/panama/data.go:177-232, `LAMBDA_PULL` (`src = state[1..8]`) and `LAMBDA_PUSH` (`src = L`) on the stages `t25` and `t0`. -/
def lambda (stages : List (List W)) (t25 t0 : Nat) (src : List W) : List (List W) :=
  let s := stages.set t25 ((List.range 8).map fun i => at' (stg stages t25) i ^^^ at' (stg stages t0) ((i + 2) % 8))
  s.set t0 ((List.range 8).map fun i => at' src i ^^^ at' (stg s t0) i)

/-- cipher/panama/panama.go:180-220, one round of `pan_pull` (without the output, which is `a[9..16]`, the input being zero in
all calls).  `L` and `b` are pointers to stages 4 and 16 of the old position, read after the buffer was updated.  `tap_0 - 1` is taken modulo 32 by the mask. -/
def pull (s : St) : St :=
  let th := theta (pi (gamma s.a))
  let tap := (s.tap + 31) % 32
  let stage := lambda s.stage ((tap + 25) % 32) tap ((s.a.drop 1).take 8)
  ⟨stage, tap, sigma th (stg stage ((s.tap + 4) % 32)) (stg stage ((s.tap + 16) % 32))⟩

/-- cipher/panama/panama.go:267-292, one round of `pan_push`. -/
def push (p : List W) (s : St) : St :=
  let th := theta (pi (gamma s.a))
  let tap := (s.tap + 31) % 32
  let stage := lambda s.stage ((tap + 25) % 32) tap p
  ⟨stage, tap, sigma th p (stg stage ((s.tap + 16) % 32))⟩

/-- cipher/panama/panama.go:306-320 `pan_reset`. -/
def reset : St := ⟨List.replicate 32 (List.replicate 8 0), 0, List.replicate 17 0⟩

/-- cipher/panama/panama.go:182-190: what a round of `pan_pull` outputs, as bytes (cipher/panama/utils.go:30-43 `keymatToBytes`). -/
def out (s : St) : Bytes := stBE 4 ((s.a.drop 9).take 8)

/-- cipher/panama/panama.go:25-31 `panamaCipher`. -/
structure Obj where
  s : St
  keymat : Bytes
  ptr : Nat

/-- cipher/panama/panama.go:80-121 `expandKey`, `initialize`: one key block is pushed, 32 rounds are pulled, then the first block. -/
def expandKey (key : Bytes) : Obj :=
  let s := iterate pull 32 (push (ldBE 32 4 8 key) reset)
  ⟨pull s, out s, 0⟩

/-- cipher/panama/panama.go:65-76, one iteration of the loop. -/
def gen (o : Obj) : Byte × Obj :=
  let o := if o.ptr = 32 then ⟨pull o.s, out o.s, 0⟩ else o
  (o.keymat.getD o.ptr 0, { o with ptr := o.ptr + 1 })

/-- The number of iterations of `for i = 0; i < int32(len(src)); i++`, `i` an int32. -/
def iters (len : Nat) : Nat := if len % 2 ^ 32 < 2 ^ 31 then len % 2 ^ 32 else 0

/-- cipher/panama/panama.go:50-78 `XORKeyStream`: the checks on the whole input, the loop on `iters` bytes of it. -/
def xorKS (o : Obj) (m : Mem) (dst src : Slice) : Res (Mem × Obj) :=
  if src.len = 0 then .ok (m, o)
  else if dst.len < src.len then .panic
  else if inexactOverlap ⟨dst.ptr, src.len, dst.cap⟩ src then .panic
  else xorKeyStream (byteStep gen) o m ⟨dst.ptr, iters src.len, dst.cap⟩ ⟨src.ptr, iters src.len, src.cap⟩

/-- cipher/panama/panama.go:35-48 `NewCipher`. -/
def newCipher (key : Bytes) : Res Obj := if key.length = 32 then .ok (expandKey key) else .err

end Verif.Strm.Panama
