import Verif.Cipher.Common
/-
HC-128 and HC-256 as Wu specifies them (eSTREAM; FSE 2004): two tables and one recurrence per step, no caches.
-/
namespace Verif.Strm.HcSpec
open Verif.Cipher

abbrev W := BitVec 32

def rotr (x : W) (n : Nat) : W := x.rotateRight n
def rotl (x : W) (n : Nat) : W := x.rotateLeft n
def f1 (x : W) : W := rotr x 7 ^^^ rotr x 18 ^^^ (x >>> 3)
def f2 (x : W) : W := rotr x 17 ^^^ rotr x 19 ^^^ (x >>> 10)
def tab (T : List W) (i : Nat) : W := T.getD i 0
/-- Byte `k` of a word, `x0` the lowest. -/
def byte (x : W) (k : Nat) : Nat := x.toNat / 256 ^ k % 256

/-- The expanded sequence: `W_i` for `i` below `16 + n`. -/
def expand (w0 : List W) : Nat → List W
  | 0 => w0
  | n + 1 =>
    let w := expand w0 n
    let i := 16 + n
    w ++ [f2 (tab w (i - 2)) + tab w (i - 7) + f1 (tab w (i - 15)) + tab w (i - 16) + BitVec.ofNat 32 i]

/-- The two tables. -/
structure Tables where
  P : List W
  Q : List W

/-! #### HC-128 -/
def g1 (x y z : W) : W := (rotr x 10 ^^^ rotr z 23) + rotr y 8
def g2 (x y z : W) : W := (rotl x 10 ^^^ rotl z 23) + rotl y 8
def h (T : List W) (x : W) : W := tab T (byte x 0) + tab T (256 + byte x 2)

/-- Step `i` of the key stream generation: the new tables and the output `s_i`.  `j ⊟ k` is `(j - k) mod 512`. -/
def step128 (i : Nat) (t : Tables) : Tables × W :=
  let j := i % 512
  let m := fun k => (j + 512 - k) % 512
  if i % 1024 < 512 then
    let P := t.P.set j (tab t.P j + g1 (tab t.P (m 3)) (tab t.P (m 10)) (tab t.P (m 511)))
    (⟨P, t.Q⟩, h t.Q (tab P (m 12)) ^^^ tab P j)
  else
    let Q := t.Q.set j (tab t.Q j + g2 (tab t.Q (m 3)) (tab t.Q (m 10)) (tab t.Q (m 511)))
    (⟨t.P, Q⟩, h t.P (tab Q (m 12)) ^^^ tab Q j)

/-- Step `i` of the initialization: the output replaces the table element. -/
def init128 (i : Nat) (t : Tables) : Tables :=
  let j := i % 512
  let m := fun k => (j + 512 - k) % 512
  if i % 1024 < 512 then
    ⟨t.P.set j ((tab t.P j + g1 (tab t.P (m 3)) (tab t.P (m 10)) (tab t.P (m 511))) ^^^ h t.Q (tab t.P (m 12))), t.Q⟩
  else
    ⟨t.P, t.Q.set j ((tab t.Q j + g2 (tab t.Q (m 3)) (tab t.Q (m 10)) (tab t.Q (m 511))) ^^^ h t.P (tab t.Q (m 12)))⟩

/-- Steps `0 … n-1`. -/
def runInit (f : Nat → Tables → Tables) : Nat → Tables → Tables
  | 0, t => t
  | n + 1, t => f n (runInit f n t)

def start128 (key iv : Bytes) : Tables :=
  let k := ldLE 32 4 4 key
  let v := ldLE 32 4 4 iv
  let w := expand (k ++ k ++ v ++ v) (1280 - 16)
  runInit init128 1024 ⟨(List.range 512).map fun i => tab w (i + 256), (List.range 512).map fun i => tab w (i + 768)⟩

/-- The output word `s_i`. -/
def word128 (key iv : Bytes) (i : Nat) : W := (step128 i (runInit (fun i t => (step128 i t).1) i (start128 key iv))).2

/-- Byte `p` of the key stream, words stored little-endian. -/
def keystream128 (key iv : Bytes) (p : Nat) : Byte := (leBytes 4 (word128 key iv (p / 4)).toNat).getD (p % 4) 0

/-! #### HC-256 -/
def g (T : List W) (x y : W) : W := (rotr x 10 ^^^ rotr y 23) + tab T ((x ^^^ y).toNat % 1024)
def h' (T : List W) (x : W) : W := tab T (byte x 0) + tab T (256 + byte x 1) + tab T (512 + byte x 2) + tab T (768 + byte x 3)

def step256 (i : Nat) (t : Tables) : Tables × W :=
  let j := i % 1024
  let m := fun k => (j + 1024 - k) % 1024
  if i % 2048 < 1024 then
    let P := t.P.set j (tab t.P j + tab t.P (m 10) + g t.Q (tab t.P (m 3)) (tab t.P (m 1023)))
    (⟨P, t.Q⟩, h' t.Q (tab P (m 12)) ^^^ tab P j)
  else
    let Q := t.Q.set j (tab t.Q j + tab t.Q (m 10) + g t.P (tab t.Q (m 3)) (tab t.Q (m 1023)))
    (⟨t.P, Q⟩, h' t.P (tab Q (m 12)) ^^^ tab Q j)

/-- The initialization runs 4096 steps without output. -/
def start256 (key iv : Bytes) : Tables :=
  let w := expand (ldLE 32 4 8 key ++ ldLE 32 4 8 iv) (2560 - 16)
  runInit (fun i t => (step256 i t).1) 4096
    ⟨(List.range 1024).map fun i => tab w (i + 512), (List.range 1024).map fun i => tab w (i + 1536)⟩

def word256 (key iv : Bytes) (i : Nat) : W := (step256 i (runInit (fun i t => (step256 i t).1) i (start256 key iv))).2
def keystream256 (key iv : Bytes) (p : Nat) : Byte := (leBytes 4 (word256 key iv (p / 4)).toNat).getD (p % 4) 0

end Verif.Strm.HcSpec
