import Verif.Hash.Streebog
/-
GOST R 34.11-2012 as RFC 6986 gives it.  A 512-bit vector is the list of its bytes, byte 0 (the least significant) first;
the tables π, τ, A and C are the code's.
-/
namespace Verif.Hash.Streebog.Spec
open Verif.Cipher

/-- S and P: byte i of the result is π of byte τ(i). -/
def PS (v : Bytes) : Bytes := (List.range 64).map fun i => pi.getD (v.getD (tau.getD i 0) 0).toNat 0

/-- Multiplication of a 64-bit row vector by the matrix A: the sum of the rows whose bit is set, row 0 for the top bit. -/
def mulA (b : BitVec 64) : BitVec 64 := (List.range 64).foldl (fun r j => if b.getLsbD (63 - j) then r ^^^ a.getD j 0 else r) 0

def LPS (v : Bytes) : Bytes := stLE 8 ((ldLE 64 8 8 (PS v)).map mulA)

/-- E(K, m) = X[K13] LPS X[K12] … LPS X[K1] (m), with K(i+1) = LPS(K(i) + C(i)). -/
def enc : List Bytes → Bytes → Bytes → Bytes
  | [], k, m => xorb k m
  | c :: cs, k, m => enc cs (LPS (xorb k c)) (LPS (xorb k m))

/-- The compression function. -/
def gN (N : Nat) (h m : Bytes) : Bytes := xorb (xorb (enc cs (LPS (xorb h (leBytes 64 N))) m) h) m

/-- Stage 2, with the bit counter kept modulo `2^w` (512 in the standard). -/
def step (w : Nat) (s : Bytes × Nat × Nat) (m : Bytes) : Bytes × Nat × Nat :=
  (gN s.2.1 s.1 m, (s.2.1 + 512) % 2 ^ w, (s.2.2 + leN m) % 2 ^ 512)

/-- Stage 3 for the last, incomplete block `t`. -/
def final (w : Nat) (s : Bytes × Nat × Nat) (t : Bytes) : Bytes :=
  let m := t ++ 1#8 :: List.replicate (63 - t.length) 0#8
  let h := gN s.2.1 s.1 m
  let N := (s.2.1 + 8 * t.length) % 2 ^ w
  let S := (s.2.2 + leN m) % 2 ^ 512
  gN 0 (gN 0 h (leBytes 64 N)) (leBytes 64 S)

/-- The digest of `size` bytes, 32 or 64. -/
def hash (w size : Nat) (M : Bytes) : Bytes :=
  let h := final w ((fullBlocks 64 M).foldl (step w) (List.replicate 64 (if size = 32 then 1#8 else 0#8), 0, 0)) (tailOf 64 M)
  if size = 32 then h.drop 32 else h

/-- The standard's function. -/
abbrev streebog := hash 512

end Verif.Hash.Streebog.Spec
