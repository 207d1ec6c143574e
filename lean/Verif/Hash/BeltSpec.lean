import Verif.Hash.Belt
/-
belt-hash as STB 34.101.31 describes it; only the substitution `H` is shared with the model.
-/
namespace Verif.Hash.Belt.Spec
open Verif.Cipher

/-- The substitution `H` on octets. -/
def Hs (b : Byte) : Byte := S.getD b.toNat 0

/-- `G_r`: `H` on each of the four octets, then a rotation. -/
def Gr (r : Nat) (u : BitVec 32) : BitVec 32 :=
  rotl ((Hs ((u >>> 24).setWidth 8)).setWidth 32 <<< 24 ||| (Hs ((u >>> 16).setWidth 8)).setWidth 32 <<< 16 |||
    (Hs ((u >>> 8).setWidth 8)).setWidth 32 <<< 8 ||| (Hs ((u >>> 0).setWidth 8)).setWidth 32 <<< 0) r

/-- The `j`-th 32-bit word of a byte string, counted from 0. -/
def word (p : Bytes) (j : Nat) : BitVec 32 := (ldLE 32 4 (p.length / 4) p).getD j 0

/-- Round key `K_j`, `j = 1 … 56`: the eight key words cyclically. -/
def K (θ : Bytes) (j : Nat) : BitVec 32 := word θ ((j - 1) % 8)

/-- One of the eight cycles, `i = 1 … 8`. -/
def cycle (θ : Bytes) (i : Nat) : BitVec 32 × BitVec 32 × BitVec 32 × BitVec 32 → BitVec 32 × BitVec 32 × BitVec 32 × BitVec 32
  | (a, b, c, d) =>
    let b := b ^^^ Gr 5 (a + K θ (7 * i - 6))
    let c := c ^^^ Gr 21 (d + K θ (7 * i - 5))
    let a := a - Gr 13 (b + K θ (7 * i - 4))
    let e := Gr 21 (b + c + K θ (7 * i - 3)) ^^^ BitVec.ofNat 32 i
    let b := b + e
    let c := c - e
    let d := d + Gr 13 (c + K θ (7 * i - 2))
    let b := b ^^^ Gr 21 (a + K θ (7 * i - 1))
    let c := c ^^^ Gr 5 (d + K θ (7 * i))
    (b, d, a, c)

/-- The block cipher `F_θ`. -/
def F (θ X : Bytes) : Bytes :=
  let v := cycle θ 8 (cycle θ 7 (cycle θ 6 (cycle θ 5 (cycle θ 4 (cycle θ 3 (cycle θ 2 (cycle θ 1 (word X 0, word X 1, word X 2, word X 3))))))))
  stLE 4 [v.2.1, v.2.2.2, v.1, v.2.2.1]

/-- `σ1(u1 ‖ u2 ‖ u3 ‖ u4)` with `u = u1 ‖ u2`, 16 bytes each. -/
def σ1 (u u3 u4 : Bytes) : Bytes := xorb (F u (xorb u3 u4)) (xorb u3 u4)

/-- `σ2(u1 ‖ u2 ‖ u3 ‖ u4)`. -/
def σ2 (u1 u2 u3 u4 : Bytes) : Bytes :=
  xorb (F (σ1 (u1 ++ u2) u3 u4 ++ u4) u1) u1 ++ xorb (F ((σ1 (u1 ++ u2) u3 u4).map (fun b => ~~~b) ++ u3) u2) u2

/-- One block: `s ← s ⊕ σ1(X ‖ h)`, `h ← σ2(X ‖ h)`. -/
def step (v : Bytes × Bytes) (X : Bytes) : Bytes × Bytes :=
  (xorb v.1 (σ1 X (v.2.take 16) (v.2.drop 16)), σ2 (X.take 16) (X.drop 16) (v.2.take 16) (v.2.drop 16))

/-- Zero bytes up to a multiple of 32. -/
def pad (M : Bytes) : Bytes := M ++ List.replicate ((32 - M.length % 32) % 32) 0#8

/-- The initial `h`: the first 32 values of `H`. -/
def h0 : Bytes := (List.range 32).map fun i => Hs (BitVec.ofNat 8 i)

/-- The digest: `σ2(⟨bit length⟩ ‖ s ‖ h)`, the length (modulo 2^128) in 16 little-endian bytes. -/
def beltHash (M : Bytes) : Bytes :=
  let v := (fullBlocks 32 (pad M)).foldl step (List.replicate 16 0#8, h0)
  σ2 (leBytes 16 (8 * M.length)) v.1 (v.2.take 16) (v.2.drop 16)

end Verif.Hash.Belt.Spec
