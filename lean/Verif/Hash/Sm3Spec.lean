import Verif.Hash.Stream
/-
SM3 as GB/T 32905 describes it, written without looking at the code.
-/
namespace Verif.Hash.Sm3.Spec
open Verif.Cipher

abbrev W := BitVec 32

/-- 4.2: constants. -/
def T (j : Nat) : W := if j < 16 then 0x79cc4519 else 0x7a879d8a

/-- 4.3: boolean functions. -/
def FF (j : Nat) (x y z : W) : W := if j < 16 then x ^^^ y ^^^ z else (x &&& y) ||| (x &&& z) ||| (y &&& z)
def GG (j : Nat) (x y z : W) : W := if j < 16 then x ^^^ y ^^^ z else (x &&& y) ||| (~~~x &&& z)

/-- 4.4: permutations. -/
def P0 (x : W) : W := x ^^^ rotl x 9 ^^^ rotl x 17
def P1 (x : W) : W := x ^^^ rotl x 15 ^^^ rotl x 23

/-- 5.3.2: the next word from the last sixteen. -/
def nextW : List W → W
  | [w0, _, _, w3, _, _, _, w7, _, _, w10, _, _, w13, _, _] => P1 (w0 ^^^ w7 ^^^ rotl w13 15) ^^^ rotl w3 7 ^^^ w10
  | _ => 0

/-- 5.3.2: the words following a window of sixteen. -/
def following : Nat → List W → List W
  | 0, _ => []
  | n + 1, win => nextW win :: following n (win.tail ++ [nextW win])

/-- 5.3.2: `W_0 … W_67` of a block, big-endian. -/
def words (B : Bytes) : List W := ldBE 32 4 16 B ++ following 52 (ldBE 32 4 16 B)

abbrev V := W × W × W × W × W × W × W × W

/-- 5.3.3: one round of the compression function. -/
def round (w : List W) (j : Nat) : V → V
  | (A, B, C, D, E, F, G, H) =>
    let SS1 := rotl (rotl A 12 + E + rotl (T j) (j % 32)) 7
    let SS2 := SS1 ^^^ rotl A 12
    let TT1 := FF j A B C + D + SS2 + (w.getD j 0 ^^^ w.getD (j + 4) 0)
    let TT2 := GG j E F G + H + SS1 + w.getD j 0
    (TT1, A, rotl B 9, C, P0 TT2, E, rotl F 19, G)

def xorV : V → V → V
  | (a, b, c, d, e, f, g, h), (a', b', c', d', e', f', g', h') =>
    (a ^^^ a', b ^^^ b', c ^^^ c', d ^^^ d', e ^^^ e', f ^^^ f', g ^^^ g', h ^^^ h')

/-- 5.3.3: the compression function `CF`. -/
def CF (v : V) (B : Bytes) : V := xorV ((List.range 64).foldl (fun s j => round (words B) j s) v) v

/-- 4.1: the initial value. -/
def IV : V := (0x7380166f, 0x4914b2b9, 0x172442d7, 0xda8a0600, 0xa96f30bc, 0x163138aa, 0xe38dee4d, 0xb0fb0e4e)

def toBytes : V → Bytes
  | (a, b, c, d, e, f, g, h) => stBE 4 [a, b, c, d, e, f, g, h]

/-- 5.2-5.4: pad with the bit length (modulo 2^64) in 8 big-endian bytes, iterate, output. -/
def sm3 (M : Bytes) : Bytes := toBytes ((fullBlocks 64 (mdPad (hx 8 (8 * M.length)) M)).foldl CF IV)

end Verif.Hash.Sm3.Spec
