import Verif.Hash.AppBuf
/-
GOST R 34.11-94 as RFC 5831 gives it, for a block cipher `E` on byte strings.  A 256-bit number is the list of its 32
bytes, most significant first.
-/
namespace Verif.Hash.Gost94.Spec
open Verif.Cipher

/-- 64-bit part `i` of `Y = y4 || y3 || y2 || y1`. -/
def y (i : Nat) (Y : Bytes) : Bytes := (Y.drop (32 - 8 * i)).take 8
/-- 16-bit part `i` of `Y = ȳ16 || … || ȳ1`. -/
def w (i : Nat) (Y : Bytes) : Bytes := (Y.drop (32 - 2 * i)).take 2

/-- A(Y) = (y1 + y2) || y4 || y3 || y2. -/
def A (Y : Bytes) : Bytes := xorb (y 1 Y) (y 2 Y) ++ y 4 Y ++ y 3 Y ++ y 2 Y

/-- φ(i + 1 + 4(k-1)) = 8i + k. -/
def φ (s : Nat) : Nat := 8 * ((s - 1) % 4) + ((s - 1) / 4 + 1)
/-- P(Y) = y_φ(32) || … || y_φ(1), bytes numbered from the right. -/
def P (Y : Bytes) : Bytes := (List.range 32).map fun j => Y.getD (32 - φ (32 - j)) 0

def C3 : Bytes := hx 32 0xff00ffff000000ffff0000ff00ffff0000ff00ff00ff00ffff00ff00ff00ff00
def C2 : Bytes := hx 32 0

/-- Step j of the key generation: `(U, V) ↦ (A(U) + C, A(A(V)))`. -/
def next (C : Bytes) (uv : Bytes × Bytes) : Bytes × Bytes := (xorb (A uv.1) C, A (A uv.2))
def key (uv : Bytes × Bytes) : Bytes := P (xorb uv.1 uv.2)

/-- ψ(Y) = (ȳ1 + ȳ2 + ȳ3 + ȳ4 + ȳ13 + ȳ16) || ȳ16 || … || ȳ2. -/
def ψ (Y : Bytes) : Bytes := xorb (xorb (xorb (xorb (xorb (w 1 Y) (w 2 Y)) (w 3 Y)) (w 4 Y)) (w 13 Y)) (w 16 Y) ++ Y.take 30

def ψn : Nat → Bytes → Bytes
  | 0, Y => Y
  | n + 1, Y => ψ (ψn n Y)

/-- Encryption of a 64-bit number under a 256-bit number: the cipher works on little-endian byte strings. -/
def enc (E : Bytes → Bytes → Bytes) (K h : Bytes) : Bytes := (E K.reverse h.reverse).reverse

/-- The step hash function. -/
def f (E : Bytes → Bytes → Bytes) (H M : Bytes) : Bytes :=
  let uv1 := (H, M)
  let uv2 := next C2 uv1
  let uv3 := next C3 uv2
  let uv4 := next C2 uv3
  let S := enc E (key uv4) (y 4 H) ++ enc E (key uv3) (y 3 H) ++ enc E (key uv2) (y 2 H) ++ enc E (key uv1) (y 1 H)
  ψn 61 (xorb H (ψ (xorb M (ψn 12 S))))

/-- State: H, the length L (kept modulo `2^w`; the standard has w = 256) and the control sum Σ. -/
def step (E : Bytes → Bytes → Bytes) (w : Nat) (s : Bytes × Nat × Nat) (b : Bytes) : Bytes × Nat × Nat :=
  (f E s.1 b.reverse, (s.2.1 + 256) % 2 ^ w, (s.2.2 + leN b) % 2 ^ 256)

/-- The incomplete last part, if there is one, filled with zeros. -/
def last (E : Bytes → Bytes → Bytes) (w : Nat) (s : Bytes × Nat × Nat) (t : Bytes) : Bytes × Nat × Nat :=
  if t = [] then s
  else (f E s.1 (t ++ List.replicate (32 - t.length) 0#8).reverse, (s.2.1 + 8 * t.length) % 2 ^ w, (s.2.2 + leN t) % 2 ^ 256)

/-- The digest, in the byte order of RFC 4357 and later (least significant byte first).  The message is the number whose
least significant byte comes first; no block is processed for the empty message, as all implementations do. -/
def hash (E : Bytes → Bytes → Bytes) (w : Nat) (M : Bytes) : Bytes :=
  let s := last E w ((fullBlocks 32 M).foldl (step E w) (hx 32 0, 0, 0)) (tailOf 32 M)
  (f E (f E s.1 (hx 32 s.2.1)) (hx 32 s.2.2)).reverse

abbrev gost94 (E : Bytes → Bytes → Bytes) := hash E 256

end Verif.Hash.Gost94.Spec
