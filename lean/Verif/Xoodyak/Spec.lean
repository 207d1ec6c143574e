import Verif.Mode.Blocks
/-!
# Xoodoo and Xoodyak, from "Xoodyak, a lightweight cryptographic scheme" (Daemen et al.)

Xoodoo on planes (Algorithm 1), the Cyclist mode (Algorithms 2 and 3) and the AEAD, hash and MAC built on it.
-/
namespace Verif.Xoodyak.Spec
open Verif

/-- A lane. -/
abbrev Lane := BitVec 32
/-- A plane: four lanes. -/
abbrev Plane := Fin 4 → Lane
/-- A state: three planes. -/
structure State where
  a0 : Plane
  a1 : Plane
  a2 : Plane

/-- `A <<< (t, v)`: the bit at `(x, z)` goes to `(x + t, z + v)`. -/
def shift (p : Plane) (t : Fin 4) (v : Nat) : Plane := fun x => (p (x - t)).rotateLeft v
/-- Bitwise sum, complement and product of planes. -/
def add (p q : Plane) : Plane := fun x => p x ^^^ q x
def compl (p : Plane) : Plane := fun x => ~~~ p x
def mul (p q : Plane) : Plane := fun x => p x &&& q x
/-- The plane with the round constant in lane 0. -/
def const (c : Lane) : Plane := fun x => if x = 0 then c else 0

/-- Algorithm 1: one round. -/
def round (A : State) (c : Lane) : State :=
  -- θ
  let P := add (add A.a0 A.a1) A.a2
  let E := add (shift P 1 5) (shift P 1 14)
  let a0 := add A.a0 E
  let a1 := add A.a1 E
  let a2 := add A.a2 E
  -- ρ west
  let a1 := shift a1 1 0
  let a2 := shift a2 0 11
  -- ι
  let a0 := add a0 (const c)
  -- χ
  let b0 := mul (compl a1) a2
  let b1 := mul (compl a2) a0
  let b2 := mul (compl a0) a1
  let a0 := add a0 b0
  let a1 := add a1 b1
  let a2 := add a2 b2
  -- ρ east
  ⟨a0, shift a1 0 1, shift a2 2 8⟩

/-- Table 3: the constants of rounds `-11 … 0`. -/
def consts : List Lane := [0x58, 0x38, 0x3C0, 0xD0, 0x120, 0x14, 0x60, 0x2C, 0x380, 0xF0, 0x1A0, 0x12]

/-- Lane `i` of 12 of a 48-byte string, least significant byte first. -/
def lane (S : Bytes) (i : Nat) : Lane := BitVec.ofNat 32
  ((S.getD (4 * i) 0).toNat + (S.getD (4 * i + 1) 0).toNat * 2 ^ 8 + (S.getD (4 * i + 2) 0).toNat * 2 ^ 16 + (S.getD (4 * i + 3) 0).toNat * 2 ^ 24)
/-- The planes of a byte string, and back. -/
def ofBytes (S : Bytes) : State := ⟨fun x => lane S x, fun x => lane S (4 + x), fun x => lane S (8 + x)⟩
def laneBytes (w : Lane) : Bytes := [w.setWidth 8, (w >>> 8).setWidth 8, (w >>> 16).setWidth 8, (w >>> 24).setWidth 8]
def planeBytes (p : Plane) : Bytes := laneBytes (p 0) ++ laneBytes (p 1) ++ laneBytes (p 2) ++ laneBytes (p 3)
def toBytes (A : State) : Bytes := planeBytes A.a0 ++ planeBytes A.a1 ++ planeBytes A.a2

/-- Xoodoo with twelve rounds on 48 bytes. -/
def f (S : Bytes) : Bytes := toBytes (consts.foldl round (ofBytes S))

/-- The Cyclist state: mode, phase, 48 bytes, absorb and squeeze rates. -/
structure Cy where
  keyed : Bool
  up : Bool
  s : Bytes
  rabs : Nat
  rsq : Nat

/-- `Split`: blocks of `n` bytes, one empty block for the empty string. -/
def split (X : Bytes) (n : Nat) : List Bytes := if X = [] then [[]] else Mode.chunks n X

/-- `Down(Xi, Cd)`. -/
def down (c : Cy) (X : Bytes) (cd : Byte) : Cy :=
  { c with up := false
           s := xorb c.s (X ++ [1] ++ List.replicate (46 - X.length) 0 ++ [if c.keyed then cd else cd &&& 1]) }

/-- `Up(|Yi|, Cu)`. -/
def goUp (c : Cy) (n : Nat) (cu : Byte) : Cy × Bytes :=
  let s := f (if c.keyed then xorb c.s (List.replicate 47 0 ++ [cu]) else c.s)
  ({ c with up := true, s := s }, s.take n)

/-- `AbsorbAny` on the blocks. -/
def absorbBlocks : Cy → List Bytes → Byte → Cy
  | c, [], _ => c
  | c, X :: Xs, cd => absorbBlocks (down (if c.up then c else (goUp c 0 0).1) X cd) Xs 0
/-- `AbsorbAny(X, r, Cd)`. -/
def absorbAny (c : Cy) (X : Bytes) (r : Nat) (cd : Byte) : Cy := absorbBlocks c (split X r) cd

/-- `Crypt` on the blocks. -/
def cryptBlocks : Cy → List Bytes → Byte → Bool → Cy × Bytes
  | c, [], _, _ => (c, [])
  | c, I :: Is, cu, dec =>
    let u := goUp c I.length cu
    let O := xorb I u.2
    let r := cryptBlocks (down u.1 (if dec then O else I) 0) Is 0 dec
    (r.1, O ++ r.2)
/-- `Crypt(I, decrypt)`, `Rkout = 24`. -/
def crypt (c : Cy) (I : Bytes) (dec : Bool) : Cy × Bytes := cryptBlocks c (split I 24) 0x80 dec

/-- What `SqueezeAny` adds until `l` more bytes are there. -/
def squeezeMore (c : Cy) (l : Nat) : Cy × Bytes :=
  if h : l = 0 ∨ c.rsq = 0 then (c, [])
  else
    let u := goUp (down c [] 0) (min l c.rsq) 0
    let r := squeezeMore u.1 (l - min l c.rsq)
    (r.1, u.2 ++ r.2)
termination_by l
decreasing_by omega
/-- `SqueezeAny(l, Cu)`. -/
def squeezeAny (c : Cy) (l : Nat) (cu : Byte) : Cy × Bytes :=
  let u := goUp c (min l c.rsq) cu
  let r := squeezeMore u.1 (l - min l c.rsq)
  (r.1, u.2 ++ r.2)

/-- `Cyclist(ε, ε, ε)`: hash mode. -/
def initHash : Cy := ⟨false, true, List.replicate 48 0, 16, 16⟩
/-- `Cyclist(K, id, counter)` for a non-empty key: keyed mode, `AbsorbKey`. -/
def initKeyed (K id counter : Bytes) : Cy :=
  let c : Cy := ⟨true, true, List.replicate 48 0, 44, 24⟩
  let c := absorbAny c (K ++ id ++ [BitVec.ofNat 8 id.length]) 44 2
  if counter = [] then c else absorbAny c counter 1 0

/-- The operations of the mode: `Absorb`, `Encrypt`, `Decrypt`, `Squeeze`, `SqueezeKey`, `Ratchet`. -/
inductive Op where
  | absorb (X : Bytes)
  | encrypt (P : Bytes)
  | decrypt (C : Bytes)
  | squeeze (l : Nat)
  | squeezeKey (l : Nat)
  | ratchet

/-- One operation: the new state and the output. -/
def op (c : Cy) : Op → Cy × Bytes
  | .absorb X => (absorbAny c X c.rabs 3, [])
  | .encrypt P => crypt c P false
  | .decrypt C => crypt c C true
  | .squeeze l => squeezeAny c l 0x40
  | .squeezeKey l => squeezeAny c l 0x20
  | .ratchet => let r := squeezeAny c 16 0x10; (absorbAny r.1 r.2 r.1.rabs 0, [])

/-- The outputs of a sequence of operations. -/
def run : Cy → List Op → List Bytes
  | _, [] => []
  | c, o :: os => (op c o).2 :: run (op c o).1 os

/-- The LWC AEAD: ciphertext and 16-byte tag. -/
def aead (K N A P : Bytes) : Bytes × Bytes :=
  let c := (op (initKeyed K N []) (.absorb A)).1
  let e := op c (.encrypt P)
  (e.2, (op e.1 (.squeeze 16)).2)

/-- Xoodyak as a hash function and as a MAC. -/
def hash (m : Bytes) (n : Nat) : Bytes := (op (op initHash (.absorb m)).1 (.squeeze n)).2
def mac (K m : Bytes) (n : Nat) : Bytes := (op (op (initKeyed K [] []) (.absorb m)).1 (.squeeze n)).2

end Verif.Xoodyak.Spec
