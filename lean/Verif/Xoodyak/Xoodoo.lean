import Verif.Go.Basic
/-!
# The Xoodoo permutation

Model of /repo/cipher/xoodoo/xoodoo/xoodoo.go.  `rounds` is always `MaxRounds` for the callers modelled here.
-/
namespace Verif.Xoodyak
open Verif

/-- A `uint32`. -/
abbrev W := BitVec 32

/-- `State`, xoodoo.go:44. -/
structure St where
  s0 : W
  s1 : W
  s2 : W
  s3 : W
  s4 : W
  s5 : W
  s6 : W
  s7 : W
  s8 : W
  s9 : W
  s10 : W
  s11 : W
deriving DecidableEq

/-- The twelve words in order. -/
def St.toL (s : St) : List W := [s.s0, s.s1, s.s2, s.s3, s.s4, s.s5, s.s6, s.s7, s.s8, s.s9, s.s10, s.s11]

/-- `binary.LittleEndian.PutUint32`. -/
def put32 (w : W) : Bytes := [w.extractLsb' 0 8, w.extractLsb' 8 8, w.extractLsb' 16 8, w.extractLsb' 24 8]

/-- `binary.LittleEndian.Uint32(in[4*i : 4*i+4])`. -/
def word (l : Bytes) (i : Nat) : W :=
  (l.getD (4 * i + 3) 0 ++ l.getD (4 * i + 2) 0 ++ l.getD (4 * i + 1) 0 ++ l.getD (4 * i) 0 : BitVec (8 + 8 + 8 + 8))

/-- `MarshalBinary`, `Bytes`, xoodoo.go:144-159, 179-182. -/
def ser (s : St) : Bytes := s.toL.flatMap put32

/-- `XorStateBytes`, xoodoo.go:77-90; `l` has 48 bytes. -/
def xorState (s : St) (l : Bytes) : St :=
  ⟨s.s0 ^^^ word l 0, s.s1 ^^^ word l 1, s.s2 ^^^ word l 2, s.s3 ^^^ word l 3, s.s4 ^^^ word l 4, s.s5 ^^^ word l 5,
   s.s6 ^^^ word l 6, s.s7 ^^^ word l 7, s.s8 ^^^ word l 8, s.s9 ^^^ word l 9, s.s10 ^^^ word l 10, s.s11 ^^^ word l 11⟩

/-- `XorByte` at offset 47, its only use, xoodoo.go:95-103. -/
def xorLast (s : St) (x : Byte) : St := { s with s11 := s.s11 ^^^ (x.setWidth 32 <<< (8 * (47 % 4))) }

/-- `bits.RotateLeft32`. -/
def rotl (w : W) (k : Nat) : W := w.rotateLeft k

/-- One turn of the loop of `Permutation`, xoodoo.go:188-229. -/
def round (s : St) (c : W) : St :=
  let p0 := s.s0 ^^^ s.s4 ^^^ s.s8
  let p1 := s.s1 ^^^ s.s5 ^^^ s.s9
  let p2 := s.s2 ^^^ s.s6 ^^^ s.s10
  let p3 := s.s3 ^^^ s.s7 ^^^ s.s11
  let e0 := rotl p3 5 ^^^ rotl p3 14
  let e1 := rotl p0 5 ^^^ rotl p0 14
  let e2 := rotl p1 5 ^^^ rotl p1 14
  let e3 := rotl p2 5 ^^^ rotl p2 14
  let t0 := e0 ^^^ s.s0 ^^^ c
  let t1 := e1 ^^^ s.s1
  let t2 := e2 ^^^ s.s2
  let t3 := e3 ^^^ s.s3
  let t4 := e3 ^^^ s.s7
  let t5 := e0 ^^^ s.s4
  let t6 := e1 ^^^ s.s5
  let t7 := e2 ^^^ s.s6
  let t8 := rotl (e0 ^^^ s.s8) 11
  let t9 := rotl (e1 ^^^ s.s9) 11
  let t10 := rotl (e2 ^^^ s.s10) 11
  let t11 := rotl (e3 ^^^ s.s11) 11
  ⟨(~~~t4 &&& t8) ^^^ t0, (~~~t5 &&& t9) ^^^ t1, (~~~t6 &&& t10) ^^^ t2, (~~~t7 &&& t11) ^^^ t3,
   rotl ((~~~t8 &&& t0) ^^^ t4) 1, rotl ((~~~t9 &&& t1) ^^^ t5) 1, rotl ((~~~t10 &&& t2) ^^^ t6) 1, rotl ((~~~t11 &&& t3) ^^^ t7) 1,
   rotl ((~~~t2 &&& t6) ^^^ t10) 8, rotl ((~~~t3 &&& t7) ^^^ t11) 8, rotl ((~~~t0 &&& t4) ^^^ t8) 8, rotl ((~~~t1 &&& t5) ^^^ t9) 8⟩

/-- `RoundConstants`, xoodoo.go:27-40. -/
def roundConstants : List W :=
  [0x00000058, 0x00000038, 0x000003C0, 0x000000D0, 0x00000120, 0x00000014, 0x00000060, 0x0000002C, 0x00000380, 0x000000F0,
   0x000001A0, 0x00000012]

/-- `Permutation` with 12 rounds, xoodoo.go:186-235. -/
def perm (s : St) : St := roundConstants.foldl round s

/-- The zero state, from `NewXoodoo(MaxRounds, [48]byte{})`, xoodoo.go:163-176. -/
def st0 : St := ⟨0, 0, 0, 0, 0, 0, 0, 0, 0, 0, 0, 0⟩

end Verif.Xoodyak
