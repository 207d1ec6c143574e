import Verif.Pub.Big
/-
Model of /repo/ber/ber.go.

Simplified: `int` is unbounded (the code's numbers stay below 2^63 on a 64-bit machine because they are offsets into and
lengths of slices), the error texts are dropped, `bytes.Buffer` writes never fail, the unused global `encodeIndent`
(ber.go:8,20,30) is left out.  Recursion takes a number of steps; `C122_total` shows that it never runs out.  A Go program
also dies when its stack exceeds a limit of the runtime: this is not modelled.
-/
namespace Verif.Ber
open Verif.Cipher Verif.Pub

/-- ber.go:10-41 -/
inductive Obj where
  | prim (tag : Bytes) (length : Nat) (content : Bytes)
  | cons (tag : Bytes) (content : List Obj)

/-- ber.go:92-99 -/
def lengthLength (i : Nat) : Nat := if 255 < i then lengthLength (i / 256) + 1 else 1
termination_by i
decreasing_by omega

/-- ber.go:78-89, the octets written -/
def marshalLongLength (i : Nat) : Bytes :=
  (List.range (lengthLength i)).map fun j => BitVec.ofNat 8 (i >>> ((lengthLength i - j - 1) * 8))

/-- ber.go:115-133 -/
def encodeLength (length : Nat) : Bytes :=
  if 128 ≤ length then (0x80#8 ||| BitVec.ofNat 8 (lengthLength length)) :: marshalLongLength length
  else [BitVec.ofNat 8 length]

mutual
/-- ber.go:19-35 and 43-55, the octets written -/
def encodeTo : Obj → Bytes
  | .prim tag length content => tag ++ (encodeLength length ++ content)
  | .cons tag content => tag ++ (encodeLength (encodeAll content).length ++ encodeAll content)
/-- the loop of ber.go:23-28 -/
def encodeAll : List Obj → Bytes
  | [] => []
  | o :: os => encodeTo o ++ encodeAll os
end

/-- ber.go:151-157: skip octets with the top bit set -/
def tagLoop (ber : Bytes) : Nat → Nat → Res Nat
  | 0, _ => .hang
  | f + 1, offset =>
    match ber[offset]? with
    | none => .panic
    | some x =>
      if 0x80 ≤ x.toNat then
        if ber.length < offset + 1 then .err else tagLoop ber f (offset + 1)
      else .ok offset

/-- ber.go:148-165: where the identifier octets that start with `b` end -/
def tagEndOf (ber : Bytes) (b : Byte) (offset : Nat) : Res Nat :=
  if b &&& 0x1f#8 = 0x1f#8 then
    (tagLoop ber (ber.length + 1) offset).bind fun o => if ber.length < o + 1 then .err else .ok (o + 1)
  else .ok offset

/-- ber.go:193-196 -/
def lenLoop (ber : Bytes) : Nat → Nat → Nat → Res Nat
  | 0, _, length => .ok length
  | n + 1, offset, length =>
    match ber[offset]? with
    | none => .panic
    | some x => lenLoop ber n (offset + 1) (length * 256 + x.toNat)

/-- ber.go:189-191: does the check for a leading zero reject? -/
def leadingZero (ber : Bytes) (offset n : Nat) (b0 : Byte) : Res Bool :=
  if b0.toNat = 0 then
    if n = 1 then .ok true
    else match ber[offset + 1]? with
      | none => .panic
      | some b1 => .ok (b1.toNat ≤ 0x7f)
  else .ok false

/-- ber.go:170-204: offset after the length octets, length, indefinite -/
def readLen (ber : Bytes) (tagEnd : Nat) : Res (Nat × Nat × Bool) :=
  match ber[tagEnd]? with
  | none => .panic
  | some l =>
    if ber.length < tagEnd + 1 then .err
    else if 0x80 < l.toNat then
      let n := (l &&& 0x7f#8).toNat
      if 4 < n then .err
      else if ber.length < tagEnd + 1 + n then .err
      else match ber[tagEnd + 1]? with
        | none => .panic
        | some b0 =>
          if n = 4 ∧ 0x7f < b0.toNat then .err
          else (leadingZero ber (tagEnd + 1) n b0).bind fun z =>
            if z then .err
            else (lenLoop ber n (tagEnd + 1) 0).bind fun length => .ok (tagEnd + 1 + n, length, false)
    else if l.toNat = 0x80 then .ok (tagEnd + 1, 0, true)
    else .ok (tagEnd + 1, l.toNat, false)

/-- what ber.go:136-214 finds out about the element at an offset -/
structure Hdr where
  tagEnd : Nat
  offset : Nat
  length : Nat
  indef : Bool
  constructed : Bool

/-- ber.go:136-214 -/
def readHeader (ber : Bytes) (offset : Nat) : Res Hdr :=
  if ber.length ≤ offset then .err
  else match ber[offset]? with
    | none => .panic
    | some b =>
      if ber.length ≤ offset + 1 then .err
      else (tagEndOf ber b (offset + 1)).bind fun tagEnd =>
        (readLen ber tagEnd).bind fun r =>
          if ber.length < r.1 + r.2.1 then .err
          else if r.2.2 = true ∧ b &&& 0x20#8 = 0#8 then .err
          else .ok ⟨tagEnd, r.1, r.2.1, r.2.2, decide (b &&& 0x20#8 ≠ 0#8)⟩

/-- `ber[i:j]` -/
def sub (ber : Bytes) (i j : Nat) : Bytes := (ber.drop i).take (j - i)

mutual
/-- ber.go:135-255 -/
def readObject : Nat → Bytes → Nat → Res (Obj × Nat)
  | 0, _, _ => .hang
  | f + 1, ber, tagStart =>
    (readHeader ber tagStart).bind fun h =>
      if h.constructed = false then
        .ok (.prim (sub ber tagStart h.tagEnd) h.length (sub ber h.offset (h.offset + h.length)), h.offset + h.length)
      else
        (readSubs f ber h.offset (h.offset + h.length) h.indef).bind fun r =>
          .ok (.cons (sub ber tagStart h.tagEnd) r.1, if h.indef then r.2 + 2 else h.offset + h.length)
/-- the loop of ber.go:223-242, with ber.go:257-263 inlined: the elements read and the offset after them -/
def readSubs : Nat → Bytes → Nat → Nat → Bool → Res (List Obj × Nat)
  | 0, _, _, _, _ => .hang
  | f + 1, ber, offset, contentEnd, indef =>
    if offset < contentEnd ∨ indef = true then
      (readObject f ber offset).bind fun s =>
        if indef = true then
          if ber.length - s.2 < 2 then .err
          else if (ber.drop s.2).take 2 = [0#8, 0#8] then .ok ([s.1], s.2)
          else (readSubs f ber s.2 contentEnd indef).bind fun r => .ok (s.1 :: r.1, r.2)
        else (readSubs f ber s.2 contentEnd indef).bind fun r => .ok (s.1 :: r.1, r.2)
    else .ok ([], offset)
end

/-- ber.go:57-75 -/
def Ber2der (ber : Bytes) : Res Bytes :=
  if ber.length = 0 then .err
  else (readObject (2 * ber.length + 2) ber 0).bind fun r => .ok (encodeTo r.1)

end Verif.Ber
