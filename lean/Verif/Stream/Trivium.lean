import Verif.Stream.Base
import Verif.Cipher.Common
/-
Model of /repo/cipher/trivium.
-/
namespace Verif.Strm.Trivium
open Verif.Mode Verif.Cipher

/-- cipher/trivium/utils.go:3-9 `reverseInt8`. -/
def reverseInt8 (v : Byte) : Byte :=
  let v := ((v &&& 0xF0) >>> 4) ||| ((v &&& 0x0F) <<< 4)
  let v := ((v &&& 0xCC) >>> 2) ||| ((v &&& 0x33) <<< 2)
  ((v &&& 0xAA) >>> 1) ||| ((v &&& 0x55) <<< 1)

/-- cipher/trivium/utils.go:11-13 `TRIVIUM_GET_BIT`. -/
def getBit (s : Bytes) (n : Nat) : Byte := (s.getD ((n - 1) / 8) 0 >>> ((n - 1) % 8)) &&& 1

/-- cipher/trivium/utils.go:16-18 `TRIVIUM_SET_BIT`. -/
def setBit (s : Bytes) (n : Nat) (v : Byte) : Bytes :=
  s.set ((n - 1) / 8) ((s.getD ((n - 1) / 8) 0 &&& ~~~(1#8 <<< ((n - 1) % 8))) ||| (v <<< ((n - 1) % 8)))

/-- cipher/trivium/trivium.go:134-136, the first `j` iterations of the loop `for i = 35; i > 0; i--`. -/
def rotLoop : Nat → Bytes → Bytes
  | 0, s => s
  | j + 1, s =>
    let s := rotLoop j s
    s.set (35 - j) ((s.getD (35 - j) 0 <<< 1) ||| (s.getD (35 - j - 1) 0 >>> 7))

/-- cipher/trivium/trivium.go:133-138, rotate the internal state. -/
def rotate (s : Bytes) : Bytes :=
  let s := rotLoop 35 s
  s.set 0 (s.getD 0 0 <<< 1)

/-- cipher/trivium/trivium.go:98-149 `triviumGenerateBit`. -/
def genBit (s : Bytes) : Byte × Bytes :=
  let t1 := getBit s 66 ^^^ getBit s 93
  let t2 := getBit s 162 ^^^ getBit s 177
  let t3 := getBit s 243 ^^^ getBit s 288
  let z := t1 ^^^ t2 ^^^ t3
  let t1 := t1 ^^^ (getBit s 91 &&& getBit s 92) ^^^ getBit s 171
  let t2 := t2 ^^^ (getBit s 175 &&& getBit s 176) ^^^ getBit s 264
  let t3 := t3 ^^^ (getBit s 286 &&& getBit s 287) ^^^ getBit s 69
  (z, setBit (setBit (setBit (rotate s) 1 t3) 94 t1) 178 t2)

/-- cipher/trivium/trivium.go:158-161, the first `n` iterations of the loop. -/
def byteLoop : Nat → Bytes → Byte × Bytes
  | 0, s => (0, s)
  | n + 1, s =>
    let r := byteLoop n s
    let b := genBit r.2
    (r.1 ||| (b.1 <<< n), b.2)

/-- cipher/trivium/trivium.go:151-165 `triviumGenerateByte`. -/
def gen (s : Bytes) : Byte × Bytes := byteLoop 8 s

/-- cipher/trivium/trivium.go:72-79, `n` iterations of the loops that load the key (`base = 0`) and the IV (`base = 12`). -/
def loadLoop (base : Nat) (k : Bytes) : Nat → Bytes → Bytes
  | 0, s => s
  | n + 1, s => (loadLoop base k n s).set (base + n) (reverseInt8 (k.getD (9 - n) 0))

/-- cipher/trivium/trivium.go:82-84, `n` iterations of the loop from 11 that moves the IV three bits down. -/
def shiftLoop : Nat → Bytes → Bytes
  | 0, s => s
  | n + 1, s =>
    let s := shiftLoop n s
    s.set (11 + n) ((s.getD (11 + n + 1) 0 <<< 5) ||| (s.getD (11 + n) 0 >>> 3))

/-- cipher/trivium/trivium.go:69-89, the state before it is clocked. -/
def load (key iv : Bytes) : Bytes :=
  let s := shiftLoop 11 (loadLoop 12 iv 10 (loadLoop 0 key 10 (List.replicate 36 0)))
  setBit (setBit (setBit s 286 1) 287 1) 288 1

/-- cipher/trivium/trivium.go:65-96 `expandKey`. -/
def expandKey (key iv : Bytes) : Bytes := iterate (fun s => (genBit s).2) (4 * 288) (load key iv)

/-- cipher/trivium/trivium.go:26-42 `NewCipher` (the error for a bad IV length carries the key length; errors are not told
apart here). -/
def newCipher (key iv : Bytes) : Res Bytes :=
  if key.length ≠ 10 then .err else if iv.length ≠ 10 then .err else .ok (expandKey key iv)

/-- cipher/trivium/trivium.go:44-63 `XORKeyStream`. -/
def xorKS : Bytes → Mem → Slice → Slice → Res (Mem × Bytes) := xorKeyStream (byteStep gen)

end Verif.Strm.Trivium
