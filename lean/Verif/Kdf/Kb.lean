import Verif.Kdf.Loop
/-
Model of kdf/kbkdf (NIST SP 800-108).
-/
namespace Verif.Kdf.Kb
open Verif.Cipher

def b8 (v : Nat) : Byte := BitVec.ofNat 8 v

/-- kbkdf.go:94-157 (`fillL`). -/
def fillL (v : Nat) : Bytes :=
  if v < 1 <<< 8 then [b8 v]
  else if v < 1 <<< 16 then [b8 (v >>> 8), b8 v]
  else if v < 1 <<< 24 then [b8 (v >>> 16), b8 (v >>> 8), b8 v]
  else if v < 1 <<< 32 then [b8 (v >>> 24), b8 (v >>> 16), b8 (v >>> 8), b8 v]
  else if v < 1 <<< 40 then [b8 (v >>> 32), b8 (v >>> 24), b8 (v >>> 16), b8 (v >>> 8), b8 v]
  else if v < 1 <<< 48 then [b8 (v >>> 40), b8 (v >>> 32), b8 (v >>> 24), b8 (v >>> 16), b8 (v >>> 8), b8 v]
  else if v < 1 <<< 56 then [b8 (v >>> 48), b8 (v >>> 40), b8 (v >>> 32), b8 (v >>> 24), b8 (v >>> 16), b8 (v >>> 8), b8 v]
  else [b8 (v >>> 56), b8 (v >>> 48), b8 (v >>> 40), b8 (v >>> 32), b8 (v >>> 24), b8 (v >>> 16), b8 (v >>> 8), b8 v]

def beN (b : Bytes) : Nat := leN b.reverse

/-- kbkdf.go:172-178: the carry loop from the last byte, on the reversed string. -/
def incRev : Bytes → Bytes
  | [] => []
  | b :: t => if b + 1 > 0 then (b + 1) :: t else (b + 1) :: incRev t

/-- kbkdf.go:159-180 (`incCtr`). -/
def incCtr (b : Bytes) : Bytes :=
  match b.length with
  | 1 => [b.getD 0 0 + 1]
  | 2 => hx 2 ((beN b + 1) % 2 ^ 16)
  | 4 => hx 4 ((beN b + 1) % 2 ^ 32)
  | 8 => hx 8 ((beN b + 1) % 2 ^ 64)
  | _ => (incRev b.reverse).reverse

/-- `uint64(length*8)`. -/
def bitLen (length : Nat) : Nat := length * 8 % 2 ^ 64

/-- kbkdf.go:21-46.  A negative `length` panics in `make`. -/
def counterModeKey (P : Prf) (key label context : Bytes) (counterSize length : Int) : Res Bytes :=
  if counterSize < 0 ∨ 8 < counterSize then .panic
  else if length < 0 then .panic
  else
    let n := length.toNat
    let L := fillL (bitLen n)
    genLoop (fun I => let I := incCtr I; (I, P.f key (I ++ label ++ [0] ++ context ++ L))) n (n + 1)
      (List.replicate counterSize.toNat 0#8) (List.replicate n 0#8) 0

/-- kbkdf.go:49-72. -/
def feedbackModeKey (P : Prf) (key label context iv : Bytes) (counterSize length : Int) : Res Bytes :=
  if counterSize < 0 ∨ 8 < counterSize then .panic
  else if length < 0 then .panic
  else
    let n := length.toNat
    let L := fillL (bitLen n)
    genLoop (fun s : Bytes × Bytes => let I := incCtr s.2; let K := P.f key (s.1 ++ I ++ label ++ [0] ++ context ++ L); ((K, I), K)) n (n + 1)
      (iv, List.replicate counterSize.toNat 0#8) (List.replicate n 0#8) 0

/-- kbkdf.go:75-92: the first block is computed before the loop; `copy` returns the number of bytes copied. -/
def pipelineModeKey (P : Prf) (key label context : Bytes) (counterSize length : Int) : Res Bytes :=
  if counterSize < 0 ∨ 8 < counterSize then .panic
  else if length < 0 then .panic
  else
    let n := length.toNat
    let L := fillL (bitLen n)
    let I := incCtr (List.replicate counterSize.toNat 0#8)
    let A := P.f key (label ++ [0] ++ context ++ L)
    let K := P.f key (A ++ I ++ label ++ [0] ++ context ++ L)
    genLoop (fun s : Bytes × Bytes =>
        let I := incCtr s.2
        let A := P.f key s.1
        ((A, I), P.f key (A ++ I ++ label ++ [0] ++ context ++ L))) n (n + 1)
      (A, I) (copyInto (List.replicate n 0#8) K) (min n K.length)

end Verif.Kdf.Kb
