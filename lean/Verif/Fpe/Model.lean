import Verif.Pub.Big
import Mathlib.Data.Nat.Log
/-
Model of /repo/cipher/fpe/ff1/ff1.go and /repo/cipher/fpe/ff3/ff3.go.  Strings are byte lists.  AES under the key is an
arbitrary function `E` on 16-byte blocks (only the forward direction is used).  The three uses of floating-point
logarithms are taken to give the exact values: `minLen` is the least `m` with `100 ≤ radix^m`, FF3's `maxLen` the greatest
`m` with `radix^m ≤ 2^192`, and FF1's `b` is `⌈⌈v·log₂ radix⌉/8⌉`.  Work buffers that are fully rewritten before use
(`Q`, `PQ`, `Y`, `xored`, `P`) are values here.
-/
namespace Verif.Fpe
open Verif.Pub Verif.Cipher

/-! ### math/big on strings -/

/-- The digit characters of `(*big.Int).Text`. -/
def chr (d : Nat) : Byte :=
  if d < 10 then BitVec.ofNat 8 (48 + d) else if d < 36 then BitVec.ofNat 8 (87 + d) else BitVec.ofNat 8 (29 + d)

/-- The value of a character for `(*big.Int).SetString`: for bases up to 36 upper and lower case mean the same, above 36
lower case comes first. -/
def rawVal (small : Bool) (c : Byte) : Option Nat :=
  let n := c.toNat
  if 48 ≤ n ∧ n ≤ 57 then some (n - 48)
  else if 97 ≤ n ∧ n ≤ 122 then some (n - 87)
  else if 65 ≤ n ∧ n ≤ 90 then some (if small then n - 55 else n - 29)
  else none

def digitVal (r : Nat) (c : Byte) : Option Nat :=
  match rawVal (decide (r ≤ 36)) c with
  | some d => if d < r then some d else none
  | none => none

def parseDigits (r : Nat) : Bytes → Nat → Option Nat
  | [], acc => some acc
  | c :: cs, acc =>
    match digitVal r c with
    | some d => parseDigits r cs (acc * r + d)
    | none => none

/-- `new(big.Int).SetString(s, r)` for `r ≠ 0`: an optional sign, then at least one digit, and nothing else. -/
def parse (r : Nat) (s : Bytes) : Option Int :=
  match s with
  | [] => none
  | c :: cs =>
    if c = 45#8 then (if cs = [] then none else (parseDigits r cs 0).map (fun x => -(x : Int)))
    else if c = 43#8 then (if cs = [] then none else (parseDigits r cs 0).map (fun x => (x : Int)))
    else (parseDigits r (c :: cs) 0).map (fun x => (x : Int))

def textAux (r : Nat) : (fuel : Nat) → Nat → Bytes → Bytes
  | 0, _, acc => acc
  | f + 1, n, acc => if n = 0 then acc else textAux r f (n / r) (chr (n % r) :: acc)

/-- `(*big.Int).Text(r)` of a non-negative number. -/
def text (r n : Nat) : Bytes := if n = 0 then [48#8] else textAux r n n []

/-! ### FF1 -/

/-- ff1.go:572-585 `ciph` on a multiple of 16 bytes followed by ff1.go:589-597 `prf`: the last block of CBC with zero IV
(the IV is reset after each call, ff1.go:582). -/
def cbcMac (E : Bytes → Bytes) : (blocks : Nat) → (iv : Bytes) → Bytes → Bytes
  | 0, iv, _ => iv
  | k + 1, iv, x => cbcMac E k (E (xorb (x.take 16) iv)) (x.drop 16)

def prfM (E : Bytes → Bytes) (x : Bytes) : Bytes := cbcMac E (x.length / 16) (List.replicate 16 0#8) x

/-- ff1.go:153, 384: `b`. -/
def bLen (r v : Nat) : Nat := (Nat.clog 2 (r ^ v) + 7) / 8

/-- ff1.go:158-161, 389-392: `numPad := (-t - b - 1) % 16; if numPad < 0 { numPad += 16 }` (Go's `%` truncates). -/
def numPad (t b : Nat) : Nat :=
  let p := (-(t : Int) - b - 1).tmod 16
  (if p < 0 then p + 16 else p).toNat

/-- ff1.go:291-302: `j` big-endian in the last 8 of 16 bytes, xored with `R`. -/
def xorJ (R : Bytes) (j : Nat) : Bytes := xorb R (List.replicate 8 0#8 ++ hx 8 j)

/-- ff1.go:153-180, 258-311 (and 384-411, 489-542): the number `y` of round `i` for the other half with absolute value
`B`. -/
def ff1Y (E : Bytes → Bytes) (r n : Nat) (tweak : Bytes) (i B : Nat) : Nat :=
  let u := n / 2
  let v := n - u
  let t := tweak.length
  let b := bLen r v
  let d := 4 * ((b + 3) / 4) + 4
  let maxJ := (d + 15) / 16
  let pad := numPad t b
  let P := [1#8, 2#8, 1#8, 0#8] ++ hx 2 r ++ [10#8, BitVec.ofNat 8 u] ++ hx 4 n ++ hx 4 t
  let lenQ := t + b + 1 + pad
  let bs := natBytes B
  let Q := tweak ++ List.replicate pad 0#8 ++ [BitVec.ofNat 8 i] ++ List.replicate (lenQ - (t + pad + 1)) 0#8
  let Q := Q.take (lenQ - bs.length) ++ copyInto (Q.drop (lenQ - bs.length)) bs
  let R := prfM E (P ++ Q)
  let Y := R ++ ((List.range (maxJ - 1)).map (fun j => E (xorJ R (j + 1)))).flatten
  setBytes (Y.take d)

/-- ff1.go:258-324: one round. `numA.SetBytes(numBBytes)` drops the sign; `Mod` is the Euclidean one. -/
def ff1EncRound (y : Nat → Nat → Nat) (U V : Nat) (s : Int × Int) (i : Nat) : Int × Int :=
  (s.2.natAbs, (s.1 + y i s.2.natAbs) % (if i % 2 = 0 then U else V : Nat))

/-- ff1.go:489-555: one round backwards. -/
def ff1DecRound (y : Nat → Nat → Nat) (U V : Nat) (s : Int × Int) (i : Nat) : Int × Int :=
  ((s.2 - y i s.1.natAbs) % (if i % 2 = 0 then U else V : Nat), s.1.natAbs)

/-- ff1.go:326-331, 557-562: `strings.Repeat("0", m-len(s)) + s`; a negative count panics. -/
def padText (r m x : Nat) : Res Bytes :=
  if m < (text r x).length then .panic else .ok (List.replicate (m - (text r x).length) 48#8 ++ text r x)

structure Ff1 where
  radix : Nat
  minLen : Nat
  maxTLen : Int
  E : Bytes → Bytes
  tweak : Bytes

/-- The least `m` with `100 ≤ r^m` (ff1.go:80, ff3.go:64). -/
def minLenOf (r : Nat) : Nat := Nat.clog r 100

/-- ff1.go:58-105 `NewCipher`. -/
def ff1New (aes : Bytes → Bytes → Bytes) (radix maxTLen : Int) (key tweak : Bytes) : Res Ff1 :=
  if ¬ (key.length = 16 ∨ key.length = 24 ∨ key.length = 32) then .err
  else if radix < 2 ∨ radix > 62 then .err
  else if (tweak.length : Int) > maxTLen then .err
  else
    let r := radix.toNat
    let minLen := minLenOf r
    if minLen < 2 ∨ 4294967295 < minLen then .err
    else .ok { radix := r, minLen := minLen, maxTLen := maxTLen, E := aes key, tweak := tweak }

/-- ff1.go:118-336 `EncryptWithTweak` (`dec = false`) and ff1.go:349-567 `DecryptWithTweak` (`dec = true`): the two
functions differ in the loop only. Strings are shorter than 2^32 bytes (`n := uint32(len(X))` is taken to be the length). -/
def ff1Run (dec : Bool) (c : Ff1) (X tweak : Bytes) : Res Bytes :=
  let n := X.length
  if n < c.minLen ∨ n > 4294967295 then .err
  else if (tweak.length : Int) > c.maxTLen then .err
  else
    match parse c.radix X with
    | none => .err
    | some _ =>
      let u := n / 2
      let v := n - u
      match parse c.radix (X.take u), parse c.radix (X.drop u) with
      | some a, some b =>
        let y := ff1Y c.E c.radix n tweak
        let U := c.radix ^ u
        let V := c.radix ^ v
        let s := if dec then (List.range 10).reverse.foldl (ff1DecRound y U V) (a, b)
          else (List.range 10).foldl (ff1EncRound y U V) (a, b)
        match padText c.radix u s.1.natAbs with
        | .ok A =>
          match padText c.radix v s.2.natAbs with
          | .ok B => .ok (A ++ B)
          | e => e
        | e => e
      | _, _ => .err

/-! ### FF3 -/

structure Ff3 where
  radix : Nat
  minLen : Nat
  maxLen : Nat
  E : Bytes → Bytes
  tweak : Bytes

/-- ff3.go:65: the greatest `m` with `r^m ≤ 2^192`. -/
def maxLenOf (r : Nat) : Nat := Nat.log r (2 ^ 192)

/-- ff3.go:43-87 `NewCipher`: the cipher, and the contents of the caller's `key` afterwards (`revB` works in place). -/
def ff3New (aes : Bytes → Bytes → Bytes) (radix : Int) (key tweak : Bytes) : Res (Ff3 × Bytes) :=
  if ¬ (key.length = 16 ∨ key.length = 24 ∨ key.length = 32) then .err
  else if radix < 2 ∨ radix > 62 then .err
  else if tweak.length ≠ 8 then .err
  else
    let r := radix.toNat
    let minLen := minLenOf r
    let maxLen := maxLenOf r
    if minLen < 2 ∨ maxLen < minLen then .err
    else .ok ({ radix := r, minLen := minLen, maxLen := maxLen, E := aes key.reverse, tweak := tweak }, key.reverse)

/-- ff3.go:173-201 (319-347): the number `y` of round `i`, from the number of the reversed other half. `P` keeps its
length; bytes of a longer number would overwrite its start (and the slice expression panics beyond 16 bytes). -/
def ff3Y (E : Bytes → Bytes) (tweak : Bytes) (i x : Nat) : Res Nat :=
  let W := if i % 2 = 0 then tweak.drop 4 else tweak.take 4
  let bs := natBytes x
  let P := W.take 3 ++ [W.getD 3 0#8 ^^^ BitVec.ofNat 8 i] ++ List.replicate 12 0#8
  if 16 < bs.length then .panic
  else
    let P := P.take (16 - bs.length) ++ bs
    .ok (setBytes (E P.reverse).reverse)

/-- ff3.go:217-223 (363-369): the numerals of `x`, zero-padded to `m` characters and reversed. -/
def ff3Str (r m x : Nat) : Bytes := (List.replicate (m - (text r x).length) 48#8 ++ text r x).reverse

/-- ff3.go:160-228: one round. -/
def ff3EncRound (E : Bytes → Bytes) (r u v : Nat) (tweak : Bytes) (s : Bytes × Bytes) (i : Nat) : Res (Bytes × Bytes) :=
  match parse r s.2.reverse with
  | none => .err
  | some b =>
    match ff3Y E tweak i b.natAbs with
    | .ok y =>
      match parse r s.1.reverse with
      | none => .err
      | some a =>
        let m := if i % 2 = 0 then u else v
        .ok (s.2, ff3Str r m ((a + y) % (r ^ m : Nat)).toNat)
    | .err => .err
    | .panic => .panic
    | .hang => .hang

/-- ff3.go:306-374: one round backwards. -/
def ff3DecRound (E : Bytes → Bytes) (r u v : Nat) (tweak : Bytes) (s : Bytes × Bytes) (i : Nat) : Res (Bytes × Bytes) :=
  match parse r s.1.reverse with
  | none => .err
  | some a =>
    match ff3Y E tweak i a.natAbs with
    | .ok y =>
      match parse r s.2.reverse with
      | none => .err
      | some b =>
        let m := if i % 2 = 0 then u else v
        .ok (ff3Str r m ((b - y) % (r ^ m : Nat)).toNat, s.1)
    | .err => .err
    | .panic => .panic
    | .hang => .hang

/-- A loop whose body can fail. -/
def loopM (f : Bytes × Bytes → Nat → Res (Bytes × Bytes)) : List Nat → Bytes × Bytes → Res (Bytes × Bytes)
  | [], s => .ok s
  | i :: is, s =>
    match f s i with
    | .ok s' => loopM f is s'
    | .err => .err
    | .panic => .panic
    | .hang => .hang

/-- ff3.go:100-233 `EncryptWithTweak` (`dec = false`) and ff3.go:246-377 `DecryptWithTweak` (`dec = true`). Strings
are shorter than 2^32 bytes. -/
def ff3Run (dec : Bool) (c : Ff3) (X tweak : Bytes) : Res Bytes :=
  let n := X.length
  if n < c.minLen ∨ n ≥ c.maxLen then .err
  else if tweak.length ≠ 8 then .err
  else
    match parse c.radix X with
    | none => .err
    | some _ =>
      let u := (n + 1) / 2
      let v := n - u
      let r :=
        if dec then loopM (ff3DecRound c.E c.radix u v tweak) (List.range 8).reverse (X.take u, X.drop u)
        else loopM (ff3EncRound c.E c.radix u v tweak) (List.range 8) (X.take u, X.drop u)
      match r with
      | .ok s => .ok (s.1 ++ s.2)
      | .err => .err
      | .panic => .panic
      | .hang => .hang

end Verif.Fpe
