import Verif.Pub.Big
import Mathlib.Data.Nat.Log
/-
Format-preserving encryption as NIST SP 800-38G defines it, on lists of numerals (digits), most significant first.
`E` is the block cipher under the key (for FF3, under the reversed key).
-/
namespace Verif.Fpe.Spec
open Verif.Pub Verif.Cipher

/-- NUM_radix (Algorithm 1). -/
def num (r : Nat) (X : List Nat) : Nat := X.foldl (fun a d => a * r + d) 0

/-- STR^m_radix (Algorithm 3): the `m` numerals of a number below `radix^m`. -/
def str (r : Nat) : Nat → Nat → List Nat
  | 0, _ => []
  | m + 1, x => str r m (x / r) ++ [x % r]

/-- PRF (Algorithm 6): CBC-MAC with zero IV over blocks of 16 bytes. -/
def prf (E : Bytes → Bytes) (X : Bytes) : Bytes :=
  (List.range (X.length / 16)).foldl (fun y j => E (xorb y ((X.drop (16 * j)).take 16))) (List.replicate 16 0#8)

/-! ### FF1 (Algorithms 7 and 8) -/

/-- Step 3: `b = ⌈⌈v·LOG(radix)⌉/8⌉`; `⌈v·log₂ radix⌉` is the least `e` with `radix^v ≤ 2^e`. -/
def ff1b (r v : Nat) : Nat := (Nat.clog 2 (r ^ v) + 7) / 8

/-- Step 4: `d = 4⌈b/4⌉ + 4`. -/
def ff1d (b : Nat) : Nat := 4 * ((b + 3) / 4) + 4

/-- Step 5. -/
def ff1P (r u n t : Nat) : Bytes := [1#8, 2#8, 1#8] ++ hx 3 r ++ [10#8, BitVec.ofNat 8 u] ++ hx 4 n ++ hx 4 t

/-- Steps 6i to 6iv: the number `y` of round `i`, from the tweak and the half `B` as a number. -/
def ff1y (E : Bytes → Bytes) (r n : Nat) (tweak : Bytes) (i B : Nat) : Nat :=
  let u := n / 2
  let v := n - u
  let t := tweak.length
  let b := ff1b r v
  let d := ff1d b
  let Q := tweak ++ List.replicate ((-(t : Int) - b - 1) % 16).toNat 0#8 ++ [BitVec.ofNat 8 i] ++ hx b B
  let R := prf E (ff1P r u n t ++ Q)
  let S := R ++ ((List.range ((d + 15) / 16 - 1)).map (fun j => E (xorb R (hx 16 (j + 1))))).flatten
  setBytes (S.take d)

/-- One round of Algorithm 7, steps 6v to 6ix. -/
def ff1Round (E : Bytes → Bytes) (r n : Nat) (tweak : Bytes) (AB : List Nat × List Nat) (i : Nat) : List Nat × List Nat :=
  let u := n / 2
  let v := n - u
  let m := if i % 2 = 0 then u else v
  let c := (num r AB.1 + ff1y E r n tweak i (num r AB.2)) % r ^ m
  (AB.2, str r m c)

/-- FF1.Encrypt. -/
def ff1Enc (E : Bytes → Bytes) (r : Nat) (tweak : Bytes) (X : List Nat) : List Nat :=
  let AB := (List.range 10).foldl (ff1Round E r X.length tweak) (X.take (X.length / 2), X.drop (X.length / 2))
  AB.1 ++ AB.2

/-! ### FF3 (Algorithms 9 and 10) -/

/-- Steps 4i to 4iv: the number `y` of round `i`, from the tweak and the half `B`. -/
def ff3y (E : Bytes → Bytes) (r : Nat) (tweak : Bytes) (i : Nat) (B : List Nat) : Nat :=
  let W := if i % 2 = 0 then tweak.drop 4 else tweak.take 4
  let P := xorb W (hx 4 i) ++ hx 12 (num r B.reverse)
  setBytes (E P.reverse).reverse

/-- One round of Algorithm 9. -/
def ff3Round (E : Bytes → Bytes) (r n : Nat) (tweak : Bytes) (AB : List Nat × List Nat) (i : Nat) : List Nat × List Nat :=
  let u := (n + 1) / 2
  let v := n - u
  let m := if i % 2 = 0 then u else v
  let c := (num r AB.1.reverse + ff3y E r tweak i AB.2) % r ^ m
  (AB.2, (str r m c).reverse)

/-- FF3.Encrypt. -/
def ff3Enc (E : Bytes → Bytes) (r : Nat) (tweak : Bytes) (X : List Nat) : List Nat :=
  let AB := (List.range 8).foldl (ff3Round E r X.length tweak) (X.take ((X.length + 1) / 2), X.drop ((X.length + 1) / 2))
  AB.1 ++ AB.2

end Verif.Fpe.Spec
