import Mathlib.Data.Rat.Floor
/-
Model of tool/math/math.go: the functions on `big.Rat` and `big.Int`.  A `*big.Rat` is its value (`ℚ`, in lowest terms with
a positive denominator, as in Go).
-/
namespace Verif.Tool.Math

/-- `Ceil`: tool/math/math.go:104-111 (`big.Int.Div` is Euclidean division). -/
def ceil (n : ℚ) : Int := if n.den = 1 then n.num else n.num / n.den + 1

/-- `Floor`: tool/math/math.go:113-116. -/
def floor (n : ℚ) : Int := n.num / n.den

/-- `Round`: tool/math/math.go:150-160. -/
def round (n : ℚ) : Int := if n < 0 then ceil (n - 1 / 2) else ceil (n + 1 / 2)

/-- `Odd`: tool/math/math.go:118-126.  The result and the value the argument holds afterwards (`n.Add(n, one)` stores into
the argument). -/
def odd (n : Int) : Int × Int := if n % 2 = 0 then (n + 1, n + 1) else (n, n)

/-- `Mask`: tool/math/math.go:128-133. -/
def mask (s : Nat) : Nat := 1 <<< s - 1

/-- `RotateLeft`: tool/math/math.go:135-144, for `x ≥ 0`.  `s - r` is computed in `uint` (64 bits). -/
def rotateLeft (x r s m : Nat) : Nat :=
  let masked := x &&& m
  ((masked <<< r) &&& m) ||| masked >>> (((s : Int) - r) % 2 ^ 64).toNat

/-- `RotateRight`: tool/math/math.go:146-148. -/
def rotateRight (x r s m : Nat) : Nat := rotateLeft x (((s : Int) - r) % 2 ^ 64).toNat s m

/-- The loop of `E`: tool/math/math.go:87-90; `todo` turns remain. -/
def eLoop : Nat → Nat → ℚ → ℚ → ℚ
  | 0, _, _, acc => acc
  | todo + 1, i, f, acc =>
    let f := f * (1 / i)
    eLoop todo (i + 1) f (acc + f)

/-- `E`: tool/math/math.go:83-93 (for `rounds < 2^63`, as `int64(rounds)` is compared). -/
def e (rounds : Nat) : ℚ := eLoop (rounds - 2) 2 1 2

/-- The loop of `Sqrt`, `k` turns: tool/math/math.go:177-183. -/
def newton (n : ℚ) : Nat → ℚ → ℚ
  | 0, x => x
  | k + 1, x => newton n k (1 / 2 * (x + n / x))

/-- `Sqrt`: tool/math/math.go:162-186, for `0 < p < 2^40`: `int(math.Log2(float64(p)))` is then the binary logarithm rounded
down. -/
def sqrt (n p : Nat) : ℚ := if n = 0 then 0 else newton n (p.log2 + 1) 1

/-- `Phi`: tool/math/math.go:95-102. -/
def phi (precision : Nat) : ℚ := (sqrt 5 precision + 1) / 2

end Verif.Tool.Math
