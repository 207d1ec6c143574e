import Verif.Go.Basic
/-
Model of rand/randomart/randomart.go, rand/prng/prng.go, rand/keygen/keygen.go and rand/zero/zero.go.
-/
namespace Verif.Rand.Art

/-- The state of the walk: the position and the field, an array `[17][9]byte`. -/
structure Walk where
  x : Int
  y : Int
  field : Int → Int → Byte

/-- `MAX` and `MIN`: rand/randomart/randomart.go:142-154. -/
def goMax (a b : Int) : Int := if b < a then a else b
@[inherit_doc goMax] def goMin (a b : Int) : Int := if a < b then a else b

/-- One move command, the lower two bits of `input`: rand/randomart/randomart.go:70-97.  An access outside the array panics. -/
def move (input : Byte) (w : Walk) : Res Walk :=
  let x := if 0 < (input &&& 1#8).toNat then w.x + 1 else w.x + -1
  let y := if 0 < (input &&& 2#8).toNat then w.y + 1 else w.y - 1
  let x := goMax x 0
  let y := goMax y 0
  let x := goMin x (17 - 1)
  let y := goMin y (9 - 1)
  if 0 ≤ x ∧ x < 17 ∧ 0 ≤ y ∧ y < 9 then
    let v := w.field x y
    .ok ⟨x, y, if v.toNat < 16 - 2 then fun a b => if a = x ∧ b = y then v + 1 else w.field a b else w.field⟩
  else .panic

/-- The four commands of a byte: rand/randomart/randomart.go:69-98. -/
def moveByte (input : Byte) (w : Walk) : Res Walk := do
  let w ← move input w
  let w ← move (input >>> 2) w
  let w ← move (input >>> 2 >>> 2) w
  move (input >>> 2 >>> 2 >>> 2) w

/-- The loop over the channel: rand/randomart/randomart.go:41-49, 67-99.  (The goroutine sends the bytes of the string in order
and closes the channel; the receiver is the only one.) -/
def walk : Bytes → Walk → Res Walk
  | [], w => .ok w
  | b :: s, w => do
    let w ← moveByte b w
    walk s w

/-- `augment_string`: rand/randomart/randomart.go:56. -/
def augment : List Char := " .o+=*BOX@%&#/^SE".toList

/-- One row of the picture: rand/randomart/randomart.go:118-130. -/
def row (field : Int → Int → Byte) (y : Nat) : List Char :=
  '|' :: ((List.range 17).map fun (x : Nat) => augment.getD (goMin ((field x y).toNat : Nat) 16).toNat ' ') ++ ['|', '\n']

/-- The start and the end are marked: rand/randomart/randomart.go:101-103. -/
def marked (w : Walk) : Int → Int → Byte := fun a b =>
  if a = w.x ∧ b = w.y then 16#8 else if a = 8 ∧ b = 4 then 15#8 else w.field a b

/-- The picture with its frame: rand/randomart/randomart.go:105-138. -/
def draw (field : Int → Int → Byte) : List Char :=
  '+' :: (List.replicate 17 '-' ++ ['+', '\n'] ++ (List.range 9).flatMap (row field) ++ '+' :: (List.replicate 17 '-' ++ ['+']))

/-- `keyFingerprintRandomart` on the bytes of a string, `Randomart`: rand/randomart/randomart.go:39-140.  The characters are
written into an array of 220 bytes. -/
def randomart (s : Bytes) : Res (List Char) := do
  let w ← walk s ⟨8, 4, fun _ _ => 0#8⟩
  if 0 ≤ w.x ∧ w.x < 17 ∧ 0 ≤ w.y ∧ w.y < 9 then
    let out := draw (marked w)
    if out.length ≤ (17 + 3) * (9 + 2) then .ok out else .panic
  else .panic

/-- `Prng.Read` into a buffer of `n` bytes; the bytes stored: rand/prng/prng.go:37-55.  `H` is the hash function. -/
def prngRead (H : Bytes → Bytes) (seed : Bytes) (n : Nat) : Res Bytes :=
  let hashs := H (H seed)
  if hashs.length < n then .err else .ok (hashs.take n)

/-- An `io.Reader`: how many bytes a call with a buffer of `n` bytes stores and which, and whether it returns an error. -/
abbrev Reader := Nat → Bytes × Bool

/-- `Prng` as a reader. -/
def prngReader (H : Bytes → Bytes) (seed : Bytes) : Reader := fun n =>
  match prngRead H seed n with
  | .ok b => (b, false)
  | _ => ([], true)

/-- `zeroReader.Read`: rand/zero/zero.go:12-18. -/
def zeroReader : Reader := fun n => (List.replicate n 0#8, false)

/-- `Keygen.GenerateKey`: rand/keygen/keygen.go:19-39.  (`length / 8` truncates towards zero; the loop that follows has no turn,
as `i` begins at the length of `key`.) -/
def generateKey (length : Int) (rd : Reader) : Res Bytes :=
  let num := length.tdiv 8
  if num < 0 then .panic
  else
    let (b, failed) := rd num.toNat
    if failed then .err
    else .ok (b.take num.toNat ++ List.replicate (num.toNat - b.length) 0#8)

end Verif.Rand.Art
