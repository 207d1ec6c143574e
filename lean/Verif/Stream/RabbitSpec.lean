import Verif.Cipher.Common
/-
RFC 4503, read section by section.  Words are natural numbers below 2^32; nothing of the model is used.
-/
namespace Verif.Strm.Rfc4503

def wsize : Nat := 2 ^ 32
def rol (x n : Nat) : Nat := (x * 2 ^ n) % wsize + x / 2 ^ (32 - n)
def A (j : Nat) : Nat := [0x4D34D34D, 0xD34D34D3, 0x34D34D34].getD (j % 3) 0

structure State where
  X : List Nat
  C : List Nat
  b : Nat

/-- Section 2.5: the counter system, `temp = Cj + Aj + b; b = temp div WORDSIZE; Cj = temp mod WORDSIZE`. -/
def count : Nat → List Nat → Nat → List Nat × Nat
  | j, c :: cs, b =>
    let temp := c + A j + b
    let r := count (j + 1) cs (temp / wsize)
    (temp % wsize :: r.1, r.2)
  | _, [], b => ([], b)

/-- Section 2.6: `g(u,v) = LSW(square(u+v)) ^ MSW(square(u+v))`, the sum taken modulo WORDSIZE. -/
def g (u v : Nat) : Nat :=
  let q := ((u + v) % wsize) ^ 2
  (q % wsize) ^^^ (q / wsize)

/-- Sections 2.5 and 2.6: one iteration. -/
def step (s : State) : State :=
  let r := count 0 s.C s.b
  let G := fun j => g (s.X.getD (j % 8) 0) (r.1.getD (j % 8) 0)
  ⟨(List.range 8).map fun j =>
    if j % 2 = 0 then (G j + rol (G (j + 7)) 16 + rol (G (j + 6)) 16) % wsize
    else (G j + rol (G (j + 7)) 8 + G (j + 6)) % wsize, r.1, r.2⟩

/-- Section 2.3: the key is `k7 … k0`, 16 bits each, `k0` first in memory, little-endian. -/
def keySetup (key : Bytes) : State :=
  let k := fun i => Cipher.leN ((key.drop (2 * (i % 8))).take 2)
  let cat := fun hi lo => hi * 2 ^ 16 + lo
  let X := (List.range 8).map fun j => if j % 2 = 0 then cat (k (j + 1)) (k j) else cat (k (j + 5)) (k (j + 4))
  let C := (List.range 8).map fun j => if j % 2 = 0 then cat (k (j + 4)) (k (j + 5)) else cat (k j) (k (j + 1))
  let s := step (step (step (step ⟨X, C, 0⟩)))
  { s with C := (List.range 8).map fun j => s.C.getD j 0 ^^^ s.X.getD ((j + 4) % 8) 0 }

/-- Section 2.4: the IV setup, the IV's 64 bits as a little-endian number. -/
def ivSetup (s : State) (iv : Bytes) : State :=
  let v := Cipher.leN iv
  let bits := fun hi lo => v / 2 ^ lo % 2 ^ (hi + 1 - lo)
  let w := fun j : Nat => match j % 4 with
    | 0 => bits 31 0
    | 1 => bits 63 48 * 2 ^ 16 + bits 31 16
    | 2 => bits 63 32
    | _ => bits 47 32 * 2 ^ 16 + bits 15 0
  step (step (step (step { s with C := (List.range 8).map fun j => s.C.getD j 0 ^^^ w j })))

def start (key iv : Bytes) : State := if iv = [] then keySetup key else ivSetup (keySetup key) iv

/-- Section 2.7: the 128 bits of one iteration, least significant byte first. -/
def extract (X : List Nat) : Bytes :=
  let x := fun i => X.getD i 0
  ([(0, 5, 3), (2, 7, 5), (4, 1, 7), (6, 3, 1)] : List (Nat × Nat × Nat)).flatMap fun t =>
    Cipher.leBytes 4 ((((x t.1) % 2 ^ 16) ^^^ (x t.2.1 / 2 ^ 16)) + (((x t.1) / 2 ^ 16) ^^^ (x t.2.2 % 2 ^ 16)) * 2 ^ 16)

def steps : Nat → State → State
  | 0, s => s
  | n + 1, s => step (steps n s)

/-- Byte `i` of the key stream of RFC 4503. -/
def keystream (key iv : Bytes) (i : Nat) : Byte := (extract (steps (i / 16 + 1) (start key iv)).X).getD (i % 16) 0

end Verif.Strm.Rfc4503
