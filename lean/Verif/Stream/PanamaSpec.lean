import Verif.Cipher.Common
/-
Panama as Daemen and Clapp specify it (FSE 1998): a 17-word state and a shift register of 32 stages of 8 words.
-/
namespace Verif.Strm.PanamaSpec
open Verif.Cipher

abbrev W := BitVec 32

/-- The buffer as 32 stages `b 0 … b 31` of words `0 … 7`, and the state `a 0 … a 16`. -/
structure State where
  b : Nat → Nat → W
  a : Nat → W

/-- γ, π, θ as in section 2: index arithmetic modulo 17; π rotates by `i(i+1)/2`. -/
def gamma (a : Nat → W) (i : Nat) : W := a i ^^^ (a ((i + 1) % 17) ||| ~~~(a ((i + 2) % 17)))
def pi (a : Nat → W) (i : Nat) : W := (a (7 * i % 17)).rotateLeft (i * (i + 1) / 2 % 32)
def theta (a : Nat → W) (i : Nat) : W := a i ^^^ a ((i + 1) % 17) ^^^ a ((i + 4) % 17)

/-- σ with `l` and stage 16: bit 0 of word 0 is complemented. -/
def sigma (l b16 : Nat → W) (a : Nat → W) (i : Nat) : W :=
  if i = 0 then a 0 ^^^ 1 else if i ≤ 8 then a i ^^^ l (i - 1) else a i ^^^ b16 (i - 9)

/-- λ: the register is shifted by one stage; stage 0 receives stage 31 and `q`, stage 25 in addition words of stage 31. -/
def lambda (b : Nat → Nat → W) (q : Nat → W) (j i : Nat) : W :=
  if j = 0 then b 31 i ^^^ q i else if j = 25 then b 24 i ^^^ b 31 ((i + 2) % 8) else b (j - 1) i

/-- Push `p`: `q = p` and `l = p`. -/
def push (p : Nat → W) (s : State) : State := ⟨lambda s.b p, sigma p (s.b 16) (theta (pi (gamma s.a)))⟩
/-- Pull: `q` is `a1 … a8`, `l` is stage 4. -/
def pull (s : State) : State := ⟨lambda s.b (fun i => s.a (i + 1)), sigma (s.b 4) (s.b 16) (theta (pi (gamma s.a)))⟩

def pulls : Nat → State → State
  | 0, s => s
  | n + 1, s => pull (pulls n s)

def zero : State := ⟨fun _ _ => 0, fun _ => 0⟩

/-- The key is pushed, 32 blank pulls follow; output word `i` of pull `n` is `a (i+9)` before the pull.  Words big-endian. -/
def word (key : Bytes) (n i : Nat) : W :=
  (pulls (32 + n) (push (fun i => (ldBE 32 4 8 key).getD i 0) zero)).a (i + 9)

/-- Byte `p` of the key stream. -/
def keystream (key : Bytes) (p : Nat) : Byte := (leBytes 4 (word key (p / 32) (p % 32 / 4)).toNat).reverse.getD (p % 4) 0

end Verif.Strm.PanamaSpec
