import Verif.Mode.StreamSpec
/-
RFC 3394 (AES key wrap) and RFC 5649 (with padding), transcribed from the indexed descriptions.
-/
namespace Verif.Mode.Spec

/-- RFC 3394, 2.2.1, step 2, one iteration (`i` counted from 0):
`B = E(K, A ‖ R[i])`, `A = MSB64(B) ⊕ t` with `t = n*j + i`, `R[i] = LSB64(B)`. -/
def kwStep (E : Bytes → Bytes) (n j : Nat) (s : Bytes × List Bytes) (i : Nat) : Bytes × List Bytes :=
  let B := E (s.1 ++ s.2.getD i [])
  (xorb (B.take 8) (natBe 8 (n * j + (i + 1))), s.2.set i (B.drop 8))

/-- RFC 3394, 2.2.1: `for j = 0 to 5, for i = 1 to n`. -/
def kw (E : Bytes → Bytes) (iv : Bytes) (R : List Bytes) : Bytes × List Bytes :=
  (List.range 6).foldl (fun s j => (List.range R.length).foldl (kwStep E R.length j) s) (iv, R)

/-- RFC 3394, 2.2.2, step 2, one iteration: `B = D(K, (A ⊕ t) ‖ R[i])`, `A = MSB64(B)`, `R[i] = LSB64(B)`. -/
def kwInvStep (D : Bytes → Bytes) (n j : Nat) (i : Nat) (s : Bytes × List Bytes) : Bytes × List Bytes :=
  let B := D (xorb s.1 (natBe 8 (n * j + (i + 1))) ++ s.2.getD i [])
  (B.take 8, s.2.set i (B.drop 8))

/-- RFC 3394, 2.2.2: `for j = 5 to 0, for i = n to 1`. -/
def kwInv (D : Bytes → Bytes) (C : Bytes) (R : List Bytes) : Bytes × List Bytes :=
  (List.range 6).foldr (fun j s => (List.range R.length).foldr (kwInvStep D R.length j) s) (C, R)

/-- The wrapped key `C[0] ‖ C[1] ‖ … ‖ C[n]`. -/
def keyWrap (E : Bytes → Bytes) (iv : Bytes) (p : Bytes) : Bytes :=
  (kw E iv (chunks 8 p)).1 ++ (kw E iv (chunks 8 p)).2.flatten

/-- RFC 5649: the plaintext is padded with zeros to a multiple of 8; the AIV is the 32-bit constant followed by
the plaintext length; a padded plaintext of 8 bytes is one ECB block, longer ones are wrapped as in RFC 3394. -/
def keyWrapPad (E : Bytes → Bytes) (icv : Bytes) (p : Bytes) : Bytes :=
  let padded := p ++ List.replicate ((8 - p.length % 8) % 8) 0
  let aiv := icv ++ natBe 4 p.length
  if padded.length = 8 then E (aiv ++ padded) else keyWrap E aiv padded

/-- The IV in use: the caller's (first 8 bytes), or the RFC 3394 default when none is given. -/
def ivOf (iv : Option Bytes) : Bytes := (iv.getD (List.replicate 8 0xA6)).take 8

/-- The 32-bit RFC 5649 constant in use: the caller's (first 4 bytes), or the default when none is given. -/
def icvOf (iv : Option Bytes) : Bytes := (iv.getD [0xA6, 0x59, 0x59, 0xA6]).take 4

end Verif.Mode.Spec
