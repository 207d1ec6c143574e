import Verif.Aead.EaxSpec
/-
OCB as in RFC 7253 over a block cipher `E`/`D` with 16-byte blocks; `tau` is the tag length in bytes.
-/
namespace Verif.Aead.Spec
open Verif.Mode (chunks)
open Verif.Mode.Spec (natBe beNat)

/-- Number of trailing zero bits (of a positive number), looking at no more than `fuel` bits. -/
def ntzAux : Nat → Nat → Nat
  | 0, _ => 0
  | fuel + 1, i => if i % 2 = 1 then 0 else 1 + ntzAux fuel (i / 2)

/-- `ntz(i)` : number of trailing zero bits of `i ≥ 1`. -/
def ntz (i : Nat) : Nat := ntzAux i i

/-- `L_* = E(0)`. -/
def ocbLstar (E : Bytes → Bytes) : Bytes := E (List.replicate 16 0)

/-- `L_$ = double(L_*)`. -/
def ocbLdollar (E : Bytes → Bytes) : Bytes := gfDouble (ocbLstar E)

/-- `L_0 = double(L_$)`, `L_i = double(L_{i-1})`. -/
def ocbL (E : Bytes → Bytes) : Nat → Bytes
  | 0 => gfDouble (ocbLdollar E)
  | i + 1 => gfDouble (ocbL E i)

/-- `Offset_i = Offset_{i-1} ⊕ L_{ntz(i)}`. -/
def ocbOffset (E : Bytes → Bytes) (O : Bytes) : Nat → Bytes
  | 0 => O
  | i + 1 => xorb (ocbOffset E O i) (ocbL E (ntz (i + 1)))

/-- XOR of a list of blocks. -/
def xorAll (l : List Bytes) : Bytes := l.foldl xorb (List.replicate 16 0)

/-- `x ‖ 1 ‖ 0…` up to 16 bytes, for `x` shorter than 16 bytes. -/
def pad10 (x : Bytes) : Bytes := x ++ 0x80 :: List.replicate (15 - x.length) 0

/-- The whole blocks of a string. -/
def fullBlocks (x : Bytes) : List Bytes := chunks 16 (x.take (16 * (x.length / 16)))

/-- What follows the whole blocks. -/
def lastPart (x : Bytes) : Bytes := x.drop (16 * (x.length / 16))

/-- RFC 7253 4.1 `HASH(K, A)`. -/
def ocbHash (E : Bytes → Bytes) (A : Bytes) : Bytes :=
  let Z := List.replicate 16 0
  let S := xorAll (((fullBlocks A).zipIdx 1).map fun (a, i) => E (xorb a (ocbOffset E Z i)))
  if lastPart A = [] then S
  else xorb S (E (xorb (pad10 (lastPart A)) (xorb (ocbOffset E Z (A.length / 16)) (ocbLstar E))))

/-- RFC 7253 4.2, the number `num2str(TAGLEN mod 128, 7) ‖ 0… ‖ 1 ‖ N`. -/
def ocbNonce (tau : Nat) (N : Bytes) : Nat := (8 * tau % 128) * 2 ^ 121 + 2 ^ (8 * N.length) + beNat N

/-- RFC 7253 4.2, `Offset_0`. -/
def ocbStart (E : Bytes → Bytes) (tau : Nat) (N : Bytes) : Bytes :=
  let v := ocbNonce tau N
  let Ktop := E (natBe 16 (v - v % 64))
  let Stretch := beNat Ktop * 2 ^ 64 + (beNat (Ktop.take 8) ^^^ beNat ((Ktop.drop 1).take 8))
  natBe 16 (Stretch / 2 ^ (64 - v % 64))

/-- RFC 7253 4.2/4.3: the text, `f` being `E` to encrypt and `D` to decrypt. -/
def ocbCrypt (f E : Bytes → Bytes) (tau : Nat) (N X : Bytes) : Bytes :=
  let O := ocbStart E tau N
  (((fullBlocks X).zipIdx 1).map fun (x, i) => xorb (f (xorb x (ocbOffset E O i))) (ocbOffset E O i)).flatten ++
    xorb (lastPart X) (E (xorb (ocbOffset E O (X.length / 16)) (ocbLstar E)))

/-- RFC 7253 4.2: the tag of plaintext `P`. -/
def ocbTag (E : Bytes → Bytes) (tau : Nat) (N A P : Bytes) : Bytes :=
  let Om := ocbOffset E (ocbStart E tau N) (P.length / 16)
  let ck := xorAll (fullBlocks P)
  (if lastPart P = [] then xorb (E (xorb (xorb ck Om) (ocbLdollar E))) (ocbHash E A)
   else xorb (E (xorb (xorb (xorb ck (pad10 (lastPart P))) (xorb Om (ocbLstar E))) (ocbLdollar E))) (ocbHash E A)).take tau

/-- RFC 7253 4.2: encryption. -/
def ocb (E : Bytes → Bytes) (tau : Nat) (N P A : Bytes) : Bytes := ocbCrypt E E tau N P ++ ocbTag E tau N A P

end Verif.Aead.Spec
