import Verif.Pub.Big
/-
What a BER and a DER encoding are (X.690), independently of the code in /repo/ber.

A value is a tree: a primitive element has content octets, a constructed one has elements.  Its DER encoding is one octet
string; its BER encodings are many, because every length may be written in several ways and a constructed element may
instead be closed by two zero octets.
-/
namespace Verif.Ber.Spec
open Verif.Cipher Verif.Pub

inductive Tree where
  | prim (tag content : Bytes)
  | cons (tag : Bytes) (kids : List Tree)

/-- The identifier octets of an element. -/
def Tree.tag : Tree → Bytes
  | .prim t _ => t
  | .cons t _ => t

/-- X.690, 8.1.2: identifier octets of a primitive (`c = false`) or constructed (`c = true`) element. Either one octet
whose low five bits are not all ones, or such an octet with all ones followed by octets with the top bit set and a last one
with it clear. -/
def TagOctets (c : Bool) (t : Bytes) : Prop :=
  ∃ b rest, t = b :: rest ∧ (c = true ↔ b &&& 0x20#8 ≠ 0#8) ∧
    ((b &&& 0x1f#8 ≠ 0x1f#8 ∧ rest = []) ∨
      (b &&& 0x1f#8 = 0x1f#8 ∧ ∃ hi last, rest = hi ++ [last] ∧ (∀ x ∈ hi, 128 ≤ x.toNat) ∧ last.toNat < 128))

/-- X.690, 8.1.3: the length octets that stand for `n`. -/
def LenOctets (n : Nat) (l : Bytes) : Prop :=
  (n < 128 ∧ l = [BitVec.ofNat 8 n]) ∨
    ∃ k, 1 ≤ k ∧ k ≤ 126 ∧ n < 256 ^ k ∧ l = BitVec.ofNat 8 (128 + k) :: hx k n

/-- The ones among them that have at most four octets, are below two gigabytes and do not start with nine zero bits. -/
def PlainLen (n : Nat) (l : Bytes) : Prop :=
  (n < 128 ∧ l = [BitVec.ofNat 8 n]) ∨
    ∃ k, 1 ≤ k ∧ k ≤ 4 ∧ n < 256 ^ k ∧ n < 2 ^ 31 ∧ 256 ^ k ≤ 512 * n ∧ l = BitVec.ofNat 8 (128 + k) :: hx k n

/-- X.690, 10.1: DER uses the shortest length octets. -/
def derLen (n : Nat) : Bytes :=
  if n < 128 then [BitVec.ofNat 8 n] else BitVec.ofNat 8 (128 + byteLen n) :: hx (byteLen n) n

mutual
/-- The DER encoding of a tree. -/
def der : Tree → Bytes
  | .prim t c => t ++ (derLen c.length ++ c)
  | .cons t ks => t ++ (derLen (ders ks).length ++ ders ks)
def ders : List Tree → Bytes
  | [] => []
  | k :: ks => der k ++ ders ks
end

mutual
/-- `Enc L e t b`: the octets `b` are a BER encoding of `t` in which definite lengths are written as `L` allows; when `e`
holds, an element without elements may be closed by two zero octets too. -/
inductive Enc (L : Nat → Bytes → Prop) (e : Prop) : Tree → Bytes → Prop
  | prim {t c l} : TagOctets false t → L c.length l → Enc L e (.prim t c) (t ++ (l ++ c))
  | cons {t ks b l} : TagOctets true t → Encs L e ks b → L b.length l → Enc L e (.cons t ks) (t ++ (l ++ b))
  | indef {t ks b} : TagOctets true t → Encs L e ks b → (∀ k ∈ ks, k.tag ≠ [0#8]) → (ks = [] → e) →
      Enc L e (.cons t ks) (t ++ ([0x80#8] ++ (b ++ [0#8, 0#8])))
inductive Encs (L : Nat → Bytes → Prop) (e : Prop) : List Tree → Bytes → Prop
  | nil : Encs L e [] []
  | cons {t b ts bs} : Enc L e t b → Encs L e ts bs → Encs L e (t :: ts) (b ++ bs)
end

/-- X.690: `b` is a BER encoding of `t`. -/
def Ber : Tree → Bytes → Prop := Enc LenOctets True

/-- The BER encodings with plain lengths and no empty element of indefinite length. -/
def PlainBer : Tree → Bytes → Prop := Enc PlainLen False

/-- Every identifier in the tree is well formed. -/
inductive Wf : Tree → Prop
  | prim {t c} : TagOctets false t → Wf (.prim t c)
  | cons {t ks} : TagOctets true t → (∀ k ∈ ks, Wf k) → Wf (.cons t ks)

end Verif.Ber.Spec
