import Verif.Bencode.Model
/-
Specification of the bencode format (BEP 3), independent of the code: decimal numbers are what Lean
prints, dictionaries are in strictly increasing bytewise order of their keys.
-/
namespace Verif.Bencode

/-- The ASCII bytes of a string. -/
def ascii (s : String) : Bytes := s.toList.map fun c => BitVec.ofNat 8 c.toNat

/-- Strictly increasing keys, each compared with its successor bytewise; equivalently the list is the
unique sorted presentation of a finite map. -/
def Increasing : List Bytes → Prop
  | a :: b :: t => a.map BitVec.toNat < b.map BitVec.toNat ∧ Increasing (b :: t)
  | _ => True

mutual
/-- The wire form of a value made of integers, strings, lists and dictionaries. -/
def wire : Val → Bytes
  | .int n => ascii "i" ++ ascii (toString n) ++ ascii "e"
  | .str s => ascii (toString s.length) ++ ascii ":" ++ s
  | .list l => ascii "l" ++ wireL l ++ ascii "e"
  | .dict l => ascii "d" ++ wireD l ++ ascii "e"
  | _ => []
def wireL : List Val → Bytes
  | [] => []
  | v :: t => wire v ++ wireL t
def wireD : List (Bytes × Val) → Bytes
  | [] => []
  | e :: t => wireP e ++ wireD t
def wireP : Bytes × Val → Bytes
  | (k, v) => ascii (toString k.length) ++ ascii ":" ++ k ++ wire v
end

mutual
/-- The values bencode can represent: integers, strings, lists and dictionaries with increasing keys, with
no string (and no key) longer than `lim`. -/
def Plain (lim : Int) : Val → Prop
  | .int _ => True
  | .str s => (s.length : Int) ≤ lim
  | .list l => PlainL lim l
  | .dict l => Increasing (l.map Prod.fst) ∧ PlainD lim l
  | _ => False
def PlainL (lim : Int) : List Val → Prop
  | [] => True
  | v :: t => Plain lim v ∧ PlainL lim t
def PlainD (lim : Int) : List (Bytes × Val) → Prop
  | [] => True
  | e :: t => PlainP lim e ∧ PlainD lim t
def PlainP (lim : Int) : Bytes × Val → Prop
  | (k, v) => (k.length : Int) ≤ lim ∧ Plain lim v
end

mutual
/-- What is left of a Go value after a trip through bencode: `true`/`false` become 1/0, a `[]byte` becomes
a string; everything else stays. -/
def norm : Val → Val
  | .bool b => .int (if b then 1 else 0)
  | .bytes s => .str s
  | .list l => .list (normL l)
  | .dict l => .dict (normD l)
  | v => v
def normL : List Val → List Val
  | [] => []
  | v :: t => norm v :: normL t
def normD : List (Bytes × Val) → List (Bytes × Val)
  | [] => []
  | e :: t => normP e :: normD t
def normP : Bytes × Val → Bytes × Val
  | (k, v) => (k, norm v)
end

/-- The order in which Go enumerates a map is unspecified, but it enumerates every entry once. -/
def Enumeration (shuffle : List (Bytes × Bytes) → List (Bytes × Bytes)) : Prop :=
  ∀ l, (shuffle l).Perm l

end Verif.Bencode
