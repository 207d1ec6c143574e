import Verif.Jks.Jceks
/-
What a Java key store of type JCEKS is, stated without the code.
-/
namespace Verif.Jks.JSpec
open Verif.Cipher Verif.Kdf Verif.Jks.Spec

/-- An entry of a file: that of a JKS file, or a secret key. -/
inductive Entry where
  | old (e : Spec.Entry)
  | secret (al : Bytes) (ms : Nat) (k : Bytes)

def Entry.Valid : Entry → Prop
  | .old e => e.Valid
  | .secret a ms k => a.length < 2 ^ 16 ∧ ms < 2 ^ 64 ∧ k.length < 2 ^ 31

def Entry.enc : Entry → Bytes
  | .old e => e.enc
  | .secret a ms k => hx 4 3 ++ str16 a ++ hx 8 ms ++ str32 k

/-- The octets of a file before the hash. The magic number is `cececece`, or that of JKS files. -/
def body (magic count : Nat) (es : List Entry) : Bytes := hx 4 magic ++ hx 4 2 ++ hx 4 count ++ (es.map Entry.enc).flatten

/-- Reading an entry into a store. -/
def Entry.into (s : JStore) : Entry → JStore
  | .old (.key a ms k chain _) => set s a (.ptr (.key (signed64 ms * 1000000) k chain))
  | .old (.cert a ms c) => set s a (.ptr (.cert (signed64 ms * 1000000) c))
  | .secret a ms k => set s a (.ptr (.secret (signed64 ms * 1000000) k))

/-- A call that adds to a store. -/
inductive Op where
  | key (al key password : Bytes) (certs : List Bytes) (cipher : Bool) (salt : Bytes) (now : Int)
  | cert (al cert : Bytes) (now : Int)
  | secret (al key password : Bytes) (cipher : Bool) (salt : Bytes) (now : Int)

def Op.name : Op → Bytes
  | .key a .. => a
  | .cert a .. => a
  | .secret a .. => a

/-- The last call for a name; `ops` is most recent first. -/
def last (ops : List Op) (a : Bytes) : Option Op := ops.find? fun op => op.name == a

/-- `order` lists a map: every name once, with its value. -/
def Lists (order : List (Bytes × Val)) (s : JStore) : Prop := (order.map Prod.fst).Nodup ∧ ∀ a v, (a, v) ∈ order ↔ s a = some v

end Verif.Jks.JSpec
