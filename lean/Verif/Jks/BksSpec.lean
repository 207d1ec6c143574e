import Verif.Jks.Bks
/-
What key stores of types BKS and UBER are, stated without the code.
-/
namespace Verif.Jks.BSpec
open Verif.Cipher Verif.Kdf Verif.Jks.Spec

/-- What an entry of a file holds. -/
inductive Data where
  | cert (ty c : Bytes)
  | key (keyType : Nat) (format algorithm encoded : Bytes)
  | secret (x : Bytes)
  | sealedKey (x : Bytes)

/-- An entry of a file: name, milliseconds (64 bits), certificate chain with the type of each, the count field (equal to the length of the chain, or negative when it is
empty), data. -/
structure Entry where
  al : Bytes
  ms : Nat
  chain : List (Bytes × Bytes)
  count : Nat
  data : Data

def Data.Valid : Data → Prop
  | .cert ty c => ty.length < 2 ^ 16 ∧ c.length < 2 ^ 31
  | .key t f a e => t < 2 ^ 8 ∧ f.length < 2 ^ 16 ∧ a.length < 2 ^ 16 ∧ e.length < 2 ^ 31
  | .secret x => x.length < 2 ^ 31
  | .sealedKey x => x.length < 2 ^ 31

/-- Sizes that can be written in the fields of a file. -/
structure Entry.Valid (e : Entry) : Prop where
  al : e.al.length < 2 ^ 16
  ms : e.ms < 2 ^ 64
  count : e.count < 2 ^ 32
  len : e.chain.length = (signed32 e.count).toNat
  chain : ∀ c ∈ e.chain, c.1.length < 2 ^ 16 ∧ c.2.length < 2 ^ 31
  data : e.data.Valid

def Data.tag : Data → Nat
  | .cert .. => 1
  | .key .. => 2
  | .secret .. => 3
  | .sealedKey .. => 4

/-- The octets of a key. -/
def keyEnc (t : Nat) (f a e : Bytes) : Bytes := hx 1 t ++ str16 f ++ str16 a ++ str32 e

def Data.enc : Data → Bytes
  | .cert ty c => str16 ty ++ str32 c
  | .key t f a e => keyEnc t f a e
  | .secret x => str32 x
  | .sealedKey x => str32 x

def Entry.enc (e : Entry) : Bytes :=
  hx 1 e.data.tag ++ str16 e.al ++ hx 8 e.ms ++ hx 4 e.count ++ (e.chain.map fun c => str16 c.1 ++ str32 c.2).flatten ++ e.data.enc

/-- The octets of the entries, ending with a zero. -/
def body (es : List Entry) : Bytes := (es.map Entry.enc).flatten ++ [0#8]

/-- What is kept of an entry. -/
def Data.toEnt : Data → BEnt
  | .cert ty c => .cert ty c
  | .key t f a e => .key ⟨t, f, a, e⟩
  | .secret x => .secret x
  | .sealedKey x => .sealedKey x none []

def Entry.toItem (e : Entry) : BItem := ⟨e.al, signed64 e.ms * 1000000, e.chain.map Prod.snd, e.data.toEnt⟩

/-- The store of the entries of a file: the entry of each name. -/
def store (es : List Entry) : BStore := fun a => (es.find? fun e => e.al == a).map Entry.toItem

/-- The PKCS#12 password: UTF-16 with two zeros at the end, or nothing. -/
def password (U : Bytes → Bytes) (pw : Bytes) : Bytes := if pw = [] then [] else U pw ++ [0#8, 0#8]

/-- The key of the MAC: `n` bytes of the PKCS#12 key derivation (RFC 7292, appendix B) with purpose 3. -/
def macKey (S : Sha1) (U : Bytes → Bytes) (pw salt : Bytes) (iter n : Nat) : Bytes := Kdf.Spec.pkcs12 S.h.f 20 64 salt (password U pw) iter 3 n

/-- The size of that key for the two versions of the format. -/
def macLen (version : Nat) : Nat := if version = 1 then 2 else 20

/-- Times a hash is iterated for a count field. -/
def rounds (count : Nat) : Nat := max (signed32 count).toNat 1

/-- The octets of a BKS file, with the MAC computed with `key`. -/
def file (S : Sha1) (version : Nat) (salt : Bytes) (count : Nat) (es : List Entry) (key : Bytes) : Bytes :=
  hx 4 version ++ str32 salt ++ hx 4 count ++ body es ++ hmac S.h key (body es)

/-! ### Histories -/

/-- What a call adds. -/
inductive New where
  | cert (c : Bytes)
  | key (kind : Fin 3) (algorithm key : Bytes)
  | sealedKey (kind : Fin 3) (algorithm key password : Bytes)
  | secret (x : Bytes)

/-- A call that adds to a store: name, certificate chain, time. -/
structure Op where
  al : Bytes
  chain : List Bytes
  now : Int
  new : New

/-- The last call for a name; `ops` is most recent first. -/
def last (ops : List Op) (a : Bytes) : Option Op := ops.find? fun op => op.al == a

/-- `order` lists a map: every name once, with its value. -/
def Lists (order : List BItem) (s : BStore) : Prop := (order.map BItem.al).Nodup ∧ ∀ x, x ∈ order ↔ s x.al = some x

end Verif.Jks.BSpec
