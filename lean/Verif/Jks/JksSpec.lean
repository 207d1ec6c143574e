import Verif.Jks.Jks
/-
What a Java key store of type JKS is, stated without the code.
-/
namespace Verif.Jks.Spec
open Verif.Cipher Verif.Kdf

/-- A password as UTF-16 characters: every byte with a zero before it. -/
def utf16 (password : Bytes) : Bytes := (password.map fun b => [0#8, b]).flatten

/-- The key stream of the JKS key protector: block `i` is the hash of the password and block `i - 1`, block 0 is the salt. -/
def block (sha : Bytes → Bytes) (pw salt : Bytes) : Nat → Bytes
  | 0 => salt
  | i + 1 => sha (pw ++ block sha pw salt i)

/-- Byte `j` of the key stream, with 20-byte blocks. -/
def streamByte (sha : Bytes → Bytes) (pw salt : Bytes) (j : Nat) : Byte := (block sha pw salt (j / 20 + 1)).getD (j % 20) 0#8

/-- The protected form of a key: salt, key xor key stream, hash of password and key. -/
def protect (sha : Bytes → Bytes) (pw salt key : Bytes) : Bytes :=
  salt ++ key.mapIdx (fun j b => b ^^^ streamByte sha pw salt j) ++ sha (pw ++ key)

/-- An entry of a file. -/
inductive Entry where
  /-- name, milliseconds (64 bits), protected key, certificates, and the count field: equal to the number of certificates, or negative when
  there are none -/
  | key (al : Bytes) (ms : Nat) (k : Bytes) (chain : List Bytes) (count : Nat)
  | cert (al : Bytes) (ms : Nat) (c : Bytes)

/-- Sizes that can be written in the fields of a file. -/
def Entry.Valid : Entry → Prop
  | .key a ms k chain n => a.length < 2 ^ 16 ∧ ms < 2 ^ 64 ∧ k.length < 2 ^ 31 ∧ (∀ c ∈ chain, c.length < 2 ^ 31) ∧ n < 2 ^ 32 ∧
      chain.length = (signed32 n).toNat
  | .cert a ms c => a.length < 2 ^ 16 ∧ ms < 2 ^ 64 ∧ c.length < 2 ^ 31

def str16 (s : Bytes) : Bytes := hx 2 s.length ++ s
def str32 (s : Bytes) : Bytes := hx 4 s.length ++ s
def x509 : Bytes := [0x58#8, 0x2e#8, 0x35#8, 0x30#8, 0x39#8]

/-- The octets of an entry. -/
def Entry.enc : Entry → Bytes
  | .key a ms k chain n => hx 4 1 ++ str16 a ++ hx 8 ms ++ str32 k ++ hx 4 n ++ (chain.map fun c => str16 x509 ++ str32 c).flatten
  | .cert a ms c => hx 4 2 ++ str16 a ++ hx 8 ms ++ str16 x509 ++ str32 c

/-- The octets of a file before the hash: magic number, version, number of entries, entries. -/
def body (count : Nat) (es : List Entry) : Bytes := hx 4 0xFEEDFEED ++ hx 4 2 ++ hx 4 count ++ (es.map Entry.enc).flatten

/-- The hash at the end of a file. -/
def digest (sha : Bytes → Bytes) (password b : Bytes) : Bytes := sha (utf16 password ++ aphrodite ++ b)

/-- Reading an entry into a store. -/
def Entry.into (s : Store) : Entry → Store
  | .key a ms k chain _ =>
    { s with aliases := s.aliases ++ [a], dates := set s.dates a (signed64 ms * 1000000), privateKeys := set s.privateKeys a k, certChains := set s.certChains a chain }
  | .cert a ms c => { s with aliases := s.aliases ++ [a], dates := set s.dates a (signed64 ms * 1000000), trustedCerts := set s.trustedCerts a c }

/-! ### Histories -/

/-- A call that adds to a store. -/
inductive Op where
  | key (al key password : Bytes) (chain : List Bytes) (rnd : Bytes) (now : Int)
  | enc (al encoded : Bytes) (chain : List Bytes) (now : Int)
  | cert (al cert : Bytes) (now : Int)

/-- What a store holds under a name. -/
inductive Content where
  | key (key password : Bytes) (chain : List Bytes)
  | enc (encoded : Bytes) (chain : List Bytes)
  | cert (cert : Bytes)

/-- A certificate entry. -/
def Content.IsCert : Content → Bool
  | .cert _ => true
  | _ => false

/-- What a store should hold under a name after the calls `ops`, most recent first, and since when: a name for a certificate is not reused for a key nor
the other way round, empty certificates are refused, and the date is that of the first entry. -/
def content : List Op → Bytes → Option (Content × Int)
  | [], _ => none
  | op :: ops, a =>
    let old := content ops a
    match op with
    | .key b k pw chain _ now => if a = b then
        match old with
        | none => some (.key k pw chain, now)
        | some (.cert c, t) => some (.cert c, t)
        | some (_, t) => some (.key k pw chain, t)
      else old
    | .enc b e chain now => if a = b then
        match old with
        | none => some (.enc e chain, now)
        | some (.cert c, t) => some (.cert c, t)
        | some (_, t) => some (.enc e chain, t)
      else old
    | .cert b c now => if a = b then
        match old with
        | none => if c = [] then none else some (.cert c, now)
        | some (.cert c', t) => if c = [] then some (.cert c', t) else some (.cert c, t)
        | some (x, t) => some (x, t)
      else old

end Verif.Jks.Spec
