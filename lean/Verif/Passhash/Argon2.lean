import Verif.Fernet.Base64
import Verif.Go.Basic
/-
Model of /repo/passhash/argon2 and /repo/passhash/argon2fmt.

Argon2 itself (/repo/kdf/argon2) is a parameter: a function of mode, password, salt, passes, memory, lanes and key length whose
value has that length.  Its panics are modelled: no passes, no lanes, and a key length of zero (`blake2b.New(0, nil)` in
blake2b.go:19 returns a nil digest whose methods panic).  A memory size for which the machine has no memory stops a Go program;
this is not modelled.  Strings are their bytes; error texts are dropped; `strings.Split`, `strconv.Atoi`, `fmt`'s `%d` and
`base64.RawStdEncoding` are Go's library, modelled from its documentation.
-/
namespace Verif.Passhash
open Verif.Fernet

/-! ### Library functions -/

/-- `strings.Split` with a separator of one byte -/
def split (c : Byte) : Bytes → List Bytes
  | [] => [[]]
  | b :: s =>
    if b = c then [] :: split c s
    else match split c s with
      | [] => [[b]]
      | p :: ps => (b :: p) :: ps

/-- `%d` of a number that is not negative -/
def dec (n : Nat) : Bytes := if n < 10 then [BitVec.ofNat 8 (48 + n)] else dec (n / 10) ++ [BitVec.ofNat 8 (48 + n % 10)]
termination_by n
decreasing_by omega

def isDigit (c : Byte) : Bool := 48 ≤ c.toNat && c.toNat ≤ 57

def decVal (s : Bytes) : Nat := s.foldl (fun a c => a * 10 + (c.toNat - 48)) 0

/-- `v, _ := strconv.Atoi(s)`: 0 after a syntax error, the nearest `int` after a range error -/
def atoi (s : Bytes) : Int :=
  let neg := s.headD 0 == 45#8
  let d := if s.headD 0 == 45#8 || s.headD 0 == 43#8 then s.drop 1 else s
  if d.isEmpty || !d.all isDigit then 0
  else if neg then max (-(decVal d : Int)) (-2 ^ 63)
  else min (decVal d : Int) (2 ^ 63 - 1)

/-- `base64.RawStdEncoding.EncodeToString` -/
def rawEnc : Bytes → Bytes
  | [] => []
  | [a] => [alpha false (a.toNat / 4), alpha false (a.toNat % 4 * 16)]
  | [a, b] => [alpha false (a.toNat / 4), alpha false (a.toNat % 4 * 16 + b.toNat / 16), alpha false (b.toNat % 16 * 4)]
  | a :: b :: c :: r =>
    alpha false (a.toNat / 4) :: alpha false (a.toNat % 4 * 16 + b.toNat / 16) ::
      alpha false (b.toNat % 16 * 4 + c.toNat / 64) :: alpha false (c.toNat % 64) :: rawEnc r

/-- one quantum of `base64.RawStdEncoding.Decode`: rest, bytes, error -/
def rawQuantum (v : List Nat) : Bytes → Bytes × Bytes × Bool
  | [] => if v.length = 1 then ([], [], true) else ([], conv v, false)
  | c :: src =>
    match unalpha false c with
    | some x => if v.length = 3 then (src, conv (v ++ [x]), false) else rawQuantum (v ++ [x]) src
    | none => if isNl c then rawQuantum v src else (src, [], true)

def rawLoop : (fuel : Nat) → Bytes → Bytes × Bool
  | 0, _ => ([], false)
  | f + 1, src =>
    if src.isEmpty then ([], false)
    else
      let q := rawQuantum [] src
      if q.2.2 then (q.2.1, true)
      else
        let r := rawLoop f q.1
        (q.2.1 ++ r.1, r.2)

/-- `b, _ := base64.RawStdEncoding.DecodeString(s)`: the bytes before the first error -/
def rawDec (src : Bytes) : Bytes := (rawLoop src.length src).1

/-! ### Argon2 -/

inductive Mode where
  | d | i | id
  deriving DecidableEq

structure Argon2Fn where
  f : Mode → Bytes → Bytes → Nat → Nat → Nat → Nat → Bytes
  len : ∀ m p s t mem l n, (f m p s t mem l n).length = n

/-- argon2.go:123-142 of /repo/kdf/argon2 -/
def deriveKey (A : Argon2Fn) (mode : Mode) (password salt : Bytes) (time memory : BitVec 32) (threads : BitVec 8) (keyLen : BitVec 32) : Res Bytes :=
  if time.toNat < 1 then .panic
  else if threads.toNat < 1 then .panic
  else if keyLen.toNat = 0 then .panic
  else .ok (A.f mode password salt time.toNat memory.toNat threads.toNat keyLen.toNat)

/-- `Opts`, argon2fmt.go:39-45 -/
structure Opts where
  saltLen : Int
  time : BitVec 32
  memory : BitVec 32
  threads : BitVec 8
  keyLen : BitVec 32

/-- `generateSalt`, argon2fmt.go:205-213, argon2.go:184-192: `none` for the error -/
def generateSalt (random : Bytes) (length : Int) : Res (Option Bytes) :=
  if length < 0 then .panic
  else if (random.length : Int) < length then .ok none
  else .ok (some (random.take length.toNat))

/-! ### argon2fmt -/

/-- argon2fmt.go:19-36, the names of the types -/
def sArgon2d : Bytes := [0x61#8, 0x72#8, 0x67#8, 0x6f#8, 0x6e#8, 0x32#8, 0x64#8]
def sArgon2i : Bytes := [0x61#8, 0x72#8, 0x67#8, 0x6f#8, 0x6e#8, 0x32#8, 0x69#8]
def sArgon2id : Bytes := [0x61#8, 0x72#8, 0x67#8, 0x6f#8, 0x6e#8, 0x32#8, 0x69#8, 0x64#8]
def sArgon2 : Bytes := [0x61#8, 0x72#8, 0x67#8, 0x6f#8, 0x6e#8, 0x32#8]
/-- `"v=19"` -/
def sV19 : Bytes := [0x76#8, 0x3d#8, 0x31#8, 0x39#8]
/-- `"19"` -/
def s19 : Bytes := [0x31#8, 0x39#8]
/-- the separators `$`, `,`, `=` and the parameter names -/
def cDollar : Byte := 0x24#8
def cComma : Byte := 0x2c#8
def cEq : Byte := 0x3d#8
def cM : Byte := 0x6d#8
def cT : Byte := 0x74#8
def cP : Byte := 0x70#8

namespace Fmt

/-- argon2fmt.go:89-110, the switch over the type: name and mode -/
def typeOf (typ : Nat) : Option (Bytes × Mode) :=
  if typ = 2 then some (sArgon2id, .id) else if typ = 1 then some (sArgon2i, .i) else if typ = 0 then some (sArgon2d, .d) else none

/-- the string of argon2fmt.go:115-120 -/
def format (name : Bytes) (memory time threads : Nat) (salt key : Bytes) : Bytes :=
  [cDollar] ++ name ++ [cDollar] ++ sV19 ++ [cDollar] ++ ([cM, cEq] ++ dec memory ++ [cComma] ++ ([cT, cEq] ++ dec time) ++ [cComma] ++ ([cP, cEq] ++ dec threads)) ++
    [cDollar] ++ rawEnc salt ++ [cDollar] ++ rawEnc key

/-- argon2fmt.go:88-122 -/
def genWith (A : Argon2Fn) (password salt : Bytes) (typ : Nat) (opt : Opts) : Res Bytes :=
  match typeOf typ with
  | none => .err
  | some (name, mode) =>
    (deriveKey A mode password salt opt.time opt.memory opt.threads opt.keyLen).bind fun key =>
      .ok (format name opt.memory.toNat opt.time.toNat opt.threads.toNat salt key)

/-- argon2fmt.go:72-123 -/
def Generate (A : Argon2Fn) (random password : Bytes) (typ : Nat) (opt : Opts) : Res Bytes :=
  if password.length = 0 then .err
  else (generateSalt random opt.saltLen).bind fun s =>
    match s with
    | none => .err
    | some salt => genWith A password salt typ opt

/-- argon2fmt.go:150-166, one round of the loop on `(memory, time, threads)` -/
def param (s : Int × Int × Int) (p : Bytes) : Option (Int × Int × Int) :=
  match split cEq p with
  | [k, v] =>
    if k = [cM] then some (atoi v, s.2.1, s.2.2)
    else if k = [cT] then some (s.1, atoi v, s.2.2)
    else if k = [cP] then some (s.1, s.2.1, atoi v)
    else some s
  | _ => none

/-- argon2fmt.go:150-166; three parameters -/
def params (a b c : Bytes) : Option (Int × Int × Int) :=
  ((param (0, 0, 0) a).bind fun s => param s b).bind fun s => param s c

/-- argon2fmt.go:174-195 -/
def modeOf (name : Bytes) : Option Mode :=
  if name = sArgon2id then some .id else if name = sArgon2i then some .i else if name = sArgon2d then some .d else none

/-- argon2fmt.go:126-202: `.ok true` for `true, nil` and `.err` for `false, err` -/
def Compare (A : Argon2Fn) (hash password : Bytes) : Res Bool :=
  if hash.length = 0 ∨ password.length = 0 then .err
  else match split cDollar hash with
    | [_, name, v, ps, salt, key] =>
      if v ≠ sV19 then .err
      else match split cComma ps with
        | [a, b, c] =>
          match params a b c with
          | none => .err
          | some (memory, time, threads) =>
            match modeOf name with
            | none => .err
            | some mode =>
              (deriveKey A mode password (rawDec salt) (BitVec.ofInt 32 time) (BitVec.ofInt 32 memory) (BitVec.ofInt 8 threads)
                (BitVec.ofNat 32 (rawDec key).length)).bind fun calculated => if rawDec key = calculated then .ok true else .err
        | _ => .err
    | _ => .err

end Fmt

/-! ### argon2 -/

namespace Plain

/-- argon2.go:89-110, the switch over the type: name and mode -/
def typeOf (typ : Nat) : Option (Bytes × Mode) :=
  if typ = 2 then some (sArgon2id, .id) else if typ = 1 then some (sArgon2i, .i) else if typ = 3 then some (sArgon2, .i)
  else if typ = 0 then some (sArgon2d, .d) else none

/-- the string of argon2.go:115-120 -/
def format (name : Bytes) (memory time threads : Nat) (salt key : Bytes) : Bytes :=
  name ++ [cDollar] ++ s19 ++ [cDollar] ++ dec memory ++ [cDollar] ++ dec time ++ [cDollar] ++ dec threads ++
    [cDollar] ++ rawEnc salt ++ [cDollar] ++ rawEnc key

/-- argon2.go:88-122 -/
def genWith (A : Argon2Fn) (password salt : Bytes) (typ : Nat) (opt : Opts) : Res Bytes :=
  match typeOf typ with
  | none => .err
  | some (name, mode) =>
    (deriveKey A mode password salt opt.time opt.memory opt.threads opt.keyLen).bind fun key =>
      .ok (format name opt.memory.toNat opt.time.toNat opt.threads.toNat salt key)

/-- argon2.go:75-123: the error of `generateSalt` is dropped (argon2.go:86), the salt is then nil -/
def Generate (A : Argon2Fn) (random password : Bytes) (typ : Nat) (opt : Opts) : Res Bytes :=
  if password.length = 0 then .err
  else (generateSalt random opt.saltLen).bind fun s => genWith A password (s.getD []) typ opt

/-- argon2.go:153-174 -/
def modeOf (name : Bytes) : Option Mode :=
  if name = sArgon2id then some .id else if name = sArgon2i ∨ name = sArgon2 then some .i else if name = sArgon2d then some .d else none

/-- argon2.go:126-181 -/
def Compare (A : Argon2Fn) (hash password : Bytes) : Res Bool :=
  if hash.length = 0 ∨ password.length = 0 then .err
  else match split cDollar hash with
    | [name, v, m, t, p, salt, key] =>
      if atoi v ≠ 19 then .err
      else match modeOf name with
        | none => .err
        | some mode =>
          (deriveKey A mode password (rawDec salt) (BitVec.ofInt 32 (atoi t)) (BitVec.ofInt 32 (atoi m)) (BitVec.ofInt 8 (atoi p))
            (BitVec.ofNat 32 (rawDec key).length)).bind fun calculated => if rawDec key = calculated then .ok true else .err
    | _ => .err

end Plain

end Verif.Passhash
