import Verif.Go.Basic
/-
`bencode`: `Marshal`, `Unmarshal`, `Encoder.Encode`, `Decoder.Decode` for the targets `*any`,
`*map[string]any` (which is what `Data` is) and `*[]any`.
Not modelled: struct targets and struct values (reflection over tags), `Marshaler`/`Unmarshaler`
implementations, errors of the underlying `io.Writer`/`io.Reader` other than end of input, and the
exhaustion of the goroutine stack by deeply nested input.
-/
namespace Verif.Bencode

/-- A Go value handed to `Marshal` or produced by a decode into `any`.  `nil` is a nil interface,
`int` stands for every integer kind and `*big.Int`, `list` is a slice that is not `[]byte`, `array` a Go
array that is not `[n]byte`, `dict` a `map[string]T` given as a list of its entries.  A decode produces
`int` (an `int64` when the number fits, a `*big.Int` otherwise), `str`, `list` and `dict` only. -/
inductive Val where
  | nil
  | bool (b : Bool)
  | int (n : Int)
  | str (s : Bytes)
  | bytes (s : Bytes)
  | list (l : List Val)
  | array (l : List Val)
  | dict (l : List (Bytes × Val))
  deriving Repr

/-- ASCII characters used by the format. -/
abbrev chD : Byte := 0x64#8
abbrev chE : Byte := 0x65#8
abbrev chI : Byte := 0x69#8
abbrev chL : Byte := 0x6c#8
abbrev chColon : Byte := 0x3a#8
abbrev chMinus : Byte := 0x2d#8
abbrev chPlus : Byte := 0x2b#8

/-- An ASCII digit. -/
def isDigit (b : Byte) : Bool := decide (48 ≤ b.toNat) && decide (b.toNat ≤ 57)

/-- Decimal digits of a number, most significant first, without leading zeros; `f` bounds the number of
digits. -/
def decF : Nat → Nat → Bytes
  | 0, n => [BitVec.ofNat 8 (48 + n % 10)]
  | f + 1, n => if n < 10 then [BitVec.ofNat 8 (48 + n)]
      else decF f (n / 10) ++ [BitVec.ofNat 8 (48 + n % 10)]

/-- `strconv.AppendUint(_, n, 10)`. -/
def dec (n : Nat) : Bytes := decF n n

/-- `strconv.AppendInt(_, n, 10)` and `(*big.Int).String`. -/
def decI (n : Int) : Bytes := if n < 0 then chMinus :: dec n.natAbs else dec n.natAbs

/-- Value of a run of digits, `none` at the first other character. -/
def digits : Nat → Bytes → Option Nat
  | acc, [] => some acc
  | acc, b :: t => if isDigit b then digits (acc * 10 + (b.toNat - 48)) t else none

/-- `strconv.ParseInt(s, 10, _)` without the range check, and `(*big.Int).SetString(s, 10)`:
an optional sign and at least one digit. -/
def parseDec : Bytes → Option Int
  | [] => none
  | b :: t =>
    if b = chMinus then (if t = [] then none else (digits 0 t).map fun n : Nat => -(n : Int))
    else if b = chPlus then (if t = [] then none else (digits 0 t).map fun n : Nat => (n : Int))
    else (digits 0 (b :: t)).map fun n : Nat => (n : Int)

/-- Go's `<` on strings: bytewise lexicographic. -/
def strLt : Bytes → Bytes → Bool
  | [], [] => false
  | [], _ :: _ => true
  | _ :: _, [] => false
  | a :: x, b :: y => decide (a.toNat < b.toNat) || (a == b && strLt x y)

/-! ### Encoder -/

/-- encode.go 63–72 `reflectString`, `writeStringPrefix` (the 64-byte chunks of `writeString`,
encode.go 55–61, are written one after the other and appear here as one string). -/
def encStr (s : Bytes) : Bytes := dec s.length ++ chColon :: s

/-- Insertion into a list of entries sorted by key. -/
def insertK (e : Bytes × Bytes) : List (Bytes × Bytes) → List (Bytes × Bytes)
  | [] => [e]
  | h :: t => if strLt h.1 e.1 then h :: insertK e t else e :: h :: t

/-- encode.go 156 `sort.Sort(sv)` with encode.go 41–46: the keys of a map are distinct, so any sorting
algorithm gives the same list as this insertion sort. -/
def sortK : List (Bytes × Bytes) → List (Bytes × Bytes)
  | [] => []
  | h :: t => insertK h (sortK t)

/-- encode.go 157–160: key, value, key, value, … -/
def encEntries : List (Bytes × Bytes) → Bytes
  | [] => []
  | (k, v) :: t => encStr k ++ v ++ encEntries t

mutual
/-- encode.go 100–207 `reflectValue`, `reflectSequence`.  `shuffle` is the order in which `MapKeys`
enumerates a map (encode.go 155).  A nil interface reaches `v.Type()` on the zero `reflect.Value`
(line 82), and a Go array reaches `v.IsNil()` (line 198): both panic with a `*reflect.ValueError`, which
`Encode` (encode.go 23–35) recovers and returns. -/
def enc (shuffle : List (Bytes × Bytes) → List (Bytes × Bytes)) : Val → Res Bytes
  | .nil => .err
  | .bool b => .ok (chI :: (if b then 0x31#8 else 0x30#8) :: [chE])
  | .int n => .ok (chI :: (decI n ++ [chE]))
  | .str s => .ok (encStr s)
  | .bytes s => .ok (encStr s)
  | .list l => (encL shuffle l).bind fun b => .ok (chL :: (b ++ [chE]))
  | .array _ => .err
  | .dict l => (encD shuffle l).bind fun es => .ok (chD :: (encEntries (sortK (shuffle es)) ++ [chE]))
/-- encode.go 203–205. -/
def encL (shuffle : List (Bytes × Bytes) → List (Bytes × Bytes)) : List Val → Res Bytes
  | [] => .ok []
  | v :: t => (enc shuffle v).bind fun a => (encL shuffle t).bind fun b => .ok (a ++ b)
/-- The entries of a map with their encoded values. -/
def encD (shuffle : List (Bytes × Bytes) → List (Bytes × Bytes)) : List (Bytes × Val) → Res (List (Bytes × Bytes))
  | [] => .ok []
  | e :: t => (encP shuffle e).bind fun a => (encD shuffle t).bind fun b => .ok (a :: b)
/-- One entry. -/
def encP (shuffle : List (Bytes × Bytes) → List (Bytes × Bytes)) : Bytes × Val → Res (Bytes × Bytes)
  | (k, v) => (enc shuffle v).bind fun a => .ok (k, a)
end

/-- bencode.go 23–34 `Marshal`, encode.go 18–39 `Encode`: a nil argument gives no output and no error. -/
def marshal (shuffle : List (Bytes × Bytes) → List (Bytes × Bytes)) : Val → Res Bytes
  | .nil => .ok []
  | v => enc shuffle v

/-! ### Decoder -/

/-- The part of a `Decoder` (decode.go 21–32) that a decode reads and changes: the unread input and
`Offset`.  `d.buf` is empty between the calls modelled here: every successful reader resets it
(decode.go 184, 223, 712). -/
structure St where
  rest : Bytes
  off : Nat
  deriving Repr, DecidableEq

/-- decode.go 87–96 `readByte`; end of input is a panic that `Decode` (decode.go 35–59) turns into an
error. -/
def readByte (s : St) : Res (Byte × St) :=
  match s.rest with
  | [] => .err
  | b :: t => .ok (b, ⟨t, s.off + 1⟩)

/-- decode.go 100–108 `readUntil`, with the bytes it appends to `d.buf` as result. -/
def readUntilB (sep : Byte) : Bytes → Nat → Res (Bytes × St)
  | [], _ => .err
  | b :: t, off =>
    if b = sep then .ok ([], ⟨t, off + 1⟩)
    else (readUntilB sep t (off + 1)).bind fun r => .ok (b :: r.1, r.2)

def readUntil (sep : Byte) (s : St) : Res (Bytes × St) := readUntilB sep s.rest s.off

/-- decode.go 188–204 `checkBufferedInt`: true when no error is returned. -/
def checkBufferedInt (b : Bytes) : Bool :=
  if b.length ≤ 1 then true
  else
    let b := if b.headD 0 = chMinus then b.tail else b
    !(decide ((b.headD 0).toNat < 49) || decide (57 < (b.headD 0).toNat))

/-- decode.go 688–714 `parseIntInterface` with decode.go 127–140 `readInt`. -/
def parseInt (s : St) : Res (Int × St) :=
  (readUntil chE s).bind fun r =>
    if checkBufferedInt r.1 then
      match parseDec r.1 with
      | some n => .ok (n, r.2)
      | none => .err
    else .err

/-- decode.go 206–225 `parseStringLength`, after the first digit `b` has been written to the buffer
(decode.go 640, 678); `lim` is `getMaxStrLen()`, decode.go 796–802. -/
def parseStringLength (lim : Int) (b : Byte) (s : St) : Res (Int × St) :=
  (readUntil chColon s).bind fun r =>
    if checkBufferedInt (b :: r.1) then
      match parseDec (b :: r.1) with
      | some n => if 2 ^ 63 ≤ n then .err else if lim < n then .err else .ok (n, r.2)
      | none => .err
    else .err

/-- decode.go 716–727 `readBytes`; decode.go 235–245 `read`. -/
def readBytes (n : Nat) (s : St) : Res (Bytes × St) :=
  if s.rest.length < n then .err else .ok (s.rest.take n, ⟨s.rest.drop n, s.off + n⟩)

/-- decode.go 729–743 `parseStringInterface`; decode.go 227–252 `parseString` for a `string`. -/
def parseString (lim : Int) (b : Byte) (s : St) : Res (Bytes × St) :=
  (parseStringLength lim b s).bind fun r => readBytes r.1.toNat r.2

/-- decode.go 766: the negation of `lastKeyOk && key <= lastKey`. -/
def keyAfter (last : Option Bytes) (k : Bytes) : Bool :=
  match last with
  | some p => strLt p k
  | none => true

mutual
/-- decode.go 658–685 `parseValueInterface`: `none` is the result `nil, false` of an `e`.  The first
argument bounds the depth of the recursion. -/
def parseV (lim : Int) : Nat → St → Res (Option Val × St)
  | 0, _ => .hang
  | f + 1, s => (readByte s).bind fun r =>
    if r.1 = chE then .ok (none, r.2)
    else if r.1 = chD then
      (parseD lim f none r.2).bind fun q => .ok (some (.dict q.1), q.2)
    else if r.1 = chL then
      (parseL lim f r.2).bind fun q => .ok (some (.list q.1), q.2)
    else if r.1 = chI then
      (parseInt r.2).bind fun q => .ok (some (.int q.1), q.2)
    else if isDigit r.1 then
      (parseString lim r.1 r.2).bind fun q => .ok (some (.str q.1), q.2)
    else .err
/-- decode.go 784–794 `parseListInterface`. -/
def parseL (lim : Int) : Nat → St → Res (List Val × St)
  | 0, _ => .hang
  | f + 1, s => (parseV lim f s).bind fun r =>
    match r.1 with
    | none => .ok ([], r.2)
    | some v => (parseL lim f r.2).bind fun q => .ok (v :: q.1, q.2)
/-- decode.go 745–782 `parseDictInterface`; the second argument is `lastKey` when `lastKeyOk`.  The keys
come in strictly increasing order, so no entry replaces another. -/
def parseD (lim : Int) : Nat → Option Bytes → St → Res (List (Bytes × Val) × St)
  | 0, _, _ => .hang
  | f + 1, last, s => (parseV lim f s).bind fun r =>
    match r.1 with
    | none => .ok ([], r.2)
    | some (.str k) =>
      if keyAfter last k then
        (parseV lim f r.2).bind fun q =>
          match q.1 with
          | none => .err
          | some v => (parseD lim f (some k) q.2).bind fun w => .ok ((k, v) :: w.1, w.2)
      else .err
    | some _ => .err
end

/-- Recursion depth that no input exceeds (`C70_bencode_unmarshal_total` shows that it suffices). -/
def fuel (s : St) : Nat := 2 * s.rest.length + 2

/-- decode.go 34–76 `Decode(&x)` for `var x any`, with decode.go 614–618: an `e` instead of a value makes
`reflect.ValueOf(nil)` the argument of `Set`, whose panic is a `*reflect.ValueError` and is returned. -/
def decode (lim : Int) (s : St) : Res (Val × St) :=
  (parseV lim (fuel s) s).bind fun r =>
    match r.1 with
    | none => .err
    | some v => .ok (v, r.2)

/-- bencode.go 51–62: what a decode must leave unread. -/
def complete {α : Type} (r : Res (α × St)) : Res α :=
  r.bind fun q => if q.2.rest.length ≠ 0 then .err else .ok q.1

/-- decode.go 17. -/
def defaultMaxStrLen : Int := 2 ^ 27 - 1

/-- bencode.go 51–62 `Unmarshal(data, &x)` for `var x any`. -/
def unmarshal (data : Bytes) : Res Val := complete (decode defaultMaxStrLen ⟨data, 0⟩)

/-! ### Targets `*map[string]any` and `*[]any` -/

mutual
/-- decode.go 597–648 `parseValue` into a `string`: `none` is an `e`.  A list with exactly one element is
accepted in place of the element (decode.go 460–474); an empty dictionary leaves the string empty, because
`parseDict` (decode.go 413–415) returns before it looks at the type of its target; an integer is an error
of type. -/
def parseKey (lim : Int) : Nat → St → Res (Option Bytes × St)
  | 0, _ => .hang
  | f + 1, s => (readByte s).bind fun r =>
    if r.1 = chE then .ok (none, r.2)
    else if r.1 = chD then
      (parseKey lim f r.2).bind fun q =>
        match q.1 with
        | none => .ok (some [], q.2)
        | some _ => .err
    else if r.1 = chL then
      (parseKeys lim f r.2).bind fun q =>
        match q.1 with
        | [k] => .ok (some k, q.2)
        | _ => .err
    else if isDigit r.1 then
      (parseString lim r.1 r.2).bind fun q => .ok (some q.1, q.2)
    else .err
/-- decode.go 479–517 for a slice of strings. -/
def parseKeys (lim : Int) : Nat → St → Res (List Bytes × St)
  | 0, _ => .hang
  | f + 1, s => (parseKey lim f s).bind fun r =>
    match r.1 with
    | none => .ok ([], r.2)
    | some k => (parseKeys lim f r.2).bind fun q => .ok (k :: q.1, q.2)
end

/-- A Go map as the list of its entries sorted by key; `m[k] = v` (decode.go 303 `SetMapIndex`). -/
def setKey (k : Bytes) (v : Val) : List (Bytes × Val) → List (Bytes × Val)
  | [] => [(k, v)]
  | h :: t => if strLt h.1 k then h :: setKey k v t
      else if h.1 = k then (k, v) :: t else (k, v) :: h :: t

/-- decode.go 402–456 `parseDict` into a `map[string]any`: keys in any order, a later entry replaces an
earlier one with the same key. -/
def parseMap (lim : Int) : Nat → List (Bytes × Val) → St → Res (List (Bytes × Val) × St)
  | 0, _, _ => .hang
  | f + 1, m, s => (parseKey lim f s).bind fun r =>
    match r.1 with
    | none => .ok (m, r.2)
    | some k => (parseV lim f r.2).bind fun q =>
      match q.1 with
      | none => .err
      | some v => parseMap lim f (setKey k v m) q.2

/-- decode.go 34–76 for a `*map[string]any` that holds the entries `m`.  A list, an integer or a string
is an error of type for this target; a one-element list is tried first (decode.go 460–474). -/
def decodeMapF (lim : Int) (m : List (Bytes × Val)) : Nat → St → Res (Option (List (Bytes × Val)) × St)
  | 0, _ => .hang
  | f + 1, s => (readByte s).bind fun r =>
    if r.1 = chE then .ok (none, r.2)
    else if r.1 = chD then (parseMap lim f m r.2).bind fun q => .ok (some q.1, q.2)
    else if r.1 = chL then
      -- a fresh one-element slice of maps: its element, then the closing `e`
      (decodeMapF lim [] f r.2).bind fun q =>
        match q.1 with
        | none => .err
        | some m' => (decodeMapF lim [] f q.2).bind fun w =>
          match w.1 with
          | none => .ok (some m', w.2)
          | some _ => .err
    else .err

/-- bencode.go 51–62 `Unmarshal(data, &x)` for `var x map[string]any` or `var x Data`, both nil. -/
def unmarshalMap (data : Bytes) : Res (List (Bytes × Val)) :=
  complete ((decodeMapF defaultMaxStrLen [] (fuel ⟨data, 0⟩) ⟨data, 0⟩).bind fun q =>
    match q.1 with
    | none => .err
    | some m => .ok (m, q.2))

/-- decode.go 479–517 for a `[]any`: every element, and the closing `e` too, is read by the branch for
`any` (decode.go 614–618), where the `e` is the error described at `decode`. -/
def parseSliceAny (lim : Int) : Nat → St → Res (List Val × St)
  | 0, _ => .hang
  | f + 1, s => (parseV lim f s).bind fun r =>
    match r.1 with
    | none => .err
    | some v => (parseSliceAny lim f r.2).bind fun q => .ok (v :: q.1, q.2)

/-- bencode.go 51–62 `Unmarshal(data, &x)` for `var x []any`. An integer, a string, a non-empty
dictionary and an `e` are errors; an empty dictionary leaves the slice nil (decode.go 413–415). -/
def unmarshalSlice (data : Bytes) : Res (List Val) :=
  complete ((readByte ⟨data, 0⟩).bind fun r =>
    if r.1 = chL then parseSliceAny defaultMaxStrLen (fuel ⟨data, 0⟩) r.2
    else if r.1 = chD then
      (parseKey defaultMaxStrLen (fuel ⟨data, 0⟩) r.2).bind fun q =>
        match q.1 with
        | none => .ok ([], q.2)
        | some _ => .err
    else .err)

end Verif.Bencode
