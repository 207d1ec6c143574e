import Verif.Xoodyak.Cyclist
/-!
# Encrypting writer and decrypting reader

Model of /repo/cipher/xoodoo/xoodyak/aead.go:157-386.
-/
namespace Verif.Xoodyak
open Verif

/-- `EncryptStream`, aead.go:159-166; `buf` is `es.x[:es.nx]`, `out` all that the underlying writer has been given.  Simplified: that writer
takes everything and never fails. -/
structure Es where
  xk : Xk
  buf : Bytes
  cu : Byte
  closed : Bool
  out : Bytes

/-- `NewEncryptStream`, aead.go:170-187. -/
def newEs (K N A : Bytes) : Res Es :=
  if K.length ≠ 16 then .err
  else if N.length ≠ 16 then .err
  else (instantiate K N []).bind fun x => .ok ⟨absorb x A, [], 0x80, false, []⟩

/-- `CryptBlock` and `out.Write` of its result, aead.go:200-207, 214-221. -/
def esBlock (e : Es) (b : Bytes) : Es :=
  let r := cryptBlock e.xk b e.cu false
  { e with xk := r.1, cu := 0, out := e.out ++ r.2 }

/-- The loop of `Write`, aead.go:213-223; the fuel is `len(p)`. -/
def esLoop : Nat → Es → Bytes → Es × Bytes
  | 0, e, p => (e, p)
  | k + 1, e, p => if 24 ≤ p.length then esLoop k (esBlock e (p.take 24)) (p.drop 24) else (e, p)

/-- `Write`, aead.go:194-230, without the count it returns. -/
def esWrite (e : Es) (p : Bytes) : Es :=
  let r : Es × Bytes :=
    if e.buf.length > 0 then
      let nn := min (24 - e.buf.length) p.length
      let buf := e.buf ++ p.take nn
      let e := if buf.length = 24 then { esBlock e buf with buf := [] } else { e with buf := buf }
      (e, p.drop nn)
    else (e, p)
  let r := esLoop r.2.length r.1 r.2
  if r.2.length > 0 then { r.1 with buf := r.2 } else r.1

/-- `Close`, aead.go:236-268. -/
def esClose (e : Es) : Res Es :=
  if e.closed then .err
  else
    let e := { e with closed := true }
    let e := if e.buf.length > 0 then esBlock e e.buf else e
    let e := if e.cu = 0x80 then { e with xk := (cryptBlock e.xk [] e.cu false).1 } else e
    let s := squeeze e.xk 16
    .ok { e with xk := s.1, out := e.out ++ s.2 }

/-- The underlying reader of a `DecryptStream`: the bytes it still has, how many it gives in each of the coming calls (`none` for a call that
fails; once the list is used up, as many as asked for), and whether it reports the end along with the last bytes or in a call of its own.
Simplified: a failing call gives no bytes. -/
structure Src where
  rest : Bytes
  sched : List (Option Nat)
  eager : Bool

inductive REnd | more | eof | fail
  deriving DecidableEq

/-- `ds.in.Read` with a buffer of `cap` bytes. -/
def Src.read (s : Src) (cap : Nat) : Src × Bytes × REnd :=
  match s.sched with
  | none :: sc => ({ s with sched := sc }, [], .fail)
  | some k :: sc =>
    if s.rest = [] then ({ s with sched := sc }, [], .eof)
    else ({ s with rest := s.rest.drop (min k cap), sched := sc }, s.rest.take (min k cap),
      if s.eager && (s.rest.drop (min k cap)).isEmpty then .eof else .more)
  | [] =>
    if s.rest = [] then (s, [], .eof)
    else ({ s with rest := s.rest.drop cap }, s.rest.take cap, if s.eager && (s.rest.drop cap).isEmpty then .eof else .more)

/-- `DecryptStream`, aead.go:273-282; `x` is the whole 40-byte buffer. -/
structure Ds where
  src : Src
  xk : Xk
  x : Bytes
  nx : Nat
  ptx : Nat
  cu : Byte
  complete : Bool

/-- `NewDecryptStream`, aead.go:286-304. -/
def newDs (s : Src) (K N A : Bytes) : Res Ds :=
  if K.length ≠ 16 then .err
  else if N.length ≠ 16 then .err
  else (instantiate K N []).bind fun x => .ok ⟨s, absorb x A, List.replicate 40 0, 0, 0, 0x80, false⟩

/-- The filling loop, aead.go:326-337.  Every call uses up an entry of the schedule or fills a byte, so the fuel given by `fillAll` is
enough. -/
def fill' : Nat → Ds → Ds × REnd
  | 0, d => (d, .more)
  | k + 1, d =>
    if d.nx < 40 then
      let r := d.src.read (40 - d.nx)
      let d := { d with src := r.1, x := d.x.take d.nx ++ r.2.1 ++ d.x.drop (d.nx + r.2.1.length), nx := d.nx + r.2.1.length }
      match r.2.2 with
      | .eof => ({ d with complete := true }, .eof)
      | .fail => (d, .fail)
      | .more => fill' k d
    else (d, .more)
def fillAll (d : Ds) : Ds × REnd := fill' (d.src.sched.length + 41) d

/-- Decrypting a block, aead.go:342-353; `n` is the length of the caller's buffer. -/
def decBlock (n : Nat) (d : Ds) : Ds :=
  if d.nx = 40 ∨ (d.complete = true ∧ 16 < d.nx) then
    let b := cryptBlock d.xk (d.x.take (d.nx - 16)) d.cu true
    if n ≠ 0 then { d with xk := b.1, ptx := b.2.length, x := b.2 ++ d.x.drop b.2.length, nx := 16, cu := 0 }
    else { d with xk := b.1, x := d.x.drop b.2.length ++ d.x.drop (d.x.length - b.2.length), nx := 16, cu := 0 }
  else d

inductive DErr | nil | eof | auth | read
  deriving DecidableEq

/-- What one turn of the loop of `Read` ends in. -/
inductive Turn
  | again (d : Ds) (r : Nat) (out : Bytes)
  | done (d : Ds) (out : Bytes) (e : DErr)

/-- The second half of a turn, aead.go:357-382; `r` is `ptRemain`. -/
def tailTurn (n : Nat) (d : Ds) (r : Nat) (out : Bytes) : Turn :=
  let nn := if d.ptx > 0 ∧ r > 0 then min r d.ptx else 0
  let out := out ++ d.x.take nn
  let r := r - nn
  let d := { d with ptx := d.ptx - nn, x := d.x.drop nn ++ d.x.drop (d.x.length - nn) }
  if d.ptx = 0 ∧ d.complete = true then
    let k := if d.cu = 0x80 then (cryptBlock d.xk [] d.cu true).1 else d.xk
    let s := squeeze k 16
    .done { d with xk := s.1, nx := 0 } out (if s.2 = d.x.take 16 then .nil else .auth)
  else if (n > 0 ∧ r = 0 ∧ d.ptx > 0) ∨ d.nx = 40 then .done d out .nil
  else .again d r out

/-- One turn of the loop of `Read`, aead.go:323-383. -/
def turn (n : Nat) (d : Ds) (r : Nat) (out : Bytes) : Turn :=
  if d.ptx = 0 then
    let f := fillAll d
    if f.2 = .fail then .done f.1 out .read else tailTurn n (decBlock n f.1) r out
  else tailTurn n d r out

/-- The loop, at most `fuel` turns; `none` if it has not ended by then. -/
def readLoop : Nat → Nat → Ds → Nat → Bytes → Option (Ds × Bytes × DErr)
  | 0, _, _, _, _ => none
  | k + 1, n, d, r, out =>
    match turn n d r out with
    | .done d out e => some (d, out, e)
    | .again d r out => readLoop k n d r out

/-- `Read` with a buffer of `n` bytes, aead.go:315-386. -/
def read (fuel n : Nat) (d : Ds) : Option (Ds × Bytes × DErr) :=
  if d.complete = true ∧ d.nx = 0 then some (d, [], .eof) else readLoop fuel n d n []

/-- Reads in turn. -/
def readAll (fuel : Nat) : List Nat → Ds → Option (List (Bytes × DErr))
  | [], _ => some []
  | n :: ns, d => match read fuel n d with
    | none => none
    | some (d, o, e) => (readAll fuel ns d).map ((o, e) :: ·)

end Verif.Xoodyak
