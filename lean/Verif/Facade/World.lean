import Verif.Go.Basic
/-
Model of the builder values of cryptobin/crypto (cryptobin.go, with.go, from.go, error.go, on.go, encrypt.go), of
tool/config/config.go, tool/error_event/error_event.go and tool/recover/recover.go: which memory is shared between values.

Simplifications: the caller's byte slices (data, key, iv) are values, not memory (C42 treats them); error handlers read
the errors they are given and may panic, but do not write; locks are not modelled (one goroutine).
-/
namespace Verif.Facade.World

/-- An error value, a handler function and a configuration value (its dynamic type and what it holds). -/
abbrev Err := Nat
abbrev Fn := Nat
structure Val where
  ty : Nat
  payload : Nat
  deriving DecidableEq, Repr

/-- Arrays in memory: identifier and index to element; identifiers from `next` on are unused. -/
structure Arrs where
  at_ : Nat → Nat → Nat
  next : Nat

/-- A slice `arr[0:len:cap]`. -/
structure ASlice where
  arr : Nat
  len : Nat
  cap : Nat
  deriving DecidableEq, Repr

def Arrs.list (A : Arrs) (s : ASlice) : List Nat := (List.range s.len).map (A.at_ s.arr)

/-- `append(s, xs...)`: in place if the capacity suffices, otherwise in a new array whose capacity is the needed length
plus `slack` of it. -/
def Arrs.append (slack : Nat → Nat) (A : Arrs) (s : ASlice) (xs : List Nat) : Arrs × ASlice :=
  let n := s.len + xs.length
  if n ≤ s.cap then
    (⟨fun a i => if a = s.arr ∧ s.len ≤ i ∧ i < n then xs.getD (i - s.len) 0 else A.at_ a i, A.next⟩, ⟨s.arr, n, s.cap⟩)
  else
    (⟨fun a i => if a = A.next then (A.list s ++ xs).getD i 0 else A.at_ a i, A.next + 1⟩, ⟨A.next, n, n + slack n⟩)

/-- A map object: key to value. -/
abbrev GoMap := String → Option Val

/-- All memory that values can share: map objects, `*config.Config` objects (each holds a map or nil), the arrays behind
`Errors` and behind `errorFuncs`. -/
structure World where
  maps : Nat → GoMap
  mapNext : Nat
  cfgs : Nat → Option Nat
  cfgNext : Nat
  errs : Arrs
  fns : Arrs

/-- The fields of a value that hold no pointers into the world (cryptobin.go:14-44). -/
structure Fields where
  data : Bytes
  key : Bytes
  iv : Bytes
  multiple : Nat
  mode : Nat
  padding : Nat
  parsed : Bytes
  deriving DecidableEq

/-- cryptobin.go:14-44 `Cryptobin`; `cfg = none` is a nil pointer. -/
structure Value where
  f : Fields
  cfg : Option Nat
  fns : ASlice
  errs : ASlice

/-- What can be seen of a value: its fields, the configuration (`none`: nil `*Config`; `some none`: nil map), the handlers and
the errors. -/
structure Obs where
  f : Fields
  cfg : Option (Option GoMap)
  fns : List Fn
  errs : List Err

def obs (w : World) (v : Value) : Obs :=
  ⟨v.f, v.cfg.map (fun c => (w.cfgs c).map w.maps), w.fns.list v.fns, w.errs.list v.errs⟩

/-- cryptobin.go:47-56 `NewCryptobin`, with config.go:23-27 and error_event.go:20-26: a new `Config` with a new map, and two
empty slices without capacity. Numbers stand for the constants `Aes`, `ECB`, `NoPadding`. -/
def new (w : World) : World × Value :=
  ({ w with
      maps := fun m => if m = w.mapNext then fun _ => none else w.maps m, mapNext := w.mapNext + 1,
      cfgs := fun c => if c = w.cfgNext then some w.mapNext else w.cfgs c, cfgNext := w.cfgNext + 1,
      errs := { w.errs with next := w.errs.next + 1 }, fns := { w.fns with next := w.fns.next + 1 } },
   ⟨⟨[], [], [], 0, 0, 0, []⟩, some w.cfgNext, ⟨w.fns.next, 0, 0⟩, ⟨w.errs.next, 0, 0⟩⟩)

/-- config.go:40-47 `Config.Set` on a possibly nil `*Config`: a nil pointer or a nil map panics. -/
def cfgSet (w : World) (cfg : Option Nat) (k : String) (x : Val) : Res World :=
  match cfg with
  | none => .panic
  | some c =>
    match w.cfgs c with
    | none => .panic
    | some m => .ok { w with maps := fun m' => if m' = m then (fun k' => if k' = k then some x else w.maps m k') else w.maps m' }

/-- with.go:65-75, 87-97, 109-119 (`for k, v := range cfg { this.config.Set(k, v) }`) in some order. -/
def cfgSetAll (w : World) (cfg : Option Nat) : List (String × Val) → Res World
  | [] => .ok w
  | (k, x) :: kvs => do let w ← cfgSet w cfg k x; cfgSetAll w cfg kvs

/-- config.go:30-37 `Config.WithData`: the object adopts the caller's map (`none`: nil map). -/
def cfgWithData (w : World) (cfg : Option Nat) (m : Option Nat) : Res World :=
  match cfg with
  | none => .panic
  | some c => .ok { w with cfgs := fun c' => if c' = c then m else w.cfgs c' }

/-- What the cipher call inside `encrypt()` / `decrypt()` does. -/
inductive Step where
  | ok (dst : Bytes)
  | err (e : Err)
  | panic (e : Err)

/-- Behaviour of a handler on a list of errors: `none` returns, `some e` panics with `e`. -/
abbrev Behave := Fn → List Err → Option Err

/-- error_event.go:36-42 `Trigger`: the calls made, and the panic that ended it, if any. -/
def trigger (beh : Behave) : List Fn → List Err → List (Fn × List Err) × Option Err
  | [], _ => ([], none)
  | f :: fs, es =>
    match beh f es with
    | some e => ([(f, es)], some e)
    | none => let r := trigger beh fs es; ((f, es) :: r.1, r.2)

/-- error.go:9-13 `AppendError`. -/
def appendError (slack : Nat → Nat) (w : World) (v : Value) (es : List Err) : World × Value :=
  let r := w.errs.append slack v.errs es
  ({ w with errs := r.1 }, { v with errs := r.2 })

/-- on.go:11-15 with error_event.go:29-33 `OnError`. -/
def onError (slack : Nat → Nat) (w : World) (v : Value) (g : Fn) : World × Value :=
  let r := w.fns.append slack v.fns [g]
  ({ w with fns := r.1 }, { v with fns := r.2 })

/-- encrypt.go:50-66 `encrypt` (the same for `decrypt`, 82-98): value, handler calls, and the panic that escapes from it, if any. -/
def inner (slack : Nat → Nat) (beh : Behave) (w : World) (v : Value) (step : Obs → Step) :
    World × Value × List (Fn × List Err) × Option Err :=
  match step (obs w v) with
  | .panic e => (w, v, [], some e)
  | .err e =>
    let r := appendError slack w v [e]
    let t := trigger beh (r.1.fns.list r.2.fns) (r.1.errs.list r.2.errs)
    (r.1, r.2, t.1, t.2)
  | .ok dst =>
    let v' := { v with f := { v.f with parsed := dst } }
    let t := trigger beh (w.fns.list v'.fns) (w.errs.list v'.errs)
    (w, v', t.1, t.2)

/-- encrypt.go:38-48 `Encrypt` (the same for `Decrypt`, 70-80) with recover.go:9-19: after a panic `this` still has its old value;
the second trigger is outside of `Recover`. -/
def crypt (slack : Nat → Nat) (beh : Behave) (w : World) (v : Value) (step : Obs → Step) : Res (World × Value × List (Fn × List Err)) :=
  match inner slack beh w v step with
  | (w1, v1, log, none) => .ok (w1, v1, log)
  | (w1, _, log, some e) =>
    let r := appendError slack w1 v [e]
    let t := trigger beh (r.1.fns.list r.2.fns) (r.1.errs.list r.2.errs)
    match t.2 with
    | none => .ok (r.1, r.2, log ++ t.1)
    | some _ => .panic

/-- A call on a value. `plain` stands for all calls that only replace fields (WithData, SetKey, WithMode, FromString, …). The calls
that take an object from the caller (`withConfig`, `setConfig`, `withErrors`) get the object. -/
inductive Op where
  | plain (g : Fields → Fields)
  | setCfg (g : Fields → Fields) (kvs : List (String × Val))
  | withConfig (c : Option Nat)
  | setConfig (m : Option Nat)
  | withErrors (s : ASlice)
  | appendError (es : List Err)
  | onError (g : Fn)
  | crypt (step : Obs → Step)

/-- with.go:9-167, error.go:9-13, on.go:11-15, encrypt.go:38-98. -/
def exec (slack : Nat → Nat) (beh : Behave) (w : World) (v : Value) : Op → Res (World × Value)
  | .plain g => .ok (w, { v with f := g v.f })
  | .setCfg g kvs => do let w' ← cfgSetAll w v.cfg kvs; .ok (w', { v with f := g v.f })
  | .withConfig c => .ok (w, { v with cfg := c })
  | .setConfig m => do let w' ← cfgWithData w v.cfg m; .ok (w', v)
  | .withErrors s => .ok (w, { v with errs := s })
  | .appendError es => .ok (appendError slack w v es)
  | .onError g => .ok (onError slack w v g)
  | .crypt step => do let r ← crypt slack beh w v step; .ok (r.1, r.2.1)

end Verif.Facade.World
