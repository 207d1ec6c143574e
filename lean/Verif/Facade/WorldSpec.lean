import Verif.Facade.World
/-
Specification for C40 and C41: a value of the facade behaves like an immutable record. Nothing here mentions objects, pointers
or capacities.
-/
namespace Verif.Facade.World

/-- A call as the user sees it: objects are given by their contents (a new `Config`, a new map, a new error list). -/
inductive POp where
  | plain (g : Fields → Fields)
  | setCfg (g : Fields → Fields) (kvs : List (String × Val))
  | withConfig (c : Option (Option GoMap))
  | setConfig (m : Option GoMap)
  | withErrors (es : List Err)
  | appendError (es : List Err)
  | onError (g : Fn)
  | crypt (step : Obs → Step)

/-- A map after writing the given entries in order. -/
def putAll (m : GoMap) : List (String × Val) → GoMap
  | [] => m
  | (k, x) :: kvs => putAll (fun k' => if k' = k then some x else m k') kvs

/-- The record after the call; `none` if the call panics (writing to a nil configuration). A failed `Encrypt` or `Decrypt` adds its error
and changes nothing else. -/
def pure (o : Obs) : POp → Option Obs
  | .plain g => some { o with f := g o.f }
  | .setCfg g kvs =>
    match kvs, o.cfg with
    | [], _ => some { o with f := g o.f }
    | _, some (some m) => some { o with f := g o.f, cfg := some (some (putAll m kvs)) }
    | _, _ => none
  | .withConfig c => some { o with cfg := c }
  | .setConfig m =>
    match o.cfg with
    | none => none
    | some _ => some { o with cfg := some m }
  | .withErrors es => some { o with errs := es }
  | .appendError es => some { o with errs := o.errs ++ es }
  | .onError g => some { o with fns := o.fns ++ [g] }
  | .crypt step =>
    match step o with
    | .ok dst => some { o with f := { o.f with parsed := dst } }
    | .err e => some { o with errs := o.errs ++ [e] }
    | .panic e => some { o with errs := o.errs ++ [e] }

/-- The record of `New()`. -/
def fresh : Obs := ⟨⟨[], [], [], 0, 0, 0, []⟩, some (some fun _ => none), [], []⟩

/-- What the program does next: start chain `i` with `New()`, or make a call on the current value of chain `i` and let the result be the
new current value. -/
inductive Event where
  | start (i : Nat)
  | call (i : Nat) (p : POp)

/-- The record of chain `i` after the events, looking at the events of chain `i` only. A call that panics leaves the record. -/
def chain (i : Nat) : List Event → Option Obs → Option Obs
  | [], o => o
  | .start j :: es, o => chain i es (if j = i then some fresh else o)
  | .call j p :: es, o => chain i es (if j = i then o.map (fun r => (pure r p).getD r) else o)

/-! The program on the model. -/

/-- The objects of a call are made by the caller just before it. -/
def execP (slack : Nat → Nat) (beh : Behave) (w : World) (v : Value) : POp → Res (World × Value)
  | .plain g => exec slack beh w v (.plain g)
  | .setCfg g kvs => exec slack beh w v (.setCfg g kvs)
  | .withConfig none => exec slack beh w v (.withConfig none)
  | .withConfig (some none) =>
    exec slack beh { w with cfgs := fun c => if c = w.cfgNext then none else w.cfgs c, cfgNext := w.cfgNext + 1 } v (.withConfig (some w.cfgNext))
  | .withConfig (some (some m)) =>
    exec slack beh { w with
        maps := fun i => if i = w.mapNext then m else w.maps i, mapNext := w.mapNext + 1,
        cfgs := fun c => if c = w.cfgNext then some w.mapNext else w.cfgs c, cfgNext := w.cfgNext + 1 } v (.withConfig (some w.cfgNext))
  | .setConfig none => exec slack beh w v (.setConfig none)
  | .setConfig (some m) =>
    exec slack beh { w with maps := fun i => if i = w.mapNext then m else w.maps i, mapNext := w.mapNext + 1 } v (.setConfig (some w.mapNext))
  | .withErrors es =>
    exec slack beh { w with errs := ⟨fun a i => if a = w.errs.next then es.getD i 0 else w.errs.at_ a i, w.errs.next + 1⟩ } v
      (.withErrors ⟨w.errs.next, es.length, es.length⟩)
  | .appendError es => exec slack beh w v (.appendError es)
  | .onError g => exec slack beh w v (.onError g)
  | .crypt step => exec slack beh w v (.crypt step)

/-- The state of the program: the world and the current value of every chain. -/
structure St where
  w : World
  tbl : Nat → Option Value

def St.set (s : St) (w : World) (i : Nat) (v : Value) : St := ⟨w, fun j => if j = i then some v else s.tbl j⟩

def run (slack : Nat → Nat) (beh : Behave) : List Event → St → St
  | [], s => s
  | .start i :: es, s => run slack beh es (s.set (new s.w).1 i (new s.w).2)
  | .call i p :: es, s =>
    match s.tbl i with
    | none => run slack beh es s
    | some v =>
      match execP slack beh s.w v p with
      | .ok (w, v') => run slack beh es (s.set w i v')
      | _ => run slack beh es s

end Verif.Facade.World
