import Verif.Go.Basic
/-
Model of tool/config/config.go (`Config`) and cryptobin/crypto/data_set.go (`DataSet`), which have the same methods: objects that hold a
Go map. A Go map is a list of entries; the order stands for the order in which `range` happens to visit it. One goroutine.
-/
namespace Verif.Facade.Cfg

variable {V : Type}

/-- A Go map. -/
abbrev AMap (V : Type) := List (String × V)

/-- `m[k]`, the first entry of that name -/
def look (m : AMap V) (k : String) : Option V := (m.find? (fun e => e.1 == k)).map (·.2)

/-- `m[k] = v` -/
def put (m : AMap V) (k : String) (v : V) : AMap V :=
  if m.any (fun e => e.1 == k) then m.map (fun e => if e.1 == k then (k, v) else e) else m ++ [(k, v)]

/-- `delete(m, k)` -/
def del (m : AMap V) (k : String) : AMap V := m.filter (fun e => !(e.1 == k))

/-- Map objects and `Config`/`DataSet` objects; an object holds a map object or nil. -/
structure St (V : Type) where
  maps : Nat → AMap V
  mapNext : Nat
  objs : Nat → Option Nat
  objNext : Nat

/-- A method call on object `c`, `New`, or the caller's own write to a map object. -/
inductive Cmd (V : Type) where
  | new
  | set (c : Nat) (k : String) (v : V)
  | remove (c : Nat) (k : String)
  | has (c : Nat) (k : String)
  | get (c : Nat) (k : String)
  | names (c : Nat)
  | len (c : Nat)
  | clean (c : Nat)
  | clone (c : Nat)
  | withData (c : Nat) (m : Option Nat)
  | mapSet (m : Nat) (k : String) (v : V)

inductive Out (V : Type) where
  | unit
  | bool (b : Bool)
  | val (v : Option V)
  | names (l : List String)
  | num (n : Nat)
  | obj (c : Nat)
  | panic
  deriving DecidableEq

/-- The map an object holds; a nil map reads like an empty one. -/
def St.map (s : St V) (c : Nat) : AMap V := match s.objs c with | none => [] | some m => s.maps m
/-- Change of one map object. -/
def St.upd (s : St V) (m : Nat) (a : AMap V) : St V := { s with maps := fun m' => if m' = m then a else s.maps m' }

/-- A new object with a new map object (`&Config{data: make(map[string]any)}`, config.go:23-27, 117-119; data_set.go:28-32). -/
def St.add (s : St V) (a : AMap V) : St V where
  maps := fun m => if m = s.mapNext then a else s.maps m
  mapNext := s.mapNext + 1
  objs := fun o => if o = s.objNext then some s.mapNext else s.objs o
  objNext := s.objNext + 1

/-- config.go:23-125, data_set.go:28-117 (`DataSet` has no `Clone` and no `WithData`). `withData` is config.go:30-37; `mapSet` is a write by
the caller to a map it holds (one it made, or one obtained with `All`, config.go:81-83). Reading a nil map finds nothing, `delete` on it does nothing, writing to it panics. -/
def step (s : St V) : Cmd V → St V × Out V
  | .new =>
    (s.add [], .obj s.objNext)
  | .set c k v => match s.objs c with
    | none => (s, .panic)
    | some m => (s.upd m (put (s.maps m) k v), .unit)
  | .remove c k => match s.objs c with
    | none => (s, .unit)
    | some m => (s.upd m (del (s.maps m) k), .unit)
  | .has c k => (s, .bool ((s.map c).any (fun e => e.1 == k)))
  | .get c k => (s, .val (look (s.map c) k))
  | .names c => (s, .names ((s.map c).foldl (fun acc e => acc ++ [e.1]) []))
  | .len c => (s, .num (s.map c).length)
  | .clean c => match s.objs c with
    | none => (s, .unit)
    | some m => (s.upd m (((s.maps m).map (·.1)).foldl del (s.maps m)), .unit)
  | .clone c => (s.add ((s.map c).foldl (fun acc e => put acc e.1 e.2) []), .obj s.objNext)
  | .withData c m => ({ s with objs := fun c' => if c' = c then m else s.objs c' }, .unit)
  | .mapSet m k v => (s.upd m (put (s.maps m) k v), .unit)

/-- config.go:133-355, the typed getters: the stored value if it has the asked-for type, otherwise the zero value. `V` is then a pair of a dynamic type and
a content. -/
def getTyped {T P : Type} [DecidableEq T] (s : St (T × P)) (c : Nat) (t : T) (zero : P) (k : String) : P :=
  match look (s.map c) k with
  | some v => if v.1 = t then v.2 else zero
  | none => zero

def runs (s : St V) : List (Cmd V) → St V × List (Out V)
  | [] => (s, [])
  | x :: xs => let r := step s x; let q := runs r.1 xs; (q.1, r.2 :: q.2)

def init : St V := ⟨fun _ => [], 0, fun _ => none, 0⟩

end Verif.Facade.Cfg
