import Verif.Kdf.Common
/-
Model of hash/gost/gost34112012256/kdf.go, esptree.go and tlstree.go.

The trees hold the last derived key in `t.key`.  `DeriveCached` hands that very slice to the caller, `Derive` a copy.
`handed` records whether the slice the caller got last is still the tree's own, so that `scribble`, a write by the
caller into it, reaches the tree; slices handed out earlier and since replaced are not reachable from the tree.
-/
namespace Verif.Kdf
open Verif.Cipher

/-- "level1", "level2", "level3". -/
def level (i : Byte) : Bytes := [0x6c, 0x65, 0x76, 0x65, 0x6c, 0x30 + i]

/-- hash/gost/gost34112012256/kdf.go:8-35, the six `Write` calls on the HMAC object, then `Sum(nil)`. -/
def kdf (H : HashFn) (key label seed : Bytes) : Bytes :=
  let m := [] ++ [0x01#8]
  let m := m ++ label
  let m := m ++ [0x00#8]
  let m := m ++ seed
  let m := m ++ [0x01#8]
  let m := m ++ [0x00#8]
  hmac H key m

/-- A call on a tree; `α` is the type of indices. -/
inductive TreeOp (α : Type) where
  /-- `t.Derive(x)` -/
  | derive (x : α)
  /-- `t.DeriveCached(x)` -/
  | cached (x : α)
  /-- the caller stores `b` at position `i` of the slice `DeriveCached` returned last -/
  | scribble (i : Nat) (b : Byte)

/-- Derive: a copy of the key in a fresh slice of `Size` = 32 bytes (esptree.go:48-55, tlstree.go:91-98). -/
def derived (key : Bytes) : Bytes := copyInto (List.replicate 32 0#8) key

namespace Esp

/-- esptree.go:7-11. -/
structure St where
  root : Bytes
  prev : Bytes
  key : Bytes
  handed : Bool

/-- esptree.go:29-46 for an argument of five bytes; otherwise the explicit panic.  The slice `append([]byte{0}, is[0])`
is fresh. -/
def deriveCached (H : HashFn) (t : St) (is : Bytes) : Res (St × Bytes × Bool) :=
  if is.length ≠ 5 then .panic
  else if t.prev = is then .ok ({ t with handed := true }, t.key, true)
  else
    let pass1 := kdf H t.root (level 1) ([0#8] ++ is.take 1)
    let pass2 := kdf H pass1 (level 2) ((is.drop 1).take 2)
    let pass3 := kdf H pass2 (level 3) ((is.drop 3).take 2)
    .ok ({ t with prev := copyInto t.prev is, key := pass3, handed := true }, pass3, false)

/-- esptree.go:13-27.  The slice returned by the priming call is dropped. -/
def new (H : HashFn) (keyRoot : Bytes) : Res St := do
  let r ← deriveCached H ⟨copyInto (List.replicate keyRoot.length 0#8) keyRoot, [1, 0, 0, 0, 0], List.replicate 32 0#8, false⟩ [0, 0, 0, 0, 0]
  .ok { r.1 with handed := false }

/-- One call: the new state and what the caller sees (esptree.go:48-55 for `derive`).  `Derive` does not hand out the
tree's slice; if it derives a new key the slice handed out earlier is no longer the tree's. -/
def call (H : HashFn) (t : St) : TreeOp Bytes → Res (St × Option (Bytes × Bytes))
  | .derive is => do
      let r ← deriveCached H t is
      .ok ({ r.1 with handed := t.handed && r.2.2 }, some (is, derived r.2.1))
  | .cached is => do
      let r ← deriveCached H t is
      .ok (r.1, some (is, r.2.1))
  | .scribble i b => .ok (if t.handed then { t with key := t.key.set i b } else t, none)

/-- A history of calls: every index asked for, with the key returned for it. -/
def run (H : HashFn) : St → List (TreeOp Bytes) → Res (St × List (Bytes × Bytes))
  | t, [] => .ok (t, [])
  | t, o :: os => do
      let r ← call H t o
      let s ← run H r.1 os
      .ok (s.1, r.2.toList ++ s.2)

/-- The keys a caller gets from a new tree. -/
def history (H : HashFn) (keyRoot : Bytes) (os : List (TreeOp Bytes)) : Res (List (Bytes × Bytes)) := do
  let t ← new H keyRoot
  let s ← run H t os
  .ok s.2

end Esp

namespace Tls

/-- tlstree.go:47. -/
structure Params where
  m1 : BitVec 64
  m2 : BitVec 64
  m3 : BitVec 64
deriving DecidableEq

/-- tlstree.go:8-44. -/
def magmaCTROMAC : Params := ⟨0xFFFFFFC000000000, 0xFFFFFFFFFE000000, 0xFFFFFFFFFFFFF000⟩
def kuznyechikCTROMAC : Params := ⟨0xFFFFFFFF00000000, 0xFFFFFFFFFFF80000, 0xFFFFFFFFFFFFFFC0⟩
def kuznyechikMGML : Params := ⟨0xF800000000000000, 0xFFFFFFF000000000, 0xFFFFFFFFFFFFE000⟩
def magmaMGML : Params := ⟨0xFFE0000000000000, 0xFFFFFFFFC0000000, 0xFFFFFFFFFFFFFF80⟩
def kuznyechikMGMS : Params := ⟨0xFFFFFFFFE0000000, 0xFFFFFFFFFFFF0000, 0xFFFFFFFFFFFFFFF8⟩
def magmaMGMS : Params := ⟨0xFFFFFFFFFC000000, 0xFFFFFFFFFFFFE000, 0xFFFFFFFFFFFFFFFF⟩

/-- tlstree.go:49-55; the scratch slice `seq` is overwritten before each use and not represented. -/
structure St where
  params : Params
  root : Bytes
  prev : BitVec 64
  key : Bytes
  handed : Bool

/-- tlstree.go:57-67. -/
def new (p : Params) (keyRoot : Bytes) : St :=
  ⟨p, copyInto (List.replicate keyRoot.length 0#8) keyRoot, 0, List.replicate 32 0#8, false⟩

/-- `binary.BigEndian.PutUint64`. -/
def be8 (x : BitVec 64) : Bytes := hx 8 x.toNat

/-- tlstree.go:69-89. -/
def deriveCached (H : HashFn) (t : St) (n : BitVec 64) : St × Bytes × Bool :=
  if n > 0 ∧ n &&& t.params.m1 = t.prev &&& t.params.m1 ∧ n &&& t.params.m2 = t.prev &&& t.params.m2 ∧
      n &&& t.params.m3 = t.prev &&& t.params.m3 then ({ t with handed := true }, t.key, true)
  else
    let pass1 := kdf H t.root (level 1) (be8 (n &&& t.params.m1))
    let pass2 := kdf H pass1 (level 2) (be8 (n &&& t.params.m2))
    let pass3 := kdf H pass2 (level 3) (be8 (n &&& t.params.m3))
    ({ t with prev := n, key := pass3, handed := true }, pass3, false)

/-- One call (tlstree.go:91-98 for `derive`). -/
def call (H : HashFn) (t : St) : TreeOp (BitVec 64) → St × Option (BitVec 64 × Bytes)
  | .derive n =>
      let r := deriveCached H t n
      ({ r.1 with handed := t.handed && r.2.2 }, some (n, derived r.2.1))
  | .cached n =>
      let r := deriveCached H t n
      (r.1, some (n, r.2.1))
  | .scribble i b => (if t.handed then { t with key := t.key.set i b } else t, none)

/-- A history of calls: every sequence number asked for, with the key returned for it. -/
def run (H : HashFn) : St → List (TreeOp (BitVec 64)) → List (BitVec 64 × Bytes)
  | _, [] => []
  | t, o :: os => (call H t o).2.toList ++ run H (call H t o).1 os

end Tls
end Verif.Kdf
