import Verif.Xmss.Xmss
/-!
# The parameter sets and the packages that carry an OID in the keys

`/repo/pubkey/xmss/xmss`, `/repo/pubkey/xmss/xmssmt` and `/repo/pubkey/xmss/sm3xmss`: keys
are the keys of `/repo/pubkey/xmss` behind a four byte OID.  The three packages have the
same code (`xmss.go`, `xmssmt.go`) and differ in the table of parameter sets.
-/

namespace Verif.Xmss
open Verif

/-- The hash functions the parameter sets name. -/
inductive HashId where
  | sha256
  | shake128
  | shake256
  | sm3
  deriving DecidableEq

/-- The digest lengths: `sha256.New`, `sha3.NewShake128` and `sha3.NewShake256` used through
`hash.Hash.Sum` (32 and 64 bytes), `sm3.New`. -/
def HashId.size : HashId → Nat
  | .sha256 => 32
  | .shake128 => 32
  | .shake256 => 64
  | .sm3 => 32

/-- A row of a parameter table. -/
structure Row where
  hash : HashId
  n : Nat
  pl : Nat
  h : Nat
  d : Nat
  deriving DecidableEq

/-- `NewParamsWithOid`, `/repo/pubkey/xmss/xmss/params.go` 64-179. -/
def xmssRow (oid : Nat) : Option Row := do
  let hash ← if oid ∈ [1, 2, 3, 4, 5, 6, 13, 14, 15] then some HashId.sha256
    else if oid ∈ [7, 8, 9] then some .shake128
    else if oid ∈ [10, 11, 12, 16, 17, 18, 19, 20, 21] then some .shake256 else none
  let (n, pl) ← if oid ∈ [13, 14, 15, 19, 20, 21] then some (24, 4)
    else if oid ∈ [1, 2, 3, 7, 8, 9, 16, 17, 18] then some (32, 32)
    else if oid ∈ [4, 5, 6, 10, 11, 12] then some (64, 64) else none
  let h ← if oid ∈ [1, 4, 7, 10, 13, 16, 19] then some 10
    else if oid ∈ [2, 5, 8, 11, 14, 17, 20] then some 16
    else if oid ∈ [3, 6, 9, 12, 15, 18, 21] then some 20 else none
  some ⟨hash, n, pl, h, 1⟩

/-- `NewParamsWithOid`, `/repo/pubkey/xmss/xmssmt/params.go` 99-406. -/
def xmssmtRow (oid : Nat) : Option Row := do
  let hash ← if oid ∈ [1, 2, 3, 4, 5, 6, 7, 8, 9, 10, 11, 12, 13, 14, 15, 16, 33, 34, 35, 36, 37, 38, 39, 40] then
      some HashId.sha256
    else if oid ∈ [17, 18, 19, 20, 21, 22, 23, 24] then some .shake128
    else if oid ∈ [25, 26, 27, 28, 29, 30, 31, 32, 41, 42, 43, 44, 45, 46, 47, 48, 49, 50, 51, 52, 53, 54, 55, 56] then
      some .shake256 else none
  let (n, pl) ← if oid ∈ [33, 34, 35, 36, 37, 38, 39, 40, 49, 50, 51, 52, 53, 54, 55, 56] then some (24, 4)
    else if oid ∈ [1, 2, 3, 4, 5, 6, 7, 8, 17, 18, 19, 20, 21, 22, 23, 24, 41, 42, 43, 44, 45, 46, 47, 48] then
      some (32, 32)
    else if oid ∈ [9, 10, 11, 12, 13, 14, 15, 16, 25, 26, 27, 28, 29, 30, 31, 32] then some (64, 64) else none
  let h ← if oid ∈ [1, 2, 9, 10, 17, 18, 25, 26, 33, 34, 41, 42, 49, 50] then some 20
    else if oid ∈ [3, 4, 5, 11, 12, 13, 19, 20, 21, 27, 28, 29, 35, 36, 37, 43, 44, 45, 51, 52, 53] then
      some 40
    else if oid ∈ [6, 7, 8, 14, 15, 16, 22, 23, 24, 30, 31, 32, 38, 39, 40, 46, 47, 48, 54, 55, 56] then
      some 60 else none
  let d ← if oid ∈ [1, 3, 9, 11, 17, 19, 25, 27, 33, 35, 41, 43, 49, 51] then some 2
    else if oid ∈ [2, 4, 10, 12, 18, 20, 26, 28, 34, 36, 42, 44, 50, 52] then some 4
    else if oid ∈ [5, 13, 21, 29, 37, 45, 53] then some 8
    else if oid ∈ [6, 14, 22, 30, 38, 46, 54] then some 3
    else if oid ∈ [7, 15, 23, 31, 39, 47, 55] then some 6
    else if oid ∈ [8, 16, 24, 32, 40, 48, 56] then some 12 else none
  some ⟨hash, n, pl, h, d⟩

/-- `NewParamsWithOid`, `/repo/pubkey/xmss/sm3xmss/params.go` 37-82. -/
def sm3xmssRow (oid : Nat) : Option Row :=
  if oid = 1 then some ⟨.sm3, 32, 32, 10, 1⟩
  else if oid = 2 then some ⟨.sm3, 32, 32, 16, 1⟩
  else if oid = 3 then some ⟨.sm3, 32, 32, 20, 1⟩
  else none

/-- The three packages. -/
inductive Pkg where
  | xmss
  | xmssmt
  | sm3xmss

/-- The table of a package. -/
def Pkg.row : Pkg → Nat → Option Row
  | .xmss => xmssRow
  | .xmssmt => xmssmtRow
  | .sm3xmss => sm3xmssRow

/-- The parameter set of a row, for hash functions `hs`: `xmss.NewParams(hasher, n, 16, h, d,
paddingLen)`, `/repo/pubkey/xmss/xmss/params.go` 178. -/
def Row.params (hs : HashId → Bytes → Bytes) (w : Row) : Params := ⟨hs w.hash, w.n, w.pl, w.h, w.d⟩

/-- `GenerateKey`, `/repo/pubkey/xmss/xmss/xmss.go` 11-39 (and the same lines of
`xmssmt/xmssmt.go` and `sm3xmss/xmss.go`): `seed` is the random bytes read. -/
def oidGenerate (hs : HashId → Bytes → Bytes) (p : Pkg) (seed : Bytes) (oid : Nat) :
    Option (Bytes × Bytes) :=
  match p.row oid with
  | none => none
  | some w =>
    let k := genKey (w.params hs) seed
    some (toBytes oid 4 ++ k.1, toBytes oid 4 ++ k.2)

/-- `Sign`, `/repo/pubkey/xmss/xmss/xmss.go` 50-67: the result and the private key as it is
left (`pri.D` is a slice of `priv.D`). -/
def oidSign (hs : HashId → Bytes → Bytes) (p : Pkg) (priv m : Bytes) : Res (Option Bytes × Bytes) :=
  if priv.length < 4 then .panic
  else
    match p.row (fromBytes (priv.take 4)) with
    | none => .ok (none, priv)
    | some w =>
      match sign (w.params hs) (priv.drop 4) m with
      | .ok (s, d) => .ok (s, priv.take 4 ++ d)
      | .err => .err
      | .panic => .panic
      | .hang => .hang

/-- `Verify`, `/repo/pubkey/xmss/xmss/xmss.go` 69-86. -/
def oidVerify (hs : HashId → Bytes → Bytes) (p : Pkg) (pub m sig : Bytes) : Res (Bool × Bytes) :=
  if pub.length < 4 then .panic
  else
    match p.row (fromBytes (pub.take 4)) with
    | none => .ok (false, m)
    | some w => verify (w.params hs) (pub.drop 4) m sig

/-- `ExportPublicKey`, `/repo/pubkey/xmss/xmss/xmss.go` 113-140. -/
def oidExport (hs : HashId → Bytes → Bytes) (p : Pkg) (priv : Bytes) : Res Bytes :=
  if priv.length < 4 then .panic
  else
    match p.row (fromBytes (priv.take 4)) with
    | none => .err
    | some w =>
      if (priv.drop 4).length < (w.params hs).prvBytes then .panic
      else .ok (toBytes (fromBytes (priv.take 4)) 4 ++ publicKey (w.params hs) (priv.drop 4))

/-- A history of `Sign` calls on one private key of a package. -/
def oidSignMany (hs : HashId → Bytes → Bytes) (p : Pkg) (priv : Bytes) :
    List Bytes → Res (List (Option Bytes) × Bytes)
  | [] => .ok ([], priv)
  | m :: ms =>
    match oidSign hs p priv m with
    | .ok (s, d) =>
      match oidSignMany hs p d ms with
      | .ok (r, e) => .ok (s :: r, e)
      | .err => .err
      | .panic => .panic
      | .hang => .hang
    | .err => .err
    | .panic => .panic
    | .hang => .hang

end Verif.Xmss
