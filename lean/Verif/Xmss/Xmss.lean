import Verif.Go.Basic
/-!
# The XMSS / XMSS-MT hash based signature scheme (`/repo/pubkey/xmss`)

The hash function of a parameter set is an arbitrary function on byte strings, so
everything proved here holds whatever the hash is.  The Winternitz parameter `w` is 16
(`log2w = 4`), the value of every parameter set of the repository
(`pubkey/xmss/xmss/params.go` 169-170, `xmssmt/params.go` 389, `sm3xmss/params.go`,
`pubkey/xmss/params.go` 80-82).  Machine integers that hold lengths, heights and indices
are natural numbers; the byte images (`toBytes`, the address words) are reduced as the
code reduces them.
-/

namespace Verif.Xmss
open Verif

/-- Models `Params` and its derived fields, `/repo/pubkey/xmss/params.go` 10-68, with
`w = 16`.  `pl` is `paddingLen`, `h` is `fullHeight`. -/
structure Params where
  hash : Bytes → Bytes
  n : Nat
  pl : Nat
  h : Nat
  d : Nat

/-- `len1`, `/repo/pubkey/xmss/params.go` 31 (`8n / 4`). -/
def Params.len1 (P : Params) : Nat := 2 * P.n
/-- `len2`, `/repo/pubkey/xmss/params.go` 32: `⌊log2(15·len1) / 4⌋ + 1`.  Simplified: the
floating point logarithms are exact integer ones. -/
def Params.len2 (P : Params) : Nat := Nat.log2 (P.len1 * 15) / 4 + 1
/-- `wlen`, `/repo/pubkey/xmss/params.go` 34. -/
def Params.wlen (P : Params) : Nat := P.len1 + P.len2
/-- `wotsSignLen`, `/repo/pubkey/xmss/params.go` 35. -/
def Params.wotsLen (P : Params) : Nat := P.wlen * P.n
/-- `treeHeight`, `/repo/pubkey/xmss/params.go` 37. -/
def Params.th (P : Params) : Nat := P.h / P.d
/-- `indexBytes`, `/repo/pubkey/xmss/params.go` 39-44. -/
def Params.ib (P : Params) : Nat := if P.d = 1 then 4 else (P.h + 7) / 8
/-- `prvBytes`, `/repo/pubkey/xmss/params.go` 46. -/
def Params.prvBytes (P : Params) : Nat := P.ib + 4 * P.n
/-- `signBytes`, `/repo/pubkey/xmss/params.go` 48.  The last term is `d * (h*n)`. -/
def Params.signBytes (P : Params) : Nat := P.ib + P.n + P.d * P.wotsLen + P.d * (P.h * P.n)

/-- `toBytes`, `/repo/pubkey/xmss/utils.go` 8-20 (for `x` that fits 64 bits). -/
def toBytes (x y : Nat) : Bytes :=
  (List.range y).map fun i => BitVec.ofNat 8 (x / 256 ^ (y - 1 - i))

/-- `fromBytes`, `/repo/pubkey/xmss/utils.go` 22-30, applied to all bytes of `x`
(at most 8). -/
def fromBytes (x : Bytes) : Nat := x.foldl (fun z b => 256 * z + b.toNat) 0

/-- `copy(out, res)` on a slice `out` whose content is `old`. -/
def cp (old res : Bytes) : Bytes := res.take old.length ++ old.drop res.length

/-- `copy(buf[off:], src)`. -/
def put (buf : Bytes) (off : Nat) (src : Bytes) : Bytes :=
  buf.take off ++ cp (buf.drop off) src

/-- `n` zero bytes: `make([]byte, n)`. -/
def zeros (n : Nat) : Bytes := List.replicate n 0

/-- The hash address, `/repo/pubkey/xmss/hash_address.go` 28-75: words 0 (layer), 1 and 2
(tree), 3 (type), 4 (OTS or L-tree), 5 (chain or tree height), 6 (hash or tree index),
7 (key and mask). -/
structure Addr where
  layer : Nat
  tree : Nat
  typ : Nat
  a4 : Nat
  a5 : Nat
  a6 : Nat
  a7 : Nat

/-- The zero address `var a address` with a type set. -/
def Addr.ofType (t : Nat) : Addr := ⟨0, 0, t, 0, 0, 0, 0⟩

/-- `address.toBytes`, `/repo/pubkey/xmss/hash_address.go` 34-37 and 77-85. -/
def Addr.bytes (a : Addr) : Bytes :=
  toBytes a.layer 4 ++ toBytes (a.tree / 2 ^ 32) 4 ++ toBytes a.tree 4 ++ toBytes a.typ 4 ++
  toBytes a.a4 4 ++ toBytes a.a5 4 ++ toBytes a.a6 4 ++ toBytes a.a7 4

/-- `copySubtreeAddr` into a zero address followed by `setType`,
`/repo/pubkey/xmss/hash_address.go` 47-51 and `tree.go` 121-127. -/
def Addr.sub (a : Addr) (t : Nat) : Addr := ⟨a.layer, a.tree, t, 0, 0, 0, 0⟩

/-- `coreHash`, `/repo/pubkey/xmss/hash.go` 17-31: the digest is cut to `n` bytes when `n`
is 24, 32 or 64 and the digest is long enough, and is used as it is otherwise. -/
def core (P : Params) (x : Bytes) : Bytes :=
  let res := P.hash x
  if P.n = 24 ∧ 24 ≤ res.length then res.take 24
  else if P.n = 32 ∧ 32 ≤ res.length then res.take 32
  else if P.n = 64 ∧ 64 ≤ res.length then res.take 64
  else res

/-- `hashPRF`, `/repo/pubkey/xmss/hash.go` 35-44; `old` is the content of `out`. -/
def prf (P : Params) (old key m : Bytes) : Bytes :=
  cp old (core P (toBytes 3 P.pl ++ key.take P.n ++ m))

/-- `hashKeygen`, `/repo/pubkey/xmss/hash.go` 47-56. -/
def keygen (P : Params) (old key m : Bytes) : Bytes :=
  cp old (core P (toBytes 4 P.pl ++ key.take P.n ++ m))

/-- The bytes `hashMsg` writes in front of the message, `/repo/pubkey/xmss/hash.go`
62-65. -/
def msgPrefix (P : Params) (R root : Bytes) (idx : Nat) : Bytes :=
  toBytes 2 P.pl ++ R.take P.n ++ root.take P.n ++ toBytes idx P.n

/-- `hashH`, `/repo/pubkey/xmss/hash.go` 79-102: the digest copied over `old`, and the
address as it is left. -/
def hashH (P : Params) (old seed m : Bytes) (a : Addr) : Bytes × Addr :=
  let a0 := { a with a7 := 0 }
  let key := prf P (zeros P.n) seed a0.bytes
  let a1 := { a0 with a7 := 1 }
  let m0 := prf P (zeros P.n) seed a1.bytes
  let a2 := { a1 with a7 := 2 }
  let m1 := prf P (zeros P.n) seed a2.bytes
  (cp old (core P (toBytes 1 P.pl ++ key ++ xorb m (m0 ++ m1))), a2)

/-- `hashF`, `/repo/pubkey/xmss/hash.go` 105-125. -/
def hashF (P : Params) (old seed m : Bytes) (a : Addr) : Bytes × Addr :=
  let a0 := { a with a7 := 0 }
  let key := prf P (zeros P.n) seed a0.bytes
  let a1 := { a0 with a7 := 1 }
  let mask := prf P (zeros P.n) seed a1.bytes
  (cp old (core P (toBytes 0 P.pl ++ key ++ xorb m mask)), a1)

/-- `expandSeed`, `/repo/pubkey/xmss/wots.go` 4-16, as the list of its `n`-byte pieces. -/
def expandSeed (P : Params) (seed : Bytes) : List Bytes :=
  (List.range P.wlen).map fun i => keygen P (zeros P.n) seed (toBytes i 32)

/-- `basew`, `/repo/pubkey/xmss/wots.go` 20-37, for `w = 16`: digit `i` of `k`, high nibble
first. -/
def basew (x : Bytes) (k : Nat) : List Nat :=
  (List.range k).map fun i =>
    if i % 2 = 0 then (x.getD (i / 2) 0).toNat / 16 else (x.getD (i / 2) 0).toNat % 16

/-- `wotsChecksum`, `/repo/pubkey/xmss/wots.go` 53-64: the chain lengths of a message. -/
def lengths (P : Params) (m : Bytes) : List Nat :=
  let l1 := basew m P.len1
  let csum := (l1.map fun l => 15 - l).sum % 2 ^ 16
  l1 ++ basew (toBytes (csum * 16 % 2 ^ 16) ((P.len2 * 4 + 7) / 8)) P.len2

/-- `chain`, `/repo/pubkey/xmss/wots.go` 41-48: `k` steps from position `i`, in place. -/
def chain (P : Params) (seed : Bytes) : Nat → Nat → Bytes → Addr → Bytes × Addr
  | 0, _, out, a => (out, a)
  | k + 1, i, out, a =>
    let r := hashF P out seed out { a with a6 := i }
    chain P seed k (i + 1) r.1 r.2

/-- The loop over the `wlen` chains of `generatePublic`, `sign` and `getPublic`,
`/repo/pubkey/xmss/wots.go` 87-91, 107-111 and 125-129: chain `i` runs `(f i).2` steps from
position `(f i).1`. -/
def chains (P : Params) (seed : Bytes) (f : Nat → Nat × Nat) :
    Nat → List Bytes → Addr → List Bytes × Addr
  | _, [], a => ([], a)
  | i, c :: r, a =>
    let x := chain P seed (f i).2 (f i).1 c { a with a5 := i }
    let y := chains P seed f (i + 1) r x.2
    (x.1 :: y.1, y.2)

/-- `generatePublic`, `/repo/pubkey/xmss/wots.go` 82-94. -/
def wotsPublic (P : Params) (seed : Bytes) (prv : List Bytes) (a : Addr) : List Bytes × Addr :=
  chains P seed (fun _ => (0, 15)) 0 prv a

/-- `privateWOTS.sign`, `/repo/pubkey/xmss/wots.go` 99-114. -/
def wotsSign (P : Params) (seed : Bytes) (prv : List Bytes) (m : Bytes) (a : Addr) :
    List Bytes × Addr :=
  chains P seed (fun i => (0, (lengths P m).getD i 0)) 0 prv a

/-- `signatureWOTS.getPublic`, `/repo/pubkey/xmss/wots.go` 118-132. -/
def wotsGetPublic (P : Params) (seed : Bytes) (sig : List Bytes) (m : Bytes) (a : Addr) :
    List Bytes × Addr :=
  chains P seed (fun i => ((lengths P m).getD i 0, 15 - (lengths P m).getD i 0)) 0 sig a

/-- One row of `lTree`, `/repo/pubkey/xmss/tree.go` 16-33: neighbours are hashed in pairs, an
odd last node moves up unchanged.  The row is compacted in place: the digest of pair `i` is
copied over slot `i`, which still holds node `i` of the old row `row`. -/
def lRow (P : Params) (seed : Bytes) (row : List Bytes) :
    Nat → List Bytes → Addr → List Bytes × Addr
  | i, x :: y :: r, a =>
    let h := hashH P (row.getD i []) seed (x ++ y) { a with a6 := i }
    let t := lRow P seed row (i + 1) r h.2
    (h.1 :: t.1, t.2)
  | _, r, a => (r, a)

/-- The rows of `lTree`, `/repo/pubkey/xmss/tree.go` 15-39, from tree height `ht`. -/
def lRows (P : Params) (seed : Bytes) : Nat → Nat → List Bytes → Addr → Bytes × Addr
  | 0, _, ns, a => (ns.headD [], a)
  | fuel + 1, ht, ns, a =>
    if 1 < ns.length then
      let r := lRow P seed ns 0 ns a
      lRows P seed fuel (ht + 1) r.1 { r.2 with a5 := ht + 1 }
    else (ns.headD [], a)

/-- `lTree`, `/repo/pubkey/xmss/tree.go` 6-40.  `wlen` rows are more than the loop can
run. -/
def lTree (P : Params) (seed : Bytes) (pub : List Bytes) (a : Addr) : Bytes × Addr :=
  lRows P seed pub.length 0 pub { a with a5 := 0 }

/-- `getSeed`, `/repo/pubkey/xmss/tree.go` 86-93. -/
def getSeed (P : Params) (old prvSeed : Bytes) (a : Addr) : Bytes × Addr :=
  let a' := { a with a5 := 0, a6 := 0, a7 := 0 }
  (prf P old prvSeed a'.bytes, a')

/-- `generateLeafWOTS`, `/repo/pubkey/xmss/tree.go` 98-106: the leaf and the two addresses
as they are left. -/
def genLeaf (P : Params) (prvSeed pubSeed : Bytes) (ltreeA otsA : Addr) : Bytes × Addr × Addr :=
  let s := getSeed P (zeros P.n) prvSeed otsA
  let p := wotsPublic P pubSeed (expandSeed P s.1) s.2
  let l := lTree P pubSeed p.1 ltreeA
  (l.1, l.2, p.2)

/-- The state of the `treehash` loop: the stack (top first) of nodes with their heights, the
authentication path, and the node address.  Stack slots at or above `offset` are not kept:
they are written before they are read. -/
structure TH where
  stack : List (Bytes × Nat)
  auth : List Bytes
  nodeA : Addr

/-- The inner loop of `treehash`, `/repo/pubkey/xmss/tree.go` 143-165.  `List.set` does
nothing outside the path, where the code would panic; `C144` shows every entry is written
where it belongs. -/
def merge (P : Params) (pubSeed : Bytes) (leafIdx i : Nat) (st : List (Bytes × Nat))
    (auth : List Bytes) (a : Addr) : TH :=
  match st with
  | (x, hx) :: (y, hy) :: r =>
    if hx = hy then
      let k := i / 2 ^ (hx + 1)
      let z := hashH P y pubSeed (y ++ x) { a with a5 := hx, a6 := k }
      let auth' := if (leafIdx / 2 ^ (hy + 1)) ^^^ 1 = k then auth.set (hy + 1) z.1 else auth
      merge P pubSeed leafIdx i ((z.1, hy + 1) :: r) auth' z.2
    else ⟨st, auth, a⟩
  | _ => ⟨st, auth, a⟩
termination_by st.length

/-- One turn of the outer loop of `treehash`, `/repo/pubkey/xmss/tree.go` 130-165. -/
def thStep (P : Params) (prvSeed pubSeed : Bytes) (leafIdx : Nat)
    (s : TH × Addr × Addr) (i : Nat) : TH × Addr × Addr :=
  let l := genLeaf P prvSeed pubSeed { s.2.1 with a4 := i } { s.2.2 with a4 := i }
  let auth := if leafIdx ^^^ 1 = i then s.1.auth.set 0 l.1 else s.1.auth
  (merge P pubSeed leafIdx i ((l.1, 0) :: s.1.stack) auth s.1.nodeA, l.2)

/-- `treehash`, `/repo/pubkey/xmss/tree.go` 112-169: the root (the bottom of the stack) and
the authentication path. -/
def treehash (P : Params) (prvSeed pubSeed : Bytes) (leafIdx : Nat) (sub : Addr) :
    Bytes × List Bytes :=
  let s := (List.range (2 ^ P.th)).foldl (thStep P prvSeed pubSeed leafIdx)
    (⟨[], List.replicate P.th (zeros P.n), sub.sub 2⟩, sub.sub 1, sub.sub 0)
  ((s.1.stack.getLastD ([], 0)).1, s.1.auth)

/-- The two halves of the buffer of `computeRoot`, `/repo/pubkey/xmss/tree.go` 50-56 and
66-72: the node at index `idx` and its neighbour, in order. -/
def ordered (idx : Nat) (node sib : Bytes) : Bytes × Bytes :=
  if idx % 2 = 1 then (sib, node) else (node, sib)

/-- The loop of `computeRoot`, `/repo/pubkey/xmss/tree.go` 60-80: `buf` holds the two
children at height `i`; the last turn writes to `root`. -/
def rootGo (P : Params) (pubSeed root : Bytes) :
    List Bytes → Nat → Nat → Bytes × Bytes → Addr → Bytes × Addr
  | [], i, idx, b, a =>
    hashH P root pubSeed (b.1 ++ b.2) { a with a5 := i, a6 := idx / 2 }
  | s :: r, i, idx, b, a =>
    let old := if idx / 2 % 2 = 1 then b.2 else b.1
    let z := hashH P old pubSeed (b.1 ++ b.2) { a with a5 := i, a6 := idx / 2 }
    rootGo P pubSeed root r (i + 1) (idx / 2) (ordered (idx / 2) z.1 s) z.2

/-- `computeRoot`, `/repo/pubkey/xmss/tree.go` 44-81. -/
def computeRoot (P : Params) (root leaf : Bytes) (auth : List Bytes) (pubSeed : Bytes)
    (leafIdx : Nat) (a : Addr) : Bytes × Addr :=
  rootGo P pubSeed root auth.tail 0 leafIdx (ordered leafIdx leaf (auth.headD [])) a

/-- `k` consecutive `n`-byte pieces of `x`. -/
def pieces (n : Nat) : Nat → Bytes → List Bytes
  | 0, _ => []
  | k + 1, x => x.take n :: pieces n k (x.drop n)

/-- The layer loop of `Sign`, `/repo/pubkey/xmss/xmss.go` 113-134: `k` layers from layer `i`;
the bytes appended to the buffer and the last root. -/
def signLayers (P : Params) (prvSeed pubSeed : Bytes) :
    Nat → Nat → Nat → Bytes → Bytes → Addr → Bytes × Bytes
  | 0, _, _, root, _, _ => ([], root)
  | k + 1, i, idx, root, otsSeed, otsA =>
    let idxLeaf := idx % 2 ^ P.th
    let idx' := idx / 2 ^ P.th
    let s := getSeed P otsSeed prvSeed { otsA with layer := i, tree := idx', a4 := idxLeaf }
    let w := wotsSign P pubSeed (expandSeed P s.1) root s.2
    let t := treehash P prvSeed pubSeed idxLeaf w.2
    let r := signLayers P prvSeed pubSeed k (i + 1) idx' t.1 s.1 w.2
    (w.1.flatten ++ t.2.flatten ++ r.1, r.2)

/-- The private key after the wipe of lines 88-89 of `/repo/pubkey/xmss/xmss.go`: index bytes
`ff`, and zeros up to the last `indexBytes` bytes. -/
def wiped (P : Params) (prv : Bytes) : Bytes :=
  List.replicate P.ib 0xFF ++ zeros (P.prvBytes - P.ib - P.ib) ++ prv.drop (P.prvBytes - P.ib)

/-- The signature made with index `idx` by the private key `prv` (whose first `indexBytes`
bytes go into it), `/repo/pubkey/xmss/xmss.go` 83, 99 and 104-136. -/
def signWith (P : Params) (prv : Bytes) (idx : Nat) (m : Bytes) : Bytes :=
  let prvSeed := (prv.drop P.ib).take P.n
  let prfSeed := (prv.drop (P.ib + P.n)).take P.n
  let pubSeed := (prv.drop (P.ib + 2 * P.n)).take P.n
  let pubRoot := (prv.drop (P.ib + 3 * P.n)).take P.n
  let s0 := put (zeros (P.signBytes + m.length)) P.signBytes m
  let s1 := put s0 0 (prv.take P.ib)
  let R := prf P (zeros P.n) prfSeed (toBytes idx 32)
  let s2 := put s1 P.ib R
  let off := P.signBytes - P.pl - 3 * P.n
  let s3 := put s2 off (msgPrefix P R pubRoot idx)
  let root := cp (zeros P.n) (core P (s3.drop off))
  let b := signLayers P prvSeed pubSeed P.d 0 idx root (zeros P.n) (Addr.ofType 0)
  put s3 (P.ib + P.n) b.1

/-- `PrivateKey.Sign`, `/repo/pubkey/xmss/xmss.go` 57-139: the result (`none` is the error)
and the private key it leaves.  The seeds are slices of the private key, so that a wipe
(lines 88-89) changes them.  Heights below 64. -/
def sign (P : Params) (prv m : Bytes) : Res (Option Bytes × Bytes) :=
  if prv.length < P.prvBytes then .panic
  else
    let idx := fromBytes (prv.take P.ib)
    let prv1 := if 2 ^ P.h - 1 ≤ idx then wiped P prv else prv
    if 2 ^ P.h - 1 < idx then .ok (none, prv1)
    else .ok (some (signWith P prv1 idx m), toBytes (idx + 1) P.ib ++ prv1.drop P.ib)

/-- `GenerateKey`, `/repo/pubkey/xmss/xmss.go` 145-179, on the `3n` random bytes `seed`:
the private key and the public key. -/
def genKey (P : Params) (seed : Bytes) : Bytes × Bytes :=
  let prvSeed := seed.take P.n
  let pubSeed := (seed.drop (2 * P.n)).take P.n
  let root := (treehash P prvSeed pubSeed 0 ⟨P.d - 1, 0, 0, 0, 0, 0, 0⟩).1
  (zeros P.ib ++ seed ++ root, root ++ pubSeed)

/-- `PrivateKey.PublicKey`, `/repo/pubkey/xmss/xmss.go` 42-52. -/
def publicKey (P : Params) (prv : Bytes) : Bytes :=
  (prv.drop (P.ib + 3 * P.n)).take P.n ++ (prv.drop (P.ib + 2 * P.n)).take P.n

/-- The layer loop of `Verify`, `/repo/pubkey/xmss/xmss.go` 229-258: the last root and what
is left of the signature. -/
def verifyLayers (P : Params) (pubSeed : Bytes) :
    Nat → Nat → Nat → Bytes → Bytes → Addr → Addr → Addr → Bytes × Bytes
  | 0, _, _, root, sig, _, _, _ => (root, sig)
  | k + 1, i, idx, root, sig, otsA, ltreeA, nodeA =>
    let idxLeaf := idx % 2 ^ P.th
    let idx' := idx / 2 ^ P.th
    let ltreeA := { ltreeA with layer := i, tree := idx' }
    let nodeA := { nodeA with layer := i, tree := idx' }
    let w := wotsGetPublic P pubSeed (pieces P.n P.wlen sig) root
      { otsA with layer := i, tree := idx', a4 := idxLeaf }
    let sig1 := sig.drop P.wotsLen
    let l := lTree P pubSeed w.1 { ltreeA with a4 := idxLeaf }
    let c := computeRoot P root l.1 (pieces P.n P.th sig1) pubSeed idxLeaf nodeA
    verifyLayers P pubSeed k (i + 1) idx' c.1 (sig1.drop (P.th * P.n)) w.2 l.2 c.2

/-- `Verify`, `/repo/pubkey/xmss/xmss.go` 185-271: the verdict and the buffer `m` as it is
left.  `m` and `signature` are separate buffers, and `m` has no spare capacity. -/
def verify (P : Params) (pub m sig : Bytes) : Res (Bool × Bytes) :=
  if sig.length < P.signBytes then .ok (false, m)
  else if pub.length < 2 * P.n then .panic
  else if m.length < P.signBytes then .panic
  else
    let pubRoot := pub.take P.n
    let pubSeed := pub.drop P.n
    let idx := fromBytes (sig.take P.ib)
    let m1 := put m P.signBytes (sig.drop P.signBytes)
    let off := P.signBytes - P.pl - 3 * P.n
    let m2 := put m1 off (msgPrefix P ((sig.drop P.ib).take P.n) pubRoot idx)
    let root := cp (zeros P.n) (core P (m2.drop off))
    let r := verifyLayers P pubSeed P.d 0 idx root (sig.drop (P.ib + P.n))
      (Addr.ofType 0) (Addr.ofType 1) (Addr.ofType 2)
    if r.1 = pubRoot then .ok (true, put m2 P.signBytes r.2)
    else .ok (false, put m2 P.signBytes (zeros (sig.length - P.signBytes)))

/-- A history of `Sign` calls on one private key: the results in order and the private key
at the end. -/
def signMany (P : Params) (prv : Bytes) : List Bytes → Res (List (Option Bytes) × Bytes)
  | [] => .ok ([], prv)
  | m :: ms =>
    match sign P prv m with
    | .ok (s, prv') =>
      match signMany P prv' ms with
      | .ok (r, p) => .ok (s :: r, p)
      | .err => .err
      | .panic => .panic
      | .hang => .hang
    | .err => .err
    | .panic => .panic
    | .hang => .hang

end Verif.Xmss
