import Verif.Pub.Big
/-
Hash-based signatures: pubkey/lms (LM-OTS one-time signatures, LMS trees, HSS hierarchies).

Simplifications.  `hash.Hash` is a `HashFn` (a function of all bytes written).  `uint32` counters and type codes are
natural numbers, written with four bytes; the additions that could overflow are reduced.  The registries of parameters
(`AddLmsParam`, `AddLmotsParam`, `GetLmsParam`, `GetLmotsParam`: lms_params.go:68-80, lmots_params.go:80-92) are functions
from type codes to parameters.  Slices have no spare capacity: slicing past the length panics.  Slices taken out of an
input (the seed of NewPrivateKeyFromBytes, the key of NewPublicKeyFromBytes) are values, not views of the input.
`rng.Read(c)` is what this one call does: an error, or bytes delivered into the front of the buffer (Go ignores the count,
so the rest of the buffer stays zero).
-/
namespace Verif.Pub.Lms
open Verif.Cipher Verif.Kdf

/-- pubkey/lms/consts.go:19-26: the windows. -/
inductive Win | w1 | w2 | w4 | w8
  deriving DecidableEq

/-- pubkey/lms/consts.go:22-34 (`Window`). -/
def Win.val : Win → Nat
  | .w1 => 1
  | .w2 => 2
  | .w4 => 4
  | .w8 => 8

/-- pubkey/lms/consts.go:37-50 (`Mask`). -/
def Win.mask : Win → Nat
  | .w1 => 0x01
  | .w2 => 0x03
  | .w4 => 0x0f
  | .w8 => 0xff

/-- pubkey/lms/lmots_params.go:29-39 (`LmotsParam`). -/
structure OtsParam where
  typ : Nat
  H : HashFn
  N : Nat
  W : Win
  P : Nat
  LS : Nat
  sigLen : Nat

/-- pubkey/lms/lmots_params.go:52-58 (`SigLength`). -/
def OtsParam.sigLength (p : OtsParam) : Nat := if p.sigLen > 0 then p.sigLen else 4 + p.N + p.P * p.N

/-- pubkey/lms/lms_params.go:31-37 (`LmsParam`).  The field `Hash` is never used. -/
structure LmsParam where
  typ : Nat
  M : Nat
  h : Nat

/-- pubkey/lms/lms_params.go:49-54 (`SigLength`). -/
def LmsParam.sigLength (p : LmsParam) (o : OtsParam) : Nat := 4 + 4 + o.sigLength + p.h * p.M

/-- The registries of parameters. -/
structure Reg where
  ots : Nat → Option OtsParam
  lms : Nat → Option LmsParam

/-- pubkey/lms/consts.go:52-55. -/
def dPblc : Bytes := [0x80, 0x80]
def dMesg : Bytes := [0x81, 0x81]
def dLeaf : Bytes := [0x82, 0x82]
def dIntr : Bytes := [0x83, 0x83]

/-- pubkey/lms/utils.go:20-37 (`Coefs`). -/
def coefs (x : Bytes) (w : Win) : List Nat :=
  let win := w.val
  let per := 8 / win
  let n := per * x.length
  (List.range n).map fun i =>
    let entry := i / per
    let offset := i % per
    let shift := 8 - win - offset * win
    ((x.getD entry 0).toNat >>> shift) &&& w.mask

/-- pubkey/lms/utils.go:40-49 (`Cksm`), on `uint16`. -/
def cksm (c : List Nat) (w : Win) (LS : Nat) : Nat :=
  let sum := c.foldl (fun sum a => (sum + (2 ^ w.val - 1 - a)) % 2 ^ 16) 0
  sum * 2 ^ LS % 2 ^ 16

/-- pubkey/lms/utils.go:53-64 (`Expand`). -/
def expand (msg : Bytes) (p : OtsParam) : Res (List Nat) :=
  let res := coefs msg p.W
  let res := res ++ coefs (hx 2 (cksm res p.W p.LS)) p.W
  if res.length < p.P then .panic else .ok (res.take p.P)

/-- pubkey/lms/lmots.go:175-187, 219-231, 344-356: the chain of the `i`-th element, from step `j`, `n` times. -/
def chain (H : HashFn) (id : Bytes) (q i : Nat) : Nat → Nat → Bytes → Bytes
  | _, 0, t => t
  | j, n + 1, t => chain H id q i (j + 1) n (H.f (id ++ hx 4 q ++ hx 2 i ++ [BitVec.ofNat 8 j] ++ t))

/-- pubkey/lms/lmots.go:242-247 (`LmotsPublicKey`). -/
structure OtsPub where
  p : OtsParam
  q : Nat
  id : Bytes
  k : Bytes

/-- pubkey/lms/lmots.go:24-28 (`LmotsPrivateKey`). -/
structure OtsKey where
  pub : OtsPub
  x : List Bytes
  valid : Bool

/-- pubkey/lms/lmots.go:444-448 (`LmotsSignature`). -/
structure OtsSig where
  p : OtsParam
  c : Bytes
  y : List Bytes

/-- pubkey/lms/lmots.go:51-66: the secret elements. -/
def otsSecret (p : OtsParam) (q : Nat) (id seed : Bytes) : List Bytes :=
  (List.range p.P).map fun i => p.H.f (id ++ hx 4 q ++ hx 2 i ++ [0xff] ++ seed)

/-- pubkey/lms/lmots.go:201-239 (`computeRoot`). -/
def otsRoot (p : OtsParam) (q : Nat) (id : Bytes) (x : List Bytes) : Bytes :=
  p.H.f (id ++ hx 4 q ++ dPblc ++ (List.range p.P).flatMap fun i => chain p.H id q i 0 (2 ^ p.W.val - 1) (x.getD i []))

/-- pubkey/lms/lmots.go:46-80 (`NewLmotsPrivateKeyFromSeed`); the error is always nil. -/
def newOtsKey (p : OtsParam) (q : Nat) (id seed : Bytes) : OtsKey :=
  let x := otsSecret p q id seed
  { pub := { p, q, id, k := otsRoot p q id x }, x, valid := true }

/-- `rng.Read(c)` with a buffer of `n` bytes. -/
def readBuf (n : Nat) (rd : Option Bytes) : Option Bytes := rd.map fun b => (b ++ List.replicate n 0).take n

/-- pubkey/lms/lmots.go:140-151: the nonce. -/
def nonce (n : Nat) (optC rd : Option Bytes) : Option Bytes :=
  match optC with
  | some c => some c
  | none => readBuf n rd

/-- pubkey/lms/lmots.go:129-199 (`SignToSignature`): the key afterwards and the result. -/
def otsSign (key : OtsKey) (rd : Option Bytes) (msg : Bytes) (optC : Option Bytes) : OtsKey × Res OtsSig :=
  if !key.valid then (key, .err) else
  let p := key.pub.p
  match nonce p.N optC rd with
  | none => (key, .err)
  | some c =>
    match expand (p.H.f (key.pub.id ++ hx 4 key.pub.q ++ dMesg ++ c ++ msg)) p with
    | .ok e =>
      let y := (List.range p.P).map fun i => chain p.H key.pub.id key.pub.q i 0 (e.getD i 0) (key.x.getD i [])
      ({ key with x := [], valid := false }, .ok { p, c, y })
    | .err => (key, .err)
    | .panic => (key, .panic)
    | .hang => (key, .hang)

/-- pubkey/lms/lmots.go:290-367 (`RecoverPublicKey`); `err` is the false of the second result. -/
def recover (sig : OtsSig) (msg : Bytes) (typ : OtsParam) (id : Bytes) (q : Nat) : Res OtsPub :=
  if sig.p.typ ≠ typ.typ then .err else
  let p := sig.p
  if sig.c.length ≠ p.H.size then .err else
  if sig.y.length ≠ p.P then .err else
  if sig.y.any (fun y => y.length != p.H.size) then .err else do
  let e ← expand (p.H.f (id ++ hx 4 q ++ dMesg ++ sig.c ++ msg)) p
  .ok { p, q, id, k := p.H.f (id ++ hx 4 q ++ dPblc ++ (List.range p.P).flatMap fun i =>
    chain p.H id q i (e.getD i 0) (2 ^ p.W.val - 1 - e.getD i 0) (sig.y.getD i [])) }

/-- pubkey/lms/lmots.go:275-286 (`VerifyWithSignature`). -/
def otsVerify (pub : OtsPub) (msg : Bytes) (sig : OtsSig) : Res Bool :=
  if pub.p.typ ≠ sig.p.typ then .ok false else
  match recover sig msg pub.p pub.id pub.q with
  | .ok kc => .ok (pub.k == kc.k)
  | .err => .ok false
  | .panic => .panic
  | .hang => .hang

/-- pubkey/lms/lmots.go:499-520 (`ToBytes`). -/
def otsSigBytes (sig : OtsSig) : Bytes := hx 4 sig.p.typ ++ sig.c ++ (List.range sig.p.P).flatMap fun i => sig.y.getD i []

/-- pubkey/lms/lmots.go:484-488, pubkey/lms/lms.go:583-589: `n` slices of `m` bytes. -/
def slices (m : Nat) : Nat → Bytes → List Bytes
  | 0, _ => []
  | n + 1, b => b.take m :: slices m n (b.drop m)

/-- pubkey/lms/lmots.go:456-496 (`NewLmotsSignatureFromBytes`). -/
def parseOtsSig (reg : Reg) (b : Bytes) : Res OtsSig :=
  if b.length < 4 then .err else
  match reg.ots (setBytes (b.take 4)) with
  | none => .err
  | some p =>
    if b.length < p.sigLength then .err else
    if b.length > p.sigLength then .err else
    if b.length < 4 + p.N + p.P * p.N then .panic else
    .ok { p, c := (b.drop 4).take p.N, y := slices p.N p.P (b.drop (4 + p.N)) }

/-- pubkey/lms/lmots.go:264-271 (`Verify`). -/
def otsVerifyBytes (reg : Reg) (pub : OtsPub) (msg sig : Bytes) : Res Bool :=
  match parseOtsSig reg sig with
  | .ok s => otsVerify pub msg s
  | .err => .ok false
  | .panic => .panic
  | .hang => .hang

/-- pubkey/lms/lmots.go:419-441 (`ToBytes`). -/
def otsPubBytes (pub : OtsPub) : Bytes := hx 4 pub.p.typ ++ pub.id ++ hx 4 pub.q ++ pub.k

/-- pubkey/lms/lmots.go:377-416 (`NewLmotsPublicKeyFromBytes`). -/
def parseOtsPub (reg : Reg) (b : Bytes) : Res OtsPub :=
  if b.length < 4 then .err else
  match reg.ots (setBytes (b.take 4)) with
  | none => .err
  | some p =>
    if b.length < 4 + 16 + 4 + p.N then .err else
    if b.length > 4 + 16 + 4 + p.N then .err else
    .ok { p, id := (b.drop 4).take 16, q := setBytes ((b.drop 20).take 4), k := b.drop 24 }

/-! ### LMS -/

/-- The nodes computed so far: `authtree[r−1]` is `t r`; an element not yet assigned is nil. -/
abbrev Nodes := Nat → Bytes

/-- Assignment to one element. -/
def Nodes.set (t : Nodes) (r : Nat) (v : Bytes) : Nodes := fun s => if s = r then v else t s

/-- pubkey/lms/lms.go:282-296: the loop up the tree. -/
def treeUp (H : HashFn) (id : Bytes) (t : Nodes) (r j : Nat) : Nodes :=
  if j % 2 = 1 then
    let r := (r - 1) / 2
    let t := t.set r (H.f (id ++ hx 4 r ++ dIntr ++ t (2 * r) ++ t (2 * r + 1)))
    treeUp H id t r ((j - 1) / 2)
  else t
termination_by j

/-- pubkey/lms/lms.go:264-297: the loop over the leaves, `n` of them from leaf `i`. -/
def treeLoop (h : Nat) (o : OtsParam) (id seed : Bytes) : Nat → Nat → Nodes → Nodes
  | _, 0, t => t
  | i, n + 1, t =>
    let r := i + 2 ^ h
    let t := t.set r (o.H.f (id ++ hx 4 r ++ dLeaf ++ (newOtsKey o i id seed).pub.k))
    treeLoop h o id seed (i + 1) n (treeUp o.H id t r i)

/-- pubkey/lms/lms.go:252-300 (`GeneratePKTree`); the error is always nil. -/
def genTree (p : LmsParam) (o : OtsParam) (id seed : Bytes) : Nodes := treeLoop p.h o id seed 0 (2 ^ p.h) fun _ => []

/-- pubkey/lms/lms.go:303-308 (`PublicKey`). -/
structure LmsPub where
  p : LmsParam
  o : OtsParam
  id : Bytes
  k : Bytes

/-- pubkey/lms/lms.go:26-31 (`PrivateKey`). -/
structure LmsKey where
  pub : LmsPub
  q : Nat
  seed : Bytes
  tree : Nodes

/-- pubkey/lms/lms.go:488-493 (`Signature`). -/
structure LmsSig where
  p : LmsParam
  q : Nat
  ots : OtsSig
  path : List Bytes

/-- pubkey/lms/lms.go:55-72 (`GenerateKeyFromSeed`); the error is always nil. -/
def genKey (p : LmsParam) (o : OtsParam) (id seed : Bytes) : LmsKey :=
  let tree := genTree p o id seed
  { pub := { p, o, id, k := tree 1 }, q := 0, seed, tree }

/-- pubkey/lms/lms.go:102-147 (`SignToSignature`): the key afterwards and the result. -/
def lmsSign (key : LmsKey) (rd : Option Bytes) (msg : Bytes) (optC : Option Bytes) : LmsKey × Res LmsSig :=
  let leaves := 2 ^ key.pub.p.h
  if key.q ≥ leaves then (key, .err) else
  let ots := newOtsKey key.pub.o key.q key.pub.id key.seed
  match (otsSign ots rd msg optC).2 with
  | .ok sig =>
    let r := leaves + key.q
    let path := (List.range key.pub.p.h).map fun i => key.tree ((r >>> i) ^^^ 1)
    ({ key with q := (key.q + 1) % 2 ^ 32 }, .ok { p := key.pub.p, q := key.q, ots := sig, path })
  | .err => (key, .err)
  | .panic => (key, .panic)
  | .hang => (key, .hang)

/-- pubkey/lms/lms.go:381-399: the loop over the path. -/
def climb (H : HashFn) (id : Bytes) : List Bytes → Nat → Bytes → Bytes
  | [], _, tmp => tmp
  | s :: path, n, tmp =>
    climb H id path (n / 2) (H.f (id ++ hx 4 (n / 2) ++ dIntr ++ if n % 2 = 1 then s ++ tmp else tmp ++ s))

/-- pubkey/lms/lms.go:352-402 (`VerifyWithSignature`).  A path shorter than the height panics. -/
def lmsVerify (pub : LmsPub) (msg : Bytes) (sig : LmsSig) : Res Bool :=
  if pub.p.typ ≠ sig.p.typ then .ok false else
  match recover sig.ots msg pub.o pub.id sig.q with
  | .ok kc =>
    let n := (sig.q + 2 ^ pub.p.h) % 2 ^ 32
    let tmp := pub.o.H.f (pub.id ++ hx 4 n ++ dLeaf ++ kc.k)
    if sig.path.length < pub.p.h then .panic else
    .ok (climb pub.o.H pub.id (sig.path.take pub.p.h) n tmp == pub.k)
  | .err => .ok false
  | .panic => .panic
  | .hang => .hang

/-- pubkey/lms/lms.go:600-631 (`ToBytes`). -/
def lmsSigBytes (sig : LmsSig) : Bytes :=
  hx 4 sig.q ++ otsSigBytes sig.ots ++ hx 4 sig.p.typ ++ (List.range sig.p.h).flatMap fun i => sig.path.getD i []

/-- pubkey/lms/lms.go:522-597 (`NewSignatureFromBytes`). -/
def parseLmsSig (reg : Reg) (b : Bytes) : Res LmsSig :=
  if b.length < 8 then .err else
  let q := setBytes (b.take 4)
  match reg.ots (setBytes ((b.drop 4).take 4)) with
  | none => .err
  | some o =>
    let max := 4 + o.sigLength
    if 4 + b.length ≤ max then .err else
    if b.length < max + 4 then .panic else
    match reg.lms (setBytes ((b.drop max).take 4)) with
    | none => .err
    | some p =>
      if p.sigLength o ≠ b.length then .err else
      match parseOtsSig reg ((b.drop 4).take o.sigLength) with
      | .ok ots =>
        if q ≥ 2 ^ p.h then .err else
        .ok { p, q, ots, path := slices p.M p.h (b.drop (max + 4)) }
      | .err => .err
      | .panic => .panic
      | .hang => .hang

/-- pubkey/lms/lms.go:341-348 (`Verify`). -/
def lmsVerifyBytes (reg : Reg) (pub : LmsPub) (msg sig : Bytes) : Res Bool :=
  match parseLmsSig reg sig with
  | .ok s => lmsVerify pub msg s
  | .err => .ok false
  | .panic => .panic
  | .hang => .hang

/-- pubkey/lms/lms.go:405-430 (`ToBytes`). -/
def lmsPubBytes (pub : LmsPub) : Bytes := hx 4 pub.p.typ ++ hx 4 pub.o.typ ++ pub.id ++ pub.k

/-- pubkey/lms/lms.go:446-484 (`NewPublicKeyFromBytes`). -/
def parseLmsPub (reg : Reg) (b : Bytes) : Res LmsPub :=
  if b.length < 8 then .err else
  match reg.lms (setBytes (b.take 4)) with
  | none => .err
  | some p =>
    match reg.ots (setBytes ((b.drop 4).take 4)) with
    | none => .err
    | some o =>
      if b.length ≠ p.M + 24 then .err else
      .ok { p, o, id := (b.drop 8).take 16, k := b.drop 24 }

/-- pubkey/lms/lms.go:172-201 (`ToBytes`). -/
def lmsKeyBytes (key : LmsKey) : Bytes :=
  hx 4 key.pub.p.typ ++ hx 4 key.pub.o.typ ++ hx 4 key.q ++ key.pub.id ++ key.seed

/-- pubkey/lms/lms.go:205-248 (`NewPrivateKeyFromBytes`). -/
def parseLmsKey (reg : Reg) (b : Bytes) : Res LmsKey :=
  if b.length < 8 then .err else
  match reg.lms (setBytes (b.take 4)) with
  | none => .err
  | some p =>
    match reg.ots (setBytes ((b.drop 4).take 4)) with
    | none => .err
    | some o =>
      if b.length < p.M + 28 then .err else
      .ok { genKey p o ((b.drop 12).take 16) ((b.drop 28).take p.M) with q := setBytes ((b.drop 8).take 4) }

/-! ### HSS -/

/-- pubkey/lms/hss.go:455-470 (`hssDigest`). -/
def hssDigest (pub : LmsPub) (q : Nat) (C data : Bytes) : Bytes := pub.o.H.f (pub.id ++ hx 4 q ++ dMesg ++ C ++ data)

/-- pubkey/lms/hss.go:14-17 (`HSSPublicKey`). -/
structure HssPub where
  levels : Int
  pub : LmsPub

/-- pubkey/lms/hss.go:187-191 (`HSSPrivateKey`): the used elements of the two arrays.  `Levels` is the number of keys. -/
structure HssKey where
  keys : List LmsKey
  sigs : List LmsSig

/-- pubkey/lms/hss.go:101-134 (`parseSignature`). -/
def hssSplitSig (reg : Reg) (b : Bytes) : Res (LmsSig × Bytes) :=
  if b.length < 8 then .panic else
  match reg.ots (setBytes ((b.drop 4).take 4)) with
  | none => .err
  | some o =>
    let max := 4 + o.sigLength
    if 4 + b.length ≤ max then .err else
    if b.length < max + 4 then .panic else
    match reg.lms (setBytes ((b.drop max).take 4)) with
    | none => .err
    | some p =>
      if b.length < p.sigLength o then .panic else do
      let sig ← parseLmsSig reg (b.take (p.sigLength o))
      .ok (sig, b.drop (p.sigLength o))

/-- pubkey/lms/hss.go:136-165 (`parsePublicKey`). -/
def hssSplitPub (reg : Reg) (b : Bytes) : Res (LmsPub × Bytes) :=
  if b.length < 8 then .err else
  match reg.lms (setBytes (b.take 4)) with
  | none => .err
  | some _ =>
    match reg.ots (setBytes ((b.drop 4).take 4)) with
    | none => .err
    | some o =>
      let size := 24 + o.H.size
      if b.length < size then .panic else do
      let pub ← parseLmsPub reg (b.take size)
      .ok (pub, b.drop size)

/-- An error of the parsing steps is a false verdict. -/
def errFalse {α : Type} (x : Res α) (f : α → Res Bool) : Res Bool :=
  match x with
  | .ok a => f a
  | .err => .ok false
  | .panic => .panic
  | .hang => .hang

/-- pubkey/lms/hss.go:52-84: the loop over the levels and the last signature. -/
def hssLoop (reg : Reg) (msg : Bytes) : Nat → LmsPub → Bytes → Res Bool
  | 0, pub, sig => errFalse (parseLmsSig reg sig) fun s => lmsVerify pub msg s
  | n + 1, pub, sig =>
    errFalse (hssSplitSig reg sig) fun (s, sig) =>
    errFalse (hssSplitPub reg sig) fun (next, sig) =>
    errFalse (lmsVerify pub (hssDigest pub s.q s.ots.c (lmsPubBytes next)) s) fun ok =>
    if !ok then .ok false else hssLoop reg msg n next sig

/-- pubkey/lms/hss.go:32-85 (`Verify`); `uint32(pub.Levels - 1)` wraps. -/
def hssVerify (reg : Reg) (pub : HssPub) (msg sig : Bytes) : Res Bool :=
  if sig.length < 4 then .ok false else
  let num := setBytes (sig.take 4)
  if num ≠ ((pub.levels - 1) % 2 ^ 32).toNat then .ok false else
  hssLoop reg msg num pub.pub (sig.drop 4)

/-- pubkey/lms/hss.go:250-260: the signed public keys. -/
def hssChain : List LmsSig → List LmsKey → Bytes
  | s :: sigs, k :: keys => lmsSigBytes s ++ lmsPubBytes k.pub ++ hssChain sigs keys
  | _, _ => []

/-- pubkey/lms/hss.go:239-275 (`Sign`), for a key with at least one level. -/
def hssSign (key : HssKey) (rd : Option Bytes) (msg : Bytes) : HssKey × Res Bytes :=
  match key.keys.getLast? with
  | none => (key, .panic)
  | some last =>
    match lmsSign last rd msg none with
    | (last, .ok sig) => ({ key with keys := key.keys.dropLast ++ [last] },
        .ok (hx 4 (key.keys.length - 1) ++ hssChain key.sigs (key.keys.drop 1) ++ lmsSigBytes sig))
    | (_, .err) => (key, .err)
    | (_, .panic) => (key, .panic)
    | (_, .hang) => (key, .hang)

/-- pubkey/lms/hss.go:420-450: the loop over the levels below the first.  `rds` are the bytes of the identifiers and of the
nonces; the upper key and the list of its predecessors go along. -/
def hssGenLoop (seed : Bytes) : List (LmsParam × OtsParam) → List (Option Bytes × Option Bytes) → LmsKey → Res HssKey
  | [], _, up => .ok { keys := [up], sigs := [] }
  | (p, o) :: opts, (rid, rc) :: rds, up =>
    match readBuf 16 rid with
    | none => .err
    | some id =>
      let key := genKey p o id seed
      match readBuf 32 rc with
      | none => .err
      | some C =>
        match lmsSign up none (hssDigest up.pub 0 C (lmsPubBytes key.pub)) (some C) with
        | (up, .ok sig) =>
          match hssGenLoop seed opts rds key with
          | .ok r => .ok { keys := up :: r.keys, sigs := sig :: r.sigs }
          | .err => .err
          | .panic => .panic
          | .hang => .hang
        | (_, .err) => .err
        | (_, .panic) => .panic
        | (_, .hang) => .hang
  | _ :: _, [], _ => .err

/-- pubkey/lms/hss.go:387-453 (`GenerateHSSKey`). -/
def hssGen (opts : List (LmsParam × OtsParam)) (rseed rid : Option Bytes) (rds : List (Option Bytes × Option Bytes)) : Res HssKey :=
  if opts.length > 5 then .err else
  match opts with
  | [] => .err
  | (p, o) :: opts =>
    match readBuf 32 rseed with
    | none => .err
    | some seed =>
      match readBuf 16 rid with
      | none => .err
      | some id => hssGenLoop seed opts rds (genKey p o id seed)

/-- pubkey/lms/hss.go:234-236 (`PublicKey`). -/
def HssKey.pub (key : HssKey) : Option HssPub := key.keys.head?.map fun k => { levels := key.keys.length, pub := k.pub }

/-- pubkey/lms/hss.go:278-300 (`ToBytes`). -/
def hssKeyBytes (key : HssKey) : Bytes :=
  hx 4 key.keys.length ++ key.keys.flatMap lmsKeyBytes ++ key.sigs.flatMap lmsSigBytes

/-- pubkey/lms/hss.go:302-325 (`parsePrivateKey`). -/
def hssSplitKey (reg : Reg) (b : Bytes) : Res (LmsKey × Bytes) :=
  if b.length < 8 then .err else
  match reg.lms (setBytes (b.take 4)) with
  | none => .err
  | some p =>
    let size := 28 + p.M
    if b.length < size then .panic else do
    let key ← parseLmsKey reg (b.take size)
    .ok (key, b.drop size)

/-- pubkey/lms/hss.go:342-349: the private keys, into an array of five. -/
def hssKeys (reg : Reg) : Nat → Nat → Bytes → Res (List LmsKey × Bytes)
  | _, 0, b => .ok ([], b)
  | i, n + 1, b => do
    let (k, b) ← hssSplitKey reg b
    if i ≥ 5 then .panic else do
    let (ks, b) ← hssKeys reg (i + 1) n b
    .ok (k :: ks, b)

/-- pubkey/lms/hss.go:351-358: the signatures, into an array of four. -/
def hssSigs (reg : Reg) : Nat → Nat → Bytes → Res (List LmsSig × Bytes)
  | _, 0, b => .ok ([], b)
  | i, n + 1, b => do
    let (s, b) ← hssSplitSig reg b
    if i ≥ 4 then .panic else do
    let (ss, b) ← hssSigs reg (i + 1) n b
    .ok (s :: ss, b)

/-- pubkey/lms/hss.go:328-366 (`NewHSSPrivateKeyFromBytes`); trailing bytes are ignored. -/
def parseHssKey (reg : Reg) (b : Bytes) : Res HssKey :=
  if b.length < 4 then .err else do
  let levels := setBytes (b.take 4)
  let (keys, b) ← hssKeys reg 0 levels (b.drop 4)
  let (sigs, _) ← hssSigs reg 0 (levels - 1) b
  .ok { keys, sigs }

end Verif.Pub.Lms
