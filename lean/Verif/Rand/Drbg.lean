import Verif.Rand.DrbgSpec
/-
Model of /repo/rand/drbg (hash.go, hmac.go, ctr.go, utils.go).  The digest is any hash function `H` (the object is reset
before every use), the block cipher any family of block ciphers that accepts every key of the length given.  Buffers that
the caller passes are lists; `Generate` returns the new content of `out`.
-/
namespace Verif.Rand
open Verif.Pub Verif.Cipher Verif.Kdf

/-- utils.go:9. -/
def maxBytes : Nat := 2 ^ 27

/-- The checks of the three constructors (hash.go:37-47, hmac.go:20-30, ctr.go:25-35). -/
def newOk (entropy nonce pers : Bytes) : Bool :=
  !(entropy.length ≤ 0 || maxBytes ≤ entropy.length) && !(nonce.length == 0 || maxBytes >>> 1 ≤ nonce.length) &&
    !(maxBytes ≤ pers.length)

/-- The checks of the three `Reseed` (hash.go:95-101, hmac.go:60-66, ctr.go:74-80). -/
def reseedOk (entropy additional : Bytes) : Bool :=
  !(entropy.length ≤ 0 || maxBytes ≤ entropy.length) && !(maxBytes ≤ additional.length)

/-- utils.go:70-76, the loop from the last byte on; `temp` is the `int32` of the loop (at most 511, so no overflow). -/
def addLoop : Bytes → Bytes → Nat → Bytes
  | r :: R, a :: A, temp =>
    let t := temp + (r.toNat + a.toNat)
    BitVec.ofNat 8 (t &&& 0xff) :: addLoop R A (t >>> 8)
  | _, _, _ => []

/-- utils.go:67-76 `drbg_add`: the first `n` bytes of `R` change. -/
def drbgAdd (R A : Bytes) (n : Nat) : Bytes := (addLoop (R.take n).reverse (A.take n).reverse 0).reverse ++ R.drop n

/-- utils.go:81-85. -/
def add1Loop : Bytes → Nat → Bytes
  | r :: R, temp =>
    let t := temp + r.toNat
    BitVec.ofNat 8 (t &&& 0xff) :: add1Loop R (t >>> 8)
  | _, _ => []

/-- utils.go:78-86 `drbg_add1`. -/
def drbgAdd1 (R : Bytes) (n : Nat) : Bytes := (add1Loop (R.take n).reverse 1).reverse ++ R.drop n

/-- utils.go:41-60, the loop of `hashDF`: `out`, `nlength`, `outlen`, `counter` (a byte). -/
def hashDFLoop (H : HashFn) (outbits inp : Bytes) : Nat → Byte → Nat → Nat → Bytes → Bytes
  | 0, _, _, _, out => out
  | fuel + 1, counter, nlength, outlen, out =>
    if outlen > 0 then
      let dgst := H.f (counter :: outbits ++ inp)
      let length := if outlen < dgst.length then outlen else dgst.length
      hashDFLoop H outbits inp fuel (counter + 1) (nlength + length) (outlen - length) (copyAt out nlength (dgst.take length))
    else out

/-- utils.go:30-61 `hashDF`: fills `out`. The loop ends because every digest has a byte. -/
def hashDF (H : HashFn) (inp out : Bytes) : Bytes :=
  hashDFLoop H (hx 4 (out.length % 2 ^ 32 * 8)) inp out.length 1#8 0 out.length out

/-! ### hash.go -/

/-- hash.go:27-34. `v` and `c` are arrays of 111 bytes. -/
structure HashDRBG where
  v : Bytes
  c : Bytes
  seedlen : Nat
  ctr : Nat
  isGm : Bool

/-- hash.go:80-90 (117-126): `v`, `c` and the counter from the seed material. -/
def hashFill (H : HashFn) (d : HashDRBG) (material : Bytes) : HashDRBG :=
  let v := hashDF H material (d.v.take d.seedlen) ++ d.v.drop d.seedlen
  let buf := 0#8 :: v.take d.seedlen
  let c := hashDF H buf (d.c.take d.seedlen) ++ d.c.drop d.seedlen
  { d with v := v, c := c, ctr := 1 }

/-- hash.go:36-92 `NewHash` and `init`. -/
def newHash (H : HashFn) (entropy nonce pers : Bytes) (isGm : Bool) : Res HashDRBG :=
  if newOk entropy nonce pers = false then .err
  else
    let n := if H.size ≤ 32 then 55 else 111
    let d : HashDRBG := { v := List.replicate 111 0#8, c := List.replicate 111 0#8, seedlen := n, ctr := 0, isGm := false }
    .ok { hashFill H d (entropy ++ nonce ++ pers) with isGm := isGm }

/-- hash.go:94-131 `Reseed`. -/
def HashDRBG.reseed (H : HashFn) (d : HashDRBG) (entropy additional : Bytes) : Res HashDRBG :=
  if reseedOk entropy additional = false then .err
  else
    let material :=
      if d.isGm then 1#8 :: entropy ++ d.v.take d.seedlen ++ additional
      else 1#8 :: d.v.take d.seedlen ++ entropy ++ additional
    .ok (hashFill H d material)

/-- hash.go:154-173, the loop of `hashgen`: `data`, `nlength`, `outlen`. -/
def hashgenLoop (H : HashFn) (seedlen : Nat) : Nat → Bytes → Nat → Nat → Bytes → Bytes
  | 0, _, _, _, out => out
  | fuel + 1, data, nlength, outlen, out =>
    if outlen > 0 then
      let dgst := H.f (data.take seedlen)
      let length := if outlen < dgst.length then outlen else dgst.length
      hashgenLoop H seedlen fuel (drbgAdd1 data seedlen) (nlength + length) (outlen - length)
        (copyAt out nlength (dgst.take length))
    else out

/-- hash.go:133-175 `hashgen`: the new content of `out`. -/
def HashDRBG.hashgen (H : HashFn) (d : HashDRBG) (out : Bytes) : Bytes :=
  if d.isGm then copyInto out (H.f (d.v.take d.seedlen))
  else hashgenLoop H d.seedlen out.length (copyInto (List.replicate 111 0#8) (d.v.take d.seedlen)) 0 out.length out

/-- `T = 0; copy(T[seedlen-len(dgst):], dgst)` (hash.go:198-199, 213-214); the slice expression panics when the digest
is longer than the seed. -/
def padT (seedlen : Nat) (dgst : Bytes) : Bytes := copyAt (List.replicate 111 0#8) (seedlen - dgst.length) dgst

/-- hash.go:189-201: `v` after the additional input. -/
def HashDRBG.addV (H : HashFn) (d : HashDRBG) (additional : Bytes) : Bytes :=
  if additional.length > 0 then drbgAdd d.v (padT d.seedlen (H.f (2#8 :: d.v.take d.seedlen ++ additional))) d.seedlen
  else d.v

/-- hash.go:206-222: `v` for the next request. -/
def HashDRBG.nextV (H : HashFn) (d : HashDRBG) : Bytes :=
  let dgst := H.f (3#8 :: d.v.take d.seedlen)
  let v := drbgAdd d.v (padT d.seedlen dgst) d.seedlen
  let v := drbgAdd v d.c d.seedlen
  drbgAdd v (padT d.seedlen (hx 8 d.ctr)) d.seedlen

/-- hash.go:177-228 `Generate`: the new state and the new content of `out`. -/
def HashDRBG.generate (H : HashFn) (d : HashDRBG) (out additional : Bytes) : Res (HashDRBG × Bytes) :=
  if d.ctr > 2 ^ 48 then .err
  else if d.seedlen < H.size then .panic
  else
    let d := { d with v := d.addV H additional }
    let out := d.hashgen H out
    .ok ({ d with v := d.nextV H, ctr := d.ctr + 1 }, out)

/-! ### hmac.go -/

/-- hmac.go:10-17. -/
structure HmacDRBG where
  key : Bytes
  v : Bytes
  ctr : Nat

/-- hmac.go:107-132 `update`. -/
def HmacDRBG.update (H : HashFn) (d : HmacDRBG) (data : Bytes) : HmacDRBG :=
  let d := { d with key := hmac H d.key (d.v ++ [0#8] ++ data) }
  let d := { d with v := hmac H d.key d.v }
  if data.length = 0 then d
  else
    let d := { d with key := hmac H d.key (d.v ++ [1#8] ++ data) }
    { d with v := hmac H d.key d.v }

/-- hmac.go:19-57 `NewHMAC` and `init`. -/
def newHmac (H : HashFn) (entropy nonce pers : Bytes) : Res HmacDRBG :=
  if newOk entropy nonce pers = false then .err
  else
    let d : HmacDRBG := { key := List.replicate H.size 0#8, v := List.replicate H.size 1#8, ctr := 0 }
    .ok { d.update H (entropy ++ nonce ++ pers) with ctr := 1 }

/-- hmac.go:59-77 `Reseed`. -/
def HmacDRBG.reseed (H : HashFn) (d : HmacDRBG) (entropy additional : Bytes) : Res HmacDRBG :=
  if reseedOk entropy additional = false then .err
  else .ok { d.update H (entropy ++ additional) with ctr := 1 }

/-- hmac.go:92-98, the loop of `Generate`: `v` and `temp`. -/
def hmacLoop (H : HashFn) (key : Bytes) (outlen : Nat) : Nat → Bytes → Bytes → Bytes × Bytes
  | 0, v, temp => (v, temp)
  | fuel + 1, v, temp =>
    if temp.length < outlen then
      let v := hmac H key v
      hmacLoop H key outlen fuel v (temp ++ v)
    else (v, temp)

/-- hmac.go:79-105 `Generate`. -/
def HmacDRBG.generate (H : HashFn) (d : HmacDRBG) (out additional : Bytes) : Res (HmacDRBG × Bytes) :=
  if d.ctr > 2 ^ 48 then .err
  else
    let d := if additional.length > 0 then d.update H additional else d
    let (v, temp) := hmacLoop H d.key out.length out.length d.v []
    let d := { d with v := v }
    let out := copyInto out temp
    let d := d.update H additional
    .ok ({ d with ctr := d.ctr + 1 }, out)

/-! ### ctr.go -/

open Spec (Fam)

/-- ctr.go:13-22. -/
structure CtrDRBG where
  key : Bytes
  v : Bytes
  ctr : Nat

/-- ctr.go:138-144, the loop of `update`. -/
def updLoop (F : Fam) (key : Bytes) : Nat → Nat → Bytes → Bytes → Bytes
  | 0, _, _, temp => temp
  | n + 1, i, v, temp =>
    let v := drbgAdd1 v F.bs
    updLoop F key n (i + 1) v (copyAt temp (i * F.bs) (F.E key v))

/-- ctr.go:128-154 `update`. -/
def CtrDRBG.update (F : Fam) (d : CtrDRBG) (material : Bytes) : CtrDRBG :=
  let temp := updLoop F d.key ((F.klen + F.bs + F.bs - 1) / F.bs) 0 d.v (List.replicate (F.klen + F.bs) 0#8)
  let temp := copyInto temp (xorb temp material)
  { d with key := copyInto d.key temp, v := copyInto d.v (temp.drop F.klen) }

/-- ctr.go:162-166, the loop of `bcc`. -/
def bccLoop (F : Fam) (key data : Bytes) : Nat → Nat → Bytes → Bytes
  | 0, _, value => value
  | n + 1, i, value =>
    let value := copyInto value (xorb value (data.drop (i * F.bs)))
    bccLoop F key data n (i + 1) (F.E key value)

/-- ctr.go:157-169 `bcc`. -/
def bccM (F : Fam) (key data : Bytes) : Bytes := bccLoop F key data (data.length / F.bs) 0 (List.replicate F.bs 0#8)

/-- ctr.go:180-187: the string `s`. -/
def dfS (F : Fam) (input : Bytes) (n : Nat) : Bytes :=
  let s := hx 4 (input.length % 2 ^ 32) ++ hx 4 (n % 2 ^ 32) ++ input ++ [0x80#8]
  s ++ List.replicate (F.bs - s.length % F.bs) 0#8

/-- ctr.go:198-206, the first loop. -/
def dfLoop1 (F : Fam) (key s : Bytes) : Nat → Nat → Bytes → Bytes
  | 0, _, temp => temp
  | fuel + 1, i, temp =>
    if temp.length < F.klen + F.bs then
      let iv := copyInto (List.replicate F.bs 0#8) (hx 4 (i % 2 ^ 32))
      dfLoop1 F key s fuel (i + 1) (temp ++ bccM F key (iv ++ s))
    else temp

/-- ctr.go:218-222, the second loop. -/
def dfLoop2 (F : Fam) (k : Bytes) (n : Nat) : Nat → Bytes → Bytes → Bytes
  | 0, _, temp => temp
  | fuel + 1, x, temp =>
    if temp.length < n then
      let x := F.E k x
      dfLoop2 F k n fuel x (temp ++ x)
    else temp

/-- ctr.go:172-226 `blockCipherDF`. -/
def blockCipherDF (F : Fam) (input : Bytes) (n : Nat) : Bytes :=
  let s := dfS F input n
  let key := (List.range F.klen).map (BitVec.ofNat 8)
  let temp := dfLoop1 F key s (F.klen + F.bs) 0 []
  let k := copyInto (List.replicate F.klen 0#8) temp
  let x := copyInto (List.replicate F.bs 0#8) (temp.drop F.klen)
  (dfLoop2 F k n n x []).take n

/-- ctr.go:24-71 `NewCTR` and `init`. -/
def newCtr (F : Fam) (entropy nonce pers : Bytes) : Res CtrDRBG :=
  if newOk entropy nonce pers = false then .err
  else
    let d : CtrDRBG := { key := List.replicate F.klen 0#8, v := List.replicate F.bs 0#8, ctr := 0 }
    .ok { d.update F (blockCipherDF F (entropy ++ nonce ++ pers) (F.klen + F.bs)) with ctr := 1 }

/-- ctr.go:73-95 `Reseed`. -/
def CtrDRBG.reseed (F : Fam) (d : CtrDRBG) (entropy additional : Bytes) : Res CtrDRBG :=
  if reseedOk entropy additional = false then .err
  else .ok { d.update F (blockCipherDF F (entropy ++ additional) (F.klen + F.bs)) with ctr := 1 }

/-- ctr.go:111-119, the loop of `Generate`. -/
def ctrLoop (F : Fam) (key : Bytes) (outlen : Nat) : Nat → Bytes → Bytes → Bytes × Bytes
  | 0, v, temp => (v, temp)
  | fuel + 1, v, temp =>
    if temp.length < outlen then
      let v := drbgAdd1 v v.length
      ctrLoop F key outlen fuel v (temp ++ F.E key v)
    else (v, temp)

/-- ctr.go:97-126 `Generate`. -/
def CtrDRBG.generate (F : Fam) (d : CtrDRBG) (out additional : Bytes) : Res (CtrDRBG × Bytes) :=
  if d.ctr > 2 ^ 48 then .err
  else
    let a := if additional.length > 0 then blockCipherDF F additional (F.klen + F.bs) else List.replicate (F.klen + F.bs) 0#8
    let d := if additional.length > 0 then d.update F a else d
    let (v, temp) := ctrLoop F d.key out.length out.length d.v []
    let d := { d with v := v }
    let out := copyInto out temp
    let d := d.update F a
    .ok ({ d with ctr := d.ctr + 1 }, out)

/-! ### histories -/

/-- A call on a generator. -/
inductive Call
  | reseed (entropy additional : Bytes)
  | generate (out additional : Bytes)

/-- What a call returns: the error flag, and the content of `out` for `Generate`. -/
inductive Ret
  | ok
  | out (b : Bytes)
  | err
  | panic
  deriving DecidableEq

/-- One call on an object with the given methods; a failed call leaves the object as it is. -/
def step {σ : Type} (rs : σ → Bytes → Bytes → Res σ) (gen : σ → Bytes → Bytes → Res (σ × Bytes)) (s : σ) : Call → σ × Ret
  | .reseed e a => match rs s e a with
    | .ok s' => (s', .ok)
    | .err => (s, .err)
    | _ => (s, .panic)
  | .generate o a => match gen s o a with
    | .ok (s', b) => (s', .out b)
    | .err => (s, .err)
    | _ => (s, .panic)

/-- The results of a history of calls. -/
def run {σ : Type} (f : σ → Call → σ × Ret) : σ → List Call → List Ret
  | _, [] => []
  | s, c :: cs => (f s c).2 :: run f (f s c).1 cs

end Verif.Rand
