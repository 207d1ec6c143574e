import Verif.Mode.BlockModel
import Verif.Mode.StreamModel
import Verif.Aead.CcmModel
import Verif.Hctr.Model
import Verif.Padding.HeapModel
/-
Model of cryptobin/crypto/encrypt_multiple.go `BlockEncrypt`, `BlockDecrypt`, encrypt_mode.go and encrypt_padding.go
over an abstract block cipher, at the level of the heap.  The standard library's CBC, CTR and GCM are taken to compute
the functions named here.
-/
namespace Verif.Facade
open Verif.Mode Verif.Padding Verif.Aead

/-- The registered modes (encrypt_mode.go:355-393, 446-450, 483-487, 518-522); `CFB128` is registered as `CFB`.
`other` is any mode that is not registered. -/
inductive ModeN where
  | ecb | cbc | pcbc | cfb | cfb1 | cfb8 | ofb | ofb8 | ctr | gcm | ccm | ocfb | bc | hctr | other
  deriving DecidableEq, Repr

/-- The registered paddings (encrypt_padding.go:149-180); `other` is any padding that is not registered. -/
inductive PadN where
  | no | zero | pkcs5 | pkcs7 | x923 | iso10126 | iso7816 | iso97971 | pboc2 | tbc | other
  deriving DecidableEq, Repr

/-- What `IOption` (interface.go:11-36) gives to the modes: `iv` and the configuration entries that encrypt_mode.go
reads. A missing entry is the zero value, as with the typed getters of tool/config/config.go. -/
structure Opt where
  mode : ModeN
  padding : PadN
  iv : Slice
  nonceSize : Int
  tagSize : Int
  additional : Slice
  tweak : Slice
  hkey : Slice
  resync : Bool

/-- The standard library's GCM, with the two laws used here. -/
structure StdGcm where
  sealB : BlockCipher → (tag : Nat) → (nonce pt ad : Bytes) → Bytes
  openB : BlockCipher → (tag : Nat) → (nonce ct ad : Bytes) → Option Bytes
  seal_length : ∀ c t n p a, (sealB c t n p a).length = p.length + t
  open_seal : ∀ c t n p a, p.length ≤ (2 ^ 32 - 2) * 16 → openB c t n (sealB c t n p a) a = some p

/-- Everything the calls get from outside: growth of `append`, the random numbers of ISO10126 (`rnd`) and OCFB (`rand`),
`Concurrency()` of the cipher for HCTR, and GCM. -/
structure Env where
  slack : Nat → Nat
  rnd : Nat → Nat
  rand : Nat → Byte
  conc : Option Nat
  gcm : StdGcm

/-- encrypt_multiple.go:65-77 `getPadding` and encrypt_padding.go:10-147 `Padding`; `none` when not registered. -/
def padM (env : Env) (pad : PadN) (h : Heap) (text : Slice) (bs : Int) : Option (Heap × Slice) :=
  match pad with
  | .no => some (h, text)
  | .zero => some (zeroPadM env.slack h text bs)
  | .pkcs5 => some (pkcs5PadM env.slack h text bs)
  | .pkcs7 => some (pkcs7PadM env.slack h text bs)
  | .x923 => some (x923PadM env.slack h text bs)
  | .iso10126 => some (iso10126PadM env.slack env.rnd h text bs)
  | .iso7816 => some (iso7816PadM env.slack h text bs)
  | .iso97971 => some (iso7816PadM env.slack h text bs)
  | .pboc2 => some (iso7816PadM env.slack h text bs)
  | .tbc => some (tbcPadM env.slack h text bs)
  | .other => none

/-- encrypt_padding.go:15-147 `UnPadding`, on the contents; every result is an initial part of the argument, so the
returned slice starts where the argument starts. Not registered: an error (encrypt_multiple.go:67-70). -/
def unpad (pad : PadN) (src : Bytes) : Res Bytes :=
  match pad with
  | .no => .ok src
  | .zero => zeroUnpad src
  | .pkcs5 => pkcs5Unpad src
  | .pkcs7 => pkcs7Unpad src
  | .x923 => x923Unpad src
  | .iso10126 => iso10126Unpad src
  | .iso7816 => iso7816Unpad src
  | .iso97971 => iso7816Unpad src
  | .pboc2 => iso7816Unpad src
  | .tbc => tbcUnpad src
  | .other => .err

/-- One block of CBC encryption and decryption: output block and next chaining value. -/
def cbcEncF (c : BlockCipher) (v b : Bytes) : Bytes × Bytes := (c.E (xorb b v), c.E (xorb b v))
def cbcDecF (c : BlockCipher) (v b : Bytes) : Bytes × Bytes := (xorb (c.D b) v, b)

/-- Standard library `cipher.NewCBCEncrypter(c, iv).CryptBlocks(dst, src)` / `NewCBCDecrypter`: the checks, and `f` (one
of the two functions above) over the blocks. -/
def cbcCrypt (c : BlockCipher) (f : Bytes → Bytes → Bytes × Bytes) (iv : Bytes) (m : Mem) (dst src : Slice) : Res Mem :=
  if iv.length ≠ c.bs then .panic
  else if src.len % c.bs ≠ 0 then .panic
  else if dst.len < src.len then .panic
  else if inexactOverlap ⟨dst.ptr, src.len, dst.cap⟩ src then .panic
  else .ok (m.write dst.ptr (blkRun c.bs f iv (m.read src.ptr src.len)).1)

/-- `make([]byte, n)` : fresh zero memory. -/
def makeB (h : Heap) (n : Nat) : Heap × Slice :=
  (⟨h.mem.write h.brk (List.replicate n 0), h.brk + n⟩, ⟨h.brk, n, n⟩)

/-- The modes that fill a fresh buffer of the length of their input (encrypt_mode.go:16-243, 457-482, 494-516): build the
mode object (the object's constructor copies the iv) and run it once. -/
def encInto (env : Env) (c : BlockCipher) (iv tweak hkey : Bytes) (md : ModeN) (m : Mem) (d p : Slice) : Res Mem :=
  match md with
  | .ecb => do let r ← ecbEnc c () m d p; .ok r.1
  | .cbc => cbcCrypt c (cbcEncF c) iv m d p
  | .pcbc => do let v ← pcbcNew c iv; let r ← pcbcEnc c v m d p; .ok r.1
  | .cfb => do let x ← cfbNew c iv; let r ← cfbXor c false x m d p; .ok r.1
  | .cfb1 => do let x ← segNew c iv; let r ← cfb1Xor c false x m d p; .ok r.1
  | .cfb8 => do let x ← segNew c iv; let r ← cfb8Xor c false x m d p; .ok r.1
  | .ofb => do let x ← ofbNew c iv; let r ← ofbXor c x m d p; .ok r.1
  | .ofb8 => do let x ← ofbNew c iv; let r ← ofb8Xor c x m d p; .ok r.1
  | .ctr => ctrXor c iv m d p
  | .bc => do let v ← bcNew c iv; let r ← bcEnc c v m d p; .ok r.1
  | .hctr => do let s ← Hctr.new c env.conc tweak hkey; Hctr.encrypt s m d p
  | _ => .err

/-- The same for decryption. -/
def decInto (env : Env) (c : BlockCipher) (iv tweak hkey : Bytes) (md : ModeN) (m : Mem) (d p : Slice) : Res Mem :=
  match md with
  | .ecb => do let r ← ecbDec c () m d p; .ok r.1
  | .cbc => cbcCrypt c (cbcDecF c) iv m d p
  | .pcbc => do let v ← pcbcNew c iv; let r ← pcbcDec c v m d p; .ok r.1
  | .cfb => do let x ← cfbNew c iv; let r ← cfbXor c true x m d p; .ok r.1
  | .cfb1 => do let x ← segNew c iv; let r ← cfb1Xor c true x m d p; .ok r.1
  | .cfb8 => do let x ← segNew c iv; let r ← cfb8Xor c true x m d p; .ok r.1
  | .ofb => do let x ← ofbNew c iv; let r ← ofbXor c x m d p; .ok r.1
  | .ofb8 => do let x ← ofbNew c iv; let r ← ofb8Xor c x m d p; .ok r.1
  | .ctr => ctrXor c iv m d p
  | .bc => do let v ← bcNew c iv; let r ← bcDec c v m d p; .ok r.1
  | .hctr => do let s ← Hctr.new c env.conc tweak hkey; Hctr.decrypt s m d p
  | _ => .err

/-- encrypt_mode.go:253-259, 281-287 with the standard library's checks: nonce size and tag size of the GCM object. -/
def gcmNew (c : BlockCipher) (ns ts : Int) : Res (Nat × Nat) :=
  if ts > 0 then
    if ts < 12 ∨ ts > 16 then .err else if c.bs ≠ 16 then .err else .ok (12, ts.toNat)
  else if ns > 0 then
    if c.bs ≠ 16 then .err else .ok (ns.toNat, 16)
  else if c.bs ≠ 16 then .err else .ok (12, 16)

/-- encrypt_mode.go:313-321, 343-351 with mode/ccm/ccm.go:36-54. -/
def ccmNewOpt (c : BlockCipher) (ns ts : Int) : Res Ccm :=
  if ns > 0 ∧ ts > 0 then ccmNew c ns ts
  else if ts > 0 then ccmNew c 12 ts
  else if ns > 0 then ccmNew c ns 16
  else ccmNew c 12 16

/-- A nil slice. -/
def nilS : Slice := ⟨0, 0, 0⟩

/-- encrypt_mode.go `Encrypt` of every mode. `.err` is a returned error (nothing that existed before was written). -/
def modeEnc (env : Env) (c : BlockCipher) (o : Opt) (h : Heap) (p : Slice) : Res (Heap × Slice) :=
  match o.mode with
  | .other => .err
  | .gcm => do
    let x ← gcmNew c o.nonceSize o.tagSize
    if o.iv.len ≠ x.1 then .panic
    else if p.len > (2 ^ 32 - 2) * 16 then .panic
    else
      let out := env.gcm.sealB c x.2 (h.bytes o.iv) (h.bytes p) (h.bytes o.additional)
      .ok (⟨h.mem.write h.brk out, h.brk + out.length⟩, ⟨h.brk, out.length, out.length⟩)
  | .ccm => do
    let x ← ccmNewOpt c o.nonceSize o.tagSize
    ccmSeal c x h nilS o.iv p o.additional
  | .ocfb => do
    let x ← ocfbNewEnc c ((List.range c.bs).map env.rand) o.resync
    let a := makeB h (p.len + (c.bs + 2))
    let r ← ocfbXor c false x.1 a.1.mem ⟨a.2.ptr + (c.bs + 2), p.len, p.len⟩ p
    .ok (⟨r.1.write a.2.ptr x.2, a.1.brk⟩, a.2)
  | md => do
    let a := makeB h p.len
    let m ← encInto env c (h.bytes o.iv) (h.bytes o.tweak) (h.bytes o.hkey) md a.1.mem a.2 p
    .ok (⟨m, a.1.brk⟩, a.2)

/-- encrypt_mode.go `Decrypt` of every mode. CCM's `Decrypt` drops the error of its constructor and then calls a method
of a nil interface, which panics. `OCFB` hands the caller's own bytes to `NewOCFBDecrypter`, which writes to them. -/
def modeDec (env : Env) (c : BlockCipher) (o : Opt) (h : Heap) (p : Slice) : Res (Heap × Slice) :=
  match o.mode with
  | .other => .err
  | .gcm => do
    let x ← gcmNew c o.nonceSize o.tagSize
    if o.iv.len ≠ x.1 then .panic
    else
      match env.gcm.openB c x.2 (h.bytes o.iv) (h.bytes p) (h.bytes o.additional) with
      | none => .err
      | some out => .ok (⟨h.mem.write h.brk out, h.brk + out.length⟩, ⟨h.brk, out.length, out.length⟩)
  | .ccm =>
    match ccmNewOpt c o.nonceSize o.tagSize with
    | .ok x => do
      let r ← ccmOpen c x h nilS o.iv p o.additional
      match r.2 with
      | none => .err
      | some s => .ok (r.1, s)
    | _ => .panic
  | .ocfb =>
    if p.len < c.bs + 2 then .err
    else do
      let x ← ocfbNewDec c (h.mem.read p.ptr (c.bs + 2)) o.resync
      let a := makeB ⟨h.mem.write p.ptr x.2, h.brk⟩ (p.len - (c.bs + 2))
      let r ← ocfbXor c true x.1 a.1.mem a.2 ⟨p.ptr + (c.bs + 2), p.len - (c.bs + 2), p.cap - (c.bs + 2)⟩
      .ok (⟨r.1, a.1.brk⟩, a.2)
  | md => do
    let a := makeB h p.len
    let m ← decInto env c (h.bytes o.iv) (h.bytes o.tweak) (h.bytes o.hkey) md a.1.mem a.2 p
    .ok (⟨m, a.1.brk⟩, a.2)

/-- Heap and result of a step: after an error or a (recovered) panic the memory that existed before the step is as it
was, see `modeEnc`. -/
def settle (h : Heap) : Res (Heap × Slice) → Heap × Res Slice
  | .ok (h', s) => (h', .ok s)
  | .err => (h, .err)
  | .panic => (h, .panic)
  | .hang => (h, .hang)

/-- encrypt_multiple.go:81-108 `BlockEncrypt`. -/
def blockEncrypt (env : Env) (c : BlockCipher) (o : Opt) (h : Heap) (data : Slice) : Heap × Res Slice :=
  match padM env o.padding h data c.bs with
  | none => (h, .err)
  | some (h1, p) =>
    if o.padding ≠ .no ∧ p.len % c.bs ≠ 0 then (h1, .err)
    else settle h1 (modeEnc env c o h1 p)

/-- encrypt_multiple.go:112-146 `BlockDecrypt`. -/
def blockDecrypt (env : Env) (c : BlockCipher) (o : Opt) (h : Heap) (data : Slice) : Heap × Res Slice :=
  if o.padding ≠ .no ∧ data.len % c.bs ≠ 0 then (h, .err)
  else
    match settle h (modeDec env c o h data) with
    | (h1, .ok d) =>
      match unpad o.padding (h1.bytes d) with
      | .ok t => (h1, .ok ⟨d.ptr, t.length, d.cap⟩)
      | .err => (h1, .err)
      | .panic => (h1, .panic)
      | .hang => (h1, .hang)
    | r => r

end Verif.Facade
