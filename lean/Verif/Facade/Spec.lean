import Verif.Facade.Model
/-
Vocabulary of the facade properties C39 and C42.
-/
namespace Verif.Facade

/-- Length of the padded text: the next multiple of the block strictly above `n`; PKCS5 always uses 8. -/
def paddedLen (pad : PadN) (bs n : Nat) : Nat :=
  match pad with
  | .no | .other => n
  | .pkcs5 => (n / 8 + 1) * 8
  | _ => (n / bs + 1) * bs

/-- The modes that turn `n` bytes into `n` bytes. -/
def SameLength : ModeN → Bool
  | .gcm | .ccm | .ocfb | .other => false
  | _ => true

/-- When a length-preserving mode works on `n` bytes: iv of one block, whole blocks for the block modes, and for HCTR
a tweak and a hash key of 16 bytes and at least 16 bytes of text. -/
def Fits (md : ModeN) (bs iv tweak hkey n : Nat) : Prop :=
  match md with
  | .ecb => bs ∣ n
  | .cbc | .pcbc | .bc => iv = bs ∧ bs ∣ n
  | .cfb | .cfb1 | .cfb8 | .ofb | .ofb8 | .ctr => iv = bs
  | .hctr => tweak = 16 ∧ hkey = 16 ∧ 16 ≤ n
  | _ => False

/-- How many bytes longer than the padded data the ciphertext is: the tag of GCM and CCM (16 unless configured), the prefix of
OCFB. -/
def extra (c : BlockCipher) (o : Opt) : Nat :=
  match o.mode with
  | .gcm | .ccm => if o.tagSize > 0 then o.tagSize.toNat else 16
  | .ocfb => c.bs + 2
  | _ => 0

/-- All slices handed to a call lie in allocated memory. -/
structure Opt.Valid (o : Opt) (h : Heap) : Prop where
  iv : o.iv.Valid h
  additional : o.additional.Valid h
  tweak : o.tweak.Valid h
  hkey : o.hkey.Valid h

/-- The slice `x` does not reach into the spare capacity `data[len(data):cap(data)]`. -/
def OffSpare (data x : Slice) : Prop :=
  x.len = 0 ∨ x.ptr + x.len ≤ data.ptr + data.len ∨ data.ptr + data.cap ≤ x.ptr

structure Opt.OffSpare (o : Opt) (data : Slice) : Prop where
  iv : Facade.OffSpare data o.iv
  additional : Facade.OffSpare data o.additional
  tweak : Facade.OffSpare data o.tweak
  hkey : Facade.OffSpare data o.hkey

/-- `o'` in heap `h'` says the same as `o` in heap `h`: same mode, padding and numbers, same bytes. -/
structure SameSettings (h : Heap) (o : Opt) (h' : Heap) (o' : Opt) : Prop where
  mode : o'.mode = o.mode
  padding : o'.padding = o.padding
  nonceSize : o'.nonceSize = o.nonceSize
  tagSize : o'.tagSize = o.tagSize
  resync : o'.resync = o.resync
  iv : h'.bytes o'.iv = h.bytes o.iv
  additional : h'.bytes o'.additional = h.bytes o.additional
  tweak : h'.bytes o'.tweak = h.bytes o.tweak
  hkey : h'.bytes o'.hkey = h.bytes o.hkey

end Verif.Facade
