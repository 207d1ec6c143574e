import Verif.Kdf.Common
import Verif.Hash.Stream
/-
Model of kdf/pbkdf/pbkdf.go (PKCS#12 key derivation).
-/
namespace Verif.Kdf.P12
open Verif.Cipher Verif.Hash

/-- bytes.Repeat. -/
def rep (n : Nat) (x : Bytes) : Bytes := (List.replicate n x).flatten

/-- pbkdf.go:130-139 (`fillWithRepeats`). -/
def fillWithRepeats (pattern : Bytes) (v : Nat) : Bytes :=
  if pattern.length = 0 then []
  else
    let outputLen := v * ((pattern.length + v - 1) / v)
    (rep ((outputLen + pattern.length - 1) / pattern.length) pattern).take outputLen

/-- pbkdf.go:75-77, `Ai = H(Ai)` for `j = 1, …, r-1`. -/
def iterHash (H : HashFn) : Nat → Bytes → Bytes
  | 0, a => a
  | n + 1, a => iterHash H n (H.f a)

/-- pbkdf.go:81-85, `for len(B) < v { B = append(B, Ai...) }`; running out of fuel is `hang`. -/
def growB (Ai : Bytes) (v : Nat) : Nat → Bytes → Res Bytes
  | 0, _ => .hang
  | fuel + 1, B => if B.length < v then growB Ai v fuel (B ++ Ai) else .ok B

/-- big.Int.SetBytes. -/
def beN (b : Bytes) : Nat := leN b.reverse

/-- big.Int.Bytes: big-endian without leading zeros. -/
def minBytes : Nat → Nat → Bytes
  | 0, _ => []
  | fuel + 1, n => if n = 0 then [] else minBytes fuel (n / 256) ++ [BitVec.ofNat 8 n]

/-- pbkdf.go:92-117: the new value of one `v`-byte block of `I`.  The buffer `IjBuf` is reused between blocks; its first
`bytesShort` bytes are zeroed and the rest overwritten each time. -/
def newBlock (v : Nat) (Bbi : Nat) (Ij : Bytes) : Bytes :=
  let n := beN Ij + Bbi + 1
  let Ijb := minBytes (n + 1) n
  let Ijb := if Ijb.length > v then Ijb.drop (Ijb.length - v) else Ijb
  if Ijb.length < v then List.replicate (v - Ijb.length) 0#8 ++ Ijb else Ijb

/-- pbkdf.go:91-118, the loop over the blocks of `I`, in place. -/
def updateI (v Bbi : Nat) (I : Bytes) : Bytes :=
  (List.range (I.length / v)).foldl (fun I j => I.take (j * v) ++ newBlock v Bbi ((I.drop (j * v)).take v) ++ I.drop ((j + 1) * v)) I

/-- pbkdf.go:72-121, the loop over `i = 0, …, c-1` on `(A, I)`: `n` rounds are left. -/
def loop (H : HashFn) (u v r : Nat) (D : Bytes) : Nat → Nat → Bytes → Bytes → Res Bytes
  | 0, _, A, _ => .ok A
  | n + 1, i, A, I => do
      let Ai := iterHash H (r - 1) (H.f (D ++ I))
      let A := copyAt A (i * u) Ai
      if n > 0 then do
        let B ← growB Ai v (v + 1) []
        loop H u v r D n (i + 1) A (updateI v (beN (B.take v)) I)
      else loop H u v r D n (i + 1) A I

/-- pbkdf.go:55-124.  `u` is the digest size and `v` the block size the caller passes; both must be positive (otherwise
the divisions panic).  A negative `size` panics, a count `r` below one acts as one. -/
def key (H : HashFn) (u v : Nat) (salt password : Bytes) (r : Int) (ID : Byte) (size : Int) : Res Bytes :=
  if size < 0 then .panic
  else if u = 0 then .panic
  else do
    let D := List.replicate v ID
    let I := fillWithRepeats salt v ++ fillWithRepeats password v
    let c := (size.toNat + u - 1) / u
    let A ← loop H u v r.toNat D c 0 (List.replicate (c * u) 0#8) I
    .ok (A.take size.toNat)

end Verif.Kdf.P12
