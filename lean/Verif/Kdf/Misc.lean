import Verif.Kdf.Common
/-
Models of kdf/kdftree, kdf/gost_prfplus, kdf/smkdf, kdf/pgp_s2k and kdf/bcrypt_pbkdf.
-/
namespace Verif.Kdf
open Verif.Cipher

namespace KTree

/-- kdftree.go:40-49: `for i := uint8(1); i <= n; i++`, appending a MAC each time.  The counter is a byte. -/
def loop (mac : Bytes → Bytes) (label seed Lb : Bytes) (n : Byte) : Nat → Byte → Bytes → Res Bytes
  | 0, _, _ => .hang
  | fuel + 1, i, out =>
      if i ≤ n then loop mac label seed Lb n fuel (i + 1) (out ++ mac ([i] ++ label ++ [0] ++ seed ++ Lb))
      else .ok out

/-- kdftree.go:19-52 (`Key`), with a bound on the number of loop steps.  A negative length panics in the check or in
`make`. -/
def key (fuel : Nat) (H : HashFn) (secret label seed : Bytes) (length : Int) : Res Bytes :=
  if length = 0 ∨ length % H.size ≠ 0 ∨ length > H.size * 255 then .panic
  else if length < 0 then .panic
  else
    let L := BitVec.ofNat 16 (8 * length.toNat)
    let n := BitVec.ofNat 8 (length.toNat / H.size)
    loop (hmac H secret) label seed (hx 2 L.toNat) n fuel 1 []

end KTree

namespace Prfp

/-- gost_prfplus.go:46-60: `i` counts from 0; `in` is `prev ‖ salt ‖ counter`; `off` is where `out` starts in `dst`. -/
def loop (mac : Bytes → Bytes) (size : Nat) (salt : Bytes) (n : Nat) : Nat → Nat → Bytes → Bytes → Nat → Bytes
  | 0, _, _, dst, _ => dst
  | k + 1, i, prev, dst, off =>
      let d := mac (prev ++ salt ++ [BitVec.ofNat 8 (i + 2)])
      loop mac size salt n k (i + 1) d (copyAt dst off d) (if i + 1 ≠ n then off + size else off)

/-- gost_prfplus.go:10-63 (`Key`).  Hash objects report no write errors, so the error returns of `deriveHash` are not
reached.  The loop bound is `n - i` steps. -/
def key (H : HashFn) (password salt : Bytes) (keyLen : Int) : Res Bytes :=
  if password.length = 0 then .err
  else if salt.length = 0 then .err
  else
    let mac := hmac H password
    let d := mac (salt ++ [1])
    if keyLen < 0 then .panic
    else
      let dst := copyInto (List.replicate keyLen.toNat 0#8) d
      let n := dst.length / H.size
      if n = 0 then .ok dst
      else
        let n := if n * H.size ≠ dst.length then n + 1 else n
        let n := n - 1
        .ok (loop mac H.size salt n n 0 d dst H.size)

end Prfp

namespace SmKdf

/-- smkdf.go:24-33: the loop, with the 32-bit counter. -/
def loop (f : Bytes → Bytes) (z : Bytes) : Nat → BitVec 32 → Bytes → Bytes
  | 0, _, k => k
  | n + 1, count, k => loop f z n (count + 1) (k ++ f (z ++ hx 4 count.toNat))

/-- smkdf.go:10-36 (`Key`); `uint64(size)` of a negative size is `2^64 + size`, and `k[:size]` panics for it. -/
def key (H : HashFn) (z : Bytes) (size : Int) : Res Bytes :=
  let usize := BitVec.ofInt 64 size
  let limit := (usize + BitVec.ofNat 64 H.size - 1#64).toNat / H.size
  if limit ≥ 2 ^ 32 - 1 then .panic
  else
    let k := loop H.f z limit 1 []
    if size < 0 ∨ size > k.length then .panic else .ok (k.take size.toNat)

end SmKdf

namespace S2k

/-- pgp_s2k.go:53-58: what the loop `for left > 0` writes. -/
def writes (buf : Bytes) : Nat → Int → Res Bytes
  | 0, _ => .hang
  | fuel + 1, left =>
      if left > 0 then do
        let t := min left.toNat buf.length
        let r ← writes buf fuel (left - t)
        return buf.take t ++ r
      else .ok []

/-- pgp_s2k.go:51-59. -/
def input (buf : Bytes) (iterations : Int) : Res Bytes :=
  if buf.length > 0 then
    let left : Int := max iterations buf.length
    writes buf (left.toNat + 1) left
  else .ok []

/-- pgp_s2k.go:41-67. -/
def loop (H : HashFn) (buf : Bytes) (iterations keylen : Int) : Nat → Nat → Int → Bytes → Res Bytes
  | 0, _, _, _ => .hang
  | fuel + 1, pass, generated, out =>
      if generated < keylen then do
        let t := min (H.size : Int) (keylen - generated)
        let data ← input buf iterations
        let h := H.f (List.replicate pass 0#8 ++ data)
        loop H buf iterations keylen fuel (pass + 1) (generated + t) (out ++ h.take t.toNat)
      else .ok out

/-- pgp_s2k.go:26-70 (`Key`). -/
def key (H : HashFn) (password salt : Bytes) (iterations keylen : Int) : Res Bytes :=
  if iterations > 1 ∧ salt.length = 0 then .panic
  else loop H (salt ++ password) iterations keylen (keylen.toNat + 1) 0 0 []

/-- s2k_family.go:17-29: `tune` waits for the timer, hashes a buffer and starts the timer again while time is left; the
`for` has neither `break` nor `return`.  `ticks` says of each wait whether the timer fires. -/
def tune (ticks : Nat → Bool) (td tuneTime : Nat) : Nat → Nat → Nat → Bool → Res Int
  | 0, _, _, _ => .hang
  | fuel + 1, k, timeUsed, running =>
      if running && ticks k then tune ticks td tuneTime fuel (k + 1) (timeUsed + td) (decide (timeUsed + td < tuneTime))
      else tune ticks td tuneTime fuel (k + 1) timeUsed running

/-- pgp_s2k.go:72-78 (`KeyWithTune`). -/
def keyWithTune (fuel : Nat) (ticks : Nat → Bool) (H : HashFn) (password salt : Bytes) (iterations keylen : Int) : Res Bytes := do
  let it ← if iterations = 0 then tune ticks 1024 10000000 fuel 0 0 true else .ok iterations
  key H password salt it keylen

end S2k

namespace BcryptKdf

/-- bcrypt_pbkdf.go:46-52: the rounds `i = 2 … rounds`. -/
def rounds (sha bh : Bytes → Bytes) : Nat → Bytes → Bytes → Bytes
  | 0, _, out => out
  | n + 1, tmp, out =>
      let tmp := bh (sha tmp)
      rounds sha bh n tmp (xorb out tmp)

/-- bcrypt_pbkdf.go:54-56. -/
def scatter (numBlocks block : Nat) (out key : Bytes) : Bytes :=
  (List.range 32).foldl (fun k i => k.set (i * numBlocks + (block - 1)) (out.getD i 0)) key

/-- bcrypt_pbkdf.go:35-57; `block` runs from 1 to `numBlocks`. -/
def blocks (sha bh : Bytes → Bytes) (salt : Bytes) (nr numBlocks : Nat) : Nat → Nat → Bytes → Bytes
  | 0, _, key => key
  | n + 1, block, key =>
      let tmp := bh (sha (salt ++ hx 4 (block % 2 ^ 32)))
      let out := rounds sha bh (nr - 1) tmp tmp
      blocks sha bh salt nr numBlocks n (block + 1) (scatter numBlocks block out key)

/-- bcrypt_pbkdf.go:13-60 (`Key`).  `sha` is SHA-512 and `bcryptHash shapass` the function of lines 64-86, both outside
the model (the Go standard library and x/crypto/blowfish).  For a negative `keyLen`, `numBlocks` is zero or negative
(Go division truncates), so `make` or `key[:keyLen]` panics. -/
def key (sha : Bytes → Bytes) (bcryptHash : Bytes → Bytes → Bytes) (password salt : Bytes) (nr keyLen : Int) : Res Bytes :=
  if nr < 1 then .err
  else if password.length = 0 then .err
  else if salt.length = 0 ∨ salt.length > 1 <<< 20 then .err
  else if keyLen > 1024 then .err
  else if keyLen < 0 then .panic
  else
    let numBlocks := (keyLen.toNat + 31) / 32
    let key := List.replicate (numBlocks * 32) 0#8
    let shapass := sha password
    .ok ((blocks sha (bcryptHash shapass) salt nr.toNat numBlocks numBlocks 1 key).take keyLen.toNat)

end BcryptKdf
end Verif.Kdf
