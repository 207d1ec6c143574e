import Verif.Mode.StreamSpec
import Verif.Mode.Blocks
/-
CCM as in RFC 3610, on byte strings.  `E` is the block cipher (16-byte blocks), `M` the tag size, `N` the nonce
(`L = 15 - |N|`).
-/
namespace Verif.Aead.Spec
open Verif.Mode (chunks)
open Verif.Mode.Spec (natBe keyBytes streamOf)

/-- Zero octets up to the next multiple of `k`. -/
def padZero (k : Nat) (x : Bytes) : Bytes := x ++ List.replicate ((k - x.length % k) % k) 0

/-- CBC-MAC of a string of full blocks, starting from `s`. -/
def cbcMac (E : Bytes → Bytes) (s x : Bytes) : Bytes := (chunks 16 x).foldl (fun s b => E (xorb s b)) s

/-- RFC 3610 2.3: `A_i = (L-1) ‖ N ‖ i` (i in `L` octets). -/
def ccmA (N : Bytes) (i : Nat) : Bytes := BitVec.ofNat 8 (15 - N.length - 1) :: (N ++ natBe (15 - N.length) i)

/-- RFC 3610 2.2: flags `64·[l(a) > 0] + 8·((M-2)/2) + (L-1)`, nonce, `l(m)` in `L` octets. -/
def ccmB0 (M : Nat) (N : Bytes) (plen alen : Nat) : Bytes :=
  BitVec.ofNat 8 ((if 0 < alen then 64 else 0) + 8 * ((M - 2) / 2) + (15 - N.length - 1)) ::
    (N ++ natBe (15 - N.length) plen)

/-- RFC 3610 2.2: the encoding of `l(a)` (2, 6 or 10 octets) followed by `a`; nothing when `a` is empty. -/
def ccmAd (A : Bytes) : Bytes :=
  if A.length = 0 then []
  else (if A.length < 2 ^ 16 - 2 ^ 8 then natBe 2 A.length
    else if A.length < 2 ^ 32 then [0xff, 0xfe] ++ natBe 4 A.length
    else [0xff, 0xff] ++ natBe 8 A.length) ++ A

/-- RFC 3610 2.2, 2.3: the encrypted authentication value. -/
def ccmTag (E : Bytes → Bytes) (M : Nat) (N P A : Bytes) : Bytes :=
  (xorb (cbcMac E (List.replicate 16 0) (ccmB0 M N P.length A.length ++ padZero 16 (ccmAd A) ++ padZero 16 P))
    (E (ccmA N 0))).take M

/-- RFC 3610 2.3: message XOR `E(A_1) ‖ E(A_2) ‖ …`. -/
def ccmCrypt (E : Bytes → Bytes) (N P : Bytes) : Bytes :=
  xorb P (keyBytes (streamOf 16 (fun j => E (ccmA N (j + 1)))) 0 P.length)

/-- The CCM ciphertext. -/
def ccm (E : Bytes → Bytes) (M : Nat) (N P A : Bytes) : Bytes := ccmCrypt E N P ++ ccmTag E M N P A

end Verif.Aead.Spec
