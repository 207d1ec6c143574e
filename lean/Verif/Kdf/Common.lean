import Verif.Cipher.Common
/-
What the key derivation packages are built on: a hash function chosen by the caller and HMAC over it.

The hash is any function with a fixed, positive output length; `Verif/Hash` shows of hashes of this repository that
their objects compute such a function for every history of calls (C76 to C82).  A `hash.Hash` object is therefore
represented by the bytes written since its last `Reset`: `Write` appends, `Sum(p)` returns `p` followed by the
function of them and leaves them, `Reset` empties them.  HMAC is Go's `crypto/hmac`, which is not part of
/repo; it is stated here from RFC 2104.
-/
namespace Verif.Kdf
open Verif.Cipher

/-- A hash function: the value, the digest size and the block size of its objects. -/
structure HashFn where
  f : Bytes → Bytes
  size : Nat
  block : Nat
  pos : 0 < size
  len : ∀ m, (f m).length = size

/-- A keyed function with outputs of a fixed positive size: what a `hash.Hash` keyed with `key` computes. -/
structure Prf where
  f : Bytes → Bytes → Bytes
  size : Nat
  pos : 0 < size
  len : ∀ k m, (f k m).length = size

/-- RFC 2104, section 2: a key longer than a block is hashed, then zero-padded to a block. -/
def hmacKey (H : HashFn) (key : Bytes) : Bytes :=
  let k := if key.length > H.block then H.f key else key
  k ++ List.replicate (H.block - k.length) 0#8

/-- RFC 2104: `H(K xor opad, H(K xor ipad, text))`. -/
def hmac (H : HashFn) (key msg : Bytes) : Bytes :=
  H.f ((hmacKey H key).map (· ^^^ 0x5c#8) ++ H.f ((hmacKey H key).map (· ^^^ 0x36#8) ++ msg))

theorem hmac_length (H : HashFn) (k m : Bytes) : (hmac H k m).length = H.size := H.len _

/-- HMAC as a keyed function. -/
def HashFn.hmac (H : HashFn) : Prf := ⟨Kdf.hmac H, H.size, H.pos, fun k m => hmac_length H k m⟩

/-- `copy(out[off:], k)` for `off ≤ len(out)`. -/
def copyAt (out : Bytes) (off : Nat) (k : Bytes) : Bytes := out.take off ++ copyInto (out.drop off) k

/-- The first `L` bytes of `P`, with zeros up to length `L`: an output buffer of `make([]byte, L)` into which `P` has
been copied from the front. -/
def fit (L : Nat) (P : Bytes) : Bytes := P.take L ++ List.replicate (L - P.length) 0#8

@[simp] theorem fit_length (L : Nat) (P : Bytes) : (fit L P).length = L := by simp [fit]; omega

theorem fit_nil (L : Nat) : fit L [] = List.replicate L 0#8 := by simp [fit]

theorem fit_full (L : Nat) (P : Bytes) (h : L ≤ P.length) : fit L P = P.take L := by
  simp [fit, Nat.sub_eq_zero_of_le h]

theorem copyAt_fit (L : Nat) (P k : Bytes) (h : P.length ≤ L) : copyAt (fit L P) P.length k = fit L (P ++ k) := by
  have e : fit L P = P ++ List.replicate (L - P.length) 0#8 := by rw [fit, List.take_of_length_le h]
  rw [copyAt, e, List.take_left, List.drop_left, copyInto, List.length_replicate, List.drop_replicate, fit,
    List.take_append, List.take_of_length_le h, List.length_append, List.append_assoc, Nat.sub_sub]

/-- The chunks `T 0, …, T (n-1)` one after the other. -/
def chunks (T : Nat → Bytes) (n : Nat) : Bytes := (List.range n).flatMap T

theorem chunks_succ (T : Nat → Bytes) (n : Nat) : chunks T (n + 1) = chunks T n ++ T n := by
  simp [chunks, List.range_succ, List.flatMap_append]

theorem chunks_length (T : Nat → Bytes) (sz : Nat) (h : ∀ i, (T i).length = sz) (n : Nat) : (chunks T n).length = n * sz := by
  induction n with
  | zero => simp [chunks]
  | succ n ih => rw [chunks_succ, List.length_append, ih, h, Nat.succ_mul]

/-- The first `L` bytes of the infinite string `T 0 ‖ T 1 ‖ …` of chunks of `sz` bytes. -/
def outBytes (T : Nat → Bytes) (sz L : Nat) : Bytes := (chunks T ((L + sz - 1) / sz)).take L

theorem chunks_prefix (T : Nat → Bytes) (n m : Nat) (h : n ≤ m) : ∃ r, chunks T m = chunks T n ++ r := by
  induction m with
  | zero => exact ⟨[], by rw [Nat.le_zero.mp h]; simp⟩
  | succ m ih =>
    by_cases e : n = m + 1
    · exact ⟨[], by rw [e]; simp⟩
    · obtain ⟨r, hr⟩ := ih (by omega)
      exact ⟨r ++ T m, by rw [chunks_succ, hr, List.append_assoc]⟩

theorem ceil_mul (L sz : Nat) (hs : 0 < sz) : L ≤ (L + sz - 1) / sz * sz := by
  have h1 := Nat.div_add_mod (L + sz - 1) sz
  have h2 := Nat.mod_lt (L + sz - 1) hs
  rw [Nat.mul_comm] at h1; omega

/-- Any number of chunks that covers `L` gives the same bytes. -/
theorem take_chunks (T : Nat → Bytes) (sz L n : Nat) (hs : 0 < sz) (h : ∀ i, (T i).length = sz) (hn : L ≤ n * sz) :
    (chunks T n).take L = outBytes T sz L := by
  have hle : (L + sz - 1) / sz ≤ n := by
    rw [← Nat.lt_succ_iff, Nat.div_lt_iff_lt_mul hs, Nat.succ_mul]; omega
  obtain ⟨r, hr⟩ := chunks_prefix T _ n hle
  rw [outBytes, hr, List.take_append_of_le_length]
  rw [chunks_length T sz h]; exact ceil_mul L sz hs

theorem outBytes_length (T : Nat → Bytes) (sz L : Nat) (hs : 0 < sz) (h : ∀ i, (T i).length = sz) : (outBytes T sz L).length = L := by
  rw [outBytes, List.length_take, chunks_length T sz h, Nat.min_eq_left (ceil_mul L sz hs)]

end Verif.Kdf
