import Verif.Kdf.MiscLemmas
import Verif.Kdf.Instances
import Verif.Hash.Sm3Spec
/-
C87 to C89: the remaining derivation functions: kdf/kdftree, kdf/gost_prfplus, kdf/smkdf (C87), kdf/pgp_s2k (C88),
kdf/bcrypt_pbkdf (C89).
-/
namespace Verif.Kdf
open Verif.Cipher Verif.Hash

/-- `KDFTree`/`Key` for one to 254 digests: the RFC 7836 value.  The two bytes of `[L]` hold the length in bits; above
65535 bits, which only hashes with digests over 32 bytes reach, they hold its low half. -/
theorem C87_kdftree_partial (H : HashFn) (secret label seed : Bytes) (k : Nat) (h1 : 1 ≤ k) (h2 : k ≤ 254) :
    KTree.key 256 H secret label seed ((k * H.size : Nat) : Int) = .ok (Spec.kdfTree (hmac H secret) H.size label seed k) := by
  rw [KTree.key_unfold 256 H secret label seed k h1 (by omega)]
  exact KTree.loop_eq (hmac H secret) label seed (hx 2 (8 * (k * H.size))) k h2 256 0 (by omega) (by omega)

/-- Missing from `C87_kdftree_partial`: 255 digests, which the length check admits.  The byte counter then never
exceeds the bound, and the call does not return, however long it runs. -/
theorem C87_kdftree_255_violated (fuel : Nat) (H : HashFn) (secret label seed : Bytes) :
    KTree.key fuel H secret label seed ((255 * H.size : Nat) : Int) = .hang := by
  rw [KTree.key_unfold fuel H secret label seed 255 (by omega) (by omega)]
  exact KTree.loop_hang _ _ _ _ fuel _ _

/-- All other lengths are rejected with a panic. -/
theorem C87_kdftree_rejects (fuel : Nat) (H : HashFn) (secret label seed : Bytes) (n : Int)
    (h : ∀ k : Nat, 1 ≤ k → k ≤ 255 → n ≠ ((k * H.size : Nat) : Int)) : KTree.key fuel H secret label seed n = .panic := by
  have hp := H.pos
  rw [KTree.key]
  split
  · rfl
  · rename_i hc
    split
    · rfl
    · rename_i hn
      exfalso
      obtain ⟨c1, c2, c3⟩ : n ≠ 0 ∧ n % (H.size : Int) = 0 ∧ n ≤ H.size * 255 := by omega
      obtain ⟨m, rfl⟩ := Int.eq_ofNat_of_zero_le (Int.not_lt.mp hn)
      have c2' : m % H.size = 0 := by rw [← Int.natCast_emod] at c2; exact Int.natCast_eq_zero.mp c2
      obtain ⟨k, rfl⟩ := Nat.dvd_of_mod_eq_zero c2'
      have c3' : H.size * k ≤ H.size * 255 := by omega
      have hk : k ≤ 255 := Nat.le_of_mul_le_mul_left c3' hp
      have hk0 : k ≠ 0 := by rintro rfl; exact c1 (by simp)
      exact h k (by omega) hk (by rw [Nat.mul_comm])

/-- `gost_prfplus.Key` for every nonempty password and salt and every length: `prf+` of RFC 7296, the counter being one
byte. -/
theorem C87_prfplus (H : HashFn) (password salt : Bytes) (hp : password ≠ []) (hs : salt ≠ []) (n : Nat) :
    Prfp.key H password salt n = .ok (Spec.prfPlus (hmac H password) H.size salt n) :=
  Prfp.key_eq H password salt hp hs n

/-- Empty passwords and salts are errors. -/
theorem C87_prfplus_empty (H : HashFn) (password salt : Bytes) (n : Int) (h : password = [] ∨ salt = []) : Prfp.key H password salt n = .err := by
  rw [Prfp.key]
  rcases h with rfl | rfl
  · rfl
  · simp

/-- `smkdf.Key` for every hash, shared secret and length: the X9.63 value, or a panic when 2^32-1 or more digests are
asked for. -/
theorem C87_smkdf (H : HashFn) (hH : H.size ≤ 2 ^ 62) (z : Bytes) (n : Nat) (hn : n < 2 ^ 63) :
    SmKdf.key H z n = if (n + H.size - 1) / H.size < 2 ^ 32 - 1 then .ok (Spec.smKdf H.f H.size z n) else .panic :=
  SmKdf.key_eq H hH z n hn

theorem C87_smkdf_negative (H : HashFn) (z : Bytes) (n : Int) (h : n < 0) : SmKdf.key H z n = .panic := SmKdf.key_neg H z n h

/-- `pgp_s2k.Key`: for every hash, password, salt, count and length the RFC 4880 key; a count below the length of salt
and password acts as that length. -/
theorem C88_s2k (H : HashFn) (password salt : Bytes) (iterations : Int) (n : Nat) (h : iterations ≤ 1 ∨ salt ≠ []) :
    S2k.key H password salt iterations n = .ok (Spec.s2k H.f H.size password salt iterations.toNat n) :=
  S2k.key_eq H password salt iterations n h

/-- The iterated form without salt panics. -/
theorem C88_s2k_no_salt (H : HashFn) (password : Bytes) (iterations n : Int) (h : 1 < iterations) :
    S2k.key H password [] iterations n = .panic := by
  rw [S2k.key, if_pos ⟨h, rfl⟩]

/-- `KeyWithTune` should return a key also when asked to choose the count (`iterations = 0`).  It never returns, whatever
the clock does. -/
theorem C88_tune_never_returns_violated (fuel : Nat) (ticks : Nat → Bool) (H : HashFn) (password salt : Bytes) (n : Int) :
    S2k.keyWithTune fuel ticks H password salt 0 n = .hang := by
  rw [S2k.keyWithTune, if_pos rfl, S2k.tune_hang]; rfl

/-- With a given count it is `Key`. -/
theorem C88_with_count (fuel : Nat) (ticks : Nat → Bool) (H : HashFn) (password salt : Bytes) (it n : Int) (h : it ≠ 0) :
    S2k.keyWithTune fuel ticks H password salt it n = S2k.key H password salt it n := by
  rw [S2k.keyWithTune, if_neg h]; rfl

/-- `bcrypt_pbkdf.Key`: for every password, salt, number of rounds and length in range, the value of OpenBSD's
definition over the given SHA-512 and bcrypt hash. -/
theorem C89_bcrypt_pbkdf (sha : Bytes → Bytes) (bcryptHash : Bytes → Bytes → Bytes) (password salt : Bytes) (rounds n : Nat)
    (h1 : 1 ≤ rounds) (h2 : password ≠ []) (h3 : salt ≠ []) (h4 : salt.length ≤ 2 ^ 20) (h5 : n ≤ 1024) :
    BcryptKdf.key sha bcryptHash password salt rounds n = .ok (Spec.bcryptKdf sha (bcryptHash (sha password)) salt rounds n) :=
  BcryptKdf.key_eq sha bcryptHash password salt rounds n h1 h2 h3 h4 h5

/-- Out of range: an error. -/
theorem C89_bcrypt_pbkdf_errors (sha : Bytes → Bytes) (bcryptHash : Bytes → Bytes → Bytes) (password salt : Bytes) (rounds n : Int)
    (h : rounds < 1 ∨ password = [] ∨ salt = [] ∨ 2 ^ 20 < salt.length ∨ 1024 < n) :
    BcryptKdf.key sha bcryptHash password salt rounds n = .err := by
  have e20 : (1 : Nat) <<< 20 = 2 ^ 20 := rfl
  rw [BcryptKdf.key, e20]
  split
  · rfl
  rename_i a1
  split
  · rfl
  rename_i a2
  split
  · rfl
  rename_i a3
  split
  · rfl
  rename_i a4
  exfalso
  rcases h with h | rfl | rfl | h | h
  · omega
  · exact a2 rfl
  · exact a3 (Or.inl rfl)
  · omega
  · omega

/-- Every byte of the key comes from a block of its own position: the whole key depends on all blocks, and the output
has the length asked for. -/
theorem C89_bcrypt_pbkdf_length (sha bh : Bytes → Bytes) (salt : Bytes) (rounds n : Nat) : (Spec.bcryptKdf sha bh salt rounds n).length = n := by
  simp [Spec.bcryptKdf]

/-! The hypotheses, and published vectors: RFC 7836 with one and two digests, `prf+` with both hashes, SM3. -/

def ktKey : Bytes := (List.range 32).map (BitVec.ofNat 8)

def ktTest : Bool :=
  (match KTree.key 256 fast256 ktKey [0x26, 0xbd, 0xb8, 0x78] [0xaf, 0x21, 0x43, 0x41, 0x45, 0x65, 0x63, 0x78] 32 with
    | .ok k => k == hx 32 0xa1aa5f7de402d7b3d323f2991c8d4534013137010a83754fd0af6d7cd4922ed9 | _ => false) &&
  (match KTree.key 256 fast256 ktKey [0x26, 0xbd, 0xb8, 0x78] [0xaf, 0x21, 0x43, 0x41, 0x45, 0x65, 0x63, 0x78] 64 with
    | .ok k => k == hx 64 0x22b6837845c6bef65ea71672b265831086d3c76aebe6dae91cad51d83f79d16b074c9330599d7f8d712fca54392f4ddde93751206b3584c8f43f9e6dc51531f9 | _ => false)

example : ktTest = true := by decide +kernel

def prfpTest : Bool :=
  (match Prfp.key fast256 (hx 32 0xC9A9A77320E2CC559ED72DCE6F47E2192CCEA95FA648670582C054C0EF36C221) (hx 16 0x0126BDB878001D80603C8544C7270100) 64 with
    | .ok k => k == hx 64 0x2DE5EE84E13D7BE53616673913370AB054C074B79B69A8A84682A9F04FECD58729F60DDA457BF219AA2EF95D7A59BE954DE008F4A50D504DBDB690BE68060153 | _ => false) &&
  (match Prfp.key fast512 (hx 32 0xC9A9A77320E2CC559ED72DCE6F47E2192CCEA95FA648670582C054C0EF36C221) (hx 16 0x0126BDB878001D80603C8544C7270100) 70 with
    | .ok k => k == (hx 128 0x5DA67143A5F12A6D6E4742596F39243FCC615745915B32591006FF78A20863D5F88E4AFC17FBBE70B9509573DB005E9626369846CB861999716C165DD06A15854834495A43746CB53F0ABA3BC46EBCF8773CA64AD343C122EE2A577557038157EE9C388D96EF71D58BE5C1EFA1AFA95EBE83E39D00E19A5D03DCD60A01BCA8E3).take 70 | _ => false)

example : prfpTest = true := by decide +kernel

theorem sm3_length (M : Bytes) : (Sm3.Spec.sm3 M).length = 32 := by
  rw [Sm3.Spec.sm3]
  generalize (fullBlocks 64 (mdPad (hx 8 (8 * M.length)) M)).foldl Sm3.Spec.CF Sm3.Spec.IV = v
  rcases v with ⟨a, b, c, d, e, f, g, h⟩
  simp [Sm3.Spec.toBytes, stBE_length]

/-- SM3, as hash/sm3 computes it (C77). -/
def sm3Fn : HashFn := ⟨Sm3.Spec.sm3, 32, 64, by decide, sm3_length⟩

def smTest : Bool := match SmKdf.key sm3Fn ("cryptobin-test".toList.map fun c => BitVec.ofNat 8 c.toNat) 48 with
  | .ok k => k == hx 48 0xa053a49125ebfe8c0b557fd8a24bb14d690199de297d73191a34163829199a5b369ed82fde8772fd0fc5f6e3e584d72e
  | _ => false

example : smTest = true ∧ sm3Fn.size ≤ 2 ^ 62 := ⟨by decide +kernel, by decide⟩

/-- S2K: 40 bytes (two passes) with salt and password hashed up to 20 bytes. -/
def s2kTest : Bool := match S2k.key fast256 [1, 2, 3] [9, 8, 7, 6] 20 40 with
  | .ok k => k == (fast256.f [9, 8, 7, 6, 1, 2, 3, 9, 8, 7, 6, 1, 2, 3, 9, 8, 7, 6, 1, 2] ++ fast256.f [0, 9, 8, 7, 6, 1, 2, 3, 9, 8, 7, 6, 1, 2, 3, 9, 8, 7, 6, 1, 2]).take 40
  | _ => false

example : s2kTest = true := by decide +kernel

/-- bcrypt_pbkdf over small stand-ins: three blocks, the bytes of the key cycle through them. -/
def bcTest : Bool := match BcryptKdf.key (fun m => m.reverse) (fun _ s => (s ++ List.replicate 32 5#8).take 32) [1] [2] 2 70 with
  | .ok k => k.take 6 == [5 ^^^ 1, 5 ^^^ 2, 5 ^^^ 3, 5, 5, 5] && k.length == 70
  | _ => false

example : bcTest = true ∧ (1 : Nat) ≤ 2 ∧ ([1] : Bytes) ≠ [] ∧ ([2] : Bytes) ≠ [] ∧ ([2] : Bytes).length ≤ 2 ^ 20 ∧ 70 ≤ 1024 := by decide

end Verif.Kdf
