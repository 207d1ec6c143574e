import Verif.Cipher.Skipjack
import Verif.Cipher.Magma
import Verif.Cipher.Shacal2
import Verif.Cipher.Whirlx
import Verif.Cipher.Twine
/-
Block cipher packages, C153 to C158. The specification is `Implements` (Common.lean) and, for packages that differ from it, `ImplementsU`, `ImplementsSpill`,
`ImplementsFor` (Common2.lean). Test vectors are evaluated by the kernel.
-/
namespace Verif.Cipher
set_option maxRecDepth 100000

/-- C153, SKIPJACK -/
theorem C153_skipjack : Implements Skipjack.newCipher (fun n => n = 10) 8 := Skipjack.implements
/-- The test vector of the SKIPJACK specification. -/
example : kat Skipjack.newCipher (hx 10 0x00998877665544332211) (hx 8 0x33221100ddccbbaa) = .ok (hx 8 0x2587cae27a12d300) := by decide +kernel
/-- C153: the table is a permutation of the bytes, so g depends on all of its input. -/
theorem C153_skipjack_table : Skipjack.ftable.length = 256 ∧ ∀ v : Byte, v ∈ Skipjack.ftable := by decide +kernel

/-- C154, GOST 28147-89, for all tables of the right size: what the methods do to memory, exactly. -/
theorem C154_gost_exact (sbox : List Bytes) (h8 : sbox.length = 8) (h16 : ∀ r ∈ sbox, r.length = 16) :
    ImplementsSpill (Gost.newCipher sbox) (fun n => n = 32) 8 4 :=
  Gost.implements sbox (by simp [Gost.sboxOK, h8]; exact h16)
/-- C154: it is a block cipher as long as `src` has no further whole word or `dst` is just a block. Missing: longer slices, see the next theorem. -/
theorem C154_gost_partial (sbox : List Bytes) (h8 : sbox.length = 8) (h16 : ∀ r ∈ sbox, r.length = 16) :
    ImplementsFor (fun dst src => src.len < 12 ∨ dst.len = 8) (Gost.newCipher sbox) (fun n => n = 32) 8 :=
  (C154_gost_exact sbox h8 h16).short (by decide) (by decide)
/-- C154, violated for longer slices: the bytes after the block are overwritten with zeros. -/
theorem C154_gost_long_slices_violated (sbox : List Bytes) (h8 : sbox.length = 8) (h16 : ∀ r ∈ sbox, r.length = 16) :
    ¬ Implements (Gost.newCipher sbox) (fun n => n = 32) 8 :=
  (C154_gost_exact sbox h8 h16).not 32 rfl (by decide) (by decide)
/-- C154: tables of another size are rejected with an error. -/
theorem C154_gost_rejects (sbox : List Bytes) (h : sbox.length ≠ 8 ∨ ∃ r ∈ sbox, r.length ≠ 16) (key : Bytes) : Gost.newCipher sbox key = .err := by
  refine Gost.rejects sbox (fun hok => ?_) key
  simp only [Gost.sboxOK, Bool.and_eq_true, beq_iff_eq, List.all_eq_true] at hok
  rcases h with h | ⟨r, hr, h⟩
  · exact h hok.1
  · exact h (hok.2 r hr)
/-- gost_test.go -/
example : kat (Gost.newCipher Gost.centralBankTestParamSet) ((List.range 32).map fun i => BitVec.ofNat 8 (2 * i + 10)) (hx 8 0x0001020304050607) = .ok (hx 8 0x603f5347df09c97b) := by
  decide +kernel
/-- C154: the rows of the tables of the package, except one, are permutations of the nibbles. Missing: SboxCentralBankTestParamSet. -/
theorem C154_gost_tables_partial : ∀ t ∈ [Gost.dESDerivedParamSet, Gost.rFC4357TestParamSet, Gost.gost2814789TestParamSet, Gost.tC26gost28147paramZ,
      Gost.gostR341194CryptoProParamSet, Gost.gost2814789CryptoProAParamSet, Gost.gost2814789CryptoProBParamSet, Gost.gost2814789CryptoProCParamSet,
      Gost.gost2814789CryptoProDParamSet, Gost.eACParamSet],
    t.length = 8 ∧ ∀ r ∈ t, r.length = 16 ∧ ∀ v : BitVec 4, v.setWidth 8 ∈ r := by decide +kernel
/-- C154, violated by SboxCentralBankTestParamSet: its first row has 2 twice and no 12. It is the last row of the RFC 4357 test table, whose rows are here in
reverse order, with the 12 at its end mistyped; so that the cipher with this table is not the one the table is named for. -/
theorem C154_gost_central_bank_violated : (12 : Byte) ∉ Gost.centralBankTestParamSet.getD 0 [] ∧
    Gost.centralBankTestParamSet ≠ Gost.rFC4357TestParamSet.reverse ∧
    Gost.centralBankTestParamSet.set 0 ((Gost.centralBankTestParamSet.getD 0 []).set 15 12) = Gost.rFC4357TestParamSet.reverse ∧
    kat (Gost.newCipher Gost.centralBankTestParamSet) (List.replicate 32 0) (List.replicate 8 0) ≠
      kat (Gost.newCipher Gost.rFC4357TestParamSet.reverse) (List.replicate 32 0) (List.replicate 8 0) := by decide +kernel

/-- C155, Magma, for one caller at a time. -/
theorem C155_magma : ImplementsU Magma.newCipher (fun n => n = 32) 8 := Magma.implements
/-- GOST R 34.12-2015, A.2.4 -/
example : kat Magma.newCipher (hx 32 0xffeeddccbbaa99887766554433221100f0f1f2f3f4f5f6f7f8f9fafbfcfdfeff) (hx 8 0xfedcba9876543210) = .ok (hx 8 0x4ee901e5c2d8ca3d) := by
  decide +kernel
/-- C155, violated for two calls of Encrypt at once on the same cipher: there is a schedule in which, for every key and all blocks, the first call returns the
encryption of the block of the second, and the second call an encryption of that ciphertext. -/
theorem C155_magma_concurrent_violated : ∃ l, Magma.Schedule l ∧ ∀ key s1 s2, ∀ st : Magma.Shared,
    (l.foldl (Magma.act key s1 s2) st).dst1 = some (Magma.encB key s2) ∧ (l.foldl (Magma.act key s1 s2) st).dst2 = some (Magma.encB key (Magma.encB key s2)) := by
  refine ⟨[(true, .load), (false, .load), (true, .crypt), (true, .store), (false, .crypt), (false, .store)], by unfold Magma.Schedule; decide, fun key s1 s2 st => ⟨?_, ?_⟩⟩
  · simp [Magma.act, Magma.encB]
  · simp [Magma.act, Magma.encB]
/-- C155: that is not the right result whenever the blocks differ. -/
theorem C155_magma_wrong (key s1 s2 : Bytes) (h1 : s1.length = 8) (h2 : s2.length = 8) (hne : s1 ≠ s2) : Magma.encB key s2 ≠ Magma.encB key s1 := by
  intro h
  have := congrArg (Magma.decB key) h
  rw [(Magma.blockFn key).DE _ h1, (Magma.blockFn key).DE _ h2] at this
  exact hne this.symm
example : Magma.encB (List.replicate 32 1) (hx 8 1) ≠ Magma.encB (List.replicate 32 1) (hx 8 2) := C155_magma_wrong _ _ _ (by decide) (by decide) (by decide)

/-- C156, SHACAL-2 -/
theorem C156_shacal2 : Implements Shacal2.newCipher (fun n => 4 ≤ n ∧ n ≤ 256) 32 := Shacal2.implements
/-- shacal2_test.go:60-64 -/
example : kat Shacal2.newCipher (hx 64 0x000102030405060708090A0B0C0D0E0F101112131415161718191A1B1C1D1E1F202122232425262728292A2B2C2D2E2F303132333435363738393A3B3C3D3E3F)
    (hx 32 0x98BCC10405AB0BFC686BECECAAD01AC19B452511BCEB9CB094F905C51CA45430) = .ok (hx 32 0x00112233445566778899AABBCCDDEEFF102132435465768798A9BACBDCEDFE0F) := by
  decide +kernel
/-- C156, violated: one, two or three bytes after the last whole word of a key have no effect. -/
theorem C156_shacal2_key_tail_violated (k t : Bytes) (h4 : k.length % 4 = 0) (hk : 4 ≤ k.length) (hk' : k.length + t.length ≤ 256) (ht : t.length < 4) :
    Shacal2.newCipher (k ++ t) = Shacal2.newCipher k := by
  unfold Shacal2.newCipher Shacal2.encB Shacal2.decB
  rw [Shacal2.expandKey_tail k t h4 ht, if_pos (by rw [List.length_append]; omega), if_pos (by omega)]
/-- C156, violated: the bytes of a key after the 64th have no effect, though keys of up to 256 bytes are accepted. -/
theorem C156_shacal2_long_key_violated (k t : Bytes) (hk : k.length = 64) (ht : t.length ≤ 192) :
    Shacal2.newCipher (k ++ t) = Shacal2.newCipher k := by
  unfold Shacal2.newCipher Shacal2.encB Shacal2.decB
  rw [Shacal2.expandKey_long k t hk, if_pos (by rw [List.length_append]; omega), if_pos (by omega)]
/-- Two keys of 256 bytes that differ in three quarters of their bytes, and one cipher. -/
example : Shacal2.newCipher (List.replicate 64 7 ++ List.replicate 192 1) = Shacal2.newCipher (List.replicate 64 7 ++ List.replicate 192 2) := by
  rw [C156_shacal2_long_key_violated _ _ (by simp) (by simp), C156_shacal2_long_key_violated _ _ (by simp) (by simp)]

/-- C157, WhirlX -/
theorem C157_whirlx : Implements Whirlx.newCipher (fun n => n = 16 ∨ n = 32) 16 := Whirlx.implements
/-- whirlx_test.go -/
example : kat Whirlx.newCipher ((List.range 16).map fun i => BitVec.ofNat 8 (i * 5 + 10)) (hx 16 0x05060708090a0b0c0d0e0f1011121314) = .ok (hx 16 0xf30be27886fe426cc1e56af3d1229228) := by
  decide +kernel

/-- C158, TWINE, for slices `src` of one block. Missing: all other lengths of `src`, see the next theorems. -/
theorem C158_twine_partial (key : Bytes) : (key.length = 10 ∨ key.length = 16 → ∃ c, Twine.newCipher key = .ok c ∧ c.bs = 8 ∧ ∃ E D, BlockFn 8 E D ∧
      ∀ m dst src, src.len = 8 →
        (c.enc m dst src = if dst.len < 8 then .panic else .ok (m.write dst.ptr (E (m.read src.ptr 8)))) ∧
        (c.dec m dst src = if dst.len < 8 then .panic else .ok (m.write dst.ptr (D (m.read src.ptr 8))))) ∧
    (¬ (key.length = 10 ∨ key.length = 16) → Twine.newCipher key = .err) := by
  refine ⟨fun h => ⟨_, if_pos h, rfl, Twine.encB key, Twine.decB key, Twine.blockFn key, fun m dst src hs => ?_⟩, fun h => if_neg h⟩
  simp [Twine.method, hs]
/-- The TWINE paper, appendix A. -/
example : kat Twine.newCipher (hx 10 0x00112233445566778899) (hx 8 0x0123456789abcdef) = .ok (hx 8 0x7c1f0f80b1df9c28) := by decide +kernel
example : kat Twine.newCipher (hx 16 0x00112233445566778899AABBCCDDEEFF) (hx 8 0x0123456789abcdef) = .ok (hx 8 0x979FF9B379B5A9B8) := by decide +kernel
/-- C158, violated for every `src` longer than a block: Encrypt and Decrypt panic, where a block cipher processes the first block. -/
theorem C158_twine_long_src_violated (key : Bytes) (hk : key.length = 10 ∨ key.length = 16) : ∃ c, Twine.newCipher key = .ok c ∧
    ∀ m dst src, 8 < src.len → c.enc m dst src = .panic ∧ c.dec m dst src = .panic :=
  ⟨_, if_pos hk, fun _ _ _ h => ⟨if_pos h, if_pos h⟩⟩
/-- C158, violated for every `src` shorter than a block: Encrypt does not panic but encrypts the bytes followed by zeros, so that distinct inputs have the same
ciphertext. -/
theorem C158_twine_short_src_violated (key : Bytes) (hk : key.length = 10 ∨ key.length = 16) : ∃ c, Twine.newCipher key = .ok c ∧
    ∀ m dst src, src.len < 8 → 8 ≤ dst.len →
      c.enc m dst src = .ok (m.write dst.ptr (Twine.encB key (m.read src.ptr src.len ++ List.replicate (8 - src.len) 0))) := by
  refine ⟨_, if_pos hk, fun m dst src h hd => ?_⟩
  simp only [Twine.method]
  rw [if_neg (by omega), if_neg (by omega)]
  unfold Twine.encB
  rw [Twine.ld_short _ (by simp; omega)]
  simp

end Verif.Cipher
