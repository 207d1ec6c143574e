import Verif.Cipher.Lea
import Verif.Cipher.Speck
import Verif.Cipher.Simon
import Verif.Cipher.Hight
import Verif.Cipher.Rc5
import Verif.Cipher.Rc6
import Verif.Cipher.Rc2
import Verif.Cipher.Sm4
import Verif.Cipher.Seed
import Verif.Cipher.Kseed
import Verif.Cipher.Aria
import Verif.Cipher.Camellia
import Verif.Cipher.Cast
import Verif.Cipher.CastEq
import Verif.Cipher.Idea
/-
C48 to C62: the block cipher packages, first part. Each package's `NewCipher` is a block cipher as the users of `cipher.Block` expect
(`Implements`, `IsBlock` in Verif/Cipher/Common.lean): it accepts exactly the key lengths it documents and returns an error for the others, `Decrypt` and
`Encrypt` are inverse to each other for every key and block, panic exactly on short or partly overlapping slices, write the block to the first bytes of
`dst` and nothing else. The test vectors show that the models compute the published ciphers (all from /repo's tests or the ciphers' specifications).
-/
namespace Verif.Cipher
set_option maxRecDepth 100000

/-- C48, LEA -/
theorem C48_lea : Implements Lea.newCipher (fun n => n = 16 ∨ n = 24 ∨ n = 32) 16 := Lea.implements
/-- lea_test.go:111-114 -/
example : kat Lea.newCipher (hx 32 0xFFFFFFFFFFFFFFFFFFFFFFFFFFFFFFFFFFFFFF00000000000000000000000000) (hx 16 0) = .ok (hx 16 0xaae3d8b6be779438d9998ffc1cf0ed0b) := by decide +kernel
example : katD Lea.newCipher (hx 32 0xFFFFFFFFFFFFFFFFFFFFFFFFFFFFFFFFFFFFFF00000000000000000000000000) (hx 16 0xaae3d8b6be779438d9998ffc1cf0ed0b) = .ok (hx 16 0) := by decide +kernel

/-- C49, Speck -/
theorem C49_speck : Implements Speck.newCipher (fun n => n = 16 ∨ n = 24 ∨ n = 32) 16 := Speck.implements
/-- speck_test.go:125-143 -/
example : kat Speck.newCipher (hx 16 0x000102030405060708090a0b0c0d0e0f) (hx 16 0x206d616465206974206571756976616c) = .ok (hx 16 0x180d575cdffe60786532787951985da6) := by decide +kernel
example : kat Speck.newCipher (hx 24 0x000102030405060708090a0b0c0d0e0f1011121314151617) (hx 16 0x656e7420746f20436869656620486172) = .ok (hx 16 0x86183ce05d18bcf9665513133acfe41b) := by decide +kernel
example : kat Speck.newCipher (hx 32 0x000102030405060708090a0b0c0d0e0f101112131415161718191a1b1c1d1e1f) (hx 16 0x706f6f6e65722e20496e2074686f7365) = .ok (hx 16 0x438f189c8db4ee4e3ef5c00504010941) := by decide +kernel

/-- C50, Simon -/
theorem C50_simon : Implements Simon.newCipher (fun n => n = 16 ∨ n = 24 ∨ n = 32) 16 := Simon.implements
/-- simon_test.go:125-139 -/
example : kat Simon.newCipher (hx 16 0x000102030405060708090a0b0c0d0e0f) (hx 16 0x2074726176656c6c6572732064657363) = .ok (hx 16 0xbc0b4ef82a83aa653ffe541e1e1b6849) := by decide +kernel
example : kat Simon.newCipher (hx 24 0x000102030405060708090a0b0c0d0e0f1011121314151617) (hx 16 0x72696265207768656e20746865726520) = .ok (hx 16 0x5bb897256e8d9c6c4f0ddcfcef61acc4) := by decide +kernel
example : kat Simon.newCipher (hx 32 0x000102030405060708090a0b0c0d0e0f101112131415161718191a1b1c1d1e1f) (hx 16 0x697320612073696d6f6f6d20696e2074) = .ok (hx 16 0x68b8e7ef872af73ba0a3c8af79552b8d) := by decide +kernel

/-- C51, HIGHT -/
theorem C51_hight : Implements Hight.newCipher (fun n => n = 16) 8 := Hight.implements
/-- hight_test.go:45-48 -/
example : kat Hight.newCipher (hx 16 0) (hx 8 0x842dc7a5b57b7af3) = .ok (hx 8 0x6e950f179e145921) := by decide +kernel

/-- C52, RC5: word sizes 16, 32 and 64, 8 to 127 rounds, keys of 8, 16, 24 or 32 bytes; a block has two words. -/
theorem C52_rc5 (wordSize r : Nat) : Implements (fun key => Rc5.newCipher key wordSize r)
    (fun n => (n = 8 ∨ n = 16 ∨ n = 24 ∨ n = 32) ∧ (8 ≤ r ∧ r ≤ 127) ∧ (wordSize = 16 ∨ wordSize = 32 ∨ wordSize = 64)) (wordSize / 4) := Rc5.implements wordSize r
/-- RC5-32/12/16, the first vector of Rivest's paper -/
example : kat (fun k => Rc5.newCipher k 32 12) (hx 16 0) (hx 8 0) = .ok (hx 8 0x21A5DBEE154B8F6D) := by decide +kernel

/-- C53, RC6 -/
theorem C53_rc6 : Implements Rc6.newCipher (fun n => n = 16) 16 := Rc6.implements
/-- rc6_test.go -/
example : kat Rc6.newCipher (hx 16 0x000102030405060708090A0B0C0D0E0F) (hx 16 0x00112233445566778899AABBCCDDEEFF) = .ok (hx 16 0x09C26143B47B1A22EC2D9CD8B8A4E573) := by decide +kernel

/-- C54, RC2: a block cipher for every key that is not empty and every effective key length from 1 to 1024 bits. -/
theorem C54_rc2_accepted (key : Bytes) (t1 : Int) (hk : key ≠ []) (ht : 1 ≤ t1 ∧ t1 ≤ 1024) :
    ∃ c, Rc2.newCipher key t1 = .ok c ∧ c.bs = 8 ∧ ∃ E D, IsBlock 8 c.enc c.dec E D :=
  Rc2.newCipher_ok key t1 ⟨List.length_pos_iff.2 hk, ht⟩
/-- rc2_test.go -/
example : kat (fun k => Rc2.newCipher k 63) (hx 8 0) (hx 8 0) = .ok (hx 8 0xebb773f993278eff) := by decide +kernel
/-- C54: for all other arguments `NewCipher` panics; it never returns the error its signature announces. -/
theorem C54_rc2_rejected (key : Bytes) (t1 : Int) (h : key = [] ∨ t1 < 1 ∨ 1024 < t1) : Rc2.newCipher key t1 = .panic :=
  Rc2.newCipher_panic key t1 (by
    rintro ⟨h1, h2⟩
    rcases h with rfl | h | h
    · exact absurd h1 (by decide)
    · omega
    · omega)
example : ([] : Bytes) = [] ∨ (64 : Int) < 1 ∨ 1024 < (64 : Int) := .inl rfl

/-- C55, SM4 -/
theorem C55_sm4 : Implements Sm4.newCipher (fun n => n = 16) 16 := Sm4.implements
/-- C55: the table version of the round function, used in the inner rounds, is the defining one, used in the outer rounds. -/
theorem C55_sm4_tables (x : BitVec 32) : Sm4.t x = Sm4.l (Sm4.tau x) := Sm4.t_eq x
/-- GB/T 32907 example 1 -/
example : kat Sm4.newCipher (hx 16 0x0123456789abcdeffedcba9876543210) (hx 16 0x0123456789abcdeffedcba9876543210) = .ok (hx 16 0x681edf34d206965e86b3e94f536e4246) := by decide +kernel

/-- C56, SEED -/
theorem C56_seed : Implements Seed.newCipher (fun n => n = 16 ∨ n = 32) 16 := Seed.implements
/-- seed_test.go:78-81 -/
example : kat Seed.newCipher (hx 16 0x31323334353637383930646672677466) (hx 16 0x000102030405060708090a0b0c0d0e0f) = .ok (hx 16 0xefc103a7ddd732c1d489c13c897dfbde) := by decide +kernel

/-- C57, KSEED. Both methods do what a block cipher has to do as long as `src` is shorter than 20 bytes or `dst` has exactly 16 bytes; the blocks are those
of SEED with the same key. The full claim (all slices) is false, see `C57_kseed_violated`. -/
theorem C57_kseed_partial (key : Bytes) (hk : key.length = 16) : ∃ c s E D, Kseed.newCipher key = .ok c ∧ c.bs = 16 ∧
    Seed.newCipher key = .ok s ∧ IsBlock 16 s.enc s.dec E D ∧
    ∀ m dst src, (src.len < 20 ∨ dst.len = 16) → c.enc m dst src = s.enc m dst src ∧ c.dec m dst src = s.dec m dst src :=
  Kseed.newCipher_seed key hk
/-- C57: exactly what the methods write for longer slices: the block, then zeros, for as many whole words as `src` has and as `dst` holds. -/
theorem C57_kseed_effect (key : Bytes) (hk : key.length = 16) : ∃ (c : Obj) (E D : Bytes → Bytes), Kseed.newCipher key = .ok c ∧ c.bs = 16 ∧
    (∀ b, b.length = 16 → (E b).length = 16 ∧ (D b).length = 16 ∧ D (E b) = b ∧ E (D b) = b) ∧
    ∀ m (dst src : Slice), 16 ≤ src.len → 16 ≤ dst.len → inexactOverlap { dst with len := 16 } { src with len := 16 } = false →
      c.enc m dst src = .ok (m.write dst.ptr ((E (m.read src.ptr 16) ++ List.replicate (4 * (src.len / 4) - 16) 0).take dst.len)) ∧
      c.dec m dst src = .ok (m.write dst.ptr ((D (m.read src.ptr 16) ++ List.replicate (4 * (src.len / 4) - 16) 0).take dst.len)) :=
  Kseed.newCipher_effect key hk
/-- C57: keys of another length are refused. -/
theorem C57_kseed_key (key : Bytes) (hk : key.length ≠ 16) : Kseed.newCipher key = .err := if_neg hk
/-- C57: with a longer `dst` and `src` the bytes after the block are overwritten with zeros. So `NewCipher` is not a block cipher as described. -/
theorem C57_kseed_violated : ¬ Implements Kseed.newCipher (fun n => n = 16) 16 := Kseed.not_implements
/-- The vector of SEED; and the same with 32-byte slices on a memory of ones: the second half of the output is 0. -/
example : kat Kseed.newCipher (hx 16 0x31323334353637383930646672677466) (hx 16 0x000102030405060708090a0b0c0d0e0f) = .ok (hx 16 0xefc103a7ddd732c1d489c13c897dfbde) := by decide +kernel

/-- C58, ARIA -/
theorem C58_aria : Implements Aria.newCipher (fun n => n = 16 ∨ n = 24 ∨ n = 32) 16 := Aria.implements
/-- aria_test.go:116-124, RFC 5794 -/
example : kat Aria.newCipher (hx 32 0x000102030405060708090a0b0c0d0e0f101112131415161718191a1b1c1d1e1f) (hx 16 0x00112233445566778899aabbccddeeff) = .ok (hx 16 0xf92bd7c79fb72e2f2b8f80c1972d24fc) := by decide +kernel
example : kat Aria.newCipher (hx 16 0x000102030405060708090a0b0c0d0e0f) (hx 16 0x00112233445566778899aabbccddeeff) = .ok (hx 16 0xd718fbd6ab644c739da95f3be6451778) := by decide +kernel
example : kat Aria.newCipher (hx 24 0x000102030405060708090a0b0c0d0e0f1011121314151617) (hx 16 0x00112233445566778899aabbccddeeff) = .ok (hx 16 0x26449c1805dbe7aa25a468ce263a9e79) := by decide +kernel

/-- C59, Camellia -/
theorem C59_camellia : Implements Camellia.newCipher (fun n => n = 16 ∨ n = 24 ∨ n = 32) 16 := Camellia.implements
/-- RFC 3713, appendix A -/
example : kat Camellia.newCipher (hx 16 0x0123456789abcdeffedcba9876543210) (hx 16 0x0123456789abcdeffedcba9876543210) = .ok (hx 16 0x67673138549669730857065648eabe43) := by decide +kernel
example : kat Camellia.newCipher (hx 24 0x0123456789abcdeffedcba98765432100011223344556677) (hx 16 0x0123456789abcdeffedcba9876543210) = .ok (hx 16 0xb4993401b3e996f84ee5cee7d79b09b9) := by decide +kernel
example : kat Camellia.newCipher (hx 32 0x0123456789abcdeffedcba987654321000112233445566778899aabbccddeeff) (hx 16 0x0123456789abcdeffedcba9876543210) = .ok (hx 16 0x9acc237dff16d76c20ef7c919e3a7509) := by decide +kernel

/-- C60, CAST (cipher/cast) -/
theorem C60_cast : Implements Cast.newCipher (fun n => n = 16 ∨ n = 20 ∨ n = 24 ∨ n = 28 ∨ n = 32) 16 := Cast.implements
/-- cast_test.go:191-193; RFC 2612, appendix A -/
example : kat Cast.newCipher (hx 32 0x2342bb9efa38542cbed0ac83940ac2988d7c47ce264908461cc1b5137ae6b604) (hx 16 0xbdf4e311) = .ok (hx 16 0xfa5874ab5aba5c0ba20aa82124c8f5a5) := by decide +kernel
example : kat Cast.newCipher (hx 16 0x2342bb9efa38542c0af75647f29f615d) (hx 16 0) = .ok (hx 16 0xc842a08972b43d20836c91d1b7530f6b) := by decide +kernel

/-- C61, CAST-256 (cipher/cast256) -/
theorem C61_cast256 : Implements Cast256.newCipher (fun n => n = 16 ∨ n = 20 ∨ n = 24 ∨ n = 28 ∨ n = 32) 16 := Cast256.implements
/-- C61: the two packages implement the same cipher: same keys accepted, same results of both methods on every memory and all slices. -/
theorem C61_cast_cast256 : Cast256.newCipher = Cast.newCipher := CastEq.newCipher_eq
/-- cast256_test.go:238-240 -/
example : kat Cast256.newCipher (hx 32 0x2342bb9efa38542cbed0ac83940ac2988d7c47ce264908461cc1b5137ae6b604) (hx 16 0xcf05f422) = .ok (hx 16 0xf61772310e2160770eb7e7e92469ff32) := by decide +kernel

/-- C62, IDEA -/
theorem C62_idea : Implements Idea.newCipher (fun n => n = 16) 8 := Idea.implements
/-- C62: the modular inverse in the key setup exists for every word (0 stands for 65536): the Euclidean algorithm never divides by zero, and the product
with `x` is 1 modulo 65537. -/
theorem C62_idea_inverse (x : BitVec 16) : ∃ r, Idea.mulInv? x = some r ∧
    ((if r = 0 then 65536 else r.toNat) * (if x = 0 then 65536 else x.toNat)) % 65537 = 1 := Idea.mulInv_nat x
/-- idea_test.go:16 -/
example : kat Idea.newCipher (hx 16 0x80000000000000000000000000000000) (hx 8 0) = .ok (hx 8 0xB1F5F7F87901370F) := by decide +kernel
example : katD Idea.newCipher (hx 16 0x80000000000000000000000000000000) (hx 8 0xB1F5F7F87901370F) = .ok (hx 8 0) := by decide +kernel

end Verif.Cipher
