import Verif.Cipher.Clefia
import Verif.Cipher.Kasumi
import Verif.Cipher.Misty1
import Verif.Cipher.Multi2
import Verif.Cipher.Noekeon
import Verif.Cipher.Threeway
import Verif.Cipher.Present
/-
Block cipher packages, C63 to C69. The specification is `Implements` (Common.lean) and, for packages that differ from it, `ImplementsU`, `ImplementsSpill`,
`ImplementsFor` (Common2.lean). Test vectors are evaluated by the kernel.
-/
namespace Verif.Cipher
set_option maxRecDepth 100000

/-- C63, CLEFIA -/
theorem C63_clefia : Implements Clefia.newCipher (fun n => n = 16 ∨ n = 24 ∨ n = 32) 16 := Clefia.implements
/-- RFC 6114, appendix A -/
example : kat Clefia.newCipher (hx 16 0xffeeddccbbaa99887766554433221100) (hx 16 0x000102030405060708090a0b0c0d0e0f) = .ok (hx 16 0xde2bf2fd9b74aacdf1298555459494fd) := by decide +kernel
example : kat Clefia.newCipher (hx 24 0xffeeddccbbaa99887766554433221100f0e0d0c0b0a09080) (hx 16 0x000102030405060708090a0b0c0d0e0f) = .ok (hx 16 0xe2482f649f028dc480dda184fde181ad) := by decide +kernel
example : kat Clefia.newCipher (hx 32 0xffeeddccbbaa99887766554433221100f0e0d0c0b0a090807060504030201000) (hx 16 0x000102030405060708090a0b0c0d0e0f) = .ok (hx 16 0xa1397814289de80c10da46d1fa48b38a) := by decide +kernel

/-- C64, KASUMI -/
theorem C64_kasumi : Implements Kasumi.newCipher (fun n => n = 16) 8 := Kasumi.implements
/-- C64: the table indices of FI are in range for every input and subkey, so the tables never panic. -/
theorem C64_kasumi_tables (x subkey : BitVec 16) :
    let seven := x &&& 0x7F
    let nine := Kasumi.S9.getD (x >>> 7).toNat 0 ^^^ seven
    (x >>> 7).toNat < Kasumi.S9.length ∧ seven.toNat < Kasumi.S7.length ∧ (nine ^^^ (subkey &&& 0x1FF)).toNat < Kasumi.S9.length ∧
      ((Kasumi.S7.getD seven.toNat 0 ^^^ (nine &&& 0x7F)) ^^^ (subkey >>> 9)).toNat < Kasumi.S7.length := Kasumi.fi_index x subkey
/-- kasumi_test.go:49-95 -/
example : kat Kasumi.newCipher (hx 16 0x2BD6459F82C5B300952C49104881FF48) (hx 8 0xEA024714AD5C4D84) = .ok (hx 8 0xDF1F9B251C0BF45F) := by decide +kernel

/-- C65, MISTY1: short slices panic, everything else is processed, also partly overlapping blocks. -/
theorem C65_misty1 : ImplementsU Misty1.newCipher (fun n => n = 16) 8 := Misty1.implements
/-- RFC 2994 -/
example : kat Misty1.newCipher (hx 16 0x00112233445566778899aabbccddeeff) (hx 8 0x0123456789abcdef) = .ok (hx 8 0x8b1da5f56ab3d07c) := by decide +kernel

/-- C66, MULTI2 with a positive number of rounds, for `src` shorter than 12 bytes or `dst` of 8 bytes. The full claim (all slices, all accepted numbers of
rounds) is false: `C66_multi2_violated`, `C66_multi2_hang`. -/
theorem C66_multi2_partial (rounds : Nat) (h : 0 < rounds) :
    ImplementsFor (fun dst src => src.len < 12 ∨ dst.len = 8) (Multi2.newCipher rounds) (fun n => n = 40) 8 :=
  (Multi2.implements rounds h).short (by decide) (by decide)
/-- C66: exactly what the methods write. -/
theorem C66_multi2_effect (rounds : Nat) (h : 0 < rounds) : ImplementsSpill (Multi2.newCipher rounds) (fun n => n = 40) 8 4 := Multi2.implements rounds h
/-- C66: with longer slices the bytes after the block are overwritten with zeros. -/
theorem C66_multi2_violated (rounds : Nat) (h : 0 < rounds) : ¬ Implements (Multi2.newCipher rounds) (fun n => n = 40) 8 :=
  (Multi2.implements rounds h).not 40 rfl (by decide) (by decide)
/-- C66: with a negative number of rounds NewCipher succeeds, Encrypt returns, and Decrypt never returns: its loop makes no progress. -/
theorem C66_multi2_hang (rounds : Int) (h : rounds < 0) (key : Bytes) (hk : key.length = 40) : ∃ c : Obj, Multi2.newCipher rounds key = .ok c ∧
    ∀ m (dst src : Slice), 8 ≤ src.len → 8 ≤ dst.len → inexactOverlap { dst with len := 8 } { src with len := 8 } = false →
      (∃ m', c.enc m dst src = .ok m') ∧ c.dec m dst src = .hang := by
  refine ⟨_, if_pos hk, fun m dst src h1 h2 h3 => ?_⟩
  have hn : ¬ (src.len < 8 ∨ dst.len < 8 ∨ inexactOverlap { dst with len := 8 } { src with len := 8 } = true) := by
    rw [h3]
    simp
    omega
  refine ⟨⟨_, (spill_eq ..).trans (if_neg hn)⟩, ?_⟩
  show (if src.len < 8 then Res.panic else if dst.len < 8 then Res.panic
    else if inexactOverlap { dst with len := 8 } { src with len := 8 } = true then Res.panic else _) = Res.hang
  rw [if_neg (by omega), if_neg (by omega), if_neg (by rw [h3]; decide)]
  unfold Multi2.decrypt Multi2.dec
  rw [Multi2.dec_neg _ _ h]
  rfl
/-- multi2_test.go:49-98 -/
example : kat (Multi2.newCipher 128) (hx 40 0x0123456789ABCDEF) (hx 8 1) = .ok (hx 8 0xf89440845e11cf89) := by decide +kernel
example : katD (Multi2.newCipher 216) (hx 40 0x35919d960702e2ce8d0b583cc9c89d59a2ae964e878245ed3f2e62d63635d067b127b906e7562238) (hx 8 0xca84a93475c860e5) = .ok (hx 8 0x1fb46060d0b34fa5) := by decide +kernel
example : katD (Multi2.newCipher (-1)) (hx 40 0) (hx 8 0) = .hang := by decide +kernel

/-- C67, NOEKEON, for `src` shorter than 20 bytes or `dst` of 16 bytes. The full claim (all slices) is false: `C67_noekeon_violated`. -/
theorem C67_noekeon_partial : ImplementsFor (fun dst src => src.len < 20 ∨ dst.len = 16) Noekeon.newCipher (fun n => n = 16) 16 :=
  Noekeon.implements.short (by decide) (by decide)
/-- C67: exactly what the methods write. -/
theorem C67_noekeon_effect : ImplementsSpill Noekeon.newCipher (fun n => n = 16) 16 4 := Noekeon.implements
/-- C67: with longer slices the bytes after the block are overwritten with zeros. -/
theorem C67_noekeon_violated : ¬ Implements Noekeon.newCipher (fun n => n = 16) 16 := Noekeon.implements.not 16 rfl (by decide) (by decide)
/-- noekeon_test.go:52-57 -/
example : kat Noekeon.newCipher (hx 16 0xAA3C8C86D98BF8BE21E0360978FBE490) (hx 16 0xE4966CD313A06CAFD023C9FD45322316) = .ok (hx 16 0xA6ECB8A861FD62D91302FE9E47013FC3) := by decide +kernel
example : katD Noekeon.newCipher (hx 16 0xED43D187217EE0973D76C3372E7DAED3) (hx 16 0x94A5DFF5AE1CBB22ADEBA70DB78290A0) = .ok (hx 16 0xE33832CCF22F2F0A4A8B8F18122017D3) := by decide +kernel

/-- C68, 3-Way -/
theorem C68_threeway : Implements Threeway.newCipher (fun n => n = 12) 12 := Threeway.implements
/-- threeway_test.go -/
example : kat Threeway.newCipher (hx 12 0x0a0c0e10121416181a1c1e20) (hx 12 0x000102030405060708090a0b) = .ok (hx 12 0x46823287358d68f6e034ca62) := by decide +kernel

/-- C69, PRESENT -/
theorem C69_present : Implements Present.newCipher (fun n => n = 10 ∨ n = 16) 8 := Present.implements
/-- present_test.go -/
example : kat Present.newCipher (hx 16 0x12345678901234561234567890123456) (hx 8 0) = .ok (hx 8 0xd9e1206977a3194b) := by decide +kernel
example : kat Present.newCipher (hx 10 0x12345678901234567890) (hx 8 0) = .ok (hx 8 0xb525a26a6aa02e38) := by decide +kernel

end Verif.Cipher
