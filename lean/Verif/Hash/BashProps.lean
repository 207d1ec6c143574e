import Verif.Hash.BashLemmas
/-
C80: hash/bash.  `Write` copies up to 192 bytes into the buffer of which `192 - 2*hs` form a block, and processes all of
them: bytes behind the block enter the state as well.  Splitting a message at other places changes the digest.
-/
namespace Verif.Hash
open Verif.Cipher

/-- Bytes 0, 1, …, n-1. -/
def Bash.count (n : Nat) : Bytes := (List.range n).map (BitVec.ofNat 8)

/-- The same 192 bytes written to `New224()` at once and in two pieces give two digests. -/
theorem C80_bash_split_writes_violated : ∃ d, Bash.new 224 = .ok d ∧
    (Bash.obj Bash.bashF).outputs d [.write (Bash.count 136), .write ((Bash.count 192).drop 136), .sum []] ≠
      (Bash.obj Bash.bashF).outputs d [.write (Bash.count 192), .sum []] := by
  refine ⟨_, rfl, ?_⟩
  decide +kernel

/-- A digest other than the one of STB 34.101.77 for one `Write` of more than a block. -/
theorem C80_bash_long_write_violated : ∃ d, Bash.new 224 = .ok d ∧
    (Bash.obj Bash.bashF).outputs d [.write (Bash.count 192), .sum []] ≠ some [Bash.Spec.bash Bash.bashF 28 (Bash.count 192)] := by
  refine ⟨_, rfl, ?_⟩
  decide +kernel

/-- For every size the constructor accepts, every history in which no `Write` goes past the end of the current block
returns what STB 34.101.77 says of the bytes written.  Missing: longer writes, for which it is false. -/
theorem C80_bash_every_fitting_history_partial (size : Nat) (d : Bash.D) (h : Bash.new size = .ok d) (ops : List Op)
    (hf : Bash.Spec.fits (192 - 2 * (size / 8)) [] ops) :
    (Bash.obj Bash.bashF).outputs d ops = some (expected (Bash.Spec.bash Bash.bashF (size / 8)) [] ops) := by
  rw [Bash.new] at h
  split at h
  · cases h
  · split at h
    · cases h
    · split at h
      · cases h
      · cases h
        obtain ⟨t, e⟩ := Bash.run_good Bash.bashF (size / 8) (by omega) (by omega) ops _ [] (Bash.good_reset _ _ (by omega)) hf
        simp only [Obj.outputs, e]

/-- The sizes accepted: a positive multiple of 8 up to 512 bits. -/
theorem C80_bash_sizes (size : Nat) : (∃ d, Bash.new size = .ok d) ↔ 0 < size ∧ size % 8 = 0 ∧ size ≤ 512 := by
  rw [Bash.new]
  split
  · simp; omega
  · split
    · simp; omega
    · split
      · simp; omega
      · simp; omega

/-- The hypotheses hold of 200 bytes written in three pieces, block end included, to a 224-bit digest. -/
example : (∃ d, Bash.new 224 = .ok d) ∧
    Bash.Spec.fits (192 - 2 * (224 / 8)) [] [.write (Bash.count 100), .sum [], .write (Bash.count 36), .write (Bash.count 64), .sum []] :=
  ⟨⟨_, rfl⟩, by simp [Bash.Spec.fits, Bash.count]⟩

/-- The first two answers of the package's test. -/
example : Bash.Spec.bash Bash.bashF 28 (hx 3 0x1F877C) = hx 28 0xc8b22035a5357c9b31cd13788b7e898ad61d87fb459e5e309def9e9b ∧
    Bash.Spec.bash Bash.bashF 28 (hx 16 0xFDFDFDFDFDFDFDFDFDFDFDFDFDFDFDFD) = hx 28 0x469ad4041d96be92aad4c56b1d5172fb292aff43dd51ff800a6bf97f := by
  decide +kernel

end Verif.Hash
