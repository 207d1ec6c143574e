import Verif.Hash.Gost94Lemmas
/-
C81: GOST R 34.11-94 (hash/gost/gost341194) over the block cipher the caller supplies.
-/
namespace Verif.Hash
open Verif.Cipher

theorem gost94_history (E : Bytes → Bytes → Bytes) (hE : Gost94.IsE E) (ops : List Op) :
    ∃ d', (Gost94.obj E).run Gost94.new ops = .ok (d', expected (Gost94.Spec.hash E 64) [] ops) := by
  obtain ⟨d, e, _⟩ := Obj.run_of_sim (Gost94.obj E) (Gost94.Spec.hash E 64) (Gost94.Holds E)
    (fun d M x h => Gost94.write_holds E hE d M x h)
    (fun d M p h => ⟨d, by simp only [Gost94.obj, Gost94.sum, Gost94.checkSum_eq E hE d M h, Res.bind_ok], h⟩)
    (fun _ _ _ => Gost94.holds_new E) ops Gost94.new [] (Gost94.holds_new E)
  exact ⟨d, e⟩

/-- For every cipher that maps 8-byte blocks to 8-byte blocks, every history returns the RFC 5831 digests of the bytes
written, as long as fewer than `2^61` bytes are written between two `Reset`s. -/
theorem C81_gost94_every_history (E : Bytes → Bytes → Bytes) (hE : ∀ k x : Bytes, k.length = 32 → x.length = 8 → (E k x).length = 8)
    (ops : List Op) (hb : within (2 ^ 61) [] ops) :
    (Gost94.obj E).outputs Gost94.new ops = some (expected (Gost94.Spec.gost94 E) [] ops) := by
  obtain ⟨d, e⟩ := gost94_history E hE ops
  simp only [Obj.outputs, e]
  rw [expected_congr _ _ _ (fun M hM => Gost94.hash_counter E M hM) ops [] hb]

/-- Without that bound the same holds of the function that keeps the bit length modulo `2^64`. -/
theorem C81_gost94_every_history_any_length (E : Bytes → Bytes → Bytes)
    (hE : ∀ k x : Bytes, k.length = 32 → x.length = 8 → (E k x).length = 8) (ops : List Op) :
    (Gost94.obj E).outputs Gost94.new ops = some (expected (Gost94.Spec.hash E 64) [] ops) := by
  obtain ⟨d, e⟩ := gost94_history E hE ops
  simp only [Obj.outputs, e]

/-- The answer of the package's test, whose cipher copies the block, for "nonce-asdfg" in two pieces; and the
hypotheses. -/
example : expected (Gost94.Spec.gost94 fun _ x => x) [] [.write [0x6e, 0x6f, 0x6e, 0x63, 0x65], .write [0x2d, 0x61, 0x73, 0x64, 0x66, 0x67], .sum []] =
    [hx 32 0x08246810594b02216e6f6e633d2d39733c666352565b5b6a344e580c0b4e580c] := by decide +kernel

example : (∀ k x : Bytes, k.length = 32 → x.length = 8 → ((fun _ y => y) k x : Bytes).length = 8) ∧
    within (2 ^ 61) [] [.write [1, 2, 3], .sum [], .reset, .write [4], .sum [5]] := ⟨fun _ _ _ h => h, by simp [within]⟩

end Verif.Hash
