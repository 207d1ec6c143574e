import Verif.Kdf.KbLemmas
import Verif.Kdf.Instances
/-
C86: key derivation in counter, feedback and double-pipeline mode (kdf/kbkdf).
-/
namespace Verif.Kdf
open Verif.Cipher

/-- For every keyed function, key, label, context, counter size from 0 to 8 bytes and length below 2^61 bytes,
`CounterModeKey` returns the SP 800-108 key. -/
theorem C86_counter (P : Prf) (key label context : Bytes) (r n : Nat) (hr : r ≤ 8) (hn : n < 2 ^ 61) :
    Kb.counterModeKey P key label context r n = .ok (Spec.counterMode (P.f key) P.size r label context n) :=
  Kb.counter_eq P key label context r n hr hn

theorem C86_feedback (P : Prf) (key label context iv : Bytes) (r n : Nat) (hr : r ≤ 8) (hn : n < 2 ^ 61) :
    Kb.feedbackModeKey P key label context iv r n = .ok (Spec.feedbackMode (P.f key) P.size r label context iv n) :=
  Kb.feedback_eq P key label context iv r n hr hn

theorem C86_pipeline (P : Prf) (key label context : Bytes) (r n : Nat) (hr : r ≤ 8) (hn : n < 2 ^ 61) :
    Kb.pipelineModeKey P key label context r n = .ok (Spec.pipelineMode (P.f key) P.size r label context n) :=
  Kb.pipeline_eq P key label context r n hr hn

/-- Any other counter size panics, in all three modes. -/
theorem C86_counter_size (P : Prf) (key label context iv : Bytes) (r n : Int) (h : r < 0 ∨ 8 < r) :
    Kb.counterModeKey P key label context r n = .panic ∧ Kb.feedbackModeKey P key label context iv r n = .panic ∧
    Kb.pipelineModeKey P key label context r n = .panic := by
  simp only [Kb.counterModeKey, Kb.feedbackModeKey, Kb.pipelineModeKey, if_pos h, and_self]

theorem outBytes_slice (T : Nat → Bytes) (sz L i : Nat) (hs : 0 < sz) (h : ∀ i, (T i).length = sz) (hi : (i + 1) * sz ≤ L) :
    ((outBytes T sz L).drop (i * sz)).take sz = T i := by
  have hn : i + 1 ≤ (L + sz - 1) / sz := by rw [Nat.le_div_iff_mul_le hs]; omega
  obtain ⟨r, hr⟩ := chunks_prefix T (i + 1) _ hn
  have e : (i + 1) * sz = i * sz + sz := Nat.succ_mul i sz
  rw [outBytes, hr, chunks_succ, List.drop_take, List.append_assoc, List.drop_append_of_le_length (Nat.le_of_eq (chunks_length T sz h i).symm),
    List.drop_of_length_le (Nat.le_of_eq (chunks_length T sz h i)), List.nil_append, List.take_take, List.take_append_of_le_length (by rw [h]; omega),
    List.take_of_length_le (by rw [h]; omega)]

/-- SP 800-108 stops with an error when the counter of `r` bytes cannot number the blocks.  `CounterModeKey` lets the
counter wrap: with `r` bytes of counter block `256 ^ r + i` repeats block `i`, and with `r = 0` all blocks are equal. -/
theorem C86_counter_wraps_violated (P : Prf) (key label context : Bytes) (r n i : Nat) (hr : r ≤ 8) (hn : n < 2 ^ 61)
    (h : (256 ^ r + i + 1) * P.size ≤ n) :
    ∃ out, Kb.counterModeKey P key label context r n = .ok out ∧
      (out.drop ((256 ^ r + i) * P.size)).take P.size = (out.drop (i * P.size)).take P.size := by
  refine ⟨_, Kb.counter_eq P key label context r n hr hn, ?_⟩
  have hi : (i + 1) * P.size ≤ n := Nat.le_trans (Nat.mul_le_mul_right _ (by rw [Nat.add_assoc]; exact Nat.le_add_left _ _)) h
  rw [Spec.counterMode, outBytes_slice _ _ _ _ P.pos (fun _ => P.len _ _) h, outBytes_slice _ _ _ _ P.pos (fun _ => P.len _ _) hi]
  have : hx r (256 ^ r + i + 1) = hx r (i + 1) := by
    rw [← Kb.hx_mod, Nat.add_assoc, Nat.add_mod_left, Kb.hx_mod]
  rw [this]

/-- Different requested lengths give unrelated keys, because the length enters every block: the forms of two lengths
differ. -/
theorem C86_lengths_separated (n n' : Nat) (h : Spec.shortest n = Spec.shortest n') : n = n' := by
  have e (v : Nat) : Kb.beN (Spec.shortest v) = v := by
    rw [Spec.shortest, Kb.beN_hx, Nat.mod_eq_of_lt]
    have h1 : v < 2 ^ (v.log2 + 1) := Nat.lt_log2_self
    have h2 : (256 : Nat) ^ (v.log2 / 8 + 1) = 2 ^ (8 * (v.log2 / 8 + 1)) := by rw [Nat.pow_mul]
    rw [h2]
    exact Nat.lt_of_lt_of_le h1 (Nat.pow_le_pow_right (by decide) (by omega))
  rw [← e n, h, e]

/-- The hypotheses hold for HMAC over Streebog-256 with a two-byte counter; the wrap is reached with one byte of
counter by a key of 8224 bytes. -/
example : streebog256.hmac.size = 32 ∧ (2 : Nat) ≤ 8 ∧ (100 : Nat) < 2 ^ 61 ∧ (256 ^ 1 + 0 + 1) * streebog256.hmac.size ≤ 8224 := by
  refine ⟨rfl, by decide, by decide, ?_⟩
  have : streebog256.hmac.size = 32 := rfl
  rw [this]; decide

def kbTest : Bool :=
  (match Kb.pipelineModeKey fast256.hmac [1, 2] [3] [4] 2 40 with | .ok k => k.length == 40 | _ => false) &&
  (match Kb.counterModeKey fast256.hmac [1, 2] [3] [4] 3 40, Kb.feedbackModeKey fast256.hmac [1, 2] [3] [4] [] 3 40 with
    | .ok k, .ok k' => k.take 32 == k'.take 32 && k.drop 32 != k'.drop 32 | _, _ => false)

/-- With an empty initial value the first blocks of counter and feedback mode agree and the second ones differ. -/
example : kbTest = true := by decide +kernel

end Verif.Kdf
