import Verif.Stream.RabbitProps
import Verif.Stream.TriviumProps
import Verif.Stream.HcProps
import Verif.Stream.PanamaProps
import Verif.Stream.KCipher2Props
/-
Decryption, for the stream ciphers of /repo/cipher.
-/
namespace Verif.Strm
open Verif.Mode

/-- **C132** (decryption): for Rabbit, Trivium, HC-128, HC-256, Panama and KCipher-2, an object made from the same key and IV turns any
output of a first object back into the input, wherever the two sides cut the data (Panama: calls of less than 2^31 bytes; KCipher-2:
calls in place). -/
theorem C132_roundtrip_partial (key iv : Bytes) (ins outs ins' outs' : List Bytes) (hf : ins'.flatten = outs.flatten) :
    (∀ o y y', Rabbit.newCipher key iv = .ok o → Calls Any Rabbit.xorKS o ins outs y → Calls Any Rabbit.xorKS o ins' outs' y' →
      outs'.flatten = ins.flatten) ∧
    (∀ o y y', Trivium.newCipher key iv = .ok o → Calls Any Trivium.xorKS o ins outs y → Calls Any Trivium.xorKS o ins' outs' y' →
      outs'.flatten = ins.flatten) ∧
    (∀ o y y', Hc.newCipher key iv = .ok (.c128 o) → Calls Any Hc.xorKS128 o ins outs y → Calls Any Hc.xorKS128 o ins' outs' y' →
      outs'.flatten = ins.flatten) ∧
    (∀ o y y', Hc.newCipher key iv = .ok (.c256 o) → Calls Any Hc.xorKS256 o ins outs y → Calls Any Hc.xorKS256 o ins' outs' y' →
      outs'.flatten = ins.flatten) ∧
    (∀ o y y', Panama.newCipher key = .ok o → Calls (fun _ src => src.len < 2 ^ 31) Panama.xorKS o ins outs y →
      Calls (fun _ src => src.len < 2 ^ 31) Panama.xorKS o ins' outs' y' → outs'.flatten = ins.flatten) ∧
    (∀ o y y', KCipher2.newCipher key iv = .ok o → Calls (fun dst src => dst.ptr = src.ptr) KCipher2.xorKS o ins outs y →
      Calls (fun dst src => dst.ptr = src.ptr) KCipher2.xorKS o ins' outs' y' → outs'.flatten = ins.flatten) := by
  refine ⟨?_, ?_, ?_, ?_, ?_, ?_⟩
  · intro o y y' h he hd
    obtain ⟨h1, h2⟩ := Rabbit.C132_rabbit_stream key iv
    by_cases hc : key.length = 16 ∧ (iv.length = 0 ∨ iv.length = 8)
    · obtain ⟨o', e, hs⟩ := h1 hc
      rw [h] at e; cases e
      exact hs.roundtrip hs he hd hf
    · rw [h2 hc] at h; cases h
  · intro o y y' h he hd
    obtain ⟨h1, h2⟩ := Trivium.C133_trivium key iv
    by_cases hc : key.length = 10 ∧ iv.length = 10
    · obtain ⟨o', e, hs⟩ := h1 hc
      rw [h] at e; cases e
      exact hs.roundtrip hs he hd hf
    · rw [h2 hc] at h; cases h
  · intro o y y' h he hd
    obtain ⟨h1, h2, h3⟩ := Hc.C133_hc key iv
    by_cases hc : key.length = 16 ∧ iv.length = 16
    · obtain ⟨o', e, hs⟩ := h1 hc
      rw [h] at e; cases e
      exact hs.roundtrip hs he hd hf
    · by_cases hc' : key.length = 32 ∧ iv.length = 32
      · obtain ⟨o', e, _⟩ := h2 hc'
        rw [h] at e; cases e
      · rw [h3 ⟨hc, hc'⟩] at h; cases h
  · intro o y y' h he hd
    obtain ⟨h1, h2, h3⟩ := Hc.C133_hc key iv
    by_cases hc' : key.length = 32 ∧ iv.length = 32
    · obtain ⟨o', e, hs⟩ := h2 hc'
      rw [h] at e; cases e
      exact hs.roundtrip hs he hd hf
    · by_cases hc : key.length = 16 ∧ iv.length = 16
      · obtain ⟨o', e, _⟩ := h1 hc
        rw [h] at e; cases e
      · rw [h3 ⟨hc, hc'⟩] at h; cases h
  · intro o y y' h he hd
    obtain ⟨h2, h1⟩ := Panama.C133_panama_partial key
    by_cases hc : key.length = 32
    · obtain ⟨o', e, hs⟩ := h1 hc
      rw [h] at e; cases e
      exact hs.roundtrip hs he hd hf
    · rw [h2 hc] at h; cases h
  · intro o y y' h he hd
    obtain ⟨h2, h1⟩ := KCipher2.C133_kcipher2_partial key iv
    by_cases hc : key.length = 16
    · by_cases hc' : iv.length = 16
      · obtain ⟨o', A, B, L1, R1, L2, R2, e, _, hs⟩ := h1 hc hc'
        rw [h] at e; cases e
        exact hs.roundtrip hs he hd hf
      · rw [h2 (Or.inr hc')] at h; cases h
    · rw [h2 (Or.inl hc)] at h; cases h

/-- Such histories exist: two calls in one buffer. -/
example (o : Panama.Obj) (h : Panama.newCipher (List.replicate 32 1) = .ok o) : ∃ ins outs y,
    Calls (fun _ src => src.len < 2 ^ 31) Panama.xorKS o ins outs y ∧ ins.flatten = [1, 2, 3] := by
  obtain ⟨o', e, hs⟩ := (Panama.C133_panama_partial (List.replicate 32 1)).2 rfl
  rw [h] at e; cases e
  let m : Mem := fun a => if a = 0 then 1 else if a = 1 then 2 else 3
  obtain ⟨y1, e1⟩ := ((hs [] [] o (.nil _)).2 m ⟨0, 2, 2⟩ ⟨0, 2, 2⟩ (by decide)).1 (by simp [NoPartialOverlap, inexactOverlap])
  have c1 := Calls.cons (A := fun _ (src : Slice) => src.len < 2 ^ 31) (by decide) e1 (.nil _)
  obtain ⟨y2, e2⟩ := ((hs _ _ _ c1).2 m ⟨2, 1, 1⟩ ⟨2, 1, 1⟩ (by decide)).1 (by simp [NoPartialOverlap, inexactOverlap])
  exact ⟨_, _, _, .cons (A := fun _ (src : Slice) => src.len < 2 ^ 31) (by decide) e1 (.cons (by decide) e2 (.nil _)), rfl⟩

end Verif.Strm
