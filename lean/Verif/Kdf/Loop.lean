import Verif.Kdf.Common
/-
The loop `for off := 0; off < length; { …; copy(out[off:], K); off += len(K) }` that several packages share, with its
meaning.
-/
namespace Verif.Kdf

/-- `step` computes the next state and the bytes `K`; running out of fuel is `hang`. -/
def genLoop {σ : Type} (step : σ → σ × Bytes) (L : Nat) : Nat → σ → Bytes → Nat → Res Bytes
  | 0, _, _, _ => .hang
  | fuel + 1, s, out, off =>
      if off < L then
        let r := step s
        genLoop step L fuel r.1 (copyAt out off r.2) (off + r.2.length)
      else .ok out

theorem genLoop_eq {σ : Type} (step : σ → σ × Bytes) (st : Nat → σ) (T : Nat → Bytes) (sz L : Nat) (hs : 0 < sz)
    (hT : ∀ i, (T i).length = sz) (hstep : ∀ i, step (st i) = (st (i + 1), T i)) :
    ∀ (fuel m : Nat), L - m * sz < fuel → genLoop step L fuel (st m) (fit L (chunks T m)) (m * sz) = .ok (outBytes T sz L)
  | 0, m, h => by omega
  | fuel + 1, m, h => by
    rw [genLoop]
    by_cases hc : m * sz < L
    · rw [if_pos hc, hstep m]
      have hl := chunks_length T sz hT m
      have e := copyAt_fit L (chunks T m) (T m) (by rw [hl]; omega)
      rw [hl] at e
      simp only [e, hT, ← chunks_succ]
      have e2 : m * sz + sz = (m + 1) * sz := (Nat.succ_mul m sz).symm
      rw [e2]
      exact genLoop_eq step st T sz L hs hT hstep fuel (m + 1) (by rw [Nat.succ_mul]; omega)
    · rw [if_neg hc]
      have hl := chunks_length T sz hT m
      rw [fit_full L _ (by rw [hl]; omega), take_chunks T sz L m hs hT (by omega)]

end Verif.Kdf
