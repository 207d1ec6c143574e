import Verif.Hash.Stream
/-
Digests that keep the pending bytes in a slice: `h.buf = append(h.buf, data...)`, then a loop takes whole blocks off
its front.
-/
namespace Verif.Hash

/-- `for len(h.buf) >= bs { … h.buf[:bs] …; h.buf = h.buf[bs:] }`; the first argument bounds the iterations. -/
def appLoop {σ : Type} (bs : Nat) (blk : σ → Bytes → σ) : Nat → σ → Bytes → Res (σ × Bytes)
  | 0, _, _ => .hang
  | f + 1, s, buf => if buf.length ≥ bs then appLoop bs blk f (blk s (buf.take bs)) (buf.drop bs) else .ok (s, buf)

/-- `Write`: append, then the loop. -/
def appWrite {σ : Type} (bs : Nat) (blk : σ → Bytes → σ) (s : σ) (buf p : Bytes) : Res (σ × Bytes) :=
  appLoop bs blk ((buf ++ p).length + 1) s (buf ++ p)

theorem appLoop_eq {σ : Type} (bs : Nat) (hb : 0 < bs) (blk : σ → Bytes → σ) (f : Nat) : ∀ (s : σ) (buf : Bytes), buf.length < f →
    appLoop bs blk f s buf = .ok (absorb bs blk s buf, tailOf bs buf) := by
  induction f with
  | zero => intro s buf h; omega
  | succ f ih =>
    intro s buf h
    rw [appLoop]
    by_cases hc : buf.length ≥ bs
    · rw [if_pos hc, ih _ _ (by rw [List.length_drop]; omega)]
      have hl : (buf.take bs).length = bs := by rw [List.length_take]; omega
      have h1 := absorb_split bs hb blk s (buf.take bs) (buf.drop bs)
      have h2 := tailOf_append bs hb (buf.take bs) (buf.drop bs)
      rw [List.take_append_drop, tailOf_one bs hb _ hl, List.nil_append] at h1 h2
      rw [h1, h2, absorb_one bs hb _ _ _ hl]
    · rw [if_neg hc, absorb_short _ _ _ _ (by omega), tailOf_short _ _ (by omega)]

/-- The invariant of such a digest is kept by `Write`. -/
theorem appWrite_eq {σ : Type} (bs : Nat) (hb : 0 < bs) (blk : σ → Bytes → σ) (iv : σ) (M p : Bytes) :
    appWrite bs blk (absorb bs blk iv M) (tailOf bs M) p = .ok (absorb bs blk iv (M ++ p), tailOf bs (M ++ p)) := by
  rw [appWrite, appLoop_eq bs hb blk _ _ _ (Nat.lt_succ_self _), ← absorb_split bs hb, ← tailOf_append bs hb]

/-- The number of bytes written since the last `Reset` stays below `B`. -/
def within (B : Nat) : Bytes → List Op → Prop
  | M, [] => M.length < B
  | M, .write x :: ops => within B (M ++ x) ops
  | M, .sum _ :: ops => M.length < B ∧ within B M ops
  | M, .reset :: ops => M.length < B ∧ within B [] ops

theorem expected_congr (f g : Bytes → Bytes) (B : Nat) (h : ∀ M : Bytes, M.length < B → f M = g M) (ops : List Op) :
    ∀ M : Bytes, within B M ops → expected f M ops = expected g M ops := by
  induction ops with
  | nil => intro M _; rfl
  | cons op ops ih =>
    intro M hw
    cases op with
    | write x => exact ih _ hw
    | sum p => simp only [expected, h M hw.1, ih _ hw.2]
    | reset => exact ih _ hw.2

end Verif.Hash
