import Verif.Go.Basic
/-
What a caller of a Go `hash.Hash` does and sees.  An object is its state plus the three methods; a history is any
sequence of `Write`, `Sum` and `Reset` calls.
-/
namespace Verif.Hash

/-- A call on a `hash.Hash`. -/
inductive Op where
  /-- `h.Write(x)` -/
  | write (x : Bytes)
  /-- `h.Sum(p)` -/
  | sum (p : Bytes)
  /-- `h.Reset()` -/
  | reset
deriving DecidableEq

/-- The methods of a `hash.Hash` object with state `σ`.  `Sum` may change the state: whether it does is a property
of the code. -/
structure Obj (σ : Type) where
  write : σ → Bytes → Res σ
  sum : σ → Bytes → Res (σ × Bytes)
  reset : σ → σ

/-- Perform the calls in order and collect what the `Sum` calls return. -/
def Obj.run {σ : Type} (o : Obj σ) : σ → List Op → Res (σ × List Bytes)
  | s, [] => .ok (s, [])
  | s, .write x :: ops => do o.run (← o.write s x) ops
  | s, .sum p :: ops => do
      let r ← o.sum s p
      let t ← o.run r.1 ops
      .ok (t.1, r.2 :: t.2)
  | s, .reset :: ops => o.run (o.reset s) ops

/-- What the `Sum` calls returned, if no call panicked. -/
def Obj.outputs {σ : Type} (o : Obj σ) (s : σ) (ops : List Op) : Option (List Bytes) :=
  match o.run s ops with
  | .ok t => some t.2
  | _ => none

/-- What the `Sum` calls of a history have to return when `M` has been written so far and the object computes the
function `f` of the bytes written since the last `Reset`. -/
def expected (f : Bytes → Bytes) : Bytes → List Op → List Bytes
  | _, [] => []
  | M, .write x :: ops => expected f (M ++ x) ops
  | M, .sum p :: ops => (p ++ f M) :: expected f M ops
  | _, .reset :: ops => expected f [] ops

/-- Bytes written since the last `Reset`, after a history. -/
def written : Bytes → List Op → Bytes
  | M, [] => M
  | M, .write x :: ops => written (M ++ x) ops
  | M, .sum _ :: ops => written M ops
  | _, .reset :: ops => written [] ops

/-- Simulation: if `R s M` says that state `s` holds the message `M` and all three methods respect it, every history
returns what is expected. -/
theorem Obj.run_of_sim {σ : Type} (o : Obj σ) (f : Bytes → Bytes) (R : σ → Bytes → Prop)
    (hw : ∀ s M x, R s M → ∃ s', o.write s x = .ok s' ∧ R s' (M ++ x))
    (hs : ∀ s M p, R s M → ∃ s', o.sum s p = .ok (s', p ++ f M) ∧ R s' M)
    (hr : ∀ s M, R s M → R (o.reset s) []) (ops : List Op) :
    ∀ s M, R s M → ∃ s', o.run s ops = .ok (s', expected f M ops) ∧ R s' (written M ops) := by
  induction ops with
  | nil => intro s M h; exact ⟨s, rfl, h⟩
  | cons op ops ih =>
    intro s M h
    cases op with
    | write x =>
      obtain ⟨s', e, h'⟩ := hw s M x h
      obtain ⟨t, e2, h2⟩ := ih s' _ h'
      exact ⟨t, by simp only [Obj.run, e, Res.bind_ok]; exact e2, h2⟩
    | sum p =>
      obtain ⟨s', e, h'⟩ := hs s M p h
      obtain ⟨t, e2, h2⟩ := ih s' _ h'
      exact ⟨t, by simp only [Obj.run, e, Res.bind_ok, e2]; rfl, h2⟩
    | reset =>
      obtain ⟨t, e2, h2⟩ := ih (o.reset s) _ (hr s M h)
      exact ⟨t, e2, h2⟩

end Verif.Hash
