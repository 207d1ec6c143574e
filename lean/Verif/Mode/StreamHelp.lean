import Verif.Mode.CfbLemmas3
import Verif.Mode.OfbLemmas2
/-
Histories of stream calls: combinations of the refinement lemmas used by the property file.
-/
namespace Verif.Mode

section
variable {σ σ' τ τ' : Type} {step : Nat → σ → Mem → Nat → Nat → Nat → Res (Nat × Mem × σ)}
  {R : σ → τ → Prop} {run : τ → Bytes → Bytes × τ}
  {step' : Nat → σ' → Mem → Nat → Nat → Nat → Res (Nat × Mem × σ')}
  {R' : σ' → τ' → Prop} {run' : τ' → Bytes → Bytes × τ'}

/-- Like `StreamOK.calls`, the last piece being unrestricted. -/
theorem StreamOK.calls_last (h : StreamOK step R run) (P : Bytes → Prop)
    (happ : ∀ t a b, P a → run t (a ++ b) = ((run t a).1 ++ (run (run t a).2 b).1, (run (run t a).2 b).2))
    {A : Slice → Slice → Prop} {st st' : σ} {t : τ} {ins outs : List Bytes} (hR : R st t)
    (hc : Calls A (xorKeyStream step) st ins outs st') (hP : ∀ i ∈ ins.dropLast, P i) :
    outs.flatten = (run t ins.flatten).1 ∧ R st' (run t ins.flatten).2 := by
  induction hc generalizing t with
  | nil st => simp [h.nil, hR]
  | cons ha hok htail ih =>
    obtain ⟨_, e1, e2⟩ := h.call_ok hR hok
    cases htail with
    | nil st =>
      simp only [List.flatten_cons, List.flatten_nil, List.append_nil]
      exact ⟨e1, e2⟩
    | cons ha' hok' ht' =>
      rw [List.dropLast_cons_of_ne_nil (by simp)] at hP
      obtain ⟨e3, e4⟩ := ih e2 (fun i hi => hP i (List.mem_cons_of_mem _ hi))
      rw [List.flatten_cons, List.flatten_cons (L := _ :: _), happ _ _ _ (hP _ (List.mem_cons_self ..)), e1, e3]
      exact ⟨rfl, e4⟩

/-- Two histories of the same object fed the same bytes produce the same bytes. -/
theorem StreamOK.pieces (h : StreamOK step R run) (P : Bytes → Prop)
    (happ : ∀ t a b, P a → run t (a ++ b) = ((run t a).1 ++ (run (run t a).2 b).1, (run (run t a).2 b).2))
    {A B : Slice → Slice → Prop} {x x1 x2 : σ} {t : τ} {ins outs ins' outs' : List Bytes} (hR : R x t)
    (h1 : Calls A (xorKeyStream step) x ins outs x1) (hP : ∀ i ∈ ins.dropLast, P i)
    (h2 : Calls B (xorKeyStream step) x ins' outs' x2) (hP' : ∀ i ∈ ins'.dropLast, P i)
    (he : ins.flatten = ins'.flatten) : outs.flatten = outs'.flatten := by
  rw [(h.calls_last P happ hR h1 hP).1, (h.calls_last P happ hR h2 hP').1, he]

/-- Decryption histories undo encryption histories, however both are cut into pieces. -/
theorem StreamOK.undo (h : StreamOK step R run) (h' : StreamOK step' R' run')
    (happ : ∀ t a b, run t (a ++ b) = ((run t a).1 ++ (run (run t a).2 b).1, (run (run t a).2 b).2))
    (happ' : ∀ t a b, run' t (a ++ b) = ((run' t a).1 ++ (run' (run' t a).2 b).1, (run' (run' t a).2 b).2))
    {A B : Slice → Slice → Prop} {x x1 : σ} {y y1 : σ'} {t : τ} {t' : τ'}
    (hinv : ∀ a, (run' t' (run t a).1).1 = a)
    {ins outs ins' outs' : List Bytes} (hR : R x t) (hR' : R' y t')
    (h1 : Calls A (xorKeyStream step) x ins outs x1)
    (h2 : Calls B (xorKeyStream step') y ins' outs' y1)
    (he : ins'.flatten = outs.flatten) : outs'.flatten = ins.flatten := by
  rw [(h'.calls (fun _ => True) (fun t a b _ => happ' t a b) hR' h2 (fun _ _ => trivial)).1, he,
    (h.calls (fun _ => True) (fun t a b _ => happ t a b) hR h1 (fun _ _ => trivial)).1, hinv]

end

end Verif.Mode
