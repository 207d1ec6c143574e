import Verif.Mode.StreamHelp
/-
Histories for the streams with side conditions (GOST CFB with key meshing, GOST R 34.13 CFB).
-/
namespace Verif.Mode

section
variable {σ τ : Type} {C : Nat → Nat → Nat → Prop} {P : Nat → Prop}
  {step : Nat → σ → Mem → Nat → Nat → Nat → Res (Nat × Mem × σ)} {R : σ → τ → Prop} {run : τ → Bytes → Bytes × τ}

theorem StreamOKG.call_ok (h : StreamOKG C P step (fun _ => R) run) {st st' : σ} {t : τ} (hR : R st t) {m m' : Mem}
    {dst src : Slice} (hC : src.len = 0 ∨ C dst.ptr src.ptr src.len) (hP : P src.len)
    (hok : xorKeyStream step st m dst src = .ok (m', st')) :
    m' = m.write dst.ptr (run t (m.read src.ptr src.len)).1 ∧
      m'.read dst.ptr src.len = (run t (m.read src.ptr src.len)).1 ∧
      R st' (run t (m.read src.ptr src.len)).2 := by
  obtain ⟨h2, h3⟩ := xorKeyStream_ok_only hok
  rcases hC with h0 | hC
  · unfold xorKeyStream at hok
    unfold NoPartialOverlap at h3
    rw [if_neg (by omega), h3] at hok
    simp only [Bool.false_eq_true, if_false, h0, segLoop, if_true] at hok
    obtain ⟨rfl, rfl⟩ := Prod.mk.inj (Res.ok.inj hok)
    rw [h0]
    simp [Mem.read, h.nil, Mem.write_nil, hR]
  · obtain ⟨st'', e, e2, e3⟩ := h.call m dst src hR h2 h3 hC hP
    rw [hok] at e
    obtain ⟨rfl, rfl⟩ := Prod.mk.inj (Res.ok.inj e)
    exact ⟨rfl, Mem.read_write_self' _ _ _ _ e3, e2⟩

theorem StreamOKG.calls (h : StreamOKG C P step (fun _ => R) run)
    (happ : ∀ t a b, P a.length → run t (a ++ b) = ((run t a).1 ++ (run (run t a).2 b).1, (run (run t a).2 b).2))
    {A : Slice → Slice → Prop} (hA : ∀ dst src, NoPartialOverlap dst src → A dst src →
      src.len = 0 ∨ C dst.ptr src.ptr src.len)
    {st st' : σ} {t : τ} {ins outs : List Bytes} (hR : R st t)
    (hc : Calls A (xorKeyStream step) st ins outs st') (hP : ∀ i ∈ ins, P i.length) :
    outs.flatten = (run t ins.flatten).1 ∧ R st' (run t ins.flatten).2 := by
  induction hc generalizing t with
  | nil st => simp [h.nil, hR]
  | cons ha hok _ ih =>
    have hp := hP _ (List.mem_cons_self ..)
    rw [Mem.read_length] at hp
    obtain ⟨_, e1, e2⟩ := h.call_ok hR (hA _ _ (xorKeyStream_ok_only hok).2 ha) hp hok
    obtain ⟨e3, e4⟩ := ih e2 (fun i hi => hP i (by simp [hi]))
    simp only [List.flatten_cons]
    rw [happ _ _ _ (by rw [Mem.read_length]; exact hp), e1, e3]
    exact ⟨rfl, e4⟩

theorem StreamOKG.calls_exist (h : StreamOKG C P step (fun _ => R) run)
    (hC : ∀ n, C n 0 n) (ins : List Bytes) (hP : ∀ i ∈ ins, P i.length) (st : σ) (t : τ) (hR : R st t) :
    ∃ outs st', Calls NoOverlap (xorKeyStream step) st ins outs st' := by
  induction ins generalizing st t with
  | nil => exact ⟨[], st, .nil st⟩
  | cons i ins ih =>
    have hno : NoOverlap ⟨i.length, i.length, i.length⟩ ⟨0, i.length, i.length⟩ := by
      simp [NoOverlap, anyOverlap]; omega
    have hr : (Mem.write (fun _ => 0) 0 i).read 0 i.length = i := Mem.read_write_self _ _ _
    obtain ⟨st1, e1, e2, _⟩ := h.call (Mem.write (fun _ => 0) 0 i)
      ⟨i.length, i.length, i.length⟩ ⟨0, i.length, i.length⟩ hR (Nat.le_refl _) hno.noPartial (hC _)
      (hP _ (List.mem_cons_self ..))
    obtain ⟨outs, st', t⟩ := ih (fun i hi => hP i (by simp [hi])) _ _ e2
    have := Calls.cons (A := NoOverlap) hno e1 t
    simp only [hr] at this
    exact ⟨_, _, this⟩

end

/-- A loop whose step consumes exactly `k` bytes and refuses fewer succeeds only on multiples of `k`. -/
theorem segLoop_dvd {σ : Type} (step : σ → Mem → Nat → Nat → Nat → Res (Nat × Mem × σ)) (k : Nat)
    (hs : ∀ st m d s l n m' st', step st m d s l = .ok (n, m', st') → n = k ∧ k ≤ l)
    (fuel : Nat) (st : σ) (m : Mem) (d s l : Nat) {r : Mem × σ} (h : segLoop step fuel st m d s l = .ok r) : k ∣ l := by
  induction fuel generalizing st m d s l with
  | zero =>
    rw [segLoop] at h
    split at h
    · rename_i h0; subst h0; exact Nat.dvd_zero _
    · cases h
  | succ fuel ih =>
    rw [segLoop] at h
    split at h
    · rename_i h0; subst h0; exact Nat.dvd_zero _
    · cases e : step st m d s l with
      | ok r1 =>
        obtain ⟨n, m1, st1⟩ := r1
        rw [e] at h
        simp only [Res.bind_ok] at h
        obtain ⟨rfl, hl⟩ := hs _ _ _ _ _ _ _ _ e
        have := ih _ _ _ _ _ h
        have h2 := Nat.dvd_add this (Nat.dvd_refl n)
        rwa [Nat.sub_add_cancel hl] at h2
      | err => rw [e] at h; cases h
      | panic => rw [e] at h; cases h
      | hang => rw [e] at h; cases h

theorem gcfbStep_ok_only {newKey : Bytes → Option BlockCipher} {bs : Nat} {dec : Bool} {e : Nat} {x x' : Gcfb}
    {m m' : Mem} {d s l n : Nat} (h : gcfbStep newKey bs dec e x m d s l = .ok (n, m', x')) : n = bs ∧ bs ≤ l := by
  unfold gcfbStep at h
  have key : ∀ y : Gcfb, ((if l < bs then Res.panic else
      Res.ok (bs, m.write d (xorb (m.read s bs) (y.eng.E y.fb)), (⟨y.eng, (if dec then m.read s bs else xorb (m.read s bs) (y.eng.E y.fb)), y.key, y.iv, y.counter + bs⟩ : Gcfb))) = Res.ok (n, m', x')) →
      n = bs ∧ bs ≤ l := by
    intro y hy
    split at hy
    · cases hy
    · rename_i hl
      exact ⟨(Prod.mk.inj (Res.ok.inj hy)).1.symm, by omega⟩
  by_cases hc : x.counter > 0 ∧ x.counter % 1024 = 0
  · simp only [if_pos hc] at h
    cases hm : gcfbMesh newKey x with
    | ok y => rw [hm] at h; simp only [Res.bind_ok] at h; exact key y h
    | err => rw [hm] at h; cases h
    | panic => rw [hm] at h; cases h
    | hang => rw [hm] at h; cases h
  · simp only [if_neg hc, Res.bind_ok] at h
    exact key x h

theorem gcfbXor_dvd {newKey : Bytes → Option BlockCipher} {bs : Nat} {dec : Bool} {x : Gcfb} {m : Mem}
    {dst src : Slice} {r : Mem × Gcfb} (h : gcfbXor newKey bs dec x m dst src = .ok r) : bs ∣ src.len := by
  unfold gcfbXor xorKeyStream at h
  split at h
  · cases h
  · split at h
    · cases h
    · exact segLoop_dvd _ bs (fun _ _ _ _ _ _ _ _ e => gcfbStep_ok_only e) _ _ _ _ _ _ h

theorem gcfb_calls_dvd {newKey : Bytes → Option BlockCipher} {bs : Nat} {dec : Bool} {A : Slice → Slice → Prop}
    {x x1 : Gcfb} {ins outs : List Bytes} (h : Calls A (gcfbXor newKey bs dec) x ins outs x1) :
    ∀ i ∈ ins, bs ∣ i.length := by
  induction h with
  | nil st => simp
  | cons ha hok _ ih =>
    intro i hi
    rcases List.mem_cons.mp hi with rfl | hi
    · rw [Mem.read_length]; exact gcfbXor_dvd hok
    · exact ih i hi

/-- A source that is not a multiple of the block panics (it does not hang). -/
theorem gcfb_panic (newKey : Bytes → Option BlockCipher) (hk : Key32 newKey) (dec : Bool) (e : Nat) (fuel : Nat)
    (x : Gcfb) (hI : GcfbI newKey x) (m : Mem) (d s l : Nat) (hf : l ≤ fuel) (hl : ¬ 8 ∣ l) :
    segLoop (gcfbStep newKey 8 dec e) fuel x m d s l = .panic := by
  induction fuel generalizing x m d s l with
  | zero => exact absurd (by rw [show l = 0 by omega]; exact Nat.dvd_zero _) hl
  | succ fuel ih =>
    have h0 : l ≠ 0 := by rintro rfl; exact hl (Nat.dvd_zero _)
    rw [segLoop, if_neg h0]
    have hm : ∃ y, (if x.counter > 0 ∧ x.counter % 1024 = 0 then gcfbMesh newKey x else .ok x) = .ok y ∧
        GcfbI newKey y := by
      split
      · obtain ⟨nb, _, _, e1, e2⟩ := gcfb_mesh_ok newKey hk x hI
        exact ⟨_, e1, e2⟩
      · exact ⟨x, rfl, hI⟩
    obtain ⟨y, e1, hy⟩ := hm
    have hst : gcfbStep newKey 8 dec e x m d s l = (if l < 8 then Res.panic else
      Res.ok (8, m.write d (xorb (m.read s 8) (y.eng.E y.fb)), (⟨y.eng, (if dec then m.read s 8 else xorb (m.read s 8) (y.eng.E y.fb)), y.key, y.iv, y.counter + 8⟩ : Gcfb))) := by
      unfold gcfbStep
      by_cases hc : x.counter > 0 ∧ x.counter % 1024 = 0
      · rw [if_pos hc] at e1
        simp only [if_pos hc, e1, Res.bind_ok]
      · rw [if_neg hc] at e1
        obtain rfl := Res.ok.inj e1
        simp only [if_neg hc, Res.bind_ok]
    rw [hst]
    by_cases h8 : l < 8
    · rw [if_pos h8]; rfl
    · rw [if_neg h8]
      simp only [Res.bind_ok]
      apply ih
      · have hE : (y.eng.E y.fb).length = 8 := by rw [y.eng.lenE _ (by rw [hy.fb, hy.bs]), hy.bs]
        refine ⟨hy.eng, hy.bs, ?_, hy.iv, hy.key⟩
        simp only
        split <;> simp [hE]
      · omega
      · intro hd
        apply hl
        have := Nat.dvd_add hd (Nat.dvd_refl 8)
        rwa [Nat.sub_add_cancel (by omega)] at this

/-- One call of GOST R 34.13 CFB with segments of zero bytes never returns. -/
theorem g3413cfb_hang (c : BlockCipher) (dec : Bool) (x : Cfb) (hu : x.used = 0) (hn : x.next.length = 2 * c.bs)
    (m : Mem) (dst src : Slice) (h2 : src.len ≤ dst.len) (h3 : NoPartialOverlap dst src) (h0 : src.len ≠ 0) :
    g3413cfbXor c 0 dec x m dst src = .hang := by
  unfold g3413cfbXor xorKeyStream
  unfold NoPartialOverlap at h3
  rw [if_neg (by omega), h3]
  simp only [Bool.false_eq_true, if_false]
  apply segLoop_hang_of_stuck _ (fun st => st.used = 0 ∧ st.next.length = 2 * c.bs) _ _ _ _ _ _ _ ⟨hu, hn⟩ h0
  rintro ⟨next, out, used⟩ m d s l ⟨h1, h2⟩
  simp only at h1 h2
  subst h1
  unfold g3413cfbStep
  simp only [if_true]
  rw [if_neg (by omega), if_neg (by omega), if_neg (by omega)]
  refine ⟨_, _, by rw [Nat.min_zero], rfl, ?_⟩
  simp [copyAt_length, h2]

theorem segLoop_zero {σ : Type} (step : σ → Mem → Nat → Nat → Nat → Res (Nat × Mem × σ)) (f : Nat) (st : σ)
    (m : Mem) (d s : Nat) : segLoop step f st m d s 0 = .ok (m, st) := by
  cases f <;> simp [segLoop]

/-- What a short call leaves behind. -/
theorem g3413cfb_short (c : BlockCipher) (sg : Nat) (dec : Bool) (x : Cfb) (hle : sg ≤ c.bs) (hu : x.used = sg)
    (hn : x.next.length = 2 * c.bs) (m : Mem) (dst src : Slice) (hl : src.len < sg) (h0 : src.len ≠ 0)
    (m' : Mem) (x' : Cfb) (h : g3413cfbXor c sg dec x m dst src = .ok (m', x')) :
    x'.used = src.len ∧ x'.out.length = c.bs := by
  have hE : (c.E (x.next.take c.bs)).length = c.bs := c.lenE _ (by simp; omega)
  unfold g3413cfbXor xorKeyStream at h
  split at h
  · cases h
  · split at h
    · cases h
    · obtain ⟨k, hk⟩ : ∃ k, src.len = k + 1 := ⟨src.len - 1, by omega⟩
      rw [hk, segLoop, if_neg (by omega)] at h
      unfold g3413cfbStep at h
      simp only [if_pos hu] at h
      rw [if_neg (by omega), if_neg (by omega), if_neg (by omega)] at h
      simp only [Res.bind_ok] at h
      rw [Nat.min_eq_left (by omega), Nat.sub_self] at h
      rw [segLoop_zero] at h
      obtain ⟨_, rfl⟩ := Prod.mk.inj (Res.ok.inj h)
      exact ⟨by simp [hk], hE⟩

end Verif.Mode
