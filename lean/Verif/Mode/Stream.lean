import Verif.Mode.Blocks
/-
The generic `XORKeyStream` and the lemmas that turn it into a function on byte strings.
-/
namespace Verif.Mode

/-- The shape of every `XORKeyStream(dst, src)` in /repo/mode: the length check, the overlap check, then the
loop.  `step slack` is one iteration; `slack = len(dst) - len(src)` is constant through the loop and needed
because some modes copy from `dst` without bounding by `len(src)`. -/
def xorKeyStream {σ : Type} (step : Nat → σ → Mem → Nat → Nat → Nat → Res (Nat × Mem × σ))
    (st : σ) (m : Mem) (dst src : Slice) : Res (Mem × σ) :=
  if dst.len < src.len then .panic
  else if inexactOverlap ⟨dst.ptr, src.len, dst.cap⟩ src then .panic
  else segLoop (step (dst.len - src.len)) src.len st m dst.ptr src.ptr src.len

/-- A stream step implements the abstract stream function `run` on states related by `R`. -/
structure StreamOK {σ τ : Type} (step : Nat → σ → Mem → Nat → Nat → Nat → Res (Nat × Mem × σ))
    (R : σ → τ → Prop) (run : τ → Bytes → Bytes × τ) : Prop where
  nil : ∀ t, run t [] = ([], t)
  step_ok : ∀ e st t m d s l, R st t → 0 < l → SameOrDisjoint d s l →
    ∃ n o st' t', step e st m d s l = .ok (n, m.write d o, st') ∧ 1 ≤ n ∧ n ≤ l ∧ o.length = n ∧
      R st' t' ∧
      run t (m.read s l) = (o ++ (run t' (m.read (s + n) (l - n))).1, (run t' (m.read (s + n) (l - n))).2)

section
variable {σ τ : Type} {step : Nat → σ → Mem → Nat → Nat → Nat → Res (Nat × Mem × σ)}
  {R : σ → τ → Prop} {run : τ → Bytes → Bytes × τ}

/-- One call. -/
theorem StreamOK.call (h : StreamOK step R run) {st : σ} {t : τ} (hR : R st t) (m : Mem) (dst src : Slice)
    (h2 : src.len ≤ dst.len) (h3 : NoPartialOverlap dst src) :
    ∃ st', xorKeyStream step st m dst src =
        .ok (m.write dst.ptr (run t (m.read src.ptr src.len)).1, st') ∧
      R st' (run t (m.read src.ptr src.len)).2 ∧
      (run t (m.read src.ptr src.len)).1.length = src.len := by
  unfold xorKeyStream
  unfold NoPartialOverlap at h3
  rw [if_neg (by omega), h3]
  simp only [Bool.false_eq_true, if_false]
  rcases sameOrDisjoint_of_check dst src h3 with h0 | hsd
  · rw [h0]
    refine ⟨st, ?_, ?_, ?_⟩ <;> simp [segLoop, Mem.read, h.nil, Mem.write_nil, hR]
  · refine segLoop_ok (step (dst.len - src.len)) R run (fun _ => True) SameOrDisjoint sameOrDisjoint_shift
      (fun _ _ _ h => h) h.nil ?_ src.len st t m _ _ _ (Nat.le_refl _) hR hsd trivial
    intro st t m d s l hR hl hsd _
    obtain ⟨n, o, st', t', e1, e2, e3, e4, e5, e6⟩ := h.step_ok (dst.len - src.len) st t m d s l hR hl hsd
    exact ⟨n, o, st', t', e1, e2, e3, e4, e5, trivial, e6⟩

theorem xorKeyStream_ok_only {st : σ} {m : Mem} {dst src : Slice} {r : Mem × σ}
    (h : xorKeyStream step st m dst src = .ok r) : src.len ≤ dst.len ∧ NoPartialOverlap dst src := by
  unfold xorKeyStream at h
  split at h
  · cases h
  · rename_i h1
    split at h
    · cases h
    · rename_i h3
      exact ⟨by omega, by simpa [NoPartialOverlap] using h3⟩

/-- Exactly when a call panics; it never hangs. -/
theorem StreamOK.panics_iff (h : StreamOK step R run) {st : σ} {t : τ} (hR : R st t) (m : Mem)
    (dst src : Slice) :
    (xorKeyStream step st m dst src = .panic ↔ (dst.len < src.len ∨ ¬ NoPartialOverlap dst src)) ∧
    xorKeyStream step st m dst src ≠ .hang ∧ xorKeyStream step st m dst src ≠ .err := by
  by_cases h2 : src.len ≤ dst.len
  · by_cases h3 : NoPartialOverlap dst src
    · obtain ⟨st', e, _⟩ := h.call hR m dst src h2 h3
      rw [e]
      refine ⟨⟨fun h => (by cases h), ?_⟩, (by simp), (by simp)⟩
      rintro (h | h)
      · omega
      · exact absurd h3 h
    · have hp : xorKeyStream step st m dst src = .panic := by
        unfold xorKeyStream
        rw [if_neg (by omega), if_pos (by simpa [NoPartialOverlap] using h3)]
      rw [hp]
      exact ⟨⟨fun _ => Or.inr h3, fun _ => rfl⟩, (by simp), (by simp)⟩
  · have hp : xorKeyStream step st m dst src = .panic := by
      unfold xorKeyStream
      rw [if_pos (by omega)]
    rw [hp]
    exact ⟨⟨fun _ => Or.inl (by omega), fun _ => rfl⟩, (by simp), (by simp)⟩

/-- Every successful call computes `run`. -/
theorem StreamOK.call_ok (h : StreamOK step R run) {st st' : σ} {t : τ} (hR : R st t) {m m' : Mem}
    {dst src : Slice} (hok : xorKeyStream step st m dst src = .ok (m', st')) :
    m' = m.write dst.ptr (run t (m.read src.ptr src.len)).1 ∧
      m'.read dst.ptr src.len = (run t (m.read src.ptr src.len)).1 ∧
      R st' (run t (m.read src.ptr src.len)).2 := by
  obtain ⟨h2, h3⟩ := xorKeyStream_ok_only hok
  obtain ⟨st'', e, e2, e3⟩ := h.call hR m dst src h2 h3
  rw [hok] at e
  obtain ⟨rfl, rfl⟩ := Prod.mk.inj (Res.ok.inj e)
  exact ⟨rfl, Mem.read_write_self' _ _ _ _ e3, e2⟩

/-- Histories, for a `run` that can be fed in pieces satisfying `P`. -/
theorem StreamOK.calls (h : StreamOK step R run) (P : Bytes → Prop)
    (happ : ∀ t a b, P a → run t (a ++ b) = ((run t a).1 ++ (run (run t a).2 b).1, (run (run t a).2 b).2))
    {A : Slice → Slice → Prop} {st st' : σ} {t : τ} {ins outs : List Bytes} (hR : R st t)
    (hc : Calls A (xorKeyStream step) st ins outs st') (hP : ∀ i ∈ ins, P i) :
    outs.flatten = (run t ins.flatten).1 ∧ R st' (run t ins.flatten).2 := by
  induction hc generalizing t with
  | nil st => simp [h.nil, hR]
  | cons ha hok _ ih =>
    obtain ⟨_, e1, e2⟩ := h.call_ok hR hok
    obtain ⟨e3, e4⟩ := ih e2 (fun i hi => hP i (by simp [hi]))
    simp only [List.flatten_cons]
    rw [happ _ _ _ (hP _ (by simp)), e1, e3]
    exact ⟨rfl, e4⟩

/-- Every list of inputs can be processed as a history of successful calls. -/
theorem StreamOK.calls_exist (h : StreamOK step R run) (ins : List Bytes) (st : σ) (t : τ) (hR : R st t) :
    ∃ outs st', Calls (fun _ _ => True) (xorKeyStream step) st ins outs st' := by
  induction ins generalizing st t with
  | nil => exact ⟨[], st, .nil st⟩
  | cons i ins ih =>
    have hno : NoOverlap ⟨i.length, i.length, i.length⟩ ⟨0, i.length, i.length⟩ := by
      simp [NoOverlap, anyOverlap]; omega
    have hr : (Mem.write (fun _ => 0) 0 i).read 0 i.length = i := Mem.read_write_self _ _ _
    obtain ⟨st1, e1, e2, _⟩ := h.call hR (Mem.write (fun _ => 0) 0 i)
      ⟨i.length, i.length, i.length⟩ ⟨0, i.length, i.length⟩ (Nat.le_refl _) hno.noPartial
    obtain ⟨outs, st', t⟩ := ih _ _ e2
    have := Calls.cons (A := fun _ _ => True) trivial e1 t
    simp only [hr] at this
    exact ⟨_, _, this⟩

end

/-- Round trip when the decrypter is fed the same pieces the encrypter produced. -/
theorem calls_same_roundtrip {σ σ' τ τ' : Type}
    {step : Nat → σ → Mem → Nat → Nat → Nat → Res (Nat × Mem × σ)}
    {R : σ → τ → Prop} {run : τ → Bytes → Bytes × τ}
    {step' : Nat → σ' → Mem → Nat → Nat → Nat → Res (Nat × Mem × σ')}
    {R' : σ' → τ' → Prop} {run' : τ' → Bytes → Bytes × τ'}
    (h : StreamOK step R run) (h' : StreamOK step' R' run') (S : τ → τ' → Prop)
    (hS : ∀ t t' x, S t t' → (run' t' (run t x).1).1 = x ∧ S (run t x).2 (run' t' (run t x).1).2)
    {A A' : Slice → Slice → Prop} {st st1 : σ} {st' st1' : σ'} {ins outs outs' : List Bytes}
    (hc : Calls A (xorKeyStream step) st ins outs st1)
    (hc' : Calls A' (xorKeyStream step') st' outs outs' st1')
    (t : τ) (t' : τ') (hR : R st t) (hR' : R' st' t') (hs : S t t') : outs' = ins := by
  induction hc generalizing st' outs' t t' with
  | nil st => cases hc'; rfl
  | cons ha hok _ ih =>
    generalize ho : (_ : Bytes) :: (_ : List Bytes) = os at hc'
    cases hc' with
    | nil => cases ho
    | cons ha' hok' t2 =>
      obtain ⟨ho1, rfl⟩ := List.cons.inj ho
      obtain ⟨_, e1, e2⟩ := h.call_ok hR hok
      obtain ⟨_, e1', e2'⟩ := h'.call_ok hR' hok'
      rw [← ho1, e1] at e1' e2'
      obtain ⟨s1, s2⟩ := hS _ _ (Mem.read _ _ _) hs
      rw [e1', s1, ih t2 _ _ e2 e2' s2]

/-! ### Per-byte machines -/

/-- Run a per-byte machine over a byte string. -/
def bRun {τ : Type} (f : τ → Byte → Byte × τ) : τ → Bytes → Bytes × τ
  | t, [] => ([], t)
  | t, b :: bs =>
    let r := f t b
    let rs := bRun f r.2 bs
    (r.1 :: rs.1, rs.2)

@[simp] theorem bRun_nil {τ : Type} (f : τ → Byte → Byte × τ) (t : τ) : bRun f t [] = ([], t) := rfl

theorem bRun_cons {τ : Type} (f : τ → Byte → Byte × τ) (t : τ) (b : Byte) (x : Bytes) :
    bRun f t (b :: x) = ((f t b).1 :: (bRun f (f t b).2 x).1, (bRun f (f t b).2 x).2) := rfl

theorem bRun_append {τ : Type} (f : τ → Byte → Byte × τ) (t : τ) (a b : Bytes) :
    bRun f t (a ++ b) = ((bRun f t a).1 ++ (bRun f (bRun f t a).2 b).1, (bRun f (bRun f t a).2 b).2) := by
  induction a generalizing t with
  | nil => simp
  | cons x a ih => simp [bRun_cons, ih]

@[simp] theorem bRun_length {τ : Type} (f : τ → Byte → Byte × τ) (t : τ) (a : Bytes) :
    (bRun f t a).1.length = a.length := by
  induction a generalizing t with
  | nil => simp
  | cons x a ih => simp [bRun_cons, ih]

theorem bRun_roundtrip {τ υ : Type} (f : τ → Byte → Byte × τ) (g : υ → Byte → Byte × υ) (S : τ → υ → Prop)
    (h : ∀ t u b, S t u → (g u (f t b).1).1 = b ∧ S (f t b).2 (g u (f t b).1).2)
    (x : Bytes) (t : τ) (u : υ) (hs : S t u) :
    (bRun g u (bRun f t x).1).1 = x ∧ S (bRun f t x).2 (bRun g u (bRun f t x).1).2 := by
  induction x generalizing t u with
  | nil => simpa using hs
  | cons b x ih =>
    obtain ⟨h1, h2⟩ := h t u b hs
    obtain ⟨h3, h4⟩ := ih _ _ h2
    simp only [bRun_cons, h1]
    exact ⟨by rw [h3], h4⟩

/-- A step that handles exactly one byte. -/
theorem streamOK_of_byteStep {σ τ : Type} (step : Nat → σ → Mem → Nat → Nat → Nat → Res (Nat × Mem × σ))
    (R : σ → τ → Prop) (f : τ → Byte → Byte × τ)
    (h : ∀ e st t m d s l, R st t → (d = s ∨ d ≠ s) →
      ∃ st', step e st m d s l = .ok (1, m.write d [(f t (m s)).1], st') ∧ R st' (f t (m s)).2) :
    StreamOK step R (bRun f) := by
  refine ⟨fun _ => rfl, ?_⟩
  intro e st t m d s l hR hl _
  obtain ⟨st', e1, e2⟩ := h e st t m d s l hR (by omega)
  refine ⟨1, _, st', _, e1, Nat.le_refl _, hl, rfl, e2, ?_⟩
  have : m.read s l = m s :: m.read (s + 1) (l - 1) := by
    obtain ⟨k, rfl⟩ : ∃ k, l = k + 1 := ⟨l - 1, by omega⟩
    rw [Nat.add_comm k 1, Mem.read_append]
    simp [Mem.read]
  rw [this, bRun_cons]
  rfl

/-! ### Segment machines (last segment may be short) -/

/-- A step that handles `min k l` bytes through the machine `f`. -/
theorem streamOK_of_segStep {σ τ : Type} (k : Nat) (hk : 0 < k)
    (step : Nat → σ → Mem → Nat → Nat → Nat → Res (Nat × Mem × σ))
    (R : σ → τ → Prop) (f : τ → Bytes → Bytes × τ)
    (h : ∀ e st t m d s l, R st t → 0 < l → SameOrDisjoint d s l →
      ∃ st', step e st m d s l = .ok (min k l, m.write d (f t (m.read s (min k l))).1, st') ∧
        (f t (m.read s (min k l))).1.length = min k l ∧ R st' (f t (m.read s (min k l))).2) :
    StreamOK step R (blkRun k f) := by
  refine ⟨fun _ => rfl, ?_⟩
  intro e st t m d s l hR hl hsd
  obtain ⟨st', e1, e2, e3⟩ := h e st t m d s l hR hl hsd
  refine ⟨min k l, _, st', _, e1, by omega, by omega, e2, e3, ?_⟩
  have hne : m.read s l ≠ [] := by
    intro h0; have := congrArg List.length h0; simp at this; omega
  rw [blkRun_cons k hk f t _ hne, Mem.read_take, Mem.read_drop]
  by_cases hkl : k ≤ l
  · rw [Nat.min_eq_left hkl]
  · rw [Nat.min_eq_right (by omega)]
    have e0 : m.read (s + k) (l - k) = [] := by rw [show l - k = 0 by omega]; rfl
    have e0' : m.read (s + l) (l - l) = [] := by rw [Nat.sub_self]; rfl
    rw [e0, e0']

/-- Round trip of segment machines on one input of any length. -/
theorem blkRun_roundtrip_any {τ υ : Type} (k : Nat) (hk : 0 < k) (f : τ → Bytes → Bytes × τ)
    (g : υ → Bytes → Bytes × υ) (S : τ → υ → Prop)
    (h : ∀ t u b, S t u → b.length ≤ k →
      (f t b).1.length = b.length ∧ (g u (f t b).1).1 = b ∧ S (f t b).2 (g u (f t b).1).2)
    (x : Bytes) (t : τ) (u : υ) (hs : S t u) :
    (blkRun k g u (blkRun k f t x).1).1 = x ∧ S (blkRun k f t x).2 (blkRun k g u (blkRun k f t x).1).2 := by
  induction hn : x.length using Nat.strongRecOn generalizing x t u with
  | ind n ih =>
    by_cases hx : x = []
    · subst hx; simpa using hs
    · have hp : 0 < x.length := List.length_pos_iff.mpr hx
      obtain ⟨h0, h1, h2⟩ := h t u (x.take k) hs (by simp; omega)
      obtain ⟨h3, h4⟩ := ih (x.drop k).length (by simp; omega) (x.drop k) _ _ h2 rfl
      rw [blkRun_cons k hk f t x hx]
      simp only
      have hl : (f t (x.take k)).1.length = min k x.length := by rw [h0]; simp
      have hne : (f t (x.take k)).1 ++ (blkRun k f (f t (x.take k)).2 (x.drop k)).1 ≠ [] := by
        intro h; have := congrArg List.length h; simp only [List.length_append, hl, List.length_nil] at this; omega
      rw [blkRun_cons k hk g u _ hne]
      by_cases hkl : k ≤ x.length
      · have hl' : (f t (x.take k)).1.length = k := by omega
        rw [List.take_left' hl', List.drop_left' hl', h1]
        simp only [h3, List.take_append_drop, true_and]
        exact h4
      · have hdn : x.drop k = [] := List.drop_of_length_le (by omega)
        rw [hdn] at h3 h4 ⊢
        simp only [blkRun_nil, List.append_nil] at *
        rw [List.take_of_length_le (show (f t (x.take k)).1.length ≤ k by omega),
          List.drop_of_length_le (show (f t (x.take k)).1.length ≤ k by omega)]
        simp only [blkRun_nil, List.append_nil, h1]
        exact ⟨List.take_of_length_le (by omega), h4⟩

/-! ### Additive streams -/

/-- `n` bytes of the key stream `ks` from position `p`. -/
def ksTake (ks : Nat → Byte) (p n : Nat) : Bytes := (List.range n).map (fun i => ks (p + i))

/-- XOR with the key stream `ks`, the state being the position. -/
def addRun (ks : Nat → Byte) (p : Nat) (x : Bytes) : Bytes × Nat :=
  (xorb x (ksTake ks p x.length), p + x.length)

@[simp] theorem ksTake_length (ks : Nat → Byte) (p n : Nat) : (ksTake ks p n).length = n := by
  simp [ksTake]

theorem ksTake_append (ks : Nat → Byte) (p a b : Nat) :
    ksTake ks p (a + b) = ksTake ks p a ++ ksTake ks (p + a) b := by
  unfold ksTake
  rw [List.range_add, List.map_append, List.map_map]
  congr 1
  apply List.map_congr_left
  intro i _
  simp [Nat.add_assoc]

theorem ksTake_take (ks : Nat → Byte) (p n k : Nat) (h : k ≤ n) : (ksTake ks p n).take k = ksTake ks p k := by
  obtain ⟨b, rfl⟩ : ∃ b, n = k + b := ⟨n - k, by omega⟩
  rw [ksTake_append, List.take_left' (by simp)]

theorem ksTake_drop (ks : Nat → Byte) (p n k : Nat) (h : k ≤ n) :
    (ksTake ks p n).drop k = ksTake ks (p + k) (n - k) := by
  obtain ⟨b, rfl⟩ : ∃ b, n = k + b := ⟨n - k, by omega⟩
  rw [ksTake_append, List.drop_left' (by simp)]
  congr 1; omega

theorem xorb_append (a b c d : Bytes) (h : a.length = c.length) :
    xorb (a ++ b) (c ++ d) = xorb a c ++ xorb b d := by
  unfold xorb; exact List.zipWith_append h

theorem addRun_nil (ks : Nat → Byte) (p : Nat) : addRun ks p [] = ([], p) := by
  simp [addRun, ksTake, xorb]

theorem addRun_append (ks : Nat → Byte) (p : Nat) (a b : Bytes) :
    addRun ks p (a ++ b) = ((addRun ks p a).1 ++ (addRun ks (addRun ks p a).2 b).1,
      (addRun ks (addRun ks p a).2 b).2) := by
  simp only [addRun, List.length_append]
  rw [ksTake_append, xorb_append _ _ _ _ (by simp), Nat.add_assoc]

theorem addRun_roundtrip (ks : Nat → Byte) (p : Nat) (x : Bytes) :
    (addRun ks p (addRun ks p x).1).1 = x := by
  simp only [addRun, xorb_length, ksTake_length, Nat.min_self]
  exact xorb_xorb_cancel_right x _ (by simp)

/-- A step that XORs some bytes of the key stream. -/
theorem streamOK_of_addStep {σ : Type} (step : Nat → σ → Mem → Nat → Nat → Nat → Res (Nat × Mem × σ))
    (R : σ → Nat → Prop) (ks : Nat → Byte)
    (h : ∀ e st p m d s l, R st p → 0 < l → SameOrDisjoint d s l →
      ∃ n st', 1 ≤ n ∧ n ≤ l ∧ step e st m d s l = .ok (n, m.write d (xorb (m.read s n) (ksTake ks p n)), st')
        ∧ R st' (p + n)) :
    StreamOK step R (addRun ks) := by
  refine ⟨addRun_nil ks, ?_⟩
  intro e st p m d s l hR hl hsd
  obtain ⟨n, st', h1, h2, e1, e2⟩ := h e st p m d s l hR hl hsd
  refine ⟨n, _, st', p + n, e1, h1, h2, by simp, e2, ?_⟩
  rw [show l = n + (l - n) by omega, Mem.read_append, addRun_append]
  simp [addRun]

end Verif.Mode
