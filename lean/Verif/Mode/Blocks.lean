import Verif.Mode.Loop
/-
Splitting into blocks, per-block state machines, and the generic `CryptBlocks`.
-/
namespace Verif.Mode

def chunksAux (k : Nat) : Nat → Bytes → List Bytes
  | 0, _ => []
  | n + 1, x => if x.isEmpty then [] else x.take k :: chunksAux k n (x.drop k)

/-- Split a byte string into consecutive blocks of `k` bytes (the last one may be shorter). -/
def chunks (k : Nat) (x : Bytes) : List Bytes := chunksAux k x.length x

/-- Run a per-block machine over a list of blocks. -/
def mapAcc {τ : Type} (f : τ → Bytes → Bytes × τ) : τ → List Bytes → List Bytes × τ
  | t, [] => ([], t)
  | t, b :: bs =>
    let r := f t b
    let rs := mapAcc f r.2 bs
    (r.1 :: rs.1, rs.2)

/-- Run a per-block machine over a byte string. -/
def blkRun {τ : Type} (k : Nat) (f : τ → Bytes → Bytes × τ) (t : τ) (x : Bytes) : Bytes × τ :=
  let r := mapAcc f t (chunks k x)
  (r.1.flatten, r.2)

theorem chunksAux_eq (k : Nat) (hk : 0 < k) (n : Nat) (x : Bytes) (h : x.length ≤ n) :
    chunksAux k n x = chunks k x := by
  suffices ∀ n n' (x : Bytes), x.length ≤ n → x.length ≤ n' → chunksAux k n x = chunksAux k n' x from
    this n x.length x h (Nat.le_refl _)
  intro n
  induction n with
  | zero =>
    intro n' x h1 h2
    have : x = [] := List.length_eq_zero_iff.mp (by omega)
    subst this
    cases n' <;> simp [chunksAux]
  | succ n ih =>
    intro n' x h1 h2
    by_cases hx : x = []
    · subst hx; cases n' <;> simp [chunksAux]
    · have hp : 0 < x.length := List.length_pos_iff.mpr hx
      obtain ⟨n', rfl⟩ : ∃ j, n' = j + 1 := ⟨n' - 1, by omega⟩
      have he : x.isEmpty = false := by simpa using hx
      simp only [chunksAux, he]
      rw [ih n' (x.drop k) (by simp; omega) (by simp; omega)]

@[simp] theorem chunks_nil (k : Nat) : chunks k [] = [] := rfl

theorem chunks_cons (k : Nat) (hk : 0 < k) (x : Bytes) (h : x ≠ []) :
    chunks k x = x.take k :: chunks k (x.drop k) := by
  have hp : 0 < x.length := List.length_pos_iff.mpr h
  have he : x.isEmpty = false := by simpa using h
  rw [chunks]
  obtain ⟨n, hn⟩ : ∃ j, x.length = j + 1 := ⟨x.length - 1, by omega⟩
  rw [hn, chunksAux, he]
  simp only [Bool.false_eq_true, if_false]
  rw [chunksAux_eq k hk n (x.drop k) (by simp; omega)]

theorem chunks_flatten (k : Nat) (hk : 0 < k) (x : Bytes) : (chunks k x).flatten = x := by
  induction hn : x.length using Nat.strongRecOn generalizing x with
  | ind n ih =>
    by_cases h : x = []
    · subst h; simp
    · have hp : 0 < x.length := List.length_pos_iff.mpr h
      rw [chunks_cons k hk x h, List.flatten_cons, ih (x.drop k).length (by simp; omega) _ rfl,
        List.take_append_drop]

theorem chunks_append (k : Nat) (hk : 0 < k) (a b : Bytes) (h : k ∣ a.length) :
    chunks k (a ++ b) = chunks k a ++ chunks k b := by
  induction hn : a.length using Nat.strongRecOn generalizing a with
  | ind n ih =>
    by_cases ha : a = []
    · subst ha; simp
    · have hp : 0 < a.length := List.length_pos_iff.mpr ha
      have hle : k ≤ a.length := Nat.le_of_dvd hp h
      rw [chunks_cons k hk _ (by simp [ha]), chunks_cons k hk a ha]
      rw [List.take_append_of_le_length hle, List.drop_append_of_le_length hle]
      rw [ih (a.drop k).length (by simp; omega) (a.drop k) (by
        rw [List.length_drop]; exact (Nat.dvd_sub h (Nat.dvd_refl k))) rfl]
      simp

theorem chunks_all_len (k : Nat) (hk : 0 < k) (x : Bytes) (h : k ∣ x.length) :
    ∀ b ∈ chunks k x, b.length = k := by
  induction hn : x.length using Nat.strongRecOn generalizing x with
  | ind n ih =>
    by_cases hx : x = []
    · subst hx; simp
    · have hp : 0 < x.length := List.length_pos_iff.mpr hx
      have hle : k ≤ x.length := Nat.le_of_dvd hp h
      rw [chunks_cons k hk x hx]
      intro b hb
      rcases List.mem_cons.mp hb with rfl | hb
      · simp; omega
      · exact ih (x.drop k).length (by simp; omega) (x.drop k) (by
          rw [List.length_drop]; exact (Nat.dvd_sub h (Nat.dvd_refl k))) rfl b hb

/-- Splitting undoes concatenating full blocks. -/
theorem chunks_of_flatten (k : Nat) (hk : 0 < k) (l : List Bytes) (h : ∀ b ∈ l, b.length = k) :
    chunks k l.flatten = l := by
  induction l with
  | nil => simp
  | cons b l ih =>
    have hb := h b (by simp)
    rw [List.flatten_cons, chunks_append k hk _ _ (by rw [hb]; exact Nat.dvd_refl k),
      ih (fun x hx => h x (by simp [hx]))]
    have hne : b ≠ [] := by intro h0; rw [h0] at hb; simp at hb; omega
    rw [chunks_cons k hk b hne, List.take_of_length_le (by omega), List.drop_of_length_le (by omega)]
    simp

theorem flatten_length_of_all (k : Nat) (l : List Bytes) (h : ∀ b ∈ l, b.length = k) :
    l.flatten.length = k * l.length := by
  induction l with
  | nil => simp
  | cons b l ih =>
    rw [List.flatten_cons, List.length_append, h b (by simp), ih (fun x hx => h x (by simp [hx])),
      List.length_cons, Nat.mul_add]
    omega

theorem mapAcc_append {τ : Type} (f : τ → Bytes → Bytes × τ) (t : τ) (a b : List Bytes) :
    mapAcc f t (a ++ b) = ((mapAcc f t a).1 ++ (mapAcc f (mapAcc f t a).2 b).1,
      (mapAcc f (mapAcc f t a).2 b).2) := by
  induction a generalizing t with
  | nil => simp [mapAcc]
  | cons x a ih => simp [mapAcc, ih]

theorem mapAcc_length {τ : Type} (f : τ → Bytes → Bytes × τ) (t : τ) (a : List Bytes) :
    (mapAcc f t a).1.length = a.length := by
  induction a generalizing t with
  | nil => simp [mapAcc]
  | cons x a ih => simp [mapAcc, ih]

@[simp] theorem blkRun_nil {τ : Type} (k : Nat) (f : τ → Bytes → Bytes × τ) (t : τ) :
    blkRun k f t [] = ([], t) := rfl

theorem blkRun_append {τ : Type} (k : Nat) (hk : 0 < k) (f : τ → Bytes → Bytes × τ) (t : τ) (a b : Bytes)
    (h : k ∣ a.length) :
    blkRun k f t (a ++ b) = ((blkRun k f t a).1 ++ (blkRun k f (blkRun k f t a).2 b).1,
      (blkRun k f (blkRun k f t a).2 b).2) := by
  simp [blkRun, chunks_append k hk a b h, mapAcc_append]

theorem blkRun_cons {τ : Type} (k : Nat) (hk : 0 < k) (f : τ → Bytes → Bytes × τ) (t : τ) (x : Bytes)
    (h : x ≠ []) :
    blkRun k f t x = ((f t (x.take k)).1 ++ (blkRun k f (f t (x.take k)).2 (x.drop k)).1,
      (blkRun k f (f t (x.take k)).2 (x.drop k)).2) := by
  simp [blkRun, chunks_cons k hk x h, mapAcc]

/-- Decryption undoes encryption, by a simulation between the two machines. -/
theorem mapAcc_roundtrip {τ υ : Type} (f : τ → Bytes → Bytes × τ) (g : υ → Bytes → Bytes × υ)
    (R : τ → υ → Prop) (Q : Bytes → Prop)
    (h : ∀ t u b, R t u → Q b → (g u (f t b).1).1 = b ∧ R (f t b).2 (g u (f t b).1).2)
    (l : List Bytes) (hl : ∀ b ∈ l, Q b) (t : τ) (u : υ) (hR : R t u) :
    (mapAcc g u (mapAcc f t l).1).1 = l := by
  induction l generalizing t u with
  | nil => simp [mapAcc]
  | cons b l ih =>
    obtain ⟨h1, h2⟩ := h t u b hR (hl b (by simp))
    simp only [mapAcc]
    rw [h1, ih (fun x hx => hl x (by simp [hx])) _ _ h2]

theorem mapAcc_all_len {τ : Type} (k : Nat) (f : τ → Bytes → Bytes × τ) (I : τ → Prop)
    (h : ∀ t b, I t → b.length = k → (f t b).1.length = k ∧ I (f t b).2)
    (l : List Bytes) (hl : ∀ b ∈ l, b.length = k) (t : τ) (hI : I t) :
    (∀ b ∈ (mapAcc f t l).1, b.length = k) ∧ I (mapAcc f t l).2 := by
  induction l generalizing t with
  | nil => simp [mapAcc, hI]
  | cons b l ih =>
    obtain ⟨h1, h2⟩ := h t b hI (hl b (by simp))
    obtain ⟨h3, h4⟩ := ih (fun x hx => hl x (by simp [hx])) _ h2
    simp only [mapAcc]
    refine ⟨?_, h4⟩
    intro x hx
    rcases List.mem_cons.mp hx with rfl | hx
    · exact h1
    · exact h3 x hx

/-- The shape of every `CryptBlocks(dst, src)` in /repo/mode: the length checks, the optional
`alias.InexactOverlap` check, then the block loop. -/
def cryptBlocks {σ : Type} (chk : Bool) (bs : Nat)
    (step : σ → Mem → Nat → Nat → Nat → Res (Nat × Mem × σ))
    (st : σ) (m : Mem) (dst src : Slice) : Res (Mem × σ) :=
  if src.len % bs ≠ 0 then .panic
  else if dst.len < src.len then .panic
  else if chk && inexactOverlap ⟨dst.ptr, src.len, dst.cap⟩ src then .panic
  else segLoop step src.len st m dst.ptr src.ptr src.len

/-- A memory-level step implements the per-block machine `f` on blocks of `bs` bytes, whenever the two
ranges satisfy `C`, under the register invariant `I`. -/
structure StepOK {σ : Type} (bs : Nat) (step : σ → Mem → Nat → Nat → Nat → Res (Nat × Mem × σ))
    (f : σ → Bytes → Bytes × σ) (I : σ → Prop) (C : Nat → Nat → Nat → Prop) : Prop where
  pos : 0 < bs
  step_eq : ∀ st m d s l, I st → C d s bs →
    step st m d s l = .ok (bs, m.write d (f st (m.read s bs)).1, (f st (m.read s bs)).2)
  len : ∀ st b, I st → b.length = bs → (f st b).1.length = bs ∧ I (f st b).2

theorem StepOK.loop {σ : Type} {bs : Nat} {step : σ → Mem → Nat → Nat → Nat → Res (Nat × Mem × σ)}
    {f : σ → Bytes → Bytes × σ} {I : σ → Prop} {C : Nat → Nat → Nat → Prop}
    (hC : ∀ d s l n, C d s l → n ≤ l → C (d + n) (s + n) (l - n))
    (hCn : ∀ d s l n, C d s l → n ≤ l → C d s n)
    (hCd : ∀ d s l, C d s l → SameOrDisjoint d s l)
    (h : StepOK bs step f I C) (st : σ) (m : Mem) (d s l : Nat)
    (hI : I st) (hc : C d s l) (hl : bs ∣ l) :
    segLoop step l st m d s l = .ok (m.write d (blkRun bs f st (m.read s l)).1,
        (blkRun bs f st (m.read s l)).2) ∧
      I (blkRun bs f st (m.read s l)).2 ∧ (blkRun bs f st (m.read s l)).1.length = l := by
  obtain ⟨st', e1, ⟨e2, e3⟩, e4⟩ := segLoop_ok step (fun a t => a = t ∧ I t) (blkRun bs f) (fun l => bs ∣ l)
    C hC hCd (fun t => rfl) (by
      rintro st t m d s l ⟨rfl, hI⟩ hl hc hdvd
      have hle : bs ≤ l := Nat.le_of_dvd hl hdvd
      have hs := h.step_eq st m d s l hI (hCn _ _ _ _ hc hle)
      obtain ⟨h1, h2⟩ := h.len st (m.read s bs) hI (by simp)
      refine ⟨bs, _, _, (f st (m.read s bs)).2, hs, h.pos, hle, h1, ⟨rfl, h2⟩,
        Nat.dvd_sub hdvd (Nat.dvd_refl _), ?_⟩
      have hne : m.read s l ≠ [] := by
        intro h0; have := congrArg List.length h0; simp at this; omega
      rw [blkRun_cons bs h.pos f st _ hne, Mem.read_take, Mem.read_drop, Nat.min_eq_left hle])
    l st st m d s l (Nat.le_refl _) ⟨rfl, hI⟩ hc hl
  subst e2
  exact ⟨e1, e3, e4⟩

/-- `CryptBlocks` of a correct step: what it does to memory and to the registers. -/
theorem StepOK.crypt {σ : Type} {bs : Nat} {step : σ → Mem → Nat → Nat → Nat → Res (Nat × Mem × σ)}
    {f : σ → Bytes → Bytes × σ} {I : σ → Prop}
    (h : StepOK bs step f I SameOrDisjoint) (chk : Bool) (st : σ) (m : Mem) (dst src : Slice)
    (hI : I st) (h1 : src.len % bs = 0) (h2 : src.len ≤ dst.len) (h3 : NoPartialOverlap dst src) :
    cryptBlocks chk bs step st m dst src =
        .ok (m.write dst.ptr (blkRun bs f st (m.read src.ptr src.len)).1,
        (blkRun bs f st (m.read src.ptr src.len)).2) ∧
      I (blkRun bs f st (m.read src.ptr src.len)).2 ∧
      (blkRun bs f st (m.read src.ptr src.len)).1.length = src.len := by
  unfold cryptBlocks
  unfold NoPartialOverlap at h3
  rw [if_neg (by simpa using h1), if_neg (by omega), h3]
  simp only [Bool.and_false, Bool.false_eq_true, if_false]
  rcases sameOrDisjoint_of_check dst src h3 with h0 | hsd
  · rw [h0]
    simpa [segLoop, Mem.read, Mem.write_nil] using hI
  · exact h.loop sameOrDisjoint_shift (by unfold SameOrDisjoint; intros; omega) (fun _ _ _ h => h)
      st m _ _ _ hI hsd (Nat.dvd_of_mod_eq_zero h1)

/-- The disjointness condition used for modes that are not safe in place. -/
def DisjointRange (d s l : Nat) : Prop := l = 0 ∨ d + l ≤ s ∨ s + l ≤ d

theorem StepOK.cryptDisjoint {σ : Type} {bs : Nat}
    {step : σ → Mem → Nat → Nat → Nat → Res (Nat × Mem × σ)}
    {f : σ → Bytes → Bytes × σ} {I : σ → Prop}
    (h : StepOK bs step f I DisjointRange) (chk : Bool) (st : σ) (m : Mem) (dst src : Slice)
    (hI : I st) (h1 : src.len % bs = 0) (h2 : src.len ≤ dst.len) (h3 : NoOverlap dst src) :
    cryptBlocks chk bs step st m dst src =
        .ok (m.write dst.ptr (blkRun bs f st (m.read src.ptr src.len)).1,
        (blkRun bs f st (m.read src.ptr src.len)).2) ∧
      I (blkRun bs f st (m.read src.ptr src.len)).2 ∧
      (blkRun bs f st (m.read src.ptr src.len)).1.length = src.len := by
  have h3' := h3.noPartial
  have h4 := h3.disjoint
  unfold cryptBlocks
  unfold NoPartialOverlap at h3'
  rw [if_neg (by simpa using h1), if_neg (by omega), h3']
  simp only [Bool.and_false, Bool.false_eq_true, if_false]
  by_cases h0 : src.len = 0
  · rw [h0]
    simpa [segLoop, Mem.read, Mem.write_nil] using hI
  · have hsd : (fun d s l => d + l ≤ s ∨ s + l ≤ d) dst.ptr src.ptr src.len := by
      rcases h4 with h | h
      · exact absurd h h0
      · exact h
    refine StepOK.loop (C := fun d s l => d + l ≤ s ∨ s + l ≤ d) (by intros; omega) (by intros; omega)
      (fun _ _ _ h => Or.inr h) ⟨h.pos, ?_, h.len⟩ st m _ _ _ hI hsd (Nat.dvd_of_mod_eq_zero h1)
    intro st m d s l hI hc
    exact h.step_eq st m d s l hI (Or.inr hc)

/-- A call succeeds only if its length checks pass. -/
theorem cryptBlocks_ok_only {σ : Type} {chk : Bool} {bs : Nat}
    {step : σ → Mem → Nat → Nat → Nat → Res (Nat × Mem × σ)}
    {st : σ} {m : Mem} {dst src : Slice} {r : Mem × σ} (h : cryptBlocks chk bs step st m dst src = .ok r) :
    src.len % bs = 0 ∧ src.len ≤ dst.len ∧ (chk = true → NoPartialOverlap dst src) := by
  unfold cryptBlocks at h
  split at h
  · cases h
  · rename_i h1
    split at h
    · cases h
    · rename_i h2
      split at h
      · cases h
      · rename_i h3
        refine ⟨by simpa using h1, by omega, ?_⟩
        intro hc
        rw [hc] at h3
        simpa [NoPartialOverlap] using h3

/-- Exactly when `CryptBlocks` panics. -/
theorem StepOK.panics_iff {σ : Type} {bs : Nat} {step : σ → Mem → Nat → Nat → Nat → Res (Nat × Mem × σ)}
    {f : σ → Bytes → Bytes × σ} {I : σ → Prop}
    (h : StepOK bs step f I SameOrDisjoint) (st : σ) (m : Mem) (dst src : Slice) (hI : I st) :
    (cryptBlocks true bs step st m dst src = .panic ↔
      (src.len % bs ≠ 0 ∨ dst.len < src.len ∨ ¬ NoPartialOverlap dst src)) ∧
    cryptBlocks true bs step st m dst src ≠ .hang ∧ cryptBlocks true bs step st m dst src ≠ .err := by
  by_cases hgood : src.len % bs = 0 ∧ src.len ≤ dst.len ∧ NoPartialOverlap dst src
  · obtain ⟨h1, h2, h3⟩ := hgood
    rw [(h.crypt true st m dst src hI h1 h2 h3).1]
    refine ⟨⟨fun h => (by cases h), ?_⟩, (by simp), (by simp)⟩
    rintro (h | h | h)
    · exact absurd h1 h
    · omega
    · exact absurd h3 h
  · have hp : cryptBlocks true bs step st m dst src = .panic := by
      unfold cryptBlocks
      by_cases h1 : src.len % bs = 0
      · by_cases h2 : src.len ≤ dst.len
        · have h3 : ¬ NoPartialOverlap dst src := fun h3 => hgood ⟨h1, h2, h3⟩
          rw [if_neg (by simpa using h1), if_neg (by omega), if_pos]
          simpa [NoPartialOverlap] using h3
        · rw [if_neg (by simpa using h1), if_pos (by omega)]
      · rw [if_pos h1]
    rw [hp]
    refine ⟨⟨fun _ => ?_, fun _ => rfl⟩, (by simp), (by simp)⟩
    by_cases h1 : src.len % bs = 0
    · by_cases h2 : src.len ≤ dst.len
      · right; right; exact fun h3 => hgood ⟨h1, h2, h3⟩
      · right; left; omega
    · left; exact h1

/-- Histories of `CryptBlocks` calls compute the machine on the concatenated input. -/
theorem StepOK.calls {σ : Type} {bs : Nat} {step : σ → Mem → Nat → Nat → Nat → Res (Nat × Mem × σ)}
    {f : σ → Bytes → Bytes × σ} {I : σ → Prop}
    (h : StepOK bs step f I SameOrDisjoint) {chk : Bool} {st st' : σ} {ins outs : List Bytes} (hI : I st)
    (hc : Calls NoPartialOverlap (cryptBlocks chk bs step) st ins outs st') :
    outs.flatten = (blkRun bs f st ins.flatten).1 ∧ st' = (blkRun bs f st ins.flatten).2 ∧
      I st' ∧ bs ∣ ins.flatten.length := by
  have key := calls_run (fun a t => a = t ∧ I t) (blkRun bs f) (fun a => bs ∣ a.length) (fun _ => rfl)
    (fun t a b ha => blkRun_append bs h.pos f t a b ha) (by
      rintro st t m dst src m' st' ⟨rfl, hI⟩ ha hok
      obtain ⟨h1, h2, _⟩ := cryptBlocks_ok_only hok
      obtain ⟨e1, e2, e3⟩ := h.crypt chk st m dst src hI h1 h2 ha
      rw [hok] at e1
      obtain ⟨rfl, rfl⟩ := Prod.mk.inj (Res.ok.inj e1)
      refine ⟨by simpa using Nat.dvd_of_mod_eq_zero h1, ?_, rfl, e2⟩
      exact Mem.read_write_self' _ _ _ _ e3) hc st ⟨rfl, hI⟩
  obtain ⟨k1, ⟨k2, k3⟩, k4⟩ := key
  refine ⟨k1, k2, k2 ▸ k3, ?_⟩
  clear hc k1 k2 k3
  induction ins with
  | nil => simp
  | cons a l ih =>
    rw [List.flatten_cons, List.length_append]
    exact Nat.dvd_add (k4 a (by simp)) (ih (fun i hi => k4 i (by simp [hi])))

/-- The same for modes restricted to non-overlapping buffers. -/
theorem StepOK.callsDisjoint {σ : Type} {bs : Nat}
    {step : σ → Mem → Nat → Nat → Nat → Res (Nat × Mem × σ)}
    {f : σ → Bytes → Bytes × σ} {I : σ → Prop}
    (h : StepOK bs step f I DisjointRange) {chk : Bool} {st st' : σ} {ins outs : List Bytes} (hI : I st)
    (hc : Calls NoOverlap (cryptBlocks chk bs step) st ins outs st') :
    outs.flatten = (blkRun bs f st ins.flatten).1 ∧ st' = (blkRun bs f st ins.flatten).2 ∧
      I st' ∧ bs ∣ ins.flatten.length := by
  have key := calls_run (fun a t => a = t ∧ I t) (blkRun bs f) (fun a => bs ∣ a.length) (fun _ => rfl)
    (fun t a b ha => blkRun_append bs h.pos f t a b ha) (by
      rintro st t m dst src m' st' ⟨rfl, hI⟩ ha hok
      obtain ⟨h1, h2, _⟩ := cryptBlocks_ok_only hok
      obtain ⟨e1, e2, e3⟩ := h.cryptDisjoint chk st m dst src hI h1 h2 ha
      rw [hok] at e1
      obtain ⟨rfl, rfl⟩ := Prod.mk.inj (Res.ok.inj e1)
      refine ⟨by simpa using Nat.dvd_of_mod_eq_zero h1, ?_, rfl, e2⟩
      exact Mem.read_write_self' _ _ _ _ e3) hc st ⟨rfl, hI⟩
  obtain ⟨k1, ⟨k2, k3⟩, k4⟩ := key
  refine ⟨k1, k2, k2 ▸ k3, ?_⟩
  clear hc k1 k2 k3
  induction ins with
  | nil => simp
  | cons a l ih =>
    rw [List.flatten_cons, List.length_append]
    exact Nat.dvd_add (k4 a (by simp)) (ih (fun i hi => k4 i (by simp [hi])))

/-- Round trip for two machines related by a simulation, on byte strings. -/
theorem blkRun_roundtrip {τ υ : Type} (k : Nat) (hk : 0 < k) (f : τ → Bytes → Bytes × τ)
    (g : υ → Bytes → Bytes × υ) (I : τ → Prop)
    (hlen : ∀ t b, I t → b.length = k → (f t b).1.length = k ∧ I (f t b).2)
    (R : τ → υ → Prop)
    (h : ∀ t u b, R t u → b.length = k → (g u (f t b).1).1 = b ∧ R (f t b).2 (g u (f t b).1).2)
    (x : Bytes) (hx : k ∣ x.length) (t : τ) (u : υ) (hI : I t) (hR : R t u) :
    (blkRun k g u (blkRun k f t x).1).1 = x := by
  have h1 := chunks_all_len k hk x hx
  obtain ⟨h2, _⟩ := mapAcc_all_len k f I hlen _ h1 t hI
  simp only [blkRun]
  rw [chunks_of_flatten k hk _ h2, mapAcc_roundtrip f g R (fun b => b.length = k) h _ h1 t u hR,
    chunks_flatten k hk]

/-- The same when destination and source are the very same range. -/
theorem StepOK.cryptSame {σ : Type} {bs : Nat}
    {step : σ → Mem → Nat → Nat → Nat → Res (Nat × Mem × σ)}
    {f : σ → Bytes → Bytes × σ} {I : σ → Prop}
    (h : StepOK bs step f I (fun d s _ => d = s)) (chk : Bool) (st : σ) (m : Mem) (dst src : Slice)
    (hI : I st) (h1 : src.len % bs = 0) (h2 : src.len ≤ dst.len) (h3 : dst.ptr = src.ptr) :
    cryptBlocks chk bs step st m dst src =
        .ok (m.write dst.ptr (blkRun bs f st (m.read src.ptr src.len)).1,
        (blkRun bs f st (m.read src.ptr src.len)).2) := by
  unfold cryptBlocks
  rw [if_neg (by simpa using h1), if_neg (by omega), if_neg (by simp [inexactOverlap, h3])]
  exact (h.loop (by intros; omega) (by intros; assumption) (fun _ _ _ h => Or.inl h)
      st m _ _ _ hI h3 (Nat.dvd_of_mod_eq_zero h1)).1

/-- Every list of block-aligned inputs can be processed as a history of successful calls (with disjoint
buffers), so statements about `Calls` are not vacuous. -/
theorem StepOK.calls_exist {σ : Type} {bs : Nat}
    {step : σ → Mem → Nat → Nat → Nat → Res (Nat × Mem × σ)}
    {f : σ → Bytes → Bytes × σ} {I : σ → Prop}
    (h : StepOK bs step f I DisjointRange) (chk : Bool) (ins : List Bytes)
    (hl : ∀ i ∈ ins, bs ∣ i.length) (st : σ) (hI : I st) :
    ∃ outs st', Calls NoOverlap (cryptBlocks chk bs step) st ins outs st' := by
  induction ins generalizing st with
  | nil => exact ⟨[], st, .nil st⟩
  | cons i ins ih =>
    have hd := hl i (by simp)
    have hno : NoOverlap ⟨i.length, i.length, i.length⟩ ⟨0, i.length, i.length⟩ := by
      simp [NoOverlap, anyOverlap]; omega
    have hr : (Mem.write (fun _ => 0) 0 i).read 0 i.length = i := Mem.read_write_self _ _ _
    obtain ⟨e1, e2, _⟩ := h.cryptDisjoint chk st (Mem.write (fun _ => 0) 0 i)
      ⟨i.length, i.length, i.length⟩ ⟨0, i.length, i.length⟩ hI (Nat.mod_eq_zero_of_dvd hd)
      (Nat.le_refl _) hno
    obtain ⟨outs, st', t⟩ := ih (fun x hx => hl x (by simp [hx])) _ e2
    have := Calls.cons hno e1 t
    simp only [hr] at this
    exact ⟨_, _, this⟩

theorem StepOK.toDisjoint {σ : Type} {bs : Nat}
    {step : σ → Mem → Nat → Nat → Nat → Res (Nat × Mem × σ)}
    {f : σ → Bytes → Bytes × σ} {I : σ → Prop}
    (h : StepOK bs step f I SameOrDisjoint) : StepOK bs step f I DisjointRange := by
  refine ⟨h.pos, ?_, h.len⟩
  intro st m d s l hI hc
  apply h.step_eq st m d s l hI
  have := h.pos
  unfold DisjointRange at hc; unfold SameOrDisjoint
  omega

theorem Calls.mono {σ : Type} {A B : Slice → Slice → Prop}
    {call : σ → Mem → Slice → Slice → Res (Mem × σ)} (hAB : ∀ d s, A d s → B d s)
    {st st' : σ} {ins outs : List Bytes} (h : Calls A call st ins outs st') :
    Calls B call st ins outs st' := by
  induction h with
  | nil st => exact .nil st
  | cons ha h _ ih => exact .cons (hAB _ _ ha) h ih

end Verif.Mode
