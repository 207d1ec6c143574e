import Verif.Facade.Config
/-
C43: `Config` and `DataSet` behave like independent finite maps, under every sequence of calls.
-/
namespace Verif.Facade.Cfg

variable {V : Type}

/-! Specification: every object is a function from names to values. -/

/-- Objects made so far (`made`) and their contents. -/
structure Abs (V : Type) where
  made : Nat
  at_ : Nat → String → Option V

/-- `l` lists exactly the names that have a value, each once. -/
def Lists (f : String → Option V) (l : List String) : Prop := l.Nodup ∧ ∀ k, k ∈ l ↔ ∃ v, f k = some v

/-- The calls covered: those on objects that were made by `New` or `Clone` and hold their own map. -/
def Own (made : Nat) : Cmd V → Prop
  | .new => True
  | .set c _ _ | .remove c _ | .has c _ | .get c _ | .names c | .len c | .clean c | .clone c => c < made
  | .withData _ _ | .mapSet _ _ _ => False

/-- One call on finite maps: the new contents and what may be returned. -/
def Spec (a : Abs V) (x : Cmd V) (out : Out V) (a' : Abs V) : Prop :=
  match x with
  | .new => out = .obj a.made ∧ a' = ⟨a.made + 1, fun c => if c = a.made then fun _ => none else a.at_ c⟩
  | .set c k v => out = .unit ∧ a' = ⟨a.made, fun c' => if c' = c then fun k' => if k' = k then some v else a.at_ c k' else a.at_ c'⟩
  | .remove c k => out = .unit ∧ a' = ⟨a.made, fun c' => if c' = c then fun k' => if k' = k then none else a.at_ c k' else a.at_ c'⟩
  | .has c k => out = .bool (a.at_ c k).isSome ∧ a' = a
  | .get c k => out = .val (a.at_ c k) ∧ a' = a
  | .names c => (∃ l, out = .names l ∧ Lists (a.at_ c) l) ∧ a' = a
  | .len c => (∃ l, Lists (a.at_ c) l ∧ out = .num l.length) ∧ a' = a
  | .clean c => out = .unit ∧ a' = ⟨a.made, fun c' => if c' = c then fun _ => none else a.at_ c'⟩
  | .clone c => out = .obj a.made ∧ a' = ⟨a.made + 1, fun c' => if c' = a.made then a.at_ c else a.at_ c'⟩
  | .withData _ _ | .mapSet _ _ _ => True

/-- A sequence of calls and returned values that finite maps allow. -/
def SpecRun (a : Abs V) : List (Cmd V) → List (Out V) → Abs V → Prop
  | [], outs, a' => outs = [] ∧ a' = a
  | x :: xs, outs, a' => ∃ o os a1, outs = o :: os ∧ Spec a x o a1 ∧ SpecRun a1 xs os a'

/-- The number of objects after a call. -/
def after (made : Nat) : Cmd V → Nat
  | .new | .clone _ => made + 1
  | _ => made

/-- Every call of the sequence is covered (the number of objects grows with `New` and `Clone`). -/
def OwnAll (made : Nat) : List (Cmd V) → Prop
  | [] => True
  | x :: xs => Own made x ∧ OwnAll (after made x) xs

/-! Maps -/

def keys (m : AMap V) : List String := m.map (·.1)

theorem any_iff (m : AMap V) (k : String) : m.any (fun e => e.1 == k) = true ↔ k ∈ keys m := by
  unfold keys
  rw [List.any_eq_true, List.mem_map]
  constructor
  · rintro ⟨e, he, hk⟩; exact ⟨e, he, by simpa using hk⟩
  · rintro ⟨e, he, hk⟩; exact ⟨e, he, by simpa using hk⟩

theorem look_isSome (m : AMap V) (k : String) : (look m k).isSome = m.any (fun e => e.1 == k) := by
  unfold look
  induction m with
  | nil => rfl
  | cons e m ih =>
    simp only [List.find?_cons, List.any_cons]
    cases e.1 == k <;> simp [ih]

theorem look_some_iff (m : AMap V) (k : String) : (∃ v, look m k = some v) ↔ k ∈ keys m := by
  rw [← any_iff, ← look_isSome, Option.isSome_iff_exists]

theorem look_cons (e : String × V) (m : AMap V) (k : String) : look (e :: m) k = if e.1 = k then some e.2 else look m k := by
  unfold look
  simp only [List.find?_cons]
  by_cases h : e.1 = k
  · simp [h]
  · simp [show (e.1 == k) = false from by simp [h], h]

theorem look_append (m n : AMap V) (k : String) : look (m ++ n) k = (look m k).or (look n k) := by
  induction m with
  | nil => simp [look]
  | cons e m ih =>
    rw [List.cons_append, look_cons, look_cons, ih]
    split <;> rfl

theorem look_put (m : AMap V) (k : String) (v : V) (k' : String) : look (put m k v) k' = if k' = k then some v else look m k' := by
  unfold put
  split
  · rename_i h
    rw [any_iff] at h
    have key : ∀ n : AMap V, look (n.map (fun e => if e.1 == k then (k, v) else e)) k' =
        if k' = k then (if k ∈ keys n then some v else none) else look n k' := by
      intro n
      induction n with
      | nil => simp [look, keys]
      | cons e n ih =>
        rw [List.map_cons, look_cons, ih, look_cons]
        by_cases h1 : e.1 = k
        · by_cases h2 : k' = k
          · subst h2; simp [h1, keys]
          · simp [h1, h2, Ne.symm h2]
        · by_cases h2 : k' = k
          · subst h2
            have e1 : (k' ∈ keys (e :: n)) = (k' ∈ keys n) := by
              unfold keys; rw [List.map_cons, List.mem_cons]; simp [Ne.symm h1]
            simp only [if_true, e1]
            simp [h1]
          · simp [h1, h2]
    rw [key, if_pos h]
  · rename_i h
    rw [any_iff] at h
    rw [look_append]
    by_cases h2 : k' = k
    · subst h2
      have : look m k' = none := by
        cases hl : look m k' with
        | none => rfl
        | some x => exact absurd ((look_some_iff m k').1 ⟨x, hl⟩) h
      simp [this, look_cons]
    · rw [look_cons]
      simp [h2, Ne.symm h2, look]

theorem look_del (m : AMap V) (k k' : String) : look (del m k) k' = if k' = k then none else look m k' := by
  unfold del
  induction m with
  | nil => simp [look]
  | cons e m ih =>
    rw [List.filter_cons]
    by_cases h1 : e.1 = k
    · simp only [h1, beq_self_eq_true, Bool.not_true, Bool.false_eq_true, if_false]
      rw [ih, look_cons, h1]
      by_cases h2 : k' = k
      · simp [h2]
      · simp [h2, Ne.symm h2]
    · simp only [show (!(e.1 == k)) = true from by simp [h1], if_true]
      rw [look_cons, ih, look_cons]
      by_cases h2 : k' = k
      · subst h2; simp [h1]
      · simp [h2]

theorem keys_put (m : AMap V) (k : String) (v : V) (h : (keys m).Nodup) : (keys (put m k v)).Nodup := by
  unfold put
  split
  · have : keys (m.map (fun e => if e.1 == k then (k, v) else e)) = keys m := by
      unfold keys
      rw [List.map_map]
      apply List.map_congr_left
      intro e _
      simp only [Function.comp]
      by_cases h : e.1 = k
      · simp [h]
      · simp [h]
    rw [this]; exact h
  · rename_i hn
    rw [any_iff] at hn
    unfold keys at hn h ⊢
    rw [List.map_append, List.nodup_append]
    refine ⟨h, by simp, ?_⟩
    intro a ha b hb
    simp only [List.map_cons, List.map_nil, List.mem_singleton] at hb
    subst hb
    rintro rfl
    exact hn ha

theorem keys_del (m : AMap V) (k : String) (h : (keys m).Nodup) : (keys (del m k)).Nodup := by
  unfold keys del at *
  exact h.sublist (List.Sublist.map _ List.filter_sublist)

theorem foldl_del (ks : List String) : ∀ (m : AMap V), (∀ k, look (ks.foldl del m) k = if k ∈ ks then none else look m k) ∧
    ((keys m).Nodup → (keys (ks.foldl del m)).Nodup) := by
  induction ks with
  | nil => intro m; simp
  | cons a ks ih =>
    intro m
    obtain ⟨h1, h2⟩ := ih (del m a)
    rw [List.foldl_cons]
    refine ⟨fun k => ?_, fun h => h2 (keys_del m a h)⟩
    rw [h1, look_del]
    by_cases hk : k ∈ ks
    · simp [hk]
    · by_cases ha : k = a
      · simp [ha]
      · simp [hk, ha]

theorem foldl_put (es : AMap V) : ∀ (acc : AMap V), (∀ k, look (es.foldl (fun acc e => put acc e.1 e.2) acc) k = (look es.reverse k).or (look acc k)) ∧
    ((keys acc).Nodup → (keys (es.foldl (fun acc e => put acc e.1 e.2) acc)).Nodup) := by
  induction es with
  | nil => intro acc; simp [look]
  | cons e es ih =>
    intro acc
    obtain ⟨h1, h2⟩ := ih (put acc e.1 e.2)
    rw [List.foldl_cons]
    refine ⟨fun k => ?_, fun h => h2 (keys_put acc e.1 e.2 h)⟩
    rw [h1, look_put, List.reverse_cons, look_append, look_cons]
    cases look es.reverse k with
    | some v => rfl
    | none =>
      by_cases hk : k = e.1
      · simp [hk]
      · simp [hk, Ne.symm hk, look]

theorem look_eq_of_mem {m : AMap V} (h : (keys m).Nodup) {e : String × V} (he : e ∈ m) : look m e.1 = some e.2 := by
  induction m with
  | nil => cases he
  | cons a m ih =>
    rw [look_cons]
    unfold keys at h
    rw [List.map_cons, List.nodup_cons] at h
    rcases List.mem_cons.1 he with rfl | hm
    · simp
    · have : a.1 ≠ e.1 := fun x => h.1 (by rw [x]; exact List.mem_map.2 ⟨e, hm, rfl⟩)
      rw [if_neg this]
      exact ih h.2 hm

theorem look_reverse {m : AMap V} (h : (keys m).Nodup) (k : String) : look m.reverse k = look m k := by
  have hr : (keys m.reverse).Nodup := by unfold keys at *; rw [List.map_reverse]; exact (List.reverse_perm _).nodup_iff.2 h
  cases hk : look m k with
  | none =>
    cases hl : look m.reverse k with
    | none => rfl
    | some v =>
      have := (look_some_iff m.reverse k).1 ⟨v, hl⟩
      unfold keys at this
      rw [List.map_reverse, List.mem_reverse] at this
      obtain ⟨x, hx⟩ := (look_some_iff m k).2 this
      rw [hk] at hx; cases hx
  | some v =>
    unfold look at hk
    rw [Option.map_eq_some_iff] at hk
    obtain ⟨e, he, hv⟩ := hk
    have hm := List.mem_of_find?_eq_some he
    have hk' := List.find?_some he
    simp only [beq_iff_eq] at hk'
    rw [← hk', ← hv]
    exact look_eq_of_mem hr (List.mem_reverse.2 hm)

theorem foldl_names (m : AMap V) : ∀ acc, m.foldl (fun acc e => acc ++ [e.1]) acc = acc ++ keys m := by
  induction m with
  | nil => intro acc; simp [keys]
  | cons e m ih => intro acc; rw [List.foldl_cons, ih]; simp [keys]

theorem lists_keys {m : AMap V} (h : (keys m).Nodup) : Lists (look m) (keys m) := ⟨h, fun k => (look_some_iff m k).symm⟩

/-! Refinement -/

/-- Objects below `made` hold different maps with distinct names, and these maps are the contents. -/
structure Rel (s : St V) (a : Abs V) : Prop where
  made : s.objNext = a.made
  own : ∀ c, c < a.made → ∃ m, s.objs c = some m ∧ m < s.mapNext ∧ (keys (s.maps m)).Nodup ∧ look (s.maps m) = a.at_ c
  inj : ∀ c c' m, c < a.made → c' < a.made → s.objs c = some m → s.objs c' = some m → c = c'

theorem Rel.get {s : St V} {a : Abs V} (r : Rel s a) {c : Nat} (hc : c < a.made) :
    ∃ m, s.objs c = some m ∧ m < s.mapNext ∧ (keys (s.maps m)).Nodup ∧ look (s.maps m) = a.at_ c ∧ s.map c = s.maps m := by
  obtain ⟨m, h1, h2, h3, h4⟩ := r.own c hc
  exact ⟨m, h1, h2, h3, h4, by unfold St.map; rw [h1]⟩

theorem Rel.upd {s : St V} {a : Abs V} (r : Rel s a) {c m : Nat} (hc : c < a.made) (hm : s.objs c = some m) {n : AMap V} {f : String → Option V}
    (hn : (keys n).Nodup) (hf : look n = f) : Rel (s.upd m n) ⟨a.made, fun c' => if c' = c then f else a.at_ c'⟩ := by
  refine ⟨r.made, fun c' hc' => ?_, r.inj⟩
  obtain ⟨m', h1, h2, h3, h4⟩ := r.own c' hc'
  refine ⟨m', h1, h2, ?_, ?_⟩
  · simp only [St.upd]
    split
    · exact hn
    · exact h3
  · simp only [St.upd]
    by_cases he : c' = c
    · subst he
      rw [hm] at h1; cases h1
      simp [hf]
    · have : m' ≠ m := fun x => he (r.inj c' c m hc' hc (by rw [h1, x]) hm)
      rw [if_neg this, if_neg he]; exact h4

theorem Rel.add {s : St V} {a : Abs V} (r : Rel s a) {n : AMap V} {f : String → Option V} (hn : (keys n).Nodup) (hf : look n = f) :
    Rel (s.add n) ⟨a.made + 1, fun c' => if c' = a.made then f else a.at_ c'⟩ := by
  have hmade := r.made
  refine ⟨by simp [St.add, hmade], fun c' hc' => ?_, fun c c' m hc hc' hm hm' => ?_⟩
  · simp only [St.add] at hc' ⊢
    by_cases he : c' = a.made
    · refine ⟨s.mapNext, by rw [if_pos (by omega)], by omega, by simp [hn], by simp [he, hf]⟩
    · obtain ⟨m, h1, h2, h3, h4⟩ := r.own c' (by omega)
      refine ⟨m, by rw [if_neg (by omega)]; exact h1, by omega, ?_, ?_⟩
      · rw [if_neg (by omega)]; exact h3
      · rw [if_neg (by omega), if_neg he]; exact h4
  · simp only [St.add] at hc hc' hm hm'
    by_cases h1 : c = a.made <;> by_cases h2 : c' = a.made
    · omega
    · rw [if_pos (by omega)] at hm
      rw [if_neg (by omega)] at hm'
      obtain ⟨m2, q1, q2, -⟩ := r.own c' (by omega)
      rw [hm'] at q1; cases q1; cases hm; omega
    · rw [if_neg (by omega)] at hm
      rw [if_pos (by omega)] at hm'
      obtain ⟨m2, q1, q2, -⟩ := r.own c (by omega)
      rw [hm] at q1; cases q1; cases hm'; omega
    · rw [if_neg (by omega)] at hm hm'
      exact r.inj c c' m (by omega) (by omega) hm hm'

theorem step_refines {s : St V} {a : Abs V} (r : Rel s a) (x : Cmd V) (hx : Own a.made x) :
    ∃ a', Spec a x (step s x).2 a' ∧ Rel (step s x).1 a' ∧ a'.made = after a.made x := by
  cases x with
  | new => exact ⟨_, ⟨by simp [step, r.made], rfl⟩, r.add (by simp [keys]) (by funext k; rfl), rfl⟩
  | set c k v =>
    obtain ⟨m, h1, h2, h3, h4, h5⟩ := r.get (show c < a.made from hx)
    simp only [step, h1]
    refine ⟨_, ⟨rfl, rfl⟩, r.upd hx h1 (keys_put _ _ _ h3) ?_, rfl⟩
    funext k'
    rw [look_put, ← h4]
  | remove c k =>
    obtain ⟨m, h1, h2, h3, h4, h5⟩ := r.get (show c < a.made from hx)
    simp only [step, h1]
    refine ⟨_, ⟨rfl, rfl⟩, r.upd hx h1 (keys_del _ _ h3) ?_, rfl⟩
    funext k'
    rw [look_del, ← h4]
  | has c k =>
    obtain ⟨m, h1, h2, h3, h4, h5⟩ := r.get (show c < a.made from hx)
    refine ⟨a, ⟨?_, rfl⟩, r, rfl⟩
    simp only [step, h5, ← h4, look_isSome]
  | get c k =>
    obtain ⟨m, h1, h2, h3, h4, h5⟩ := r.get (show c < a.made from hx)
    refine ⟨a, ⟨?_, rfl⟩, r, rfl⟩
    simp only [step, h5, ← h4]
  | names c =>
    obtain ⟨m, h1, h2, h3, h4, h5⟩ := r.get (show c < a.made from hx)
    refine ⟨a, ⟨⟨keys (s.maps m), ?_, ?_⟩, rfl⟩, r, rfl⟩
    · simp only [step, h5, foldl_names, List.nil_append]
    · rw [← h4]; exact lists_keys h3
  | len c =>
    obtain ⟨m, h1, h2, h3, h4, h5⟩ := r.get (show c < a.made from hx)
    refine ⟨a, ⟨⟨keys (s.maps m), ?_, ?_⟩, rfl⟩, r, rfl⟩
    · rw [← h4]; exact lists_keys h3
    · simp only [step, h5, keys, List.length_map]
  | clean c =>
    obtain ⟨m, h1, h2, h3, h4, h5⟩ := r.get (show c < a.made from hx)
    simp only [step, h1]
    obtain ⟨q1, q2⟩ := foldl_del (keys (s.maps m)) (s.maps m)
    refine ⟨_, ⟨rfl, rfl⟩, r.upd hx h1 (q2 h3) ?_, rfl⟩
    funext k
    have := q1 k
    unfold keys at this
    rw [this]
    split
    · rfl
    · rename_i hk
      cases hl : look (s.maps m) k with
      | none => rfl
      | some v => exact absurd ((look_some_iff _ k).1 ⟨v, hl⟩) hk
  | clone c =>
    obtain ⟨m, h1, h2, h3, h4, h5⟩ := r.get (show c < a.made from hx)
    simp only [step]
    obtain ⟨q1, q2⟩ := foldl_put (s.maps m) []
    rw [h5]
    refine ⟨_, ⟨by rw [r.made], rfl⟩, r.add (q2 (by simp [keys])) ?_, rfl⟩
    funext k
    rw [q1, look_reverse h3, ← h4]
    simp [look]
  | withData c m => exact absurd hx id
  | mapSet m k v => exact absurd hx id

/-- C43: every sequence of `New`, `Set`/`Add`, `Remove`, `Has`, `Get`, `Names`, `Len`, `Clean` and `Clone` calls, on any number of objects, returns what
independent finite maps return. (An object that was given a map of the caller with `WithData` is another matter, see the theorems below.) -/
theorem C43_behaves_like_maps : ∀ (xs : List (Cmd V)) (s : St V) (a : Abs V), Rel s a → OwnAll a.made xs →
    ∃ a', SpecRun a xs (runs s xs).2 a' ∧ Rel (runs s xs).1 a'
  | [], s, a, r, _ => ⟨a, ⟨rfl, rfl⟩, r⟩
  | x :: xs, s, a, r, h => by
    obtain ⟨a1, h1, h2, h3⟩ := step_refines r x h.1
    obtain ⟨a2, h4, h5⟩ := C43_behaves_like_maps xs (step s x).1 a1 h2 (by rw [h3]; exact h.2)
    exact ⟨a2, ⟨_, _, a1, rfl, h1, h4⟩, h5⟩

/-- From the start. -/
theorem C43_behaves_like_maps_from_start (xs : List (Cmd V)) (h : OwnAll 0 xs) :
    ∃ a', SpecRun ⟨0, fun _ _ => none⟩ xs (runs init xs).2 a' := by
  obtain ⟨a', h1, -⟩ := C43_behaves_like_maps xs init ⟨0, fun _ _ => none⟩
    ⟨rfl, fun c hc => absurd hc (Nat.not_lt_zero c), fun c c' m hc => absurd hc (Nat.not_lt_zero c)⟩ h
  exact ⟨a', h1⟩

/-- C43: a typed getter returns the stored value exactly when it was stored with the asked-for type. -/
theorem C43_typed_getter {T P : Type} [DecidableEq T] (s : St (T × P)) (a : Abs (T × P)) (r : Rel s a) (c : Nat) (hc : c < a.made)
    (t : T) (zero : P) (k : String) :
    (∀ p, a.at_ c k = some (t, p) → getTyped s c t zero k = p) ∧
    ((∀ p, a.at_ c k ≠ some (t, p)) → getTyped s c t zero k = zero) := by
  obtain ⟨m, h1, h2, h3, h4, h5⟩ := r.get hc
  unfold getTyped
  rw [h5, h4]
  constructor
  · intro p hp; rw [hp]; simp
  · intro hn
    cases hv : a.at_ c k with
    | none => rfl
    | some v =>
      obtain ⟨t', p⟩ := v
      simp only
      rw [if_neg]
      rintro rfl
      exact hn p hv

def demoCmds : List (Cmd Nat) :=
  [.new, .set 0 "a" 1, .set 0 "b" 2, .clone 0, .set 1 "a" 3, .remove 1 "b", .get 0 "a", .get 1 "a", .has 1 "b", .names 0, .clean 0, .len 0, .len 1]

example : OwnAll 0 demoCmds := by simp [demoCmds, OwnAll, Own, after]
example : (runs init demoCmds).2 = [.obj 0, .unit, .unit, .obj 1, .unit, .unit, .val (some 1), .val (some 3), .bool false, .names ["a", "b"], .unit, .num 0, .num 1] := by
  decide +kernel

/-- C43 (violation): after `WithData(m)` the object is the caller's map: two objects given the same map are one, and the caller's own writes show. -/
theorem C43_with_data_aliases_violated :
    (runs init [.new, .new, .mapSet 7 "a" 1, .withData 0 (some 7), .withData 1 (some 7), .set 0 "a" 5, .get 1 "a", .mapSet 7 "a" 6, .get 0 "a"] : St Nat × _).2 =
      [.obj 0, .obj 1, .unit, .unit, .unit, .unit, .val (some 5), .unit, .val (some 6)] := by decide +kernel

/-- C43 (violation): after `WithData(nil)`, `Set` panics. -/
theorem C43_nil_map_violated :
    (runs init [.new, .withData 0 none, .get 0 "a", .set 0 "a" 5] : St Nat × _).2 = [.obj 0, .unit, .val none, .panic] := by decide +kernel

end Verif.Facade.Cfg
