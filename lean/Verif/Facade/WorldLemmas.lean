import Verif.Facade.WorldSpec
namespace Verif.Facade.World

theorem getD_lt (l : List Nat) (i : Nat) (h : i < l.length) : l.getD i 0 = l[i] := by
  simp [List.getD_eq_getElem?_getD, h]

theorem list_length (A : Arrs) (s : ASlice) : (A.list s).length = s.len := by simp [Arrs.list]

theorem list_congr {A B : Arrs} {s : ASlice} (h : ∀ i, i < s.len → B.at_ s.arr i = A.at_ s.arr i) : B.list s = A.list s := by
  unfold Arrs.list
  apply List.map_congr_left
  intro i hi
  exact h i (List.mem_range.1 hi)

theorem range_map_append (f g : Nat → Nat) (a : Nat) (xs : List Nat) (h1 : ∀ i, i < a → f i = g i)
    (h2 : ∀ i, i < xs.length → f (a + i) = xs.getD i 0) : (List.range (a + xs.length)).map f = (List.range a).map g ++ xs := by
  apply List.ext_getElem
  · simp
  · intro i hi1 hi2
    simp only [List.getElem_map, List.getElem_range]
    by_cases hlt : i < a
    · rw [List.getElem_append_left (by simpa using hlt)]
      simp [h1 i hlt]
    · simp only [List.length_map, List.length_range] at hi1
      rw [List.getElem_append_right (by simp; omega)]
      simp only [List.length_map, List.length_range]
      have := h2 (i - a) (by omega)
      rw [show a + (i - a) = i from by omega] at this
      rw [this, getD_lt _ _ (by omega)]

theorem append_list (slack : Nat → Nat) (A : Arrs) (s : ASlice) (xs : List Nat) :
    (A.append slack s xs).1.list (A.append slack s xs).2 = A.list s ++ xs := by
  unfold Arrs.append
  simp only
  split
  · refine range_map_append _ _ _ _ (fun i hi => ?_) (fun i hi => ?_)
    · simp only; rw [if_neg (by omega)]
    · simp only; rw [if_pos ⟨trivial, by omega, by omega⟩, Nat.add_sub_cancel_left]
  · unfold Arrs.list
    simp only [if_true]
    apply List.ext_getElem
    · simp
    · intro i hi1 hi2
      simp only [List.getElem_map, List.getElem_range]
      rw [getD_lt _ _ hi2]

theorem append_other (slack : Nat → Nat) (A : Arrs) (s : ASlice) (xs : List Nat) (t : ASlice) (h1 : t.arr < A.next)
    (h2 : t.arr ≠ s.arr ∨ t.len ≤ s.len) : (A.append slack s xs).1.list t = A.list t := by
  apply list_congr
  intro i hi
  unfold Arrs.append
  simp only
  split
  · simp only
    rw [if_neg]
    rintro ⟨a, b, _⟩
    rcases h2 with h2 | h2
    · exact h2 a
    · omega
  · simp only
    rw [if_neg (by omega)]

theorem append_arr (slack : Nat → Nat) (A : Arrs) (s : ASlice) (xs : List Nat) (h1 : s.arr < A.next) (h2 : s.len ≤ s.cap) :
    A.next ≤ (A.append slack s xs).1.next ∧ (A.append slack s xs).2.arr < (A.append slack s xs).1.next ∧
    ((A.append slack s xs).2.arr = s.arr ∨ (A.append slack s xs).2.arr = A.next) ∧
    (A.append slack s xs).2.len ≤ (A.append slack s xs).2.cap := by
  unfold Arrs.append
  simp only
  split
  · exact ⟨Nat.le_refl _, h1, Or.inl rfl, by assumption⟩
  · exact ⟨Nat.le_succ _, Nat.lt_succ_self _, Or.inr rfl, Nat.le_add_right _ _⟩

/-- The objects of a value exist. -/
structure Owned (w : World) (v : Value) : Prop where
  cfg : ∀ c, v.cfg = some c → c < w.cfgNext ∧ ∀ m, w.cfgs c = some m → m < w.mapNext
  errs : v.errs.arr < w.errs.next ∧ v.errs.len ≤ v.errs.cap
  fns : v.fns.arr < w.fns.next ∧ v.fns.len ≤ v.fns.cap

/-- Two values share no object. -/
structure Sep (w : World) (v u : Value) : Prop where
  cfg : ∀ c c', v.cfg = some c → u.cfg = some c' → c ≠ c' ∧ ∀ m m', w.cfgs c = some m → w.cfgs c' = some m' → m ≠ m'
  errs : v.errs.arr ≠ u.errs.arr
  fns : v.fns.arr ≠ u.fns.arr

theorem Sep.symm {w : World} {v u : Value} (h : Sep w v u) : Sep w u v :=
  ⟨fun c c' a b => ⟨fun e => (h.cfg c' c b a).1 e.symm, fun m m' x y e => (h.cfg c' c b a).2 m' m y x e.symm⟩,
    fun e => h.errs e.symm, fun e => h.fns e.symm⟩

/-- What a call may do to the world: the rest of the program does not notice. -/
structure Local (w : World) (v : Value) (w' : World) (v' : Value) : Prop where
  own : Owned w' v'
  other : ∀ u, Owned w u → Sep w v u → obs w' u = obs w u ∧ Owned w' u ∧ Sep w' v' u

theorem Local.trans {w w1 w2 : World} {v v1 v2 : Value} (a : Local w v w1 v1) (b : Local w1 v1 w2 v2) : Local w v w2 v2 := by
  refine ⟨b.own, fun u ou su => ?_⟩
  obtain ⟨e1, o1, s1⟩ := a.other u ou su
  obtain ⟨e2, o2, s2⟩ := b.other u o1 s1
  exact ⟨e2.trans e1, o2, s2⟩

theorem Local.refl {w : World} {v : Value} (o : Owned w v) : Local w v w v := ⟨o, fun _ ou su => ⟨rfl, ou, su⟩⟩

theorem Local.field {w : World} {v : Value} (o : Owned w v) (f : Fields) : Local w v w { v with f := f } :=
  ⟨⟨o.cfg, o.errs, o.fns⟩, fun _ ou su => ⟨rfl, ou, su.cfg, su.errs, su.fns⟩⟩

theorem appendError_local (slack : Nat → Nat) {w : World} {v : Value} (o : Owned w v) (es : List Err) :
    Local w v (appendError slack w v es).1 (appendError slack w v es).2 := by
  obtain ⟨a1, a2, a3, a4⟩ := append_arr slack w.errs v.errs es o.errs.1 o.errs.2
  unfold appendError
  refine ⟨⟨o.cfg, ⟨a2, a4⟩, o.fns⟩, fun u ou su => ⟨?_, ⟨ou.cfg, ⟨by have := ou.errs.1; simp only; omega, ou.errs.2⟩, ou.fns⟩, ⟨su.cfg, ?_, su.fns⟩⟩⟩
  · unfold obs
    simp only
    rw [append_other slack w.errs v.errs es u.errs ou.errs.1 (Or.inl su.errs.symm)]
  · rcases a3 with a3 | a3 <;> simp only <;> rw [a3]
    · exact su.errs
    · have := ou.errs.1; omega

theorem onError_local (slack : Nat → Nat) {w : World} {v : Value} (o : Owned w v) (g : Fn) :
    Local w v (onError slack w v g).1 (onError slack w v g).2 := by
  obtain ⟨a1, a2, a3, a4⟩ := append_arr slack w.fns v.fns [g] o.fns.1 o.fns.2
  unfold onError
  refine ⟨⟨o.cfg, o.errs, ⟨a2, a4⟩⟩, fun u ou su => ⟨?_, ⟨ou.cfg, ou.errs, ⟨by have := ou.fns.1; simp only; omega, ou.fns.2⟩⟩, ⟨su.cfg, su.errs, ?_⟩⟩⟩
  · unfold obs
    simp only
    rw [append_other slack w.fns v.fns [g] u.fns ou.fns.1 (Or.inl su.fns.symm)]
  · rcases a3 with a3 | a3 <;> simp only <;> rw [a3]
    · exact su.fns
    · have := ou.fns.1; omega

theorem appendError_obs (slack : Nat → Nat) (w : World) (v : Value) (es : List Err) :
    obs (appendError slack w v es).1 (appendError slack w v es).2 = { obs w v with errs := (obs w v).errs ++ es } := by
  unfold appendError obs
  simp only [append_list]

theorem onError_obs (slack : Nat → Nat) (w : World) (v : Value) (g : Fn) :
    obs (onError slack w v g).1 (onError slack w v g).2 = { obs w v with fns := (obs w v).fns ++ [g] } := by
  unfold onError obs
  simp only [append_list]

/-- One `Config.Set`. -/
theorem cfgSet_ok {w : World} {c m : Nat} (hm : w.cfgs c = some m) (k : String) (x : Val) :
    cfgSet w (some c) k x = .ok { w with maps := fun m' => if m' = m then (fun k' => if k' = k then some x else w.maps m k') else w.maps m' } := by
  unfold cfgSet
  simp only [hm]

theorem cfgSetAll_spec {v : Value} {c m : Nat} (hc : v.cfg = some c) : ∀ (kvs : List (String × Val)) (w : World), Owned w v → w.cfgs c = some m →
    ∃ w', cfgSetAll w v.cfg kvs = .ok w' ∧ Local w v w' v ∧ obs w' v = { obs w v with cfg := some (some (putAll (w.maps m) kvs)) }
  | [], w, o, hm => by
    refine ⟨w, rfl, Local.refl o, ?_⟩
    unfold obs
    simp [hc, hm, putAll]
  | (k, x) :: kvs, w, o, hm => by
    simp only [cfgSetAll, hc, cfgSet_ok hm, Res.bind_ok]
    generalize hw1 : ({ w with maps := fun m' => if m' = m then (fun k' => if k' = k then some x else w.maps m k') else w.maps m' } : World) = w1
    have hmaps : w1.maps m = fun k' => if k' = k then some x else w.maps m k' := by rw [← hw1]; simp
    have hl : Local w v w1 v := by
      rw [← hw1]
      refine ⟨⟨o.cfg, o.errs, o.fns⟩, fun u ou su => ⟨?_, ⟨ou.cfg, ou.errs, ou.fns⟩, ⟨su.cfg, su.errs, su.fns⟩⟩⟩
      unfold obs
      simp only [Obs.mk.injEq, true_and, and_true]
      cases huc : u.cfg with
      | none => rfl
      | some c' =>
        simp only [Option.map_some, Option.some.injEq]
        cases hm' : w.cfgs c' with
        | none => rfl
        | some m' =>
          have := (su.cfg c c' hc huc).2 m m' hm hm'
          simp only [Option.map_some, Option.some.injEq]
          rw [if_neg (fun e => this e.symm)]
    obtain ⟨w2, e2, l2, ob2⟩ := cfgSetAll_spec hc kvs w1 hl.own (by rw [← hw1]; exact hm)
    rw [hc] at e2
    refine ⟨w2, e2, hl.trans l2, ?_⟩
    rw [ob2, hmaps, putAll, ← hw1]
    unfold obs
    simp

theorem trigger_quiet {beh : Behave} (hb : ∀ f es, beh f es = none) : ∀ (fs : List Fn) (es : List Err),
    trigger beh fs es = (fs.map (fun f => (f, es)), none)
  | [], es => rfl
  | f :: fs, es => by simp [trigger, hb, trigger_quiet hb fs es]

/-- One call: the record changes as specified and nothing else is touched. -/
theorem step_spec (slack : Nat → Nat) {beh : Behave} (hb : ∀ f es, beh f es = none) {w : World} {v : Value} (o : Owned w v) (p : POp) :
    (∃ w' v', execP slack beh w v p = .ok (w', v') ∧ Local w v w' v' ∧ pure (obs w v) p = some (obs w' v')) ∨
    (execP slack beh w v p = .panic ∧ pure (obs w v) p = none) := by
  cases p with
  | plain g => exact Or.inl ⟨_, _, rfl, Local.field o _, rfl⟩
  | setCfg g kvs =>
    cases kvs with
    | nil => exact Or.inl ⟨_, _, rfl, Local.field o _, rfl⟩
    | cons kv kvs =>
      obtain ⟨k, x⟩ := kv
      cases hc : v.cfg with
      | none =>
        refine Or.inr ⟨?_, ?_⟩
        · simp only [execP, exec, hc]; rfl
        · simp only [pure, obs, hc]; rfl
      | some c =>
        cases hm : w.cfgs c with
        | none =>
          refine Or.inr ⟨?_, ?_⟩
          · simp only [execP, exec, hc, cfgSetAll, cfgSet, hm]; rfl
          · simp only [pure, obs, hc, Option.map_some, hm, Option.map_none]
        | some m =>
          obtain ⟨w', e, l, ob⟩ := cfgSetAll_spec hc ((k, x) :: kvs) w o hm
          refine Or.inl ⟨w', { v with f := g v.f }, ?_, l.trans (Local.field l.own _), ?_⟩
          · simp only [execP, exec, e, Res.bind_ok]
          · have h1 : (obs w v).cfg = some (some (w.maps m)) := by simp [obs, hc, hm]
            have h2 : obs w' { v with f := g v.f } = { obs w' v with f := g v.f } := rfl
            rw [h2, ob]
            simp only [pure, h1]
            rfl
  | withConfig cc =>
    match cc with
    | none =>
      refine Or.inl ⟨_, _, rfl, ⟨⟨?_, o.errs, o.fns⟩, fun u ou su => ⟨rfl, ou, ⟨?_, su.errs, su.fns⟩⟩⟩, rfl⟩
      · intro c h; cases h
      · intro c c' h; cases h
    | some none =>
      refine Or.inl ⟨_, _, rfl, ⟨⟨?_, o.errs, o.fns⟩, fun u ou su => ⟨?_, ⟨?_, ou.errs, ou.fns⟩, ⟨?_, su.errs, su.fns⟩⟩⟩, ?_⟩
      · intro c h
        cases h
        refine ⟨Nat.lt_succ_self _, fun m hm => ?_⟩
        simp at hm
      · unfold obs
        simp only [Obs.mk.injEq, true_and, and_true]
        cases huc : u.cfg with
        | none => rfl
        | some c' =>
          have := (ou.cfg c' huc).1
          simp only [Option.map_some, Option.some.injEq]
          rw [if_neg (by omega)]
      · intro c' huc
        have := ou.cfg c' huc
        refine ⟨by simp only; omega, fun m hm => ?_⟩
        simp only at hm
        rw [if_neg (by omega)] at hm
        exact this.2 m hm
      · intro c c' h huc
        cases h
        have := (ou.cfg c' huc).1
        refine ⟨by omega, fun m m' hm _ => ?_⟩
        simp at hm
      · simp [pure, obs]
    | some (some m0) =>
      refine Or.inl ⟨_, _, rfl, ⟨⟨?_, o.errs, o.fns⟩, fun u ou su => ⟨?_, ⟨?_, ou.errs, ou.fns⟩, ⟨?_, su.errs, su.fns⟩⟩⟩, ?_⟩
      · intro c h
        cases h
        refine ⟨Nat.lt_succ_self _, fun m hm => ?_⟩
        simp at hm
        simp only; omega
      · unfold obs
        simp only [Obs.mk.injEq, true_and, and_true]
        cases huc : u.cfg with
        | none => rfl
        | some c' =>
          have := ou.cfg c' huc
          simp only [Option.map_some, Option.some.injEq]
          rw [if_neg (by omega)]
          cases hm' : w.cfgs c' with
          | none => rfl
          | some m' =>
            have := this.2 m' hm'
            simp only [Option.map_some, Option.some.injEq]
            rw [if_neg (by omega)]
      · intro c' huc
        have := ou.cfg c' huc
        refine ⟨by simp only; omega, fun m hm => ?_⟩
        simp only at hm ⊢
        rw [if_neg (by omega)] at hm
        have := this.2 m hm
        omega
      · intro c c' h huc
        cases h
        have := ou.cfg c' huc
        refine ⟨by omega, fun m m' hm hm' => ?_⟩
        simp only at hm hm'
        rw [if_pos trivial] at hm
        rw [if_neg (by omega)] at hm'
        have := this.2 m' hm'
        cases hm
        omega
      · simp [pure, obs]
  | setConfig mm =>
    cases hc : v.cfg with
    | none =>
      refine Or.inr ⟨?_, ?_⟩
      · cases mm <;> simp only [execP, exec, cfgWithData, hc] <;> rfl
      · simp [pure, obs, hc]
    | some c =>
      have oc := o.cfg c hc
      cases mm with
      | none =>
        refine Or.inl ⟨{ w with cfgs := fun c' => if c' = c then none else w.cfgs c' }, v, ?_, ⟨⟨?_, o.errs, o.fns⟩, fun u ou su => ⟨?_, ⟨?_, ou.errs, ou.fns⟩, ⟨?_, su.errs, su.fns⟩⟩⟩, ?_⟩
        · simp only [execP, exec, cfgWithData, hc, Res.bind_ok]
        · intro c' h
          rw [hc] at h; cases h
          refine ⟨oc.1, fun m hm => ?_⟩
          simp at hm
        · unfold obs
          simp only [Obs.mk.injEq, true_and, and_true]
          cases huc : u.cfg with
          | none => rfl
          | some c' =>
            have := (su.cfg c c' hc huc).1
            simp only [Option.map_some, Option.some.injEq]
            rw [if_neg (fun e => this e.symm)]
        · intro c' huc
          have h1 := ou.cfg c' huc
          have := (su.cfg c c' hc huc).1
          refine ⟨h1.1, fun m hm => ?_⟩
          simp only at hm
          rw [if_neg (fun e => this e.symm)] at hm
          exact h1.2 m hm
        · intro c1 c' h huc
          rw [hc] at h; cases h
          refine ⟨(su.cfg c c' hc huc).1, fun m m' hm _ => ?_⟩
          simp at hm
        · simp [pure, obs, hc]
      | some m0 =>
        refine Or.inl ⟨{ w with maps := fun i => if i = w.mapNext then m0 else w.maps i, mapNext := w.mapNext + 1, cfgs := fun c' => if c' = c then some w.mapNext else w.cfgs c' },
          v, ?_, ⟨⟨?_, o.errs, o.fns⟩, fun u ou su => ⟨?_, ⟨?_, ou.errs, ou.fns⟩, ⟨?_, su.errs, su.fns⟩⟩⟩, ?_⟩
        · simp only [execP, exec, cfgWithData, hc, Res.bind_ok]
        · intro c' h
          rw [hc] at h; cases h
          refine ⟨oc.1, fun m hm => ?_⟩
          simp at hm
          simp only; omega
        · unfold obs
          simp only [Obs.mk.injEq, true_and, and_true]
          cases huc : u.cfg with
          | none => rfl
          | some c' =>
            have := (su.cfg c c' hc huc).1
            simp only [Option.map_some, Option.some.injEq]
            rw [if_neg (fun e => this e.symm)]
            cases hm' : w.cfgs c' with
            | none => rfl
            | some m' =>
              have := (ou.cfg c' huc).2 m' hm'
              simp only [Option.map_some, Option.some.injEq]
              rw [if_neg (by omega)]
        · intro c' huc
          have h1 := ou.cfg c' huc
          have := (su.cfg c c' hc huc).1
          refine ⟨h1.1, fun m hm => ?_⟩
          simp only at hm ⊢
          rw [if_neg (fun e => this e.symm)] at hm
          have := h1.2 m hm
          omega
        · intro c1 c' h huc
          rw [hc] at h; cases h
          have hne := (su.cfg c c' hc huc).1
          refine ⟨hne, fun m m' hm hm' => ?_⟩
          simp only at hm hm'
          rw [if_pos trivial] at hm
          rw [if_neg (fun e => hne e.symm)] at hm'
          have := (ou.cfg c' huc).2 m' hm'
          cases hm
          omega
        · simp [pure, obs, hc]
  | withErrors es =>
    refine Or.inl ⟨_, _, rfl, ⟨⟨o.cfg, ⟨Nat.lt_succ_self _, Nat.le_refl _⟩, o.fns⟩, fun u ou su => ⟨?_, ⟨ou.cfg, ⟨?_, ou.errs.2⟩, ou.fns⟩, ⟨su.cfg, ?_, su.fns⟩⟩⟩, ?_⟩
    · unfold obs
      simp only [Obs.mk.injEq, true_and]
      apply list_congr
      intro i _
      have := ou.errs.1
      simp only
      rw [if_neg (by omega)]
    · have := ou.errs.1; simp only; omega
    · have := ou.errs.1; simp only; omega
    · unfold obs
      simp only [pure, Option.some.injEq, Obs.mk.injEq, true_and]
      unfold Arrs.list
      simp only [if_true]
      apply List.ext_getElem
      · simp
      · intro i h1 h2
        simp only [List.getElem_map, List.getElem_range]
        rw [getD_lt _ _ h1]
  | appendError es => exact Or.inl ⟨(World.appendError slack w v es).1, (World.appendError slack w v es).2, rfl, appendError_local slack o es, by rw [appendError_obs]; rfl⟩
  | onError g => exact Or.inl ⟨(World.onError slack w v g).1, (World.onError slack w v g).2, rfl, onError_local slack o g, by rw [onError_obs]; rfl⟩
  | crypt step =>
    simp only [execP, exec, crypt, inner, pure]
    cases hs : step (obs w v) with
    | ok dst =>
      refine Or.inl ⟨w, { v with f := { v.f with parsed := dst } }, ?_, Local.field o _, rfl⟩
      simp only [trigger_quiet hb, Res.bind_ok]
    | err e =>
      refine Or.inl ⟨_, _, ?_, appendError_local slack o [e], by rw [appendError_obs]⟩
      simp only [trigger_quiet hb, Res.bind_ok]
    | panic e =>
      refine Or.inl ⟨_, _, ?_, appendError_local slack o [e], by rw [appendError_obs]⟩
      simp only [trigger_quiet hb, Res.bind_ok]

/-- `New()`. -/
theorem new_spec (w : World) : Owned (new w).1 (new w).2 ∧ obs (new w).1 (new w).2 = fresh ∧
    ∀ u, Owned w u → obs (new w).1 u = obs w u ∧ Owned (new w).1 u ∧ Sep (new w).1 (new w).2 u := by
  unfold new
  refine ⟨⟨?_, ⟨Nat.lt_succ_self _, Nat.le_refl _⟩, ⟨Nat.lt_succ_self _, Nat.le_refl _⟩⟩, ?_, fun u ou => ⟨?_, ⟨?_, ⟨?_, ou.errs.2⟩, ⟨?_, ou.fns.2⟩⟩, ⟨?_, ?_, ?_⟩⟩⟩
  · intro c h
    cases h
    refine ⟨Nat.lt_succ_self _, fun m hm => ?_⟩
    simp at hm
    simp only; omega
  · simp [obs, fresh, Arrs.list]
  · unfold obs
    simp only [Obs.mk.injEq, true_and]
    refine ⟨?_, rfl, rfl⟩
    cases huc : u.cfg with
    | none => rfl
    | some c' =>
      have := ou.cfg c' huc
      simp only [Option.map_some, Option.some.injEq]
      rw [if_neg (by omega)]
      cases hm' : w.cfgs c' with
      | none => rfl
      | some m' =>
        have := this.2 m' hm'
        simp only [Option.map_some, Option.some.injEq]
        rw [if_neg (by omega)]
  · intro c' huc
    have := ou.cfg c' huc
    refine ⟨by simp only; omega, fun m hm => ?_⟩
    simp only at hm ⊢
    rw [if_neg (by omega)] at hm
    have := this.2 m hm
    omega
  · have := ou.errs.1; simp only; omega
  · have := ou.fns.1; simp only; omega
  · intro c c' h huc
    cases h
    have := ou.cfg c' huc
    refine ⟨by omega, fun m m' hm hm' => ?_⟩
    simp only at hm hm'
    rw [if_pos trivial] at hm
    rw [if_neg (by omega)] at hm'
    have := this.2 m' hm'
    cases hm
    omega
  · have := ou.errs.1; simp only; omega
  · have := ou.fns.1; simp only; omega

end Verif.Facade.World
