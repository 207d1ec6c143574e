import Verif.Facade.WorldLemmas
/-
C40 (no panic escapes, no error is lost) and C41 (values are independent).
-/
namespace Verif.Facade.World

/-- Every chain has its own objects. -/
structure Inv (s : St) : Prop where
  own : ∀ i v, s.tbl i = some v → Owned s.w v
  sep : ∀ i j v u, i ≠ j → s.tbl i = some v → s.tbl j = some u → Sep s.w v u

theorem Inv.set {s : St} (h : Inv s) {i : Nat} {w' : World} {v' : Value} (own : Owned w' v')
    (other : ∀ j u, j ≠ i → s.tbl j = some u → obs w' u = obs s.w u ∧ Owned w' u ∧ Sep w' v' u)
    (keep : ∀ j k u t, j ≠ i → k ≠ i → j ≠ k → s.tbl j = some u → s.tbl k = some t → Sep w' u t) : Inv (s.set w' i v') := by
  constructor
  · intro j v hv
    simp only [St.set] at hv ⊢
    split at hv
    · cases hv; exact own
    · rename_i hne; exact (other j v hne hv).2.1
  · intro j k v u hjk hv hu
    simp only [St.set] at hv hu ⊢
    split at hv
    · cases hv
      split at hu
      · omega
      · rename_i hne; exact (other k u hne hu).2.2
    · rename_i hne
      split at hu
      · cases hu; exact (other j v hne hv).2.2.symm
      · rename_i hne2; exact keep j k v u hne hne2 hjk hv hu

theorem map_lt_of_owned {w : World} {v : Value} (o : Owned w v) {c m : Nat} (hc : v.cfg = some c) (hm : w.cfgs c = some m) : m < w.mapNext :=
  (o.cfg c hc).2 m hm

/-- The configuration of a value as the world changes: a call leaves the map of another value where it was. -/
theorem sep_keep {w w' : World} {u t : Value} (s : Sep w u t)
    (hu : ∀ c, u.cfg = some c → w'.cfgs c = w.cfgs c) (ht : ∀ c, t.cfg = some c → w'.cfgs c = w.cfgs c) : Sep w' u t := by
  refine ⟨fun c c' hc hc' => ⟨(s.cfg c c' hc hc').1, fun m m' hm hm' => ?_⟩, s.errs, s.fns⟩
  rw [hu c hc] at hm
  rw [ht c' hc'] at hm'
  exact (s.cfg c c' hc hc').2 m m' hm hm'

theorem cfgSetAll_cfgs : ∀ (kvs : List (String × Val)) (w : World) (cfg : Option Nat) (w' : World), cfgSetAll w cfg kvs = .ok w' → w'.cfgs = w.cfgs
  | [], w, cfg, w', h => by cases h; rfl
  | (k, x) :: kvs, w, cfg, w', h => by
    simp only [cfgSetAll] at h
    unfold cfgSet at h
    split at h
    · cases h
    · split at h
      · cases h
      · rw [Res.bind_ok] at h
        have := cfgSetAll_cfgs kvs _ _ _ h
        exact this

/-- A call changes the `Config` object of no other value. -/
theorem execP_cfgs (slack : Nat → Nat) {beh : Behave} (hb : ∀ f es, beh f es = none) {w : World} {v : Value} {p : POp} {w' : World} {v' : Value}
    (e : execP slack beh w v p = .ok (w', v')) {u : Value} (ou : Owned w u) (su : Sep w v u) : ∀ c, u.cfg = some c → w'.cfgs c = w.cfgs c := by
  intro c hc
  have hlt := (ou.cfg c hc).1
  cases p with
  | plain g => cases e; rfl
  | setCfg g kvs =>
    simp only [execP, exec] at e
    cases hx : cfgSetAll w v.cfg kvs with
    | ok w1 => rw [hx, Res.bind_ok] at e; cases e; rw [cfgSetAll_cfgs kvs _ _ _ hx]
    | err => rw [hx] at e; cases e
    | panic => rw [hx] at e; cases e
    | hang => rw [hx] at e; cases e
  | withConfig cc =>
    match cc with
    | none => cases e; rfl
    | some none => cases e; simp only; rw [if_neg (by omega)]
    | some (some m0) => cases e; simp only; rw [if_neg (by omega)]
  | setConfig mm =>
    cases hcv : v.cfg with
    | none => cases mm <;> simp only [execP, exec, cfgWithData, hcv] at e <;> cases e
    | some c' =>
      have hne := (su.cfg c' c hcv hc).1
      cases mm <;> simp only [execP, exec, cfgWithData, hcv, Res.bind_ok] at e <;> cases e <;> simp only <;> rw [if_neg (fun x => hne x.symm)]
  | withErrors es => cases e; rfl
  | appendError es => cases e; rfl
  | onError g => cases e; rfl
  | crypt step =>
    simp only [execP, exec, crypt, inner] at e
    cases hs : step (obs w v) <;> simp only [hs, trigger_quiet hb, Res.bind_ok] at e <;> cases e <;> rfl

theorem inv_start {s : St} (h : Inv s) (i : Nat) : Inv (s.set (new s.w).1 i (new s.w).2) := by
  obtain ⟨o, -, hu⟩ := new_spec s.w
  refine h.set o (fun j u _ hj => hu u (h.own j u hj)) ?_
  intro j k u t _ _ hjk hj hk
  refine sep_keep (h.sep j k u t hjk hj hk) (fun c hc => ?_) (fun c hc => ?_)
  · have := ((h.own j u hj).cfg c hc).1
    simp only [new]; rw [if_neg (by omega)]
  · have := ((h.own k t hk).cfg c hc).1
    simp only [new]; rw [if_neg (by omega)]

/-- C41: any interleaving of any number of chains, each started with `New()` and continued on its own result, with all the calls of the
facade. The value at the end of chain `i` is what the calls of chain `i` alone make of the record of `New()`: the other chains have no
influence on it, before, between or after. (`slack` is any growth policy of `append`; handlers do not panic, see C40.)
Partial: only for values with different roots; the values of a shared base or of the package-level functions do influence each other,
see the theorems below. -/
theorem C41_chains_independent_partial (slack : Nat → Nat) (beh : Behave) (hb : ∀ f es, beh f es = none) :
    ∀ (es : List Event) (s : St), Inv s → ∀ i,
      ((run slack beh es s).tbl i).map (obs (run slack beh es s).w) = chain i es ((s.tbl i).map (obs s.w))
  | [], s, _, i => rfl
  | .start j :: es, s, h, i => by
    have ih := C41_chains_independent_partial slack beh hb es _ (inv_start h j) i
    simp only [run, chain]
    rw [ih]
    congr 1
    obtain ⟨-, ho, hu⟩ := new_spec s.w
    simp only [St.set]
    by_cases hij : j = i
    · subst hij; simp [ho]
    · rw [if_neg (fun e => hij e.symm), if_neg hij]
      cases hv : s.tbl i with
      | none => rfl
      | some v => simp only [Option.map_some]; rw [(hu v (h.own i v hv)).1]
  | .call j p :: es, s, h, i => by
    simp only [run, chain]
    cases hv : s.tbl j with
    | none =>
      simp only
      rw [C41_chains_independent_partial slack beh hb es s h i]
      by_cases hij : j = i
      · subst hij; rw [if_pos rfl, hv]; rfl
      · rw [if_neg hij]
    | some v =>
      have ov := h.own j v hv
      rcases step_spec slack hb ov p with ⟨w', v', e, l, hp⟩ | ⟨e, hp⟩
      · simp only [e]
        have hi : Inv (s.set w' j v') := by
          refine h.set l.own (fun k u hk hu => l.other u (h.own k u hu) (h.sep j k v u (fun x => hk x.symm) hv hu)) ?_
          intro a b u t ha hb' hab hu ht
          exact sep_keep (h.sep a b u t hab hu ht)
            (execP_cfgs slack hb e (h.own a u hu) (h.sep j a v u (fun x => ha x.symm) hv hu))
            (execP_cfgs slack hb e (h.own b t ht) (h.sep j b v t (fun x => hb' x.symm) hv ht))
        rw [C41_chains_independent_partial slack beh hb es _ hi i]
        congr 1
        simp only [St.set]
        by_cases hij : j = i
        · subst hij; simp [hv, hp]
        · rw [if_neg (fun x => hij x.symm), if_neg hij]
          cases hu : s.tbl i with
          | none => rfl
          | some u => simp only [Option.map_some]; rw [(l.other u (h.own i u hu) (h.sep j i v u hij hv hu)).1]
      · simp only [e]
        rw [C41_chains_independent_partial slack beh hb es s h i]
        by_cases hij : j = i
        · subst hij; simp [hv, hp]
        · rw [if_neg hij]

/-- The start of a program: no value yet. -/
def start0 : St := ⟨⟨fun _ _ => none, 0, fun _ => none, 0, ⟨fun _ _ => 0, 0⟩, ⟨fun _ _ => 0, 0⟩⟩, fun _ => none⟩

theorem inv_start0 : Inv start0 :=
  ⟨by intro i v hv; simp [start0] at hv, by intro i j v u _ hv; simp [start0] at hv⟩

/-- C41 from the start of the program. -/
theorem C41_chains_independent_from_start_partial (slack : Nat → Nat) (beh : Behave) (hb : ∀ f es, beh f es = none) (es : List Event) (i : Nat) :
    ((run slack beh es start0).tbl i).map (obs (run slack beh es start0).w) = chain i es none :=
  C41_chains_independent_partial slack beh hb es start0 inv_start0 i

/-! A concrete program: two chains, interleaved, with configuration, errors and a failing `Encrypt`. -/

def demoEvents : List Event :=
  [.start 0, .start 1, .call 0 (.setCfg id [("tweak", ⟨1, 7⟩)]), .call 1 (.appendError [4]), .call 0 (.appendError [5]),
   .call 1 (.setCfg id [("tweak", ⟨1, 8⟩)]), .call 0 (.crypt fun _ => .err 9), .call 1 (.crypt fun _ => .panic 6)]

example : (((run (fun n => n) (fun _ _ => none) demoEvents start0).tbl 0).map
    (fun v => (obs (run (fun n => n) (fun _ _ => none) demoEvents start0).w v).errs)) = some [5, 9] := by decide +kernel
example : (((run (fun n => n) (fun _ _ => none) demoEvents start0).tbl 1).map
    (fun v => (obs (run (fun n => n) (fun _ _ => none) demoEvents start0).w v).errs)) = some [4, 6] := by decide +kernel
example : (chain 0 demoEvents none).map (fun o => o.errs) = some [5, 9] := by decide

/-- C41 (the exact range of interference): a call on `v` leaves every other value `u` as it was — also one that shares objects with `v` —
unless it writes the configuration and the two share it, or it adds an error (a handler) and the error list (handler list) of `u` extends
beyond that of `v` in the same array. -/
theorem C41_interference_range (slack : Nat → Nat) (beh : Behave) (w : World) (v u : Value) (op : Op) (w' : World) (v' : Value)
    (e : exec slack beh w v op = .ok (w', v')) (ou : Owned w u) (ov : Owned w v)
    (hcfg : (∃ g kvs, op = .setCfg g kvs) ∨ (∃ m, op = .setConfig m) → ∀ c c', v.cfg = some c → u.cfg = some c' → c ≠ c' ∧ ∀ m m', w.cfgs c = some m → w.cfgs c' = some m' → m ≠ m')
    (herr : (∃ es, op = .appendError es) ∨ (∃ st, op = .crypt st) → v.errs.arr = u.errs.arr → u.errs.len ≤ v.errs.len)
    (hfn : (∃ g, op = .onError g) → v.fns.arr = u.fns.arr → u.fns.len ≤ v.fns.len) :
    obs w' u = obs w u := by
  have happ : ∀ (w1 : World) (es : List Err), w1.errs.next = w.errs.next → (v.errs.arr = u.errs.arr → u.errs.len ≤ v.errs.len) →
      (w1.errs.append slack v.errs es).1.list u.errs = w1.errs.list u.errs := by
    intro w1 es hw hl
    apply append_other
    · rw [hw]; exact ou.errs.1
    · by_cases h : v.errs.arr = u.errs.arr
      · exact Or.inr (hl h)
      · exact Or.inl (fun x => h x.symm)
  cases op with
  | plain g => cases e; rfl
  | withConfig c => cases e; rfl
  | withErrors s => cases e; rfl
  | setConfig m =>
    have hc := hcfg (Or.inr ⟨m, rfl⟩)
    cases hv : v.cfg with
    | none => simp only [exec, cfgWithData, hv] at e; cases e
    | some c =>
      simp only [exec, cfgWithData, hv, Res.bind_ok] at e
      cases e
      unfold obs
      simp only [Obs.mk.injEq, true_and, and_true]
      cases huc : u.cfg with
      | none => rfl
      | some c' =>
        have := (hc c c' hv huc).1
        simp only [Option.map_some, Option.some.injEq]
        rw [if_neg (fun x => this x.symm)]
  | setCfg g kvs =>
    have hc := hcfg (Or.inl ⟨g, kvs, rfl⟩)
    cases kvs with
    | nil => cases e; rfl
    | cons kv kvs =>
      obtain ⟨k, x⟩ := kv
      cases hv : v.cfg with
      | none => simp only [exec, cfgSetAll, cfgSet, hv] at e; cases e
      | some c =>
        cases hm : w.cfgs c with
        | none => simp only [exec, cfgSetAll, cfgSet, hv, hm] at e; cases e
        | some m =>
          have key : ∀ (l : List (String × Val)) (w0 w1 : World), w0.cfgs = w.cfgs → w0.errs = w.errs → w0.fns = w.fns →
              cfgSetAll w0 (some c) l = .ok w1 → obs w1 u = obs w0 u ∧ w1.cfgs = w.cfgs := by
            intro l
            induction l with
            | nil => intro w0 w1 h1 _ _ h; cases h; exact ⟨rfl, h1⟩
            | cons a l ih =>
              obtain ⟨k, x⟩ := a
              intro w0 w1 h1 h2 h3 h
              simp only [cfgSetAll] at h
              rw [cfgSet_ok (by rw [h1]; exact hm), Res.bind_ok] at h
              obtain ⟨q1, q2⟩ := ih { w0 with maps := fun m' => if m' = m then (fun k' => if k' = k then some x else w0.maps m k') else w0.maps m' } w1 h1 h2 h3 h
              refine ⟨q1.trans ?_, q2⟩
              unfold obs
              simp only [Obs.mk.injEq, true_and, and_true]
              cases huc : u.cfg with
              | none => rfl
              | some c' =>
                simp only [Option.map_some, Option.some.injEq]
                cases hm' : w0.cfgs c' with
                | none => rfl
                | some m' =>
                  have := (hc c c' hv huc).2 m m' hm (by rw [← h1]; exact hm')
                  simp only [Option.map_some, Option.some.injEq]
                  rw [if_neg (fun x => this x.symm)]
          simp only [exec, hv] at e
          cases hx : cfgSetAll w (some c) ((k, x) :: kvs) with
          | ok w1 =>
            rw [hx, Res.bind_ok] at e
            cases e
            exact (key _ w w' rfl rfl rfl hx).1
          | err => rw [hx] at e; cases e
          | panic => rw [hx] at e; cases e
          | hang => rw [hx] at e; cases e
  | appendError es =>
    cases e
    unfold obs
    simp only
    rw [happ w es rfl (herr (Or.inl ⟨es, rfl⟩))]
  | onError g =>
    cases e
    unfold obs
    simp only
    rw [append_other slack w.fns v.fns [g] u.fns ou.fns.1]
    by_cases h : v.fns.arr = u.fns.arr
    · exact Or.inr (hfn ⟨g, rfl⟩ h)
    · exact Or.inl (fun x => h x.symm)
  | crypt step =>
    have hl := herr (Or.inr ⟨step, rfl⟩)
    simp only [exec] at e
    cases hx : crypt slack beh w v step with
    | err => rw [hx] at e; cases e
    | panic => rw [hx] at e; cases e
    | hang => rw [hx] at e; cases e
    | ok r =>
      rw [hx, Res.bind_ok] at e
      cases e
      -- the world after `inner` differs at most in the errors behind those of `v`
      have hin : obs (inner slack beh w v step).1 u = obs w u ∧ w.errs.next ≤ (inner slack beh w v step).1.errs.next := by
        unfold inner
        cases hs : step (obs w v) with
        | ok d => exact ⟨rfl, Nat.le_refl _⟩
        | panic d => exact ⟨rfl, Nat.le_refl _⟩
        | err d =>
          refine ⟨?_, (append_arr slack w.errs v.errs [d] ov.errs.1 ov.errs.2).1⟩
          simp only [World.appendError]
          unfold obs
          simp only
          rw [happ w [d] rfl hl]
      unfold crypt at hx
      generalize hr : inner slack beh w v step = q at hx hin
      obtain ⟨w1, v1, lg, po⟩ := q
      cases po with
      | none => simp only at hx hin; cases hx; exact hin.1
      | some er =>
        simp only at hx hin
        split at hx
        · cases hx
          refine Eq.trans ?_ hin.1
          simp only [World.appendError]
          unfold obs
          simp only [Obs.mk.injEq, true_and]
          apply append_other
          · have := ou.errs.1; have := hin.2; omega
          · by_cases h : v.errs.arr = u.errs.arr
            · exact Or.inr (hl h)
            · exact Or.inl (fun x => h x.symm)
        · cases hx

/-! What goes wrong when values share objects. -/

/-- The world with the package-level `defaultCryptobin` (cryptobin.go:64-67). -/
def dflt : World × Value := new start0.w

/-- C41 (violation): two values made with the package-level `FromString("a")` and `FromString("b")` share one configuration: `SetMode(…, cfg)` or
`PutConfig` on the first changes the second. -/
theorem C41_package_level_shared_violated : ∃ (a b a' : Value) (w' : World),
    a = { dflt.2 with f := { dflt.2.f with data := [0x61] } } ∧ b = { dflt.2 with f := { dflt.2.f with data := [0x62] } } ∧
    exec (fun n => n) (fun _ _ => none) dflt.1 a (.setCfg id [("tweak", ⟨1, 7⟩)]) = .ok (w', a') ∧
    ((obs dflt.1 b).cfg.bind id).bind (fun m => m "tweak") = none ∧ ((obs w' b).cfg.bind id).bind (fun m => m "tweak") = some ⟨1, 7⟩ :=
  ⟨_, _, _, _, rfl, rfl, rfl, by decide +kernel, by decide +kernel⟩

/-- C41 (violation): `SetConfig(nil)` on one value makes every later `PutConfig` on every other value of the package panic. -/
theorem C41_set_config_nil_violated : ∃ (a b a' : Value) (w' : World),
    a = { dflt.2 with f := { dflt.2.f with data := [0x61] } } ∧ b = { dflt.2 with f := { dflt.2.f with data := [0x62] } } ∧
    (∃ r, exec (fun n => n) (fun _ _ => none) dflt.1 b (.setCfg id [("tweak", ⟨1, 7⟩)]) = .ok r) ∧
    exec (fun n => n) (fun _ _ => none) dflt.1 a (.setConfig none) = .ok (w', a') ∧
    exec (fun n => n) (fun _ _ => none) w' b (.setCfg id [("tweak", ⟨1, 7⟩)]) = .panic :=
  ⟨_, _, _, _, rfl, rfl, ⟨_, rfl⟩, rfl, rfl⟩

/-- Growth of `append` to the next power of two, as Go does for short slices. -/
def goSlack (n : Nat) : Nat := if n = 3 then 1 else 0

/-- A base value with three errors, made from `New()` by three `AppendError` calls. -/
def base3 : World × Value :=
  let a := appendError goSlack dflt.1 dflt.2 [1]
  let b := appendError goSlack a.1 a.2 [2]
  appendError goSlack b.1 b.2 [3]

/-- C41 and C40 (violation): two values derived from one base; the error recorded in the first is replaced by the error recorded in the
second. -/
theorem C41_sibling_errors_violated : ∃ (w w1 w2 : World) (v a b : Value), Owned w v ∧
    exec goSlack (fun _ _ => none) w v (.appendError [10]) = .ok (w1, a) ∧ exec goSlack (fun _ _ => none) w1 v (.appendError [20]) = .ok (w2, b) ∧
    (obs w1 a).errs = [1, 2, 3, 10] ∧ (obs w2 a).errs = [1, 2, 3, 20] := by
  refine ⟨base3.1, _, _, base3.2, _, _, ?_, rfl, rfl, by decide +kernel, by decide +kernel⟩
  exact (appendError_local goSlack (appendError_local goSlack (appendError_local goSlack (new_spec _).1 [1]).own [2]).own [3]).own

/-- The same with three handlers. -/
def base3h : World × Value :=
  let a := onError goSlack dflt.1 dflt.2 1
  let b := onError goSlack a.1 a.2 2
  onError goSlack b.1 b.2 3

/-- C41 (violation): the handler registered on one value is replaced by the handler registered on its sibling. -/
theorem C41_sibling_handlers_violated : ∃ (w w1 w2 : World) (v a b : Value), Owned w v ∧
    exec goSlack (fun _ _ => none) w v (.onError 10) = .ok (w1, a) ∧ exec goSlack (fun _ _ => none) w1 v (.onError 20) = .ok (w2, b) ∧
    (obs w1 a).fns = [1, 2, 3, 10] ∧ (obs w2 a).fns = [1, 2, 3, 20] := by
  refine ⟨base3h.1, _, _, base3h.2, _, _, ?_, rfl, rfl, by decide +kernel, by decide +kernel⟩
  exact (onError_local goSlack (onError_local goSlack (onError_local goSlack (new_spec _).1 1).own 2).own 3).own

/-! C40 -/

/-- C40: when no handler panics, `Encrypt` and `Decrypt` return normally, whatever the cipher does. They record exactly the error or the panic of the
cipher, behind the errors there were; they replace the result only on success; and every handler is called exactly once, in the order of registration,
with all errors. -/
theorem C40_encrypt_returns (slack : Nat → Nat) (beh : Behave) (hb : ∀ f es, beh f es = none) (w : World) (v : Value) (step : Obs → Step) :
    ∃ w' v', crypt slack beh w v step = .ok (w', v', (obs w' v').fns.map (fun f => (f, (obs w' v').errs))) ∧
      (obs w' v').fns = (obs w v).fns ∧ (obs w' v').cfg = (obs w v).cfg ∧
      match step (obs w v) with
      | .ok dst => (obs w' v').errs = (obs w v).errs ∧ (obs w' v').f = { v.f with parsed := dst }
      | .err e => (obs w' v').errs = (obs w v).errs ++ [e] ∧ (obs w' v').f = v.f
      | .panic e => (obs w' v').errs = (obs w v).errs ++ [e] ∧ (obs w' v').f = v.f := by
  unfold crypt inner
  cases hs : step (obs w v) with
  | ok dst =>
    simp only [trigger_quiet hb]
    exact ⟨_, _, rfl, rfl, rfl, rfl, rfl⟩
  | err e =>
    have ho := appendError_obs slack w v [e]
    simp only [trigger_quiet hb]
    refine ⟨_, _, rfl, ?_, ?_, ?_, ?_⟩ <;> rw [ho] <;> rfl
  | panic e =>
    have ho := appendError_obs slack w v [e]
    simp only [trigger_quiet hb, List.nil_append]
    refine ⟨_, _, rfl, ?_, ?_, ?_, ?_⟩ <;> rw [ho] <;> rfl

theorem run_cons (slack : Nat → Nat) (beh : Behave) (e : Event) (es : List Event) (s : St) :
    run slack beh (e :: es) s = run slack beh es (run slack beh [e] s) := by
  cases e with
  | start i => rfl
  | call i p =>
    simp only [run]
    cases s.tbl i with
    | none => rfl
    | some v =>
      simp only
      cases execP slack beh s.w v p <;> rfl

/-- The errors a call adds to the record it is made on. -/
def added (o : Obs) : POp → List Err
  | .appendError es => es
  | .crypt step => match step o with | .ok _ => [] | .err e => [e] | .panic e => [e]
  | _ => []

/-- C40: along a chain, errors are only added, in order, and none is lost (unless the caller replaces the list with `WithErrors`): after any sequence of
calls the list is the old one followed by the errors of the calls. -/
theorem C40_errors_accumulate (slack : Nat → Nat) (beh : Behave) (hb : ∀ f es, beh f es = none) :
    ∀ (ps : List POp) (w : World) (v : Value), Owned w v → (∀ es, .withErrors es ∉ ps) →
      ∃ (w' : World) (v' : Value) (news : List (List Err)), news.length = ps.length ∧
        (∀ i, run slack beh (ps.map (.call i)) ⟨w, fun j => if j = i then some v else none⟩ = ⟨w', fun j => if j = i then some v' else none⟩) ∧
        Owned w' v' ∧ (obs w' v').errs = (obs w v).errs ++ news.flatten ∧
        ∀ k (hk : k < ps.length), ∃ o : Obs, news[k]? = some (added o ps[k]) ∧ chain 0 ((ps.take k).map (.call 0)) (some (obs w v)) = some o
  | [], w, v, o, _ => ⟨w, v, [], rfl, fun i => rfl, o, by simp, fun k hk => absurd hk (by simp)⟩
  | p :: ps, w, v, o, hno => by
    have key : ∃ w1 v1, Owned w1 v1 ∧ (∀ i, run slack beh [.call i p] ⟨w, fun j => if j = i then some v else none⟩ = ⟨w1, fun j => if j = i then some v1 else none⟩) ∧
        (obs w1 v1).errs = (obs w v).errs ++ added (obs w v) p ∧ obs w1 v1 = (pure (obs w v) p).getD (obs w v) := by
      rcases step_spec slack hb o p with ⟨w', v', e, l, hp⟩ | ⟨e, hp⟩
      · refine ⟨w', v', l.own, fun i => ?_, ?_, by rw [hp]; rfl⟩
        · simp only [run, if_true, e, St.set, St.mk.injEq, true_and]
          funext j
          by_cases h : j = i <;> simp [h]
        · have h2 : obs w' v' = (pure (obs w v) p).getD (obs w v) := by rw [hp]; rfl
          rw [h2]
          cases p with
          | withErrors es => exact absurd (List.mem_cons_self) (hno es)
          | plain g => simp [pure, added]
          | setCfg g kvs =>
            simp only [pure, added, List.append_nil]
            split <;> rfl
          | withConfig c => simp [pure, added]
          | setConfig m =>
            simp only [pure, added, List.append_nil]
            split <;> rfl
          | appendError es => simp [pure, added]
          | onError g => simp [pure, added]
          | crypt step =>
            simp only [pure, added]
            cases step (obs w v) <;> simp
      · refine ⟨w, v, o, fun i => ?_, ?_, by rw [hp]; rfl⟩
        · simp only [run, if_true, e]
        · cases p with
          | withErrors es => exact absurd (List.mem_cons_self) (hno es)
          | crypt step => simp only [pure] at hp; cases h : step (obs w v) <;> simp [h] at hp
          | appendError es => simp [pure] at hp
          | _ => simp [added]
    obtain ⟨w1, v1, o1, e1, er1, ob1⟩ := key
    obtain ⟨w2, v2, news, hl, e2, o2, er2, hk2⟩ := C40_errors_accumulate slack beh hb ps w1 v1 o1 (fun es hm => hno es (List.mem_cons_of_mem _ hm))
    refine ⟨w2, v2, added (obs w v) p :: news, by simp [hl], fun i => ?_, o2, ?_, ?_⟩
    · have := e1 i
      have h2 := e2 i
      rw [List.map_cons, run_cons, this, h2]
    · rw [er2, er1, List.flatten_cons, List.append_assoc]
    · intro k hk
      cases k with
      | zero => exact ⟨obs w v, rfl, rfl⟩
      | succ k =>
        simp only [List.length_cons] at hk
        obtain ⟨o', h1, h2⟩ := hk2 k (by omega)
        refine ⟨o', by simpa using h1, ?_⟩
        simp only [List.take_succ_cons, List.map_cons, chain, if_true, Option.map_some]
        rw [← ob1]; exact h2

/-- C40 (violation): a handler that panics makes `Encrypt` panic: the second trigger is outside of `Recover`. -/
theorem C40_handler_panic_escapes_violated : ∃ (beh : Behave) (w : World) (v : Value) (step : Obs → Step),
    Owned w v ∧ crypt goSlack beh w v step = .panic := by
  refine ⟨fun _ _ => some 1, (onError goSlack dflt.1 dflt.2 0).1, (onError goSlack dflt.1 dflt.2 0).2, fun _ => .ok [1], ?_, by rfl⟩
  exact (onError_local goSlack (new_spec _).1 0).own

/-- C40 (violation): a handler that panics on one error and not on another makes `Encrypt` lose the cipher's error (here 7): only the
handler's panic (here 1) is recorded. -/
theorem C40_handler_panic_loses_error_violated : ∃ (beh : Behave) (w : World) (v : Value) (step : Obs → Step) (w' : World) (v' : Value) (log : List (Fn × List Err)),
    Owned w v ∧ (∀ o, ∃ e, step o = .err e ∧ e = 7) ∧ crypt goSlack beh w v step = .ok (w', v', log) ∧ (obs w' v').errs = [1] := by
  refine ⟨fun _ es => if es = [7] then some 1 else none, (onError goSlack dflt.1 dflt.2 0).1, (onError goSlack dflt.1 dflt.2 0).2, fun _ => .err 7, _, _, _, ?_, ?_, rfl, ?_⟩
  · exact (onError_local goSlack (new_spec _).1 0).own
  · exact fun _ => ⟨7, rfl, rfl⟩
  · decide +kernel

example : Owned dflt.1 dflt.2 := (new_spec _).1

end Verif.Facade.World
