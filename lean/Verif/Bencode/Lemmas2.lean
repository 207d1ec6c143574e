import Verif.Bencode.Lemmas
/-
Helper lemmas for the bencode properties: the decoder reads back what the encoder writes, and accepts
nothing else.
-/
namespace Verif.Bencode

theorem bind_eq_ok {α β : Type} {x : Res α} {f : α → Res β} {b : β} :
    x.bind f = .ok b ↔ ∃ a, x = .ok a ∧ f a = .ok b := by
  cases x <;> simp [Res.bind]

theorem strLt_iff (a b : Bytes) : strLt a b = true ↔ a.map BitVec.toNat < b.map BitVec.toNat := by
  induction a generalizing b with
  | nil => cases b with
    | nil => simp [strLt]
    | cons y b => simp [strLt]
  | cons x a ih => cases b with
    | nil => simp [strLt]
    | cons y b =>
      simp only [strLt, Bool.or_eq_true, decide_eq_true_eq, Bool.and_eq_true, beq_iff_eq, ih, List.map_cons,
        List.cons_lt_cons_iff]
      constructor
      · rintro (h | ⟨rfl, h⟩)
        · exact Or.inl h
        · exact Or.inr ⟨rfl, h⟩
      · rintro (h | ⟨h1, h⟩)
        · exact Or.inl h
        · exact Or.inr ⟨BitVec.eq_of_toNat_eq h1, h⟩

theorem ascii_d : ascii "d" = [chD] := by decide
theorem ascii_e : ascii "e" = [chE] := by decide
theorem ascii_i : ascii "i" = [chI] := by decide
theorem ascii_l : ascii "l" = [chL] := by decide
theorem ascii_colon : ascii ":" = [chColon] := by decide

theorem wire_int (n : Int) : wire (.int n) = chI :: (decI n ++ [chE]) := by
  rw [wire, ascii_i, ascii_e, ascii_int]; rfl
theorem wire_str (s : Bytes) : wire (.str s) = encStr s := by
  rw [wire, ascii_colon, ascii_nat, encStr]; simp
theorem wire_list (l : List Val) : wire (.list l) = chL :: (wireL l ++ [chE]) := by
  rw [wire, ascii_l, ascii_e]; rfl
theorem wire_dict (l : List (Bytes × Val)) : wire (.dict l) = chD :: (wireD l ++ [chE]) := by
  rw [wire, ascii_d, ascii_e]; rfl
theorem wireP_eq (k : Bytes) (v : Val) : wireP (k, v) = encStr k ++ wire v := by
  rw [wireP, ascii_colon, ascii_nat, encStr]; simp

/-! ### reading -/

theorem readUntilB_ok (sep : Byte) (a t : Bytes) (off : Nat) (h : ∀ x ∈ a, x ≠ sep) :
    readUntilB sep (a ++ sep :: t) off = .ok (a, ⟨t, off + a.length + 1⟩) := by
  induction a generalizing off with
  | nil => simp [readUntilB]
  | cons x a ih =>
    rw [List.cons_append, readUntilB, if_neg (h x (by simp)), ih _ (fun y hy => h y (by simp [hy]))]
    simp [Res.bind]; omega

theorem readUntilB_inv (sep : Byte) (r : Bytes) (off : Nat) (a : Bytes) (s' : St)
    (h : readUntilB sep r off = .ok (a, s')) : r = a ++ sep :: s'.rest ∧ s'.off = off + a.length + 1 := by
  induction r generalizing off a with
  | nil => simp [readUntilB] at h
  | cons b t ih =>
    rw [readUntilB] at h
    split at h
    · rename_i hb
      injection h with h; injection h with h1 h2
      subst h1; subst h2; simp [hb]
    · rw [bind_eq_ok] at h
      obtain ⟨⟨a', st⟩, h1, h2⟩ := h
      injection h2 with h2; injection h2 with h3 h4
      subst h4
      obtain ⟨i1, i2⟩ := ih _ _ h1
      subst h3
      refine ⟨by rw [i1]; rfl, by rw [i2]; simp; omega⟩

theorem decI_ne_e (n : Int) : ∀ x ∈ decI n, x ≠ chE := by
  obtain ⟨b, t, he, hb, ht, -⟩ := dec_shape n.natAbs
  intro x hx
  have key : ∀ y ∈ dec n.natAbs, y ≠ chE := by
    rw [he]; intro y hy
    rcases List.mem_cons.1 hy with rfl | hy
    · exact (isDigit_ne hb).2.2.1
    · exact (isDigit_ne (ht y hy)).2.2.1
  unfold decI at hx
  split at hx
  · rcases List.mem_cons.1 hx with rfl | hx
    · decide
    · exact key x hx
  · exact key x hx

theorem parseInt_ok (n : Int) (t : Bytes) (off : Nat) :
    parseInt ⟨decI n ++ chE :: t, off⟩ = .ok (n, ⟨t, off + (decI n).length + 1⟩) := by
  simp only [parseInt, readUntil, readUntilB_ok _ _ _ _ (decI_ne_e n), Res.bind, check_decI, if_true, parseDec_decI]

theorem parseInt_inv (s s' : St) (n : Int) (h : parseInt s = .ok (n, s')) :
    s.rest = decI n ++ chE :: s'.rest ∧ s'.off = s.off + (decI n).length + 1 := by
  rw [parseInt, bind_eq_ok] at h
  obtain ⟨⟨a, st⟩, h1, h2⟩ := h
  simp only at h2
  split at h2
  · rename_i hc
    split at h2
    · rename_i m hm
      injection h2 with h2; injection h2 with h3 h4
      subst h3; subst h4
      rw [decI_parse a m hc hm]
      exact readUntilB_inv _ _ _ _ _ h1
    · cases h2
  · cases h2

/-- The bound on lengths that both the limit and `int64` impose. -/
abbrev Lim (lim : Int) : Prop := lim < 2 ^ 63

theorem parseString_ok (lim : Int) (hl : Lim lim) (s t : Bytes) (off : Nat) (h : (s.length : Int) ≤ lim) :
    ∃ b r, encStr s = b :: r ∧ isDigit b = true ∧
      parseString lim b ⟨r ++ t, off⟩ = .ok (s, ⟨t, off + r.length⟩) := by
  obtain ⟨b, d, he, hb, hd, -⟩ := dec_shape s.length
  have hp := parseDec_dec s.length
  have hc := check_dec s.length
  rw [he] at hp hc
  refine ⟨b, d ++ chColon :: s, by rw [encStr, he]; rfl, hb, ?_⟩
  have hu : readUntilB chColon (d ++ chColon :: s ++ t) off = .ok (d, ⟨s ++ t, off + d.length + 1⟩) := by
    rw [List.append_assoc, List.cons_append]
    exact readUntilB_ok _ _ _ _ (fun x hx => (isDigit_ne (hd x hx)).2.2.2.2.2.2)
  have h1 : ¬ (2 ^ 63 ≤ (s.length : Int)) := by have := hl; unfold Lim at this; omega
  simp only [parseString, parseStringLength, readUntil, hu, Res.bind, hc, if_true, hp, h1, if_false, Int.not_lt.2 h,
    Int.toNat_natCast, readBytes]
  rw [if_neg (by simp)]
  simp; omega

theorem parseDec_digit_nonneg (b : Byte) (t : Bytes) (n : Int) (hb : isDigit b = true) (h : parseDec (b :: t) = some n) : 0 ≤ n := by
  obtain ⟨h1, h2, -⟩ := isDigit_ne hb
  simp only [parseDec, h1, h2, if_false, Option.map_eq_some_iff] at h
  obtain ⟨m, -, rfl⟩ := h
  omega

theorem parseString_inv (lim : Int) (b : Byte) (s s' : St) (x : Bytes) (hb : isDigit b = true)
    (h : parseString lim b s = .ok (x, s')) :
    b :: s.rest = encStr x ++ s'.rest ∧ (x.length : Int) ≤ lim ∧ s'.off + 1 = s.off + (encStr x).length := by
  rw [parseString, bind_eq_ok] at h
  obtain ⟨⟨n, st⟩, h1, h2⟩ := h
  rw [parseStringLength, bind_eq_ok] at h1
  obtain ⟨⟨a, st'⟩, h3, h4⟩ := h1
  simp only at h4
  split at h4
  · rename_i hc
    split at h4
    · rename_i m hm
      split at h4
      · cases h4
      · split at h4
        · cases h4
        · rename_i hlim
          injection h4 with h4; injection h4 with h5 h6
          subst h5; subst h6
          obtain ⟨i1, i2⟩ := readUntilB_inv _ _ _ _ _ h3
          have hd := decI_parse _ _ hc hm
          have h0 := parseDec_digit_nonneg b a m hb hm
          rw [decI, if_neg (by omega)] at hd
          simp only [readBytes] at h2
          split at h2
          · cases h2
          · rename_i hlen
            injection h2 with h2; injection h2 with h7 h8
            have hxl : x.length = m.toNat := by rw [← h7]; simp; omega
            have hm' : m.natAbs = m.toNat := by omega
            subst h8
            rw [encStr, hxl, ← hm', hd, i1]
            refine ⟨?_, by omega, by simp [i2, hxl]; omega⟩
            simp only [List.cons_append, List.append_assoc]
            rw [← h7, hm', List.take_append_drop]
    · cases h4
  · cases h4

/-! ### soundness: what the decoder accepts -/

/-- The last key followed by the keys still to come. -/
def withLast (last : Option Bytes) (ks : List Bytes) : List Bytes :=
  match last with
  | none => ks
  | some p => p :: ks

theorem increasing_tail (a : Bytes) (l : List Bytes) (h : Increasing (a :: l)) : Increasing l := by
  cases l with
  | nil => trivial
  | cons b t => exact h.2

theorem sound (lim : Int) : ∀ f,
    (∀ s s' v, parseV lim f s = .ok (some v, s') →
      Plain lim v ∧ s.rest = wire v ++ s'.rest ∧ s'.off = s.off + (wire v).length) ∧
    (∀ s s', parseV lim f s = .ok (none, s') → s.rest = chE :: s'.rest ∧ s'.off = s.off + 1) ∧
    (∀ s s' l, parseL lim f s = .ok (l, s') →
      PlainL lim l ∧ s.rest = wireL l ++ chE :: s'.rest ∧ s'.off = s.off + (wireL l).length + 1) ∧
    (∀ last s s' l, parseD lim f last s = .ok (l, s') →
      PlainD lim l ∧ Increasing (withLast last (l.map Prod.fst)) ∧ s.rest = wireD l ++ chE :: s'.rest ∧
        s'.off = s.off + (wireD l).length + 1) := by
  intro f
  induction f with
  | zero => simp [parseV, parseL, parseD]
  | succ f ih =>
    obtain ⟨ihV, ihE, ihL, ihD⟩ := ih
    have hV : ∀ s s' o, parseV lim (f + 1) s = .ok (o, s') →
        (∀ v, o = some v → Plain lim v ∧ s.rest = wire v ++ s'.rest ∧ s'.off = s.off + (wire v).length) ∧
        (o = none → s.rest = chE :: s'.rest ∧ s'.off = s.off + 1) := by
      intro s s' o h
      rw [parseV, bind_eq_ok] at h
      obtain ⟨⟨b, st⟩, h1, h2⟩ := h
      have hr : s.rest = b :: st.rest ∧ st.off = s.off + 1 := by
        unfold readByte at h1
        split at h1
        · cases h1
        · rename_i hb
          injection h1 with h1; injection h1 with h3 h4
          subst h3; subst h4; exact ⟨hb, rfl⟩
      simp only at h2
      split at h2
      · rename_i hb
        injection h2 with h2; injection h2 with h3 h4
        subst h3; subst h4
        refine ⟨by simp, fun _ => ?_⟩
        rw [hr.1, hr.2, hb]; exact ⟨rfl, rfl⟩
      · split at h2
        · rename_i hb
          rw [bind_eq_ok] at h2
          obtain ⟨⟨l, q⟩, h5, h6⟩ := h2
          injection h6 with h6; injection h6 with h3 h4
          subst h3; subst h4
          refine ⟨?_, by simp⟩
          intro v hv
          injection hv with hv; subst hv
          obtain ⟨i1, i2, i3, i4⟩ := ihD _ _ _ _ h5
          simp only [] at i3 i4 ⊢
          refine ⟨⟨i2, i1⟩, ?_, ?_⟩
          · rw [wire_dict, hr.1, i3, hb]; simp
          · rw [wire_dict, i4, hr.2]; simp; omega
        · split at h2
          · rename_i hb
            rw [bind_eq_ok] at h2
            obtain ⟨⟨l, q⟩, h5, h6⟩ := h2
            injection h6 with h6; injection h6 with h3 h4
            subst h3; subst h4
            refine ⟨?_, by simp⟩
            intro v hv
            injection hv with hv; subst hv
            obtain ⟨i1, i3, i4⟩ := ihL _ _ _ h5
            simp only [] at i3 i4 ⊢
            refine ⟨i1, ?_, ?_⟩
            · rw [wire_list, hr.1, i3, hb]; simp
            · rw [wire_list, i4, hr.2]; simp; omega
          · split at h2
            · rename_i hb
              rw [bind_eq_ok] at h2
              obtain ⟨⟨n, q⟩, h5, h6⟩ := h2
              injection h6 with h6; injection h6 with h3 h4
              subst h3; subst h4
              refine ⟨?_, by simp⟩
              intro v hv
              injection hv with hv; subst hv
              obtain ⟨i3, i4⟩ := parseInt_inv _ _ _ h5
              refine ⟨trivial, ?_, ?_⟩
              · rw [wire_int, hr.1, i3, hb]; simp
              · rw [wire_int, i4, hr.2]; simp; omega
            · split at h2
              · rename_i hb
                rw [bind_eq_ok] at h2
                obtain ⟨⟨x, q⟩, h5, h6⟩ := h2
                injection h6 with h6; injection h6 with h3 h4
                subst h3; subst h4
                refine ⟨?_, by simp⟩
                intro v hv
                injection hv with hv; subst hv
                obtain ⟨i3, i4, i5⟩ := parseString_inv _ _ _ _ _ hb h5
                refine ⟨i4, ?_, ?_⟩
                · rw [wire_str, hr.1]; exact i3
                · rw [wire_str]; have := hr.2; simp only at i5 ⊢; omega
              · cases h2
    refine ⟨fun s s' v h => (hV s s' _ h).1 v rfl, fun s s' h => (hV s s' _ h).2 rfl, ?_, ?_⟩
    · intro s s' l h
      rw [parseL, bind_eq_ok] at h
      obtain ⟨⟨o, st⟩, h1, h2⟩ := h
      cases o with
      | none =>
        injection h2 with h2; injection h2 with h3 h4
        subst h3; subst h4
        obtain ⟨i1, i2⟩ := ihE _ _ h1
        exact ⟨trivial, by simpa [wireL] using i1, by simp only [wireL, List.length_nil]; exact i2⟩
      | some v =>
        simp only [bind_eq_ok] at h2
        obtain ⟨⟨t, q⟩, h5, h6⟩ := h2
        injection h6 with h6; injection h6 with h3 h4
        subst h3; subst h4
        obtain ⟨i1, i2, i3⟩ := ihV _ _ _ h1
        obtain ⟨j1, j2, j3⟩ := ihL _ _ _ h5
        refine ⟨⟨i1, j1⟩, ?_, ?_⟩
        · rw [wireL, i2, j2]; simp
        · rw [wireL, j3, i3]; simp; omega
    · intro last s s' l h
      rw [parseD, bind_eq_ok] at h
      obtain ⟨⟨o, st⟩, h1, h2⟩ := h
      cases o with
      | none =>
        injection h2 with h2; injection h2 with h3 h4
        subst h3; subst h4
        obtain ⟨i1, i2⟩ := ihE _ _ h1
        refine ⟨trivial, ?_, by simpa [wireD] using i1, by simp only [wireD, List.length_nil]; exact i2⟩
        cases last <;> trivial
      | some kv =>
        obtain ⟨i1, i2, i3⟩ := ihV _ _ _ h1
        cases kv with
        | str k =>
          simp only at h2
          by_cases hlt : keyAfter last k = true
          · rw [if_pos hlt, bind_eq_ok] at h2
            obtain ⟨⟨o2, st2⟩, h5, h6⟩ := h2
            cases o2 with
            | none => cases h6
            | some v =>
              simp only [bind_eq_ok] at h6
              obtain ⟨⟨t, q⟩, h7, h8⟩ := h6
              injection h8 with h8; injection h8 with h3 h4
              subst h3; subst h4
              obtain ⟨k1, k2, k3⟩ := ihV _ _ _ h5
              obtain ⟨j1, jI, j2, j3⟩ := ihD _ _ _ _ h7
              refine ⟨⟨⟨i1, k1⟩, j1⟩, ?_, ?_, ?_⟩
              · cases last with
                | none => exact jI
                | some p => exact ⟨(strLt_iff p k).1 hlt, jI⟩
              · rw [wireD, wireP_eq, i2, k2, j2, wire_str]; simp
              · rw [wireD, wireP_eq, j3, k3, i3, wire_str]; simp; omega
          · rw [if_neg hlt] at h2; cases h2
        | _ => cases h2

/-! ### completeness: the wire form is accepted -/

theorem encStr_pos (s : Bytes) : 2 ≤ (encStr s).length := by
  obtain ⟨b, t, he, -⟩ := dec_shape s.length
  rw [encStr, he]; simp; omega

theorem wire_pos (lim : Int) (v : Val) (h : Plain lim v) : 2 ≤ (wire v).length := by
  cases v with
  | int n => rw [wire_int]; simp
  | str s => rw [wire_str]; exact encStr_pos s
  | list l => rw [wire_list]; simp
  | dict l => rw [wire_dict]; simp
  | _ => exact absurd h (by simp [Plain])

theorem parseV_str (lim : Int) (hl : Lim lim) (f : Nat) (s t : Bytes) (off : Nat) (h : (s.length : Int) ≤ lim) :
    parseV lim (f + 1) ⟨encStr s ++ t, off⟩ = .ok (some (.str s), ⟨t, off + (encStr s).length⟩) := by
  obtain ⟨b, r, he, hb, hp⟩ := parseString_ok lim hl s t (off + 1) h
  obtain ⟨-, -, h1, h2, h3, h4, -⟩ := isDigit_ne hb
  rw [he, parseV]
  simp only [readByte, List.cons_append, Res.bind, h1, h2, h3, h4, if_false, hb, if_true, hp]
  simp; omega

mutual
theorem completeV (lim : Int) (hl : Lim lim) : ∀ (v : Val) (f : Nat) (t : Bytes) (off : Nat), Plain lim v →
    2 * (wire v).length ≤ f →
    parseV lim f ⟨wire v ++ t, off⟩ = .ok (some v, ⟨t, off + (wire v).length⟩)
  | .int n, f, t, off, _, hf => by
    rw [wire_int] at hf ⊢
    obtain ⟨f, rfl⟩ : ∃ g, f = g + 1 := ⟨f - 1, by simp at hf; omega⟩
    rw [parseV]
    simp only [readByte, List.cons_append, Res.bind, show ¬ chI = chE by decide, show ¬ chI = chD by decide,
      show ¬ chI = chL by decide, if_false, if_true, List.append_assoc, List.nil_append, parseInt_ok]
    simp; omega
  | .str s, f, t, off, hp, hf => by
    rw [wire_str] at hf ⊢
    obtain ⟨f, rfl⟩ : ∃ g, f = g + 1 := ⟨f - 1, by have := encStr_pos s; omega⟩
    exact parseV_str lim hl f s t off hp
  | .list l, f, t, off, hp, hf => by
    rw [wire_list] at hf ⊢
    obtain ⟨f, rfl⟩ : ∃ g, f = g + 1 := ⟨f - 1, by simp at hf; omega⟩
    rw [parseV]
    have := completeL lim hl l f t (off + 1) hp (by simp at hf; omega)
    simp only [readByte, List.cons_append, Res.bind, show ¬ chL = chE by decide, show ¬ chL = chD by decide,
      if_false, if_true, List.append_assoc, List.nil_append, this]
    simp; omega
  | .dict l, f, t, off, hp, hf => by
    rw [wire_dict] at hf ⊢
    obtain ⟨f, rfl⟩ : ∃ g, f = g + 1 := ⟨f - 1, by simp at hf; omega⟩
    rw [parseV]
    have := completeD lim hl l f none t (off + 1) hp.1 hp.2 (by simp at hf; omega)
    simp only [readByte, List.cons_append, Res.bind, show ¬ chD = chE by decide,
      if_false, if_true, List.append_assoc, List.nil_append, this]
    simp; omega
  | .nil, _, _, _, hp, _ => absurd hp (by simp [Plain])
  | .bool _, _, _, _, hp, _ => absurd hp (by simp [Plain])
  | .bytes _, _, _, _, hp, _ => absurd hp (by simp [Plain])
  | .array _, _, _, _, hp, _ => absurd hp (by simp [Plain])
theorem completeL (lim : Int) (hl : Lim lim) : ∀ (l : List Val) (f : Nat) (t : Bytes) (off : Nat), PlainL lim l →
    2 * (wireL l).length + 2 ≤ f →
    parseL lim f ⟨wireL l ++ chE :: t, off⟩ = .ok (l, ⟨t, off + (wireL l).length + 1⟩)
  | [], f, t, off, _, hf => by
    obtain ⟨f, rfl⟩ : ∃ g, f = g + 2 := ⟨f - 2, by omega⟩
    simp [parseL, parseV, wireL, readByte, Res.bind]
  | v :: l, f, t, off, hp, hf => by
    have hw := wire_pos lim v hp.1
    rw [wireL] at hf ⊢
    rw [List.length_append] at hf
    obtain ⟨f, rfl⟩ : ∃ g, f = g + 1 := ⟨f - 1, by omega⟩
    rw [parseL, List.append_assoc, completeV lim hl v f _ _ hp.1 (by omega)]
    simp only [Res.bind, completeL lim hl l f _ _ hp.2 (by omega)]
    simp; omega
theorem completeD (lim : Int) (hl : Lim lim) : ∀ (l : List (Bytes × Val)) (f : Nat) (last : Option Bytes) (t : Bytes) (off : Nat),
    Increasing (withLast last (l.map Prod.fst)) → PlainD lim l → 2 * (wireD l).length + 2 ≤ f →
    parseD lim f last ⟨wireD l ++ chE :: t, off⟩ = .ok (l, ⟨t, off + (wireD l).length + 1⟩)
  | [], f, last, t, off, _, _, hf => by
    obtain ⟨f, rfl⟩ : ∃ g, f = g + 2 := ⟨f - 2, by omega⟩
    simp [parseD, parseV, wireD, readByte, Res.bind]
  | (k, v) :: l, f, last, t, off, hi, hp, hf => by
    have hw := wire_pos lim v hp.1.2
    have hk := encStr_pos k
    rw [wireD, wireP_eq] at hf ⊢
    rw [List.length_append, List.length_append] at hf
    obtain ⟨f, rfl⟩ : ∃ g, f = g + 2 := ⟨f - 2, by omega⟩
    have hlt : keyAfter last k = true := by
      cases last with
      | none => rfl
      | some p => exact (strLt_iff p k).2 hi.1
    have hi' : Increasing (withLast (some k) (l.map Prod.fst)) := by
      cases last with
      | none => exact hi
      | some p => exact hi.2
    rw [parseD, List.append_assoc, List.append_assoc, parseV_str lim hl f k _ _ hp.1.1]
    simp only [Res.bind]
    rw [if_pos hlt, completeV lim hl v (f + 1) _ _ hp.1.2 (by omega)]
    simp only [completeD lim hl l (f + 1) (some k) _ _ hi' hp.2 (by omega)]
    simp; omega
end

/-! ### termination, absence of panics -/

/-- Not out of fuel, not a panic, and a successful read consumes at least `k` bytes. -/
def Fine {α : Type} (n k : Nat) (r : Res (α × St)) : Prop :=
  r ≠ .hang ∧ r ≠ .panic ∧ ∀ a s', r = .ok (a, s') → s'.rest.length + k ≤ n

theorem fine_err {α : Type} (n k : Nat) : Fine (α := α) n k .err := ⟨by simp, by simp, by simp⟩

theorem fine_bind {α β : Type} {n k n' : Nat} {r : Res (α × St)} {g : α × St → Res (β × St)} (h : Fine n k r)
    (hg : ∀ a s', s'.rest.length + k ≤ n → Fine n n' (g (a, s'))) : Fine n n' (r.bind g) := by
  cases r with
  | ok q => exact hg q.1 q.2 (h.2.2 _ _ rfl)
  | err => exact fine_err _ _
  | panic => exact absurd rfl h.2.1
  | hang => exact absurd rfl h.1

theorem fine_ok {α : Type} (n k : Nat) (a : α) (s : St) (h : s.rest.length + k ≤ n) : Fine n k (.ok (a, s)) :=
  ⟨by simp, by simp, by rintro b s' h'; injection h' with h'; injection h' with _ h2; subst h2; exact h⟩

theorem fine_weaken {α : Type} {n k n' k' : Nat} {r : Res (α × St)} (h : Fine n k r) (hn : n + k' ≤ n' + k) : Fine n' k' r :=
  ⟨h.1, h.2.1, fun a s' e => by have := h.2.2 a s' e; omega⟩

theorem fine_readByte (s : St) : Fine s.rest.length 1 (readByte s) := by
  unfold readByte
  split
  · exact fine_err _ _
  · rename_i h; exact fine_ok _ _ _ _ (by simp [h])

theorem fine_readUntilB (sep : Byte) (r : Bytes) (off : Nat) : Fine r.length 1 (readUntilB sep r off) := by
  induction r generalizing off with
  | nil => exact fine_err _ _
  | cons b t ih =>
    rw [readUntilB]
    split
    · exact fine_ok _ _ _ _ (by simp)
    · exact fine_bind (fine_weaken (ih _) (by simp) : Fine _ 1 _) (fun a s' h => fine_ok _ _ _ _ h)

theorem fine_parseInt (s : St) : Fine s.rest.length 0 (parseInt s) := by
  refine fine_bind (fine_readUntilB _ _ _) fun a s' h => ?_
  simp only
  split
  · split
    · exact fine_ok _ _ _ _ (by omega)
    · exact fine_err _ _
  · exact fine_err _ _

theorem fine_parseString (lim : Int) (b : Byte) (s : St) : Fine s.rest.length 0 (parseString lim b s) := by
  refine fine_bind (n := s.rest.length) (k := 0) ?_ fun a s' h => ?_
  · refine fine_bind (fine_readUntilB _ _ _) fun a s' h => ?_
    simp only
    split
    · split
      · split
        · exact fine_err _ _
        · split
          · exact fine_err _ _
          · exact fine_ok _ _ _ _ (by omega)
      · exact fine_err _ _
    · exact fine_err _ _
  · simp only [readBytes]
    split
    · exact fine_err _ _
    · exact fine_ok _ _ _ _ (by simp; omega)

theorem fine (lim : Int) : ∀ f,
    (∀ s, 2 * s.rest.length + 1 ≤ f → Fine s.rest.length 1 (parseV lim f s)) ∧
    (∀ s, 2 * s.rest.length + 2 ≤ f → Fine s.rest.length 1 (parseL lim f s)) ∧
    (∀ last s, 2 * s.rest.length + 2 ≤ f → Fine s.rest.length 1 (parseD lim f last s)) := by
  intro f
  induction f with
  | zero => refine ⟨?_, ?_, ?_⟩ <;> intros <;> omega
  | succ f ih =>
    obtain ⟨ihV, ihL, ihD⟩ := ih
    refine ⟨?_, ?_, ?_⟩
    · intro s hf
      rw [parseV]
      refine fine_bind (fine_readByte s) fun b st h => ?_
      simp only
      split
      · exact fine_ok _ _ _ _ h
      · split
        · exact fine_bind (fine_weaken (ihD none st (by omega)) (by omega) : Fine _ 1 _) fun a s' h' => fine_ok _ _ _ _ h'
        · split
          · exact fine_bind (fine_weaken (ihL st (by omega)) (by omega) : Fine _ 1 _) fun a s' h' => fine_ok _ _ _ _ h'
          · split
            · exact fine_bind (fine_weaken (fine_parseInt st) (by omega) : Fine _ 1 _) fun a s' h' => fine_ok _ _ _ _ h'
            · split
              · exact fine_bind (fine_weaken (fine_parseString lim b st) (by omega) : Fine _ 1 _) fun a s' h' => fine_ok _ _ _ _ h'
              · exact fine_err _ _
    · intro s hf
      rw [parseL]
      refine fine_bind (ihV s (by omega)) fun o st h => ?_
      cases o with
      | none => exact fine_ok _ _ _ _ h
      | some v =>
        exact fine_bind (fine_weaken (ihL st (by omega)) (by omega) : Fine _ 1 _) fun a s' h' => fine_ok _ _ _ _ h'
    · intro last s hf
      rw [parseD]
      refine fine_bind (ihV s (by omega)) fun o st h => ?_
      cases o with
      | none => exact fine_ok _ _ _ _ h
      | some kv =>
        cases kv with
        | str k =>
          simp only
          split
          · refine fine_bind (fine_weaken (ihV st (by omega)) (by omega) : Fine _ 1 _) fun o2 st2 h2 => ?_
            cases o2 with
            | none => exact fine_err _ _
            | some v =>
              exact fine_bind (fine_weaken (ihD (some k) st2 (by omega)) (by omega) : Fine _ 1 _) fun a s' h' => fine_ok _ _ _ _ h'
          · exact fine_err _ _
        | _ => exact fine_err _ _

end Verif.Bencode
