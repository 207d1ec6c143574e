import Verif.Bencode.Lemmas2
/-
Helper lemmas for the bencode properties: the encoder, and the target `*map[string]any`.
-/
namespace Verif.Bencode

/-! ### order of keys -/

theorem strLt_irrefl (a : Bytes) : ¬ strLt a a = true := by
  rw [strLt_iff]; exact List.lt_irrefl _

theorem strLt_trans {a b c : Bytes} (h1 : strLt a b = true) (h2 : strLt b c = true) : strLt a c = true := by
  rw [strLt_iff] at *; exact List.lt_trans h1 h2

theorem strLt_total {a b : Bytes} (h : ¬ strLt a b = true) (hn : a ≠ b) : strLt b a = true := by
  induction a generalizing b with
  | nil => cases b with
    | nil => exact absurd rfl hn
    | cons y b => exact absurd (by simp [strLt]) h
  | cons x a ih => cases b with
    | nil => simp [strLt]
    | cons y b =>
      simp only [strLt, Bool.or_eq_true, decide_eq_true_eq, Bool.and_eq_true, beq_iff_eq, not_or, not_and] at h ⊢
      by_cases hxy : x = y
      · subst hxy
        exact Or.inr ⟨rfl, ih (h.2 rfl) (fun e => hn (by rw [e]))⟩
      · left
        have : x.toNat ≠ y.toNat := fun e => hxy (BitVec.eq_of_toNat_eq e)
        omega

theorem increasing_pairwise (l : List Bytes) (h : Increasing l) : l.Pairwise (fun a b => strLt a b = true) := by
  induction l with
  | nil => exact List.Pairwise.nil
  | cons a l ih =>
    have hl := ih (increasing_tail a l h)
    refine List.Pairwise.cons ?_ hl
    cases l with
    | nil => simp
    | cons b t =>
      have hab : strLt a b = true := (strLt_iff a b).2 h.1
      intro c hc
      rcases List.mem_cons.1 hc with rfl | hc
      · exact hab
      · exact strLt_trans hab ((List.pairwise_cons.1 hl).1 c hc)

theorem pairwise_increasing (l : List Bytes) (h : l.Pairwise (fun a b => strLt a b = true)) : Increasing l := by
  induction l with
  | nil => trivial
  | cons a l ih =>
    cases l with
    | nil => trivial
    | cons b t =>
      rw [List.pairwise_cons] at h
      exact ⟨(strLt_iff a b).1 (h.1 b (by simp)), ih h.2⟩

/-! ### sorting -/

theorem insertK_perm (e : Bytes × Bytes) (l : List (Bytes × Bytes)) : (insertK e l).Perm (e :: l) := by
  induction l with
  | nil => exact List.Perm.refl _
  | cons h t ih =>
    rw [insertK]
    split
    · exact (List.Perm.cons h ih).trans (List.Perm.swap e h t)
    · exact List.Perm.refl _

theorem sortK_perm (l : List (Bytes × Bytes)) : (sortK l).Perm l := by
  induction l with
  | nil => exact List.Perm.refl _
  | cons h t ih => exact (insertK_perm h _).trans (List.Perm.cons h ih)

abbrev KLt (a b : Bytes × Bytes) : Prop := strLt a.1 b.1 = true

theorem insertK_sorted (e : Bytes × Bytes) (l : List (Bytes × Bytes)) (h : l.Pairwise KLt)
    (hn : ∀ x ∈ l, x.1 ≠ e.1) : (insertK e l).Pairwise KLt := by
  induction l with
  | nil => simp [insertK]
  | cons a t ih =>
    rw [List.pairwise_cons] at h
    rw [insertK]
    split
    · rename_i hlt
      refine List.Pairwise.cons ?_ (ih h.2 (fun x hx => hn x (by simp [hx])))
      intro x hx
      rcases List.mem_cons.1 ((insertK_perm e t).mem_iff.1 hx) with rfl | hx
      · exact hlt
      · exact h.1 x hx
    · rename_i hlt
      have hea : strLt e.1 a.1 = true := strLt_total hlt (hn a (by simp))
      refine List.Pairwise.cons ?_ (List.pairwise_cons.2 h)
      intro x hx
      rcases List.mem_cons.1 hx with rfl | hx
      · exact hea
      · exact strLt_trans hea (h.1 x hx)

theorem sortK_sorted (l : List (Bytes × Bytes)) (h : (l.map Prod.fst).Nodup) : (sortK l).Pairwise KLt := by
  induction l with
  | nil => exact List.Pairwise.nil
  | cons a t ih =>
    rw [List.map_cons, List.nodup_cons] at h
    refine insertK_sorted a _ (ih h.2) ?_
    intro x hx he
    exact h.1 (he ▸ List.mem_map_of_mem ((sortK_perm t).mem_iff.1 hx))

theorem sortK_unique (l es : List (Bytes × Bytes)) (hp : l.Perm es) (h : es.Pairwise KLt) : sortK l = es := by
  have hnd : (es.map Prod.fst).Nodup := by
    rw [List.Nodup, List.pairwise_map]
    exact h.imp (fun {a b} hab (e : a.1 = b.1) => strLt_irrefl b.1 (by rw [KLt, e] at hab; exact hab))
  have hs := sortK_sorted l ((hp.map Prod.fst).nodup_iff.2 hnd)
  exact List.Perm.eq_of_pairwise (le := KLt) (fun a b _ _ h1 h2 => absurd (strLt_trans h1 h2) (strLt_irrefl _)) hs h
    ((sortK_perm l).trans hp)

/-! ### the encoder -/

theorem normD_keys (l : List (Bytes × Val)) : (normD l).map Prod.fst = l.map Prod.fst := by
  induction l with
  | nil => rfl
  | cons e t ih => obtain ⟨k, v⟩ := e; simp [normD, normP, ih]

/-- Entries with their wire forms. -/
def wired : List (Bytes × Val) → List (Bytes × Bytes)
  | [] => []
  | (k, v) :: t => (k, wire v) :: wired t

theorem wired_keys (l : List (Bytes × Val)) : (wired l).map Prod.fst = l.map Prod.fst := by
  induction l with
  | nil => rfl
  | cons e t ih => obtain ⟨k, v⟩ := e; simp [wired, ih]

theorem encEntries_wired (l : List (Bytes × Val)) : encEntries (wired l) = wireD l := by
  induction l with
  | nil => rfl
  | cons e t ih => obtain ⟨k, v⟩ := e; simp [wired, encEntries, wireD, wireP_eq, ih]

mutual
theorem enc_wire (sh : List (Bytes × Bytes) → List (Bytes × Bytes)) (hs : Enumeration sh) (lim : Int) :
    ∀ v, Plain lim (norm v) → enc sh v = .ok (wire (norm v))
  | .nil, h => absurd h (by simp [norm, Plain])
  | .array _, h => absurd h (by simp [norm, Plain])
  | .bool b, _ => by rw [norm, wire_int]; cases b <;> rfl
  | .int n, _ => by rw [show norm (.int n) = .int n from rfl, wire_int]; rfl
  | .str s, _ => by rw [show norm (.str s) = .str s from rfl, wire_str]; rfl
  | .bytes s, _ => by rw [norm, wire_str]; rfl
  | .list l, h => by
    rw [norm] at h ⊢
    rw [enc, encL_wire sh hs lim l h, wire_list]; rfl
  | .dict l, h => by
    rw [norm] at h ⊢
    obtain ⟨hi, hp⟩ := h
    have hk : (wired (normD l)).Pairwise KLt := by
      have := increasing_pairwise _ hi
      rw [← wired_keys, List.pairwise_map] at this
      exact this
    rw [enc, encD_wire sh hs lim l hp, wire_dict]
    simp only [Res.bind]
    rw [sortK_unique _ _ (hs _) hk, encEntries_wired]
theorem encL_wire (sh : List (Bytes × Bytes) → List (Bytes × Bytes)) (hs : Enumeration sh) (lim : Int) :
    ∀ l, PlainL lim (normL l) → encL sh l = .ok (wireL (normL l))
  | [], _ => rfl
  | v :: t, h => by
    rw [normL] at h ⊢
    rw [encL, enc_wire sh hs lim v h.1, encL_wire sh hs lim t h.2]; rfl
theorem encD_wire (sh : List (Bytes × Bytes) → List (Bytes × Bytes)) (hs : Enumeration sh) (lim : Int) :
    ∀ l, PlainD lim (normD l) → encD sh l = .ok (wired (normD l))
  | [], _ => rfl
  | (k, v) :: t, h => by
    rw [normD, normP] at h ⊢
    rw [encD, encP, enc_wire sh hs lim v h.1.2, encD_wire sh hs lim t h.2]; rfl
end

mutual
theorem norm_plain (lim : Int) : ∀ v, Plain lim v → norm v = v
  | .nil, _ => rfl
  | .array _, _ => rfl
  | .bool _, h => absurd h (by simp [Plain])
  | .int _, _ => rfl
  | .str _, _ => rfl
  | .bytes _, h => absurd h (by simp [Plain])
  | .list l, h => by rw [norm, normL_plain lim l h]
  | .dict l, h => by rw [norm, normD_plain lim l h.2]
theorem normL_plain (lim : Int) : ∀ l, PlainL lim l → normL l = l
  | [], _ => rfl
  | v :: t, h => by rw [normL, norm_plain lim v h.1, normL_plain lim t h.2]
theorem normD_plain (lim : Int) : ∀ l, PlainD lim l → normD l = l
  | [], _ => rfl
  | (k, v) :: t, h => by rw [normD, normP, norm_plain lim v h.1.2, normD_plain lim t h.2]
end

theorem marshal_enc (sh : List (Bytes × Bytes) → List (Bytes × Bytes)) (v : Val) (h : v ≠ .nil) :
    marshal sh v = enc sh v := by
  cases v <;> first | rfl | exact absurd rfl h

/-! ### `*map[string]any` -/

theorem setKey_append (k : Bytes) (v : Val) (m : List (Bytes × Val)) (h : ∀ e ∈ m, strLt e.1 k = true) :
    setKey k v m = m ++ [(k, v)] := by
  induction m with
  | nil => rfl
  | cons a t ih =>
    rw [setKey, if_pos (h a (by simp)), ih (fun e he => h e (by simp [he]))]; rfl

theorem parseKey_str (lim : Int) (hl : Lim lim) (f : Nat) (s t : Bytes) (off : Nat) (h : (s.length : Int) ≤ lim) :
    parseKey lim (f + 1) ⟨encStr s ++ t, off⟩ = .ok (some s, ⟨t, off + (encStr s).length⟩) := by
  obtain ⟨b, r, he, hb, hp⟩ := parseString_ok lim hl s t (off + 1) h
  obtain ⟨-, -, h1, h2, h3, h4, -⟩ := isDigit_ne hb
  rw [he, parseKey]
  simp only [readByte, List.cons_append, Res.bind, h1, h2, h3, if_false, hb, if_true, hp]
  simp; omega

theorem parseMap_ok (lim : Int) (hl : Lim lim) (l : List (Bytes × Val)) : ∀ (m : List (Bytes × Val)) (f : Nat) (t : Bytes) (off : Nat),
    ((m ++ l).map Prod.fst).Pairwise (fun a b => strLt a b = true) → PlainD lim l → 2 * (wireD l).length + 2 ≤ f →
    parseMap lim f m ⟨wireD l ++ chE :: t, off⟩ = .ok (m ++ l, ⟨t, off + (wireD l).length + 1⟩) := by
  induction l with
  | nil =>
    intro m f t off _ _ hf
    obtain ⟨f, rfl⟩ : ∃ g, f = g + 2 := ⟨f - 2, by omega⟩
    simp [parseMap, parseKey, wireD, readByte, Res.bind]
  | cons e l ih =>
    intro m f t off hi hp hf
    obtain ⟨k, v⟩ := e
    have hw := wire_pos lim v hp.1.2
    have hk := encStr_pos k
    rw [wireD, wireP_eq] at hf ⊢
    rw [List.length_append, List.length_append] at hf
    obtain ⟨f, rfl⟩ : ∃ g, f = g + 2 := ⟨f - 2, by omega⟩
    rw [parseMap, List.append_assoc, List.append_assoc, parseKey_str lim hl f k _ _ hp.1.1]
    simp only [Res.bind]
    rw [completeV lim hl v (f + 1) _ _ hp.1.2 (by omega)]
    have hs : setKey k v m = m ++ [(k, v)] := by
      refine setKey_append k v m fun e he => ?_
      rw [List.map_append, List.pairwise_append] at hi
      exact hi.2.2 e.1 (List.mem_map_of_mem he) k (by simp)
    simp only [hs]
    rw [ih (m ++ [(k, v)]) (f + 1) _ _ (by rw [List.append_assoc]; exact hi) hp.2 (by omega)]
    simp; omega

theorem setKey_mem (k : Bytes) (v : Val) (m : List (Bytes × Val)) (e : Bytes × Val) (h : e ∈ setKey k v m) : e = (k, v) ∨ e ∈ m := by
  induction m with
  | nil => rw [setKey] at h; left; simpa using h
  | cons a t ih =>
    rw [setKey] at h
    split at h
    · rcases List.mem_cons.1 h with rfl | h
      · right; simp
      · rcases ih h with h | h
        · exact Or.inl h
        · right; simp [h]
    · split at h
      · rcases List.mem_cons.1 h with rfl | h
        · exact Or.inl rfl
        · right; simp [h]
      · rcases List.mem_cons.1 h with rfl | h
        · exact Or.inl rfl
        · exact Or.inr h

theorem setKey_sorted (k : Bytes) (v : Val) (m : List (Bytes × Val)) (h : m.Pairwise (fun a b => strLt a.1 b.1 = true)) :
    (setKey k v m).Pairwise (fun a b => strLt a.1 b.1 = true) := by
  induction m with
  | nil => simp [setKey]
  | cons a t ih =>
    rw [List.pairwise_cons] at h
    rw [setKey]
    split
    · rename_i hlt
      refine List.Pairwise.cons ?_ (ih h.2)
      intro e he
      rcases setKey_mem k v t e he with rfl | he
      · exact hlt
      · exact h.1 e he
    · rename_i hlt
      split
      · rename_i heq
        refine List.Pairwise.cons ?_ h.2
        intro e he
        simp only
        rw [← heq]; exact h.1 e he
      · rename_i hne
        have hka : strLt k a.1 = true := strLt_total hlt hne
        refine List.Pairwise.cons ?_ (List.pairwise_cons.2 h)
        intro e he
        rcases List.mem_cons.1 he with rfl | he
        · exact hka
        · exact strLt_trans hka (h.1 e he)

theorem parseKey_len (lim : Int) (h0 : 0 ≤ lim) : ∀ f,
    (∀ s s' k, parseKey lim f s = .ok (some k, s') → (k.length : Int) ≤ lim) ∧
    (∀ s s' ks, parseKeys lim f s = .ok (ks, s') → ∀ k ∈ ks, (k.length : Int) ≤ lim) := by
  intro f
  induction f with
  | zero => simp [parseKey, parseKeys]
  | succ f ih =>
    refine ⟨?_, ?_⟩
    · intro s s' k h
      rw [parseKey, bind_eq_ok] at h
      obtain ⟨⟨b, st⟩, -, h2⟩ := h
      simp only at h2
      split at h2
      · injection h2 with h2; injection h2 with h3; cases h3
      · split at h2
        · rw [bind_eq_ok] at h2
          obtain ⟨⟨o, q⟩, -, h6⟩ := h2
          cases o with
          | none => injection h6 with h6; injection h6 with h3; injection h3 with h3; subst h3; simpa using h0
          | some _ => cases h6
        · split at h2
          · rw [bind_eq_ok] at h2
            obtain ⟨⟨ks, q⟩, h5, h6⟩ := h2
            have := ih.2 _ _ _ h5
            simp only at h6
            split at h6
            · injection h6 with h6; injection h6 with h3; injection h3 with h3; subst h3
              rename_i hks
              exact this _ (by simp [hks])
            · cases h6
          · split at h2
            · rename_i hb
              rw [bind_eq_ok] at h2
              obtain ⟨⟨x, q⟩, h5, h6⟩ := h2
              injection h6 with h6; injection h6 with h3; injection h3 with h3; subst h3
              exact (parseString_inv _ _ _ _ _ hb h5).2.1
            · cases h2
    · intro s s' ks h
      rw [parseKeys, bind_eq_ok] at h
      obtain ⟨⟨o, st⟩, h1, h2⟩ := h
      cases o with
      | none => injection h2 with h2; injection h2 with h3; subst h3; simp
      | some k =>
        simp only [bind_eq_ok] at h2
        obtain ⟨⟨t, q⟩, h5, h6⟩ := h2
        injection h6 with h6; injection h6 with h3; subst h3
        intro x hx
        rcases List.mem_cons.1 hx with rfl | hx
        · exact ih.1 _ _ _ h1
        · exact ih.2 _ _ _ h5 x hx

theorem plainD_iff (lim : Int) (l : List (Bytes × Val)) : PlainD lim l ↔ ∀ e ∈ l, PlainP lim e := by
  induction l with
  | nil => simp [PlainD]
  | cons e t ih => simp [PlainD, ih]

/-- What a `map[string]any` can hold after a decode: bounded keys, plain values, each key once. -/
def GoodMap (lim : Int) (m : List (Bytes × Val)) : Prop :=
  m.Pairwise (fun a b => strLt a.1 b.1 = true) ∧ PlainD lim m

theorem parseMap_good (lim : Int) (h0 : 0 ≤ lim) : ∀ f m s s' m', GoodMap lim m → parseMap lim f m s = .ok (m', s') → GoodMap lim m' := by
  intro f
  induction f with
  | zero => intro m s s' m' _ h; simp [parseMap] at h
  | succ f ih =>
    intro m s s' m' hm h
    rw [parseMap, bind_eq_ok] at h
    obtain ⟨⟨o, st⟩, h1, h2⟩ := h
    cases o with
    | none => injection h2 with h2; injection h2 with h3; subst h3; exact hm
    | some k =>
      simp only [bind_eq_ok] at h2
      obtain ⟨⟨o2, q⟩, h5, h6⟩ := h2
      cases o2 with
      | none => cases h6
      | some v =>
        refine ih _ _ _ _ ⟨setKey_sorted k v m hm.1, ?_⟩ h6
        rw [plainD_iff]
        intro e he
        rcases setKey_mem k v m e he with rfl | he
        · exact ⟨(parseKey_len lim h0 f).1 _ _ _ h1, ((sound lim f).1 _ _ _ h5).1⟩
        · exact (plainD_iff lim m).1 hm.2 e he

theorem decodeMapF_good (lim : Int) (h0 : 0 ≤ lim) : ∀ f m s s' m', GoodMap lim m → decodeMapF lim m f s = .ok (some m', s') → GoodMap lim m' := by
  intro f
  induction f with
  | zero => intro m s s' m' _ h; simp [decodeMapF] at h
  | succ f ih =>
    intro m s s' m' hm h
    rw [decodeMapF, bind_eq_ok] at h
    obtain ⟨⟨b, st⟩, -, h2⟩ := h
    simp only at h2
    split at h2
    · injection h2 with h2; injection h2 with h3; cases h3
    · split at h2
      · rw [bind_eq_ok] at h2
        obtain ⟨⟨m1, q⟩, h5, h6⟩ := h2
        injection h6 with h6; injection h6 with h3; injection h3 with h3; subst h3
        exact parseMap_good lim h0 _ _ _ _ _ hm h5
      · split at h2
        · rw [bind_eq_ok] at h2
          obtain ⟨⟨o, q⟩, h5, h6⟩ := h2
          cases o with
          | none => cases h6
          | some m1 =>
            simp only [bind_eq_ok] at h6
            obtain ⟨⟨o2, w⟩, h7, h8⟩ := h6
            cases o2 with
            | some _ => cases h8
            | none =>
              injection h8 with h8; injection h8 with h3; injection h3 with h3; subst h3
              exact ih [] _ _ _ ⟨List.Pairwise.nil, trivial⟩ h5
        · cases h2

/-! ### termination for `*map[string]any` and `*[]any` -/

theorem fineK (lim : Int) : ∀ f,
    (∀ s, 2 * s.rest.length + 1 ≤ f → Fine s.rest.length 1 (parseKey lim f s)) ∧
    (∀ s, 2 * s.rest.length + 2 ≤ f → Fine s.rest.length 1 (parseKeys lim f s)) := by
  intro f
  induction f with
  | zero => refine ⟨?_, ?_⟩ <;> intros <;> omega
  | succ f ih =>
    refine ⟨?_, ?_⟩
    · intro s hf
      rw [parseKey]
      refine fine_bind (fine_readByte s) fun b st h => ?_
      simp only
      split
      · exact fine_ok _ _ _ _ h
      · split
        · refine fine_bind (fine_weaken (ih.1 st (by omega)) (by omega) : Fine _ 1 _) fun o s' h' => ?_
          cases o with
          | none => exact fine_ok _ _ _ _ h'
          | some _ => exact fine_err _ _
        · split
          · refine fine_bind (fine_weaken (ih.2 st (by omega)) (by omega) : Fine _ 1 _) fun ks s' h' => ?_
            simp only
            split
            · exact fine_ok _ _ _ _ h'
            · exact fine_err _ _
          · split
            · exact fine_bind (fine_weaken (fine_parseString lim b st) (by omega) : Fine _ 1 _) fun a s' h' => fine_ok _ _ _ _ h'
            · exact fine_err _ _
    · intro s hf
      rw [parseKeys]
      refine fine_bind (ih.1 s (by omega)) fun o st h => ?_
      cases o with
      | none => exact fine_ok _ _ _ _ h
      | some v =>
        exact fine_bind (fine_weaken (ih.2 st (by omega)) (by omega) : Fine _ 1 _) fun a s' h' => fine_ok _ _ _ _ h'

theorem fineMap (lim : Int) : ∀ f m s, 2 * s.rest.length + 2 ≤ f → Fine s.rest.length 1 (parseMap lim f m s) := by
  intro f
  induction f with
  | zero => intros; omega
  | succ f ih =>
    intro m s hf
    rw [parseMap]
    refine fine_bind ((fineK lim f).1 s (by omega)) fun o st h => ?_
    cases o with
    | none => exact fine_ok _ _ _ _ h
    | some k =>
      refine fine_bind (fine_weaken ((fine lim f).1 st (by omega)) (by omega) : Fine _ 1 _) fun o2 st2 h2 => ?_
      cases o2 with
      | none => exact fine_err _ _
      | some v => exact fine_weaken (ih _ st2 (by omega)) (by omega)

theorem fineDecodeMap (lim : Int) : ∀ f m s, 2 * s.rest.length + 1 ≤ f → Fine s.rest.length 1 (decodeMapF lim m f s) := by
  intro f
  induction f with
  | zero => intros; omega
  | succ f ih =>
    intro m s hf
    rw [decodeMapF]
    refine fine_bind (fine_readByte s) fun b st h => ?_
    simp only
    split
    · exact fine_ok _ _ _ _ h
    · split
      · exact fine_bind (fine_weaken (fineMap lim f m st (by omega)) (by omega) : Fine _ 1 _) fun a s' h' => fine_ok _ _ _ _ h'
      · split
        · refine fine_bind (fine_weaken (ih [] st (by omega)) (by omega) : Fine _ 1 _) fun o s' h' => ?_
          cases o with
          | none => exact fine_err _ _
          | some m' =>
            refine fine_bind (fine_weaken (ih [] s' (by omega)) (by omega) : Fine _ 1 _) fun o2 s2 h2 => ?_
            cases o2 with
            | none => exact fine_ok _ _ _ _ h2
            | some _ => exact fine_err _ _
        · exact fine_err _ _

theorem parseSliceAny_err (lim : Int) : ∀ f s, 2 * s.rest.length + 2 ≤ f → parseSliceAny lim f s = .err := by
  intro f
  induction f with
  | zero => intros; omega
  | succ f ih =>
    intro s hf
    rw [parseSliceAny]
    have hF := (fine lim f).1 s (by omega)
    cases hr : parseV lim f s with
    | err => rfl
    | panic => exact absurd hr hF.2.1
    | hang => exact absurd hr hF.1
    | ok q =>
      obtain ⟨o, st⟩ := q
      have := hF.2.2 _ _ hr
      cases o with
      | none => rfl
      | some v => simp only [Res.bind]; rw [ih st (by omega)]

end Verif.Bencode
