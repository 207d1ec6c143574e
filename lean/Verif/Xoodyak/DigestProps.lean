import Verif.Xoodyak.Digest
import Verif.Xoodyak.Inverse
/-!
# C151: Xoodyak hash and MAC, one-shot and as `hash.Hash`
-/
namespace Verif.Xoodyak
open Verif

/-- C151: `HashXoodyakLen` (and `HashXoodyak`, 32 bytes) is the published hash, for every message and length. -/
theorem C151_hash (m : Bytes) (n : Nat) : hashLen m n = .ok (Spec.hash m n) := by
  have r := absorbAny_rel x0_rel m 16 (by omega) (by omega) 3
  have q := absorbBlocks_rates (Spec.split m 16) Spec.initHash 3
  have s := (squeezeAny_rel r.toRel (by show 0 < (Spec.absorbBlocks _ _ _).rsq; rw [q.2.1]; decide) n 0x40).1
  unfold hashLen
  rw [instantiate_hash]
  show Res.ok (squeezeAny (absorbAny x0 m 16 3) n 0x40).2 = _
  rw [s]
  rfl

/-- C151: `MACXoodyak` is the published MAC, for every key of 1 to 43 bytes, message and length. -/
theorem C151_mac (K m : Bytes) (n : Nat) (h0 : K ≠ []) (h1 : K.length < 44) : mac K m n = .ok (Spec.mac K m n) := by
  have r := adState_rel K [] m
  have q := adState_rates K [] m
  have s := (squeezeAny_rel r.toRel (by rw [q.1]; omega) n 0x40).1
  unfold mac
  rw [instantiate_keyed K [] [] h0 (by simpa using h1)]
  show Res.ok (squeezeAny (absorb (xKeyed K [] []) m) n 0x40).2 = _
  rw [s]
  rfl

/-! The object. -/

/-- Blocks absorbed in turn, the first with `cd`. -/
def absB : Xk → List Bytes → Byte → Xk
  | x, [], _ => x
  | x, B :: Bs, cd => absB (absorbBlock x B cd) Bs 0

theorem absorbBlock_size (x : Xk) (B : Bytes) (cd : Byte) : (absorbBlock x B cd).absorbSize = x.absorbSize := by
  unfold absorbBlock
  cases x.isUp <;> rfl

theorem absB_size (Bs : List Bytes) : ∀ (x : Xk) (cd : Byte), (absB x Bs cd).absorbSize = x.absorbSize := by
  induction Bs with
  | nil => intro x cd; rfl
  | cons B Bs ih => intro x cd; unfold absB; rw [ih, absorbBlock_size]

theorem absB_snoc (Bs : List Bytes) (hB : Bs ≠ []) (B : Bytes) : ∀ (x : Xk) (cd : Byte), absB x (Bs ++ [B]) cd = absorbBlock (absB x Bs cd) B 0 := by
  induction Bs with
  | nil => exact absurd rfl hB
  | cons C Bs ih =>
    intro x cd
    by_cases h : Bs = []
    · subst h; rfl
    · show absB (absorbBlock x C cd) (Bs ++ [B]) 0 = _
      rw [ih h]; rfl

theorem absorbLoop_absB (a : Nat) (h0 : 0 < a) : ∀ (k : Nat) (x : Xk) (X : Bytes) (cd : Byte), X.length < k →
    absorbLoop k x X a cd = absB x (Spec.split X a) cd
  | 0, _, _, _, h => absurd h (by omega)
  | k + 1, x, X, cd, h => by
    by_cases hl : X.length ≤ a
    · have hn : (if X.length < a then X.length else a) = X.length := by split <;> omega
      have t : X.take X.length = X := List.take_of_length_le (Nat.le_refl _)
      unfold absorbLoop
      simp only []
      rw [hn, t, split_small X a h0 hl, if_pos (by omega)]
      rfl
    · have hn : (if X.length < a then X.length else a) = a := by split <;> omega
      unfold absorbLoop
      simp only []
      rw [hn, split_cons X a h0 (by omega), if_neg (by omega)]
      exact absorbLoop_absB a h0 k _ _ _ (by rw [List.length_drop]; omega)

theorem absorb_absB (x : Xk) (h0 : 0 < x.absorbSize) (X : Bytes) : absorb x X = absB x (Spec.split X x.absorbSize) 3 :=
  absorbLoop_absB _ h0 _ x X 3 (by omega)

/-- At least one block was absorbed, and `buf` is the rest of `m`. -/
structure Big (x : Xk) (m : Bytes) (d : Dig) : Prop where
  ex : ∃ Bs : List Bytes, Bs ≠ [] ∧ (∀ B ∈ Bs, B.length = x.absorbSize) ∧ d.xk = absB x Bs 3 ∧ m = Bs.flatten ++ d.buf
  cd : d.cd = 0
  lt : d.buf.length < x.absorbSize

/-- Less than one block so far. -/
structure Small (x : Xk) (m : Bytes) (d : Dig) : Prop where
  xk : d.xk = x
  cd : d.cd = 3
  buf : d.buf = m
  lt : m.length < x.absorbSize

theorem split_blocks (a : Nat) (h0 : 0 < a) (Bs : List Bytes) (hB : Bs ≠ []) (hl : ∀ B ∈ Bs, B.length = a) (t : Bytes) (ht : t.length < a) :
    Spec.split (Bs.flatten ++ t) a = Bs ++ (if t = [] then [] else [t]) := by
  have ne : Bs.flatten ++ t ≠ [] := by
    cases Bs with
    | nil => exact absurd rfl hB
    | cons B Bs =>
      intro e
      have e1 := hl B (by simp)
      have e2 : B = [] := (List.append_eq_nil_iff.mp (List.append_eq_nil_iff.mp e).1).1
      rw [e2] at e1
      exact absurd e1 (by simp only [List.length_nil]; omega)
  have dv : a ∣ Bs.flatten.length := by
    clear hB ne
    induction Bs with
    | nil => simp
    | cons B Bs ih =>
      rw [List.flatten_cons, List.length_append, hl B (by simp)]
      exact Nat.dvd_add (Nat.dvd_refl _) (ih fun C hC => hl C (by simp [hC]))
  unfold Spec.split
  rw [if_neg ne, Mode.chunks_append a h0 _ _ dv, Mode.chunks_of_flatten a h0 Bs hl]
  by_cases h : t = []
  · subst h; rw [if_pos rfl, Mode.chunks_nil]
  · have tk : t.take a = t := List.take_of_length_le (by omega)
    have td : t.drop a = [] := List.drop_of_length_le (by omega)
    rw [if_neg h, Mode.chunks_cons a h0 t h, tk, td, Mode.chunks_nil]

/-- The whole-block loop of `Write`, from an empty buffer after at least one block. -/
theorem writeLoop_big (x : Xk) (h0 : 0 < x.absorbSize) : ∀ (k : Nat) (p m : Bytes) (d : Dig), p.length ≤ k → Big x m d → d.buf = [] →
    Big x (m ++ p) (let r := writeLoop k d p; if r.2.length > 0 then { r.1 with buf := r.2 } else r.1) := by
  intro k
  induction k with
  | zero =>
    intro p m d hp hb hd
    have : p = [] := List.length_eq_zero_iff.mp (by omega)
    subst this
    simpa [writeLoop] using hb
  | succ k ih =>
    intro p m d hp hb hd
    obtain ⟨Bs, h1, h2, h3, h4⟩ := hb.ex
    have hs : d.xk.absorbSize = x.absorbSize := by rw [h3, absB_size]
    unfold writeLoop
    rw [hs]
    by_cases hl : x.absorbSize ≤ p.length
    · rw [if_pos hl]
      have := ih (p.drop x.absorbSize) (m ++ p.take x.absorbSize) { d with xk := absorbBlock d.xk (p.take x.absorbSize) d.cd, cd := 0 }
        (by rw [List.length_drop]; omega)
        ⟨⟨Bs ++ [p.take x.absorbSize], by simp, ?_, ?_, ?_⟩, rfl, hb.lt⟩ hd
      · rw [List.append_assoc, List.take_append_drop] at this
        exact this
      · intro B hB
        rcases List.mem_append.mp hB with h | h
        · exact h2 B h
        · rw [List.mem_singleton.mp h, List.length_take]; omega
      · show absorbBlock d.xk _ d.cd = _
        rw [absB_snoc Bs h1, h3, hb.cd]
      · show _ = _ ++ d.buf
        rw [hd, h4, hd]
        simp
    · rw [if_neg hl]
      simp only []
      by_cases hz : p.length > 0
      · rw [if_pos hz]
        exact ⟨⟨Bs, h1, h2, h3, by rw [h4, hd]; simp⟩, hb.cd, by show p.length < _; omega⟩
      · have : p = [] := List.length_eq_zero_iff.mp (by omega)
        subst this
        rw [if_neg hz, List.append_nil]
        exact hb

theorem write_big (x : Xk) (h0 : 0 < x.absorbSize) (m p : Bytes) (d : Dig) (hb : Big x m d) : Big x (m ++ p) (write d p) := by
  obtain ⟨Bs, h1, h2, h3, h4⟩ := hb.ex
  have hs : d.xk.absorbSize = x.absorbSize := by rw [h3, absB_size]
  have hlt := hb.lt
  unfold write
  simp only []
  rw [hs]
  by_cases hz : d.buf.length > 0
  · rw [if_pos hz]
    simp only []
    by_cases hf : x.absorbSize - d.buf.length ≤ p.length
    · have e : min (x.absorbSize - d.buf.length) p.length = x.absorbSize - d.buf.length := by omega
      rw [e]
      have hl : (d.buf ++ p.take (x.absorbSize - d.buf.length)).length = x.absorbSize := by
        rw [List.length_append, List.length_take]; omega
      rw [if_pos hl]
      have := writeLoop_big x h0 (p.drop (x.absorbSize - d.buf.length)).length (p.drop (x.absorbSize - d.buf.length))
        (m ++ p.take (x.absorbSize - d.buf.length))
        { d with xk := absorbBlock d.xk (d.buf ++ p.take (x.absorbSize - d.buf.length)) d.cd, buf := [] } (Nat.le_refl _)
        ⟨⟨Bs ++ [d.buf ++ p.take (x.absorbSize - d.buf.length)], by simp, ?_, ?_, ?_⟩, hb.cd, h0⟩ rfl
      · rw [List.append_assoc, List.take_append_drop] at this
        exact this
      · intro B hB
        rcases List.mem_append.mp hB with h | h
        · exact h2 B h
        · rw [List.mem_singleton.mp h, hl]
      · show absorbBlock d.xk _ d.cd = _
        rw [absB_snoc Bs h1, h3, hb.cd]
      · rw [h4]; simp
    · have e : min (x.absorbSize - d.buf.length) p.length = p.length := by omega
      have t : p.take p.length = p := List.take_of_length_le (Nat.le_refl _)
      have dr : p.drop p.length = [] := List.drop_of_length_le (Nat.le_refl _)
      have hne : ¬ (d.buf ++ p).length = x.absorbSize := by rw [List.length_append]; omega
      rw [e, t, dr]
      simp only [hne, if_false, writeLoop, List.length_nil, gt_iff_lt, Nat.lt_irrefl]
      exact ⟨⟨Bs, h1, h2, h3, by rw [h4]; simp⟩, hb.cd, by show (d.buf ++ p).length < _; rw [List.length_append]; omega⟩
  · rw [if_neg hz]
    exact writeLoop_big x h0 p.length p m d (Nat.le_refl _) hb (List.length_eq_zero_iff.mp (by omega))

theorem write_small (x : Xk) (m p : Bytes) (d : Dig) (hb : Small x m d) (hl : (m ++ p).length < x.absorbSize) : Small x (m ++ p) (write d p) := by
  obtain ⟨rfl, hc, rfl, hlt⟩ := hb
  rw [List.length_append] at hl
  unfold write
  simp only []
  by_cases hz : d.buf.length > 0
  · have e : min (d.xk.absorbSize - d.buf.length) p.length = p.length := by omega
    have t : p.take p.length = p := List.take_of_length_le (Nat.le_refl _)
    have dr : p.drop p.length = [] := List.drop_of_length_le (Nat.le_refl _)
    have hne : ¬ (d.buf ++ p).length = d.xk.absorbSize := by rw [List.length_append]; omega
    rw [if_pos hz]
    simp only []
    rw [e, t, dr]
    simp only [hne, if_false, writeLoop, List.length_nil, gt_iff_lt, Nat.lt_irrefl]
    exact ⟨rfl, hc, rfl, by rw [List.length_append]; exact hl⟩
  · have hb0 : d.buf = [] := List.length_eq_zero_iff.mp (by omega)
    rw [if_neg hz]
    simp only []
    have hw : writeLoop p.length d p = (d, p) := by
      cases hp : p.length with
      | zero => rfl
      | succ k =>
        unfold writeLoop
        rw [if_neg (by omega)]
    rw [hw]
    simp only []
    by_cases hp : p.length > 0
    · rw [if_pos hp, hb0]
      exact ⟨rfl, hc, rfl, by simpa using (by omega : p.length < d.xk.absorbSize)⟩
    · have : p = [] := List.length_eq_zero_iff.mp (by omega)
      subst this
      rw [if_neg (by simp), List.append_nil]
      exact ⟨rfl, hc, rfl, hlt⟩

theorem write_first (x : Xk) (h0 : 0 < x.absorbSize) (p : Bytes) (d : Dig) (hb : Small x [] d) (hl : x.absorbSize ≤ p.length) : Big x p (write d p) := by
  obtain ⟨rfl, hc, hbuf, hlt⟩ := hb
  unfold write
  simp only []
  have hz : ¬ d.buf.length > 0 := by rw [hbuf]; simp
  rw [if_neg hz]
  obtain ⟨k, hk⟩ : ∃ k, p.length = k + 1 := ⟨p.length - 1, by omega⟩
  rw [hk]
  unfold writeLoop
  rw [if_pos hl]
  have := writeLoop_big d.xk h0 k (p.drop d.xk.absorbSize) (p.take d.xk.absorbSize)
    { d with xk := absorbBlock d.xk (p.take d.xk.absorbSize) d.cd, cd := 0 } (by rw [List.length_drop]; omega)
    ⟨⟨[p.take d.xk.absorbSize], by simp, ?_, ?_, ?_⟩, rfl, by show d.buf.length < _; rw [hbuf]; exact h0⟩ hbuf
  · rw [List.take_append_drop] at this
    exact this
  · intro B hB
    rw [List.mem_singleton.mp hB, List.length_take]; omega
  · show absorbBlock d.xk _ d.cd = absB d.xk [_] 3
    rw [hc]; rfl
  · show _ = _ ++ d.buf
    rw [hbuf]; simp

theorem sum_big (x : Xk) (h0 : 0 < x.absorbSize) (m : Bytes) (d : Dig) (hb : Big x m d) : (sum d).2 = (squeeze (absorb x m) 32).2 := by
  obtain ⟨Bs, h1, h2, h3, h4⟩ := hb.ex
  have hc := hb.cd
  have c03 : ¬ ((0 : Byte) = 3) := by decide
  rw [absorb_absB x h0, h4, split_blocks _ h0 Bs h1 h2 d.buf hb.lt]
  unfold sum
  by_cases hz : d.buf = []
  · rw [hz]
    simp only [List.length_nil, Nat.lt_irrefl, if_false, gt_iff_lt, hc, c03, if_true, List.append_nil]
    rw [h3]
  · have hp : d.buf.length > 0 := List.length_pos_iff.mpr hz
    simp only [hp, if_true, c03, if_false, hz]
    rw [absB_snoc Bs h1, ← h3, hc]

theorem sum_small (x : Xk) (h0 : 0 < x.absorbSize) (m : Bytes) (d : Dig) (hb : Small x m d) : (sum d).2 = (squeeze (absorb x m) 32).2 := by
  obtain ⟨rfl, hc, rfl, hlt⟩ := hb
  have c03 : ¬ ((0 : Byte) = 3) := by decide
  rw [absorb_absB _ h0, split_small _ _ h0 (Nat.le_of_lt hlt)]
  unfold sum
  by_cases hz : d.buf = []
  · rw [hz]
    simp only [List.length_nil, Nat.lt_irrefl, if_false, gt_iff_lt, hc, if_true]
    rfl
  · have hp : d.buf.length > 0 := List.length_pos_iff.mpr hz
    simp only [hp, if_true, c03, if_false]
    rw [hc]; rfl

/-- The writes are short of one block together, or the first of them that is not empty is a block or more. -/
def Straight (a : Nat) : List Bytes → Prop
  | [] => True
  | p :: ps => if p = [] then Straight a ps else a ≤ p.length ∨ (p :: ps).flatten.length < a

theorem writes_sum (x : Xk) (h0 : 0 < x.absorbSize) : ∀ (ps : List Bytes) (m : Bytes) (d : Dig),
    (Big x m d ∨ (Small x m d ∧ (m ++ ps.flatten).length < x.absorbSize)) →
    (sum (ps.foldl write d)).2 = (squeeze (absorb x (m ++ ps.flatten)) 32).2 := by
  intro ps
  induction ps with
  | nil =>
    intro m d h
    rw [List.flatten_nil, List.append_nil]
    rcases h with h | h
    · exact sum_big x h0 m d h
    · exact sum_small x h0 m d h.1
  | cons p ps ih =>
    intro m d h
    rw [List.foldl_cons, List.flatten_cons, ← List.append_assoc]
    apply ih
    rcases h with h | ⟨h, hl⟩
    · exact Or.inl (write_big x h0 m p d h)
    · right
      rw [List.flatten_cons, ← List.append_assoc] at hl
      refine ⟨write_small x m p d h ?_, hl⟩
      rw [List.length_append] at hl; omega

theorem straight_sum (x : Xk) (h0 : 0 < x.absorbSize) (ps : List Bytes) (hs : Straight x.absorbSize ps) :
    (sum (ps.foldl write ⟨x, [], 3⟩)).2 = (squeeze (absorb x ps.flatten) 32).2 := by
  have s0 : Small x [] ⟨x, [], 3⟩ := ⟨rfl, rfl, rfl, h0⟩
  induction ps with
  | nil => exact sum_small x h0 [] _ s0
  | cons p ps ih =>
    unfold Straight at hs
    by_cases hp : p = []
    · rw [if_pos hp] at hs
      subst hp
      have e : write ⟨x, [], 3⟩ [] = ⟨x, [], 3⟩ := rfl
      rw [List.foldl_cons, e, List.flatten_cons, List.nil_append]
      exact ih hs
    · rw [if_neg hp] at hs
      rcases hs with hs | hs
      · rw [List.foldl_cons, List.flatten_cons]
        exact writes_sum x h0 ps p _ (Or.inl (write_first x h0 p _ s0 hs))
      · have := writes_sum x h0 (p :: ps) [] _ (Or.inr ⟨s0, by simpa using hs⟩)
        simpa using this

/-- C151 (part: the first block of the message does not come from more than one `Write`): the hash object gives the published hash of all
that was written, however it was cut. -/
theorem C151_hash_object_partial (ps : List Bytes) (hs : Straight 16 ps) :
    (newHash.bind fun d => .ok (sum (ps.foldl write d)).2) = .ok (Spec.hash ps.flatten 32) := by
  rw [← C151_hash]
  have := straight_sum x0 (by decide) ps hs
  show Res.ok (sum (ps.foldl write ⟨x0, [], 3⟩)).2 = Res.ok (squeeze (absorb x0 ps.flatten) 32).2
  rw [this]

/-- C151 (part, as above, with blocks of 44 bytes): the MAC object gives the published MAC of all that was written. -/
theorem C151_mac_object_partial (K : Bytes) (h0 : K ≠ []) (h1 : K.length < 44) (ps : List Bytes) (hs : Straight 44 ps) :
    ((newMac K).bind fun d => .ok (sum (ps.foldl write d)).2) = .ok (Spec.mac K ps.flatten 32) := by
  rw [← C151_mac K _ _ h0 h1]
  have hr : (xKeyed K [] []).absorbSize = 44 := by rw [(xKeyed_rel K [] []).ra]; exact (initKeyed_rates K [] []).1
  have := straight_sum (xKeyed K [] []) (by rw [hr]; omega) ps (by rw [hr]; exact hs)
  unfold newMac mac
  rw [instantiate_keyed K [] [] h0 (by simpa using h1)]
  show Res.ok (sum (ps.foldl write ⟨xKeyed K [] [], [], 3⟩)).2 = Res.ok (squeeze (absorb (xKeyed K [] []) ps.flatten) 32).2
  rw [this]

/-- C151 violated: the hash object on a message cut as 1 + 15 bytes: a block completed from the buffer does not clear the mark of the first
block. -/
theorem C151_hash_chunks_violated :
    ∃ p q : Bytes, (newHash.bind fun d => .ok (sum (write (write d p) q)).2) ≠ .ok (Spec.hash (p ++ q) 32) := by
  refine ⟨[0], List.replicate 15 0, ?_⟩
  rw [← C151_hash]
  decide +kernel

/-- C151 violated: the same for a longer message, where the second block is absorbed as if it were a first one. -/
theorem C151_mac_chunks_violated :
    ∃ K p q r : Bytes, K.length = 16 ∧ ((newMac K).bind fun d => .ok (sum (write (write (write d p) q) r)).2) ≠ .ok (Spec.mac K (p ++ q ++ r) 32) := by
  refine ⟨List.replicate 16 1, [0], List.replicate 43 0, [0], rfl, ?_⟩
  rw [← C151_mac _ _ _ (by simp) (by simp)]
  decide +kernel

/-- C151 violated: `Sum` changes the object: a second `Sum` gives another value. -/
theorem C151_sum_twice_violated :
    ∃ m : Bytes, (newHash.bind fun d => .ok (sum (sum (write d m)).1).2) ≠ (newHash.bind fun d => .ok (sum (write d m)).2) := by
  refine ⟨[0], ?_⟩
  decide +kernel

/-- C151 violated: `Reset` of a MAC object drops the key: what it computes afterwards is the unkeyed hash, for every key and
message. -/
theorem C151_mac_reset_violated (d : Dig) (m : Bytes) :
    ((reset d).bind fun d => .ok (sum (write d m)).2) = .ok (Spec.hash m 32) := by
  have h : Straight 16 [m] := by
    unfold Straight
    by_cases e : m = []
    · rw [if_pos e]; exact trivial
    · rw [if_neg e]
      simp only [List.flatten_cons, List.flatten_nil, List.append_nil]
      omega
  have := C151_hash_object_partial [m] h
  simpa [reset] using this

/-- and that is not the MAC: a key and a message for which it differs. -/
theorem C151_mac_reset_key_violated :
    ∃ (K m : Bytes) (d : Dig), newMac K = .ok d ∧ ((reset d).bind fun d => .ok (sum (write d m)).2) ≠ .ok (Spec.mac K m 32) := by
  refine ⟨List.replicate 16 1, [0], ⟨xKeyed (List.replicate 16 1) [] [], [], 3⟩, ?_, ?_⟩
  · unfold newMac; rw [instantiate_keyed _ _ _ (by simp) (by simp)]; rfl
  · rw [← C151_mac _ _ _ (by simp) (by simp)]
    decide +kernel

/-- Non-vacuity: writes of 20, 3 and 50 bytes, and of 5 and 6 bytes. -/
example : Straight 16 [List.replicate 20 1, List.replicate 3 2, List.replicate 50 3] ∧ Straight 16 [[], List.replicate 5 1, List.replicate 6 2] := by
  simp [Straight]

end Verif.Xoodyak
