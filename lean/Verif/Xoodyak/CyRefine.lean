import Verif.Xoodyak.Refine
/-! The Cyclist object of the code against the Cyclist mode. -/
namespace Verif.Xoodyak
open Verif

/-- Same mode, state and rates. -/
structure Rel (x : Xk) (c : Spec.Cy) : Prop where
  k : x.keyed = c.keyed
  s : ser x.st = c.s
  ra : x.absorbSize = c.rabs
  rs : x.squeezeSize = c.rsq

/-- And the same phase. -/
structure RelP (x : Xk) (c : Spec.Cy) : Prop extends Rel x c where
  p : x.isUp = c.up

theorem split_small (X : Bytes) (r : Nat) (hr : 0 < r) (h : X.length ≤ r) : Spec.split X r = [X] := by
  unfold Spec.split
  by_cases e : X = []
  · rw [if_pos e, e]
  · have t : X.take r = X := List.take_of_length_le h
    have d : X.drop r = [] := List.drop_of_length_le h
    rw [if_neg e, Mode.chunks_cons r hr X e, t, d, Mode.chunks_nil]

theorem split_cons (X : Bytes) (r : Nat) (hr : 0 < r) (h : r < X.length) :
    Spec.split X r = X.take r :: Spec.split (X.drop r) r := by
  have e : X ≠ [] := by intro h0; rw [h0] at h; simp at h
  have d : X.drop r ≠ [] := by intro h0; have := congrArg List.length h0; rw [List.length_drop] at this; simp at this; omega
  unfold Spec.split
  rw [if_neg e, if_neg d, Mode.chunks_cons r hr X e]

theorem fill_len (k : Bool) (X : Bytes) (cd : Byte) (h : X.length ≤ 46) : (fill k X cd).length = 48 := by
  unfold fill
  simp only [List.length_append, List.length_cons, List.length_replicate, List.length_nil]
  omega

theorem down_rel {x : Xk} {c : Spec.Cy} (r : Rel x c) (X : Bytes) (cd : Byte) (h : X.length ≤ 46) :
    RelP (down x X cd) (Spec.down c X cd) where
  k := r.k
  ra := r.ra
  rs := r.rs
  p := rfl
  s := by
    show ser (xorState x.st (fill x.keyed X cd)) = _
    rw [ser_xorState _ _ (fill_len _ _ _ h), r.s, r.k]
    unfold fill Spec.down
    simp only [List.append_assoc, List.cons_append, List.nil_append]

theorem up_rel {x : Xk} {c : Spec.Cy} (r : Rel x c) (n : Nat) (cu : Byte) :
    Rel (up x cu n).1 (Spec.goUp c n cu).1 ∧ (up x cu n).2 = (Spec.goUp c n cu).2 := by
  have e : ser (up x cu n).1.st = (Spec.goUp c n cu).1.s := by
    show ser (perm (if x.keyed then xorLast x.st cu else x.st)) = Spec.f (if c.keyed then xorb c.s (List.replicate 47 0 ++ [cu]) else c.s)
    rw [← f_ser, ← r.k, ← r.s]
    congr 1
    cases x.keyed
    · rfl
    · exact ser_xorLast x.st cu
  refine ⟨⟨r.k, e, r.ra, r.rs⟩, ?_⟩
  show (if n = 0 then [] else (ser (up x cu n).1.st).take n) = (Spec.goUp c n cu).1.s.take n
  rw [e]
  by_cases h : n = 0
  · rw [if_pos h, h]; rfl
  · rw [if_neg h]

theorem absorbBlock_rel {x : Xk} {c : Spec.Cy} (r : RelP x c) (X : Bytes) (cd : Byte) (h : X.length ≤ 46) :
    RelP (absorbBlock x X cd) (Spec.down (if c.up then c else (Spec.goUp c 0 0).1) X cd) := by
  unfold absorbBlock
  simp only []
  apply down_rel _ _ _ h
  rw [← r.p]
  cases x.isUp
  · exact (up_rel r.toRel 0 0).1
  · exact r.toRel

theorem absorbLoop_rel (rate : Nat) (h0 : 0 < rate) (h46 : rate ≤ 46) : ∀ (k : Nat) (x : Xk) (c : Spec.Cy) (X : Bytes) (cd : Byte),
    X.length < k → RelP x c → RelP (absorbLoop k x X rate cd) (Spec.absorbBlocks c (Spec.split X rate) cd)
  | 0, _, _, _, _, h, _ => absurd h (by omega)
  | k + 1, x, c, X, cd, h, r => by
    by_cases hl : X.length ≤ rate
    · have hn : (if X.length < rate then X.length else rate) = X.length := by split <;> omega
      have t : X.take X.length = X := List.take_of_length_le (Nat.le_refl _)
      unfold absorbLoop
      simp only []
      rw [hn, t, split_small X rate h0 hl, if_pos (by omega)]
      exact absorbBlock_rel r X cd (by omega)
    · have hn : (if X.length < rate then X.length else rate) = rate := by split <;> omega
      unfold absorbLoop
      simp only []
      rw [hn, split_cons X rate h0 (by omega), if_neg (by omega)]
      exact absorbLoop_rel rate h0 h46 k _ _ _ _ (by rw [List.length_drop]; omega)
        (absorbBlock_rel r (X.take rate) cd (by rw [List.length_take]; omega))

theorem absorbAny_rel {x : Xk} {c : Spec.Cy} (r : RelP x c) (X : Bytes) (rate : Nat) (h0 : 0 < rate) (h46 : rate ≤ 46) (cd : Byte) :
    RelP (absorbAny x X rate cd) (Spec.absorbAny c X rate cd) :=
  absorbLoop_rel rate h0 h46 _ x c X cd (by omega) r

theorem cryptBlock_rel {x : Xk} {c : Spec.Cy} (r : Rel x c) (m : Bytes) (cu : Byte) (dec : Bool) (h : m.length ≤ 46) :
    (cryptBlock x m cu dec).2 = xorb m (Spec.goUp c m.length cu).2 ∧
    RelP (cryptBlock x m cu dec).1 (Spec.down (Spec.goUp c m.length cu).1 (if dec then xorb m (Spec.goUp c m.length cu).2 else m) 0) := by
  have u := up_rel r 0 cu
  have o : xorb (ser (up x cu 0).1.st) m = xorb m (Spec.goUp c m.length cu).2 := by
    rw [u.1.s, xorb_comm]
    show xorb m (Spec.f _) = xorb m ((Spec.f _).take m.length)
    have := xorb_take m (Spec.f (if c.keyed then xorb c.s (List.replicate 47 0 ++ [cu]) else c.s)) m.length
    have t : m.take m.length = m := List.take_of_length_le (Nat.le_refl _)
    rw [t] at this
    rw [← this]
    exact (List.take_of_length_le (by rw [xorb_length]; omega)).symm
  refine ⟨o, ?_⟩
  unfold cryptBlock
  simp only []
  rw [o]
  refine down_rel (c := (Spec.goUp c m.length cu).1) ?_ _ _ ?_
  · exact ⟨u.1.k, u.1.s, u.1.ra, u.1.rs⟩
  · cases dec
    · exact h
    · show (xorb _ _).length ≤ 46
      rw [xorb_length]; omega

theorem cryptLoop_rel (dec : Bool) : ∀ (k : Nat) (x : Xk) (c : Spec.Cy) (m : Bytes) (cu : Byte),
    m.length < k → Rel x c →
      (cryptLoop k x m cu dec).2 = (Spec.cryptBlocks c (Spec.split m 24) cu dec).2 ∧
      RelP (cryptLoop k x m cu dec).1 (Spec.cryptBlocks c (Spec.split m 24) cu dec).1
  | 0, _, _, _, _, h, _ => absurd h (by omega)
  | k + 1, x, c, m, cu, h, r => by
    by_cases hl : m.length ≤ 24
    · have hn : (if m.length < 24 then m.length else 24) = m.length := by split <;> omega
      have t : m.take m.length = m := List.take_of_length_le (Nat.le_refl _)
      unfold cryptLoop
      simp only []
      rw [hn, t, split_small m 24 (by omega) hl, if_pos (by omega)]
      obtain ⟨a, b⟩ := cryptBlock_rel r m cu dec (by omega)
      unfold Spec.cryptBlocks
      simp only []
      refine ⟨?_, b⟩
      rw [a]
      exact (List.append_nil _).symm
    · have hn : (if m.length < 24 then m.length else 24) = 24 := by split <;> omega
      unfold cryptLoop
      simp only []
      rw [hn, split_cons m 24 (by omega) (by omega), if_neg (by omega)]
      obtain ⟨a, b⟩ := cryptBlock_rel r (m.take 24) cu dec (by rw [List.length_take]; omega)
      obtain ⟨a', b'⟩ := cryptLoop_rel dec k _ _ (m.drop 24) 0 (by rw [List.length_drop]; omega) b.toRel
      unfold Spec.cryptBlocks
      simp only []
      refine ⟨?_, b'⟩
      rw [a, a']

theorem crypt_rel {x : Xk} {c : Spec.Cy} (r : Rel x c) (m : Bytes) (dec : Bool) :
    (crypt x m dec).2 = (Spec.crypt c m dec).2 ∧ RelP (crypt x m dec).1 (Spec.crypt c m dec).1 :=
  cryptLoop_rel dec _ x c m _ (by omega) r

/-- `squeezeLoop` runs with the squeeze length already cut to what was asked for. -/
theorem squeezeLoop_rel : ∀ (k : Nat) (x : Xk) (c : Spec.Cy) (rem sl : Nat),
    rem ≤ k → 0 < c.rsq → (sl = c.rsq ∨ rem = 0) → Rel x c →
      (squeezeLoop k x rem sl).2 = (Spec.squeezeMore c rem).2 ∧ Rel (squeezeLoop k x rem sl).1 (Spec.squeezeMore c rem).1 := by
  intro k
  induction k with
  | zero =>
    intro x c rem sl hk hq hs r
    have : rem = 0 := by omega
    subst this
    unfold squeezeLoop Spec.squeezeMore
    rw [dif_pos (Or.inl rfl)]
    exact ⟨rfl, r⟩
  | succ k ih =>
    intro x c rem sl hk hq hs r
    unfold squeezeLoop Spec.squeezeMore
    by_cases h0 : rem = 0
    · rw [if_pos h0, dif_pos (Or.inl h0)]
      exact ⟨rfl, r⟩
    · have hs' : sl = c.rsq := by rcases hs with h | h; exact h; exact absurd h h0
      subst hs'
      have hm : (if rem < c.rsq then rem else c.rsq) = min rem c.rsq := by split <;> omega
      rw [if_neg h0, dif_neg (by omega)]
      simp only []
      rw [hm]
      have d := down_rel r [] 0 (by simp)
      obtain ⟨u1, u2⟩ := up_rel d.toRel (min rem c.rsq) 0
      obtain ⟨a, b⟩ := ih _ _ (rem - min rem c.rsq) (min rem c.rsq) (by omega) (by show 0 < c.rsq; exact hq)
        (by show _ = c.rsq ∨ _; omega) u1
      refine ⟨?_, b⟩
      rw [u2, a]

theorem squeezeAny_rel {x : Xk} {c : Spec.Cy} (r : Rel x c) (hq : 0 < c.rsq) (n : Nat) (cu : Byte) :
    (squeezeAny x n cu).2 = (Spec.squeezeAny c n cu).2 ∧ Rel (squeezeAny x n cu).1 (Spec.squeezeAny c n cu).1 := by
  unfold squeezeAny Spec.squeezeAny
  have hm : (if n < x.squeezeSize then n else x.squeezeSize) = min n c.rsq := by rw [r.rs]; split <;> omega
  simp only []
  rw [hm]
  obtain ⟨u1, u2⟩ := up_rel r (min n c.rsq) cu
  obtain ⟨a, b⟩ := squeezeLoop_rel n _ _ (n - min n c.rsq) (min n c.rsq) (by omega) (by show 0 < c.rsq; exact hq)
    (by show _ = c.rsq ∨ _; omega) u1
  refine ⟨?_, b⟩
  rw [u2, a]

/-- The code's first object. -/
def x0 : Xk := ⟨st0, false, true, 16, 16⟩

theorem x0_rel : RelP x0 Spec.initHash := ⟨⟨rfl, rfl, rfl, rfl⟩, rfl⟩

theorem instantiate_hash (id counter : Bytes) : instantiate [] id counter = .ok x0 := rfl

/-- The keyed object. -/
def xKeyed (K id counter : Bytes) : Xk :=
  let x := absorbAny ⟨st0, true, true, 44, 24⟩ (K ++ id ++ [BitVec.ofNat 8 id.length]) 44 2
  if counter.length > 0 then absorbAny x counter 1 0 else x

theorem instantiate_keyed (K id counter : Bytes) (hK : K ≠ []) (h : K.length + id.length < 44) :
    instantiate K id counter = .ok (xKeyed K id counter) := by
  have : 0 < K.length := List.length_pos_iff.mpr hK
  unfold instantiate absorbKey
  simp only []
  rw [if_pos (by omega), if_neg (by omega), if_pos (by omega)]
  rfl

theorem xKeyed_rel (K id counter : Bytes) : RelP (xKeyed K id counter) (Spec.initKeyed K id counter) := by
  have a : RelP (absorbAny ⟨st0, true, true, 44, 24⟩ (K ++ id ++ [BitVec.ofNat 8 id.length]) 44 2) _ :=
    absorbAny_rel (c := ⟨true, true, List.replicate 48 0, 44, 24⟩) ⟨⟨rfl, rfl, rfl, rfl⟩, rfl⟩ _ 44 (by omega) (by omega) 2
  unfold xKeyed Spec.initKeyed
  simp only []
  by_cases h : counter = []
  · subst h
    exact a
  · rw [if_pos (List.length_pos_iff.mpr h), if_neg h]
    exact absorbAny_rel a counter 1 (by omega) (by omega) 0

end Verif.Xoodyak
