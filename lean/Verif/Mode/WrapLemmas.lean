import Verif.Mode.WrapModel
import Verif.Mode.WrapSpec
import Verif.Mode.CfbLemmas
/-
Lemmas for key wrap.
-/
namespace Verif

theorem Mem.write_comm (m : Mem) (p q : Nat) (a b : Bytes) (h : p + a.length ≤ q ∨ q + b.length ≤ p) :
    (m.write q b).write p a = (m.write p a).write q b := by
  funext x
  by_cases h1 : x < p
  · rw [Mem.write_of_lt _ _ _ _ h1]
    by_cases h2 : x < q
    · rw [Mem.write_of_lt _ _ _ _ h2, Mem.write_of_lt _ _ _ _ h2, Mem.write_of_lt _ _ _ _ h1]
    · by_cases h3 : q + b.length ≤ x
      · rw [Mem.write_of_ge _ _ _ _ h3, Mem.write_of_ge _ _ _ _ h3, Mem.write_of_lt _ _ _ _ h1]
      · obtain ⟨k, hk⟩ : ∃ k, x = q + k := ⟨x - q, by omega⟩
        subst hk
        rw [Mem.write_at _ _ _ _ (by omega), Mem.write_at _ _ _ _ (by omega)]
  · by_cases h3 : p + a.length ≤ x
    · rw [Mem.write_of_ge _ _ _ _ h3]
      by_cases h2 : x < q
      · rw [Mem.write_of_lt _ _ _ _ h2, Mem.write_of_lt _ _ _ _ h2, Mem.write_of_ge _ _ _ _ h3]
      · by_cases h4 : q + b.length ≤ x
        · rw [Mem.write_of_ge _ _ _ _ h4, Mem.write_of_ge _ _ _ _ h4, Mem.write_of_ge _ _ _ _ h3]
        · obtain ⟨k, hk⟩ : ∃ k, x = q + k := ⟨x - q, by omega⟩
          subst hk
          rw [Mem.write_at _ _ _ _ (by omega), Mem.write_at _ _ _ _ (by omega)]
    · obtain ⟨k, hk⟩ : ∃ k, x = p + k := ⟨x - p, by omega⟩
      subst hk
      rw [Mem.write_at _ _ _ _ (by omega)]
      rcases h with h | h
      · rw [Mem.write_of_lt _ _ _ _ (by omega), Mem.write_at _ _ _ _ (by omega)]
      · rw [Mem.write_of_ge _ _ _ _ (by omega), Mem.write_at _ _ _ _ (by omega)]

end Verif
namespace Verif.Mode

/-- All blocks have 8 bytes. -/
def All8 (l : List Bytes) : Prop := ∀ b ∈ l, b.length = 8

theorem all8_set {l : List Bytes} (h : All8 l) (i : Nat) (b : Bytes) (hb : b.length = 8) : All8 (l.set i b) := by
  intro x hx
  rcases List.mem_or_eq_of_mem_set hx with h1 | h1
  · exact h x h1
  · rw [h1]; exact hb

theorem all8_flatten_length {l : List Bytes} (h : All8 l) : l.flatten.length = 8 * l.length := by
  induction l with
  | nil => rfl
  | cons a l ih =>
    have h1 := h a (by simp)
    have h2 := ih (fun b hb => h b (by simp [hb]))
    simp only [List.flatten_cons, List.length_append, List.length_cons]
    omega

theorem flatten_blk {l : List Bytes} (h : All8 l) (i : Nat) (hi : i < l.length) :
    (l.flatten.drop (8 * i)).take 8 = l.getD i [] := by
  induction l generalizing i with
  | nil => simp at hi
  | cons a l ih =>
    have h1 := h a (by simp)
    cases i with
    | zero => simp [h1]
    | succ i =>
      have := ih (fun b hb => h b (by simp [hb])) i (by simpa using hi)
      rw [List.flatten_cons, show 8 * (i + 1) = a.length + 8 * i by omega, List.drop_append]
      simp only [Nat.add_sub_cancel_left, List.drop_of_length_le (show a.length ≤ a.length + 8 * i by omega),
        List.nil_append, this]
      simp

theorem flatten_set {l : List Bytes} (h : All8 l) (i : Nat) (hi : i < l.length) (b : Bytes) (hb : b.length = 8) :
    copyAt l.flatten (8 * i) b = (l.set i b).flatten := by
  induction l generalizing i with
  | nil => simp at hi
  | cons a l ih =>
    have h1 := h a (by simp)
    cases i with
    | zero =>
      simp only [copyAt, List.flatten_cons, Nat.mul_zero, List.take_zero, List.drop_zero, List.nil_append,
        List.set_cons_zero, copyInto]
      rw [List.take_of_length_le (by simp; omega), List.drop_append, hb, ← h1]
      simp
    | succ i =>
      have ih' := ih (fun b hb => h b (by simp [hb])) i (by simpa using hi)
      rw [List.flatten_cons, List.set_cons_succ, List.flatten_cons, ← ih']
      unfold copyAt
      rw [show 8 * (i + 1) = a.length + 8 * i by omega, List.take_length_add_append, List.drop_length_add_append,
        List.append_assoc]

theorem natBe8 (T : Nat) (h : T < 2 ^ 32) : Spec.natBe 8 T =
    [0, 0, 0, 0, BitVec.ofNat 8 (T >>> 24), BitVec.ofNat 8 (T >>> 16), BitVec.ofNat 8 (T >>> 8), BitVec.ofNat 8 T] := by
  have e : ∀ k, T >>> k = T / 2 ^ k := fun k => Nat.shiftRight_eq_div_pow T k
  simp only [Spec.natBe, List.nil_append, List.cons_append, e]
  have z : T / 256 / 256 / 256 / 256 = 0 := by omega
  rw [z]
  simp [Nat.div_div_eq_div_mul]

theorem wrapXorT_eq (B : Bytes) (hB : B.length = 16) (T : Nat) (h : T < 2 ^ 32) :
    wrapXorT B T = xorb (B.take 8) (Spec.natBe 8 T) ++ B.drop 8 := by
  rw [natBe8 T h]
  rcases B with _ | ⟨a0, B⟩; · simp at hB
  rcases B with _ | ⟨a1, B⟩; · simp at hB
  rcases B with _ | ⟨a2, B⟩; · simp at hB
  rcases B with _ | ⟨a3, B⟩; · simp at hB
  rcases B with _ | ⟨a4, B⟩; · simp at hB
  rcases B with _ | ⟨a5, B⟩; · simp at hB
  rcases B with _ | ⟨a6, B⟩; · simp at hB
  rcases B with _ | ⟨a7, B⟩; · simp at hB
  unfold wrapXorT
  by_cases ht : T > 0xff
  · simp [ht]
  · have e : ∀ k, T >>> k = T / 2 ^ k := fun k => Nat.shiftRight_eq_div_pow T k
    have z1 : T / 2 ^ 24 = 0 := by omega
    have z2 : T / 2 ^ 16 = 0 := by omega
    have z3 : T / 2 ^ 8 = 0 := by omega
    simp only [e, z1, z2, z3]
    simp [ht]

variable (c : BlockCipher)

/-- Code state and RFC state. -/
structure KR (n : Nat) (s : Bytes × Bytes) (t : Bytes × List Bytes) : Prop where
  len : s.1.length = 16
  a : s.1.take 8 = t.1
  n : t.2.length = n
  all : All8 t.2
  r : s.2 = t.2.flatten

theorem KR.a8 {n : Nat} {s : Bytes × Bytes} {t : Bytes × List Bytes} (h : KR n s t) : t.1.length = 8 := by
  rw [← h.a]; simp [h.len]

theorem KR.blk {n : Nat} {s : Bytes × Bytes} {t : Bytes × List Bytes} (h : KR n s t) (i : Nat) (hi : i < n) :
    (t.2.getD i []).length = 8 := by
  have hi' : i < t.2.length := by rw [h.n]; exact hi
  rw [List.getD_eq_getElem?_getD, List.getElem?_eq_getElem hi']
  exact h.all _ (List.getElem_mem _)

theorem wrapCrypt16 (h16 : c.bs = 16) (f : Bytes → Bytes) (A : Bytes) (hA : A.length = 16) :
    wrapCrypt c.bs f A = f A := by
  unfold wrapCrypt
  rw [h16, List.take_of_length_le (by omega), List.drop_of_length_le (by omega), List.append_nil]

theorem copyAt8 (A b : Bytes) (hA : A.length = 16) (hb : b.length = 8) : copyAt A 8 b = A.take 8 ++ b := by
  unfold copyAt
  rw [copyInto_eq_left _ _ (by simp [hA, hb])]

theorem wrapEncStep_KR (h16 : c.bs = 16) {n : Nat} {s : Bytes × Bytes} {t : Bytes × List Bytes} (h : KR n s t)
    (j i : Nat) (hi : i < n) (hT : n * j + (i + 1) < 2 ^ 32) :
    KR n (wrapEncStep c (n * j + (i + 1)) (8 * i) s) (Spec.kwStep c.E n j t i) := by
  have hb := h.blk i hi
  have e1 : copyAt s.1 8 ((s.2.drop (8 * i)).take 8) = t.1 ++ t.2.getD i [] := by
    rw [h.r, flatten_blk h.all i (by rw [h.n]; exact hi), copyAt8 _ _ h.len hb, h.a]
  have l1 : (t.1 ++ t.2.getD i []).length = 16 := by rw [List.length_append, h.a8, hb]
  have lE : (c.E (t.1 ++ t.2.getD i [])).length = 16 := by rw [c.lenE _ (by rw [l1, h16]), h16]
  have l8 : (Spec.natBe 8 (n * j + (i + 1))).length = 8 := by rw [natBe8 _ hT]; rfl
  have lx : (xorb ((c.E (t.1 ++ t.2.getD i [])).take 8) (Spec.natBe 8 (n * j + (i + 1)))).length = 8 := by
    rw [xorb_length, l8, List.length_take, lE]; rfl
  unfold wrapEncStep Spec.kwStep
  simp only [e1]
  rw [wrapCrypt16 c h16 _ _ l1, wrapXorT_eq _ lE _ hT]
  refine ⟨?_, ?_, ?_, ?_, ?_⟩
  · simp only [List.length_append, lx, List.length_drop, lE]
  · simp only
    rw [List.take_left' lx]
  · simp [h.n]
  · exact all8_set h.all _ _ (by rw [List.length_drop, lE])
  · simp only
    rw [List.drop_left' lx, h.r]
    exact flatten_set h.all i (by rw [h.n]; exact hi) _ (by rw [List.length_drop, lE])

theorem wrapDecStep_KR (h16 : c.bs = 16) {n : Nat} {s : Bytes × Bytes} {t : Bytes × List Bytes} (h : KR n s t)
    (j i : Nat) (hi : i < n) (hT : n * j + (i + 1) < 2 ^ 32) :
    KR n (wrapDecStep c (n * j + (i + 1)) (8 * i) s) (Spec.kwInvStep c.D n j i t) := by
  have hb := h.blk i hi
  have l8 : (Spec.natBe 8 (n * j + (i + 1))).length = 8 := by rw [natBe8 _ hT]; rfl
  have lx : (xorb t.1 (Spec.natBe 8 (n * j + (i + 1)))).length = 8 := by
    rw [xorb_length, l8, h.a8]; rfl
  have e1 : copyAt (wrapXorT s.1 (n * j + (i + 1))) 8 ((s.2.drop (8 * i)).take 8) =
      xorb t.1 (Spec.natBe 8 (n * j + (i + 1))) ++ t.2.getD i [] := by
    rw [h.r, flatten_blk h.all i (by rw [h.n]; exact hi), wrapXorT_eq _ h.len _ hT, h.a,
      copyAt8 _ _ (by rw [List.length_append, lx, List.length_drop, h.len]) hb, List.take_left' lx]
  have l1 : (xorb t.1 (Spec.natBe 8 (n * j + (i + 1))) ++ t.2.getD i []).length = 16 := by
    rw [List.length_append, lx, hb]
  have lE : (c.D (xorb t.1 (Spec.natBe 8 (n * j + (i + 1))) ++ t.2.getD i [])).length = 16 := by
    rw [c.lenD _ (by rw [l1, h16]), h16]
  unfold wrapDecStep Spec.kwInvStep
  simp only [e1]
  rw [wrapCrypt16 c h16 _ _ l1]
  refine ⟨lE, rfl, by simp [h.n], all8_set h.all _ _ (by rw [List.length_drop, lE]), ?_⟩
  simp only
  rw [h.r]
  exact flatten_set h.all i (by rw [h.n]; exact hi) _ (by rw [List.length_drop, lE])

theorem wrapEncPass_succ (n i t : Nat) (s : Bytes × Bytes) :
    wrapEncPass c (n + 1) i t s = wrapEncStep c (t + n) (i + 8 * n) (wrapEncPass c n i t s) := by
  induction n generalizing i t s with
  | zero => rfl
  | succ n ih =>
    rw [wrapEncPass, ih, wrapEncPass]
    congr 1 <;> omega

theorem wrapEncPass_KR (h16 : c.bs = 16) (n j : Nat) (k : Nat) (hk : k ≤ n) {s : Bytes × Bytes}
    {t : Bytes × List Bytes} (h : KR n s t) (hT : n * j + n < 2 ^ 32) :
    KR n (wrapEncPass c k 0 (n * j + 1) s) ((List.range k).foldl (Spec.kwStep c.E n j) t) := by
  induction k with
  | zero => exact h
  | succ k ih =>
    rw [wrapEncPass_succ, List.range_succ, List.foldl_append]
    simp only [List.foldl_cons, List.foldl_nil, Nat.zero_add]
    rw [show n * j + 1 + k = n * j + (k + 1) by omega]
    exact wrapEncStep_KR c h16 (ih (by omega)) j k (by omega) (by omega)

theorem wrapEncLoop_succ (n j t : Nat) (s : Bytes × Bytes) :
    wrapEncLoop c n (j + 1) t s = wrapEncPass c n 0 (t + n * j) (wrapEncLoop c n j t s) := by
  induction j generalizing t s with
  | zero => rfl
  | succ j ih =>
    rw [wrapEncLoop, ih, wrapEncLoop]
    congr 1
    rw [Nat.mul_succ]; omega

theorem wrapEncLoop_KR (h16 : c.bs = 16) (n : Nat) (J : Nat) (hJ : J ≤ 6) {s : Bytes × Bytes}
    {t : Bytes × List Bytes} (h : KR n s t) (hT : n * 6 < 2 ^ 32) :
    KR n (wrapEncLoop c n J 1 s)
      ((List.range J).foldl (fun s j => (List.range n).foldl (Spec.kwStep c.E n j) s) t) := by
  induction J with
  | zero => exact h
  | succ J ih =>
    rw [wrapEncLoop_succ, List.range_succ, List.foldl_append]
    simp only [List.foldl_cons, List.foldl_nil]
    rw [Nat.add_comm 1]
    refine wrapEncPass_KR c h16 n J n (Nat.le_refl _) (ih (by omega)) ?_
    have : n * J ≤ n * 5 := Nat.mul_le_mul_left _ (by omega)
    omega

theorem wrapDecPass_KR (h16 : c.bs = 16) (n j : Nat) (k : Nat) (hk : k ≤ n) {s : Bytes × Bytes}
    {t : Bytes × List Bytes} (h : KR n s t) (hT : n * j + n < 2 ^ 32) :
    KR n (wrapDecPass c (8 * n) k (8 * n - 8 * k) (n * j + k) s)
      ((List.range k).foldr (Spec.kwInvStep c.D n j) t) := by
  induction k generalizing s t with
  | zero => exact h
  | succ k ih =>
    rw [wrapDecPass, List.range_succ, List.foldr_append]
    simp only [List.foldr_cons, List.foldr_nil]
    rw [show n * j + (k + 1) - 1 = n * j + k by omega, show 8 * n - 8 * (k + 1) + 8 = 8 * n - 8 * k by omega,
      show 8 * n - 8 - (8 * n - 8 * (k + 1)) = 8 * k by omega]
    exact ih (by omega) (wrapDecStep_KR c h16 h j k (by omega) (by omega))

theorem wrapDecLoop_KR (h16 : c.bs = 16) (n : Nat) (J : Nat) (hJ : J ≤ 6) {s : Bytes × Bytes}
    {t : Bytes × List Bytes} (h : KR n s t) (hT : n * 6 < 2 ^ 32) :
    KR n (wrapDecLoop c n J (n * J) s)
      ((List.range J).foldr (fun j s => (List.range n).foldr (Spec.kwInvStep c.D n j) s) t) := by
  induction J generalizing s t with
  | zero => exact h
  | succ J ih =>
    rw [wrapDecLoop, List.range_succ, List.foldr_append]
    simp only [List.foldr_cons, List.foldr_nil]
    rw [show n * (J + 1) - n = n * J by rw [Nat.mul_succ]; omega]
    apply ih (by omega)
    have := wrapDecPass_KR c h16 n J n (Nat.le_refl _) h (by
      have : n * J ≤ n * 5 := Nat.mul_le_mul_left _ (by omega)
      omega)
    rw [Nat.sub_self] at this
    rw [Nat.mul_succ]
    exact this

/-! The RFC loops invert each other. -/

/-- RFC state of `n` blocks. -/
structure KS (n : Nat) (t : Bytes × List Bytes) : Prop where
  a : t.1.length = 8
  n : t.2.length = n
  all : All8 t.2

theorem KS.blk {n : Nat} {t : Bytes × List Bytes} (h : KS n t) (i : Nat) (hi : i < n) : (t.2.getD i []).length = 8 := by
  have hi' : i < t.2.length := by rw [h.n]; exact hi
  rw [List.getD_eq_getElem?_getD, List.getElem?_eq_getElem hi']
  exact h.all _ (List.getElem_mem _)

theorem natBe_len (n v : Nat) : (Spec.natBe n v).length = n := by
  induction n generalizing v with
  | zero => rfl
  | succ n ih => simp [Spec.natBe, ih]

theorem kwStep_KS (h16 : c.bs = 16) {n : Nat} {t : Bytes × List Bytes} (h : KS n t) (j i : Nat) (hi : i < n) :
    KS n (Spec.kwStep c.E n j t i) := by
  have lE : (c.E (t.1 ++ t.2.getD i [])).length = 16 := by
    rw [c.lenE _ (by rw [List.length_append, h.a, h.blk i hi, h16]), h16]
  refine ⟨?_, by simp [Spec.kwStep, h.n], all8_set h.all _ _ (by rw [List.length_drop, lE])⟩
  simp only [Spec.kwStep, xorb_length, natBe_len, List.length_take, lE]
  rfl

theorem kw_step_inv (h16 : c.bs = 16) {n : Nat} {t : Bytes × List Bytes} (h : KS n t) (j i : Nat) (hi : i < n) :
    Spec.kwInvStep c.D n j i (Spec.kwStep c.E n j t i) = t := by
  have hi' : i < t.2.length := by rw [h.n]; exact hi
  have lE : (c.E (t.1 ++ t.2.getD i [])).length = 16 := by
    rw [c.lenE _ (by rw [List.length_append, h.a, h.blk i hi, h16]), h16]
  simp only [Spec.kwInvStep, Spec.kwStep]
  rw [xorb_xorb_cancel_right _ _ (by rw [natBe_len]; exact List.length_take_le _ _),
    show (t.2.set i ((c.E (t.1 ++ t.2.getD i [])).drop 8)).getD i [] = (c.E (t.1 ++ t.2.getD i [])).drop 8 by
      simp [List.getD_eq_getElem?_getD, hi'],
    List.take_append_drop, c.DE _ (by rw [List.length_append, h.a, h.blk i hi, h16]),
    List.take_left' h.a, List.drop_left' h.a]
  have : t.2.getD i [] = t.2[i] := by simp [List.getD_eq_getElem?_getD, hi']
  rw [List.set_set, this, List.set_getElem_self]

theorem kw_pass_inv (h16 : c.bs = 16) {n : Nat} (j k : Nat) (hk : k ≤ n) {t : Bytes × List Bytes} (h : KS n t) :
    KS n ((List.range k).foldl (Spec.kwStep c.E n j) t) ∧
    (List.range k).foldr (Spec.kwInvStep c.D n j) ((List.range k).foldl (Spec.kwStep c.E n j) t) = t := by
  induction k with
  | zero => exact ⟨h, rfl⟩
  | succ k ih =>
    obtain ⟨h1, h2⟩ := ih (by omega)
    rw [List.range_succ, List.foldl_append, List.foldr_append]
    simp only [List.foldl_cons, List.foldl_nil, List.foldr_cons, List.foldr_nil]
    exact ⟨kwStep_KS c h16 h1 j k (by omega), by rw [kw_step_inv c h16 h1 j k (by omega), h2]⟩

theorem kw_loop_inv (h16 : c.bs = 16) {n : Nat} (J : Nat) {t : Bytes × List Bytes} (h : KS n t) :
    KS n ((List.range J).foldl (fun s j => (List.range n).foldl (Spec.kwStep c.E n j) s) t) ∧
    (List.range J).foldr (fun j s => (List.range n).foldr (Spec.kwInvStep c.D n j) s)
      ((List.range J).foldl (fun s j => (List.range n).foldl (Spec.kwStep c.E n j) s) t) = t := by
  induction J with
  | zero => exact ⟨h, rfl⟩
  | succ J ih =>
    obtain ⟨h1, h2⟩ := ih
    obtain ⟨h3, h4⟩ := kw_pass_inv c h16 J n (Nat.le_refl _) h1
    rw [List.range_succ, List.foldl_append, List.foldr_append]
    simp only [List.foldl_cons, List.foldl_nil, List.foldr_cons, List.foldr_nil]
    exact ⟨h3, by rw [h4, h2]⟩

/-- Unwrapping undoes wrapping. -/
theorem kwInv_kw (h16 : c.bs = 16) (iv : Bytes) (hiv : iv.length = 8) (R : List Bytes) (hR : All8 R) :
    Spec.kwInv c.D (Spec.kw c.E iv R).1 (Spec.kw c.E iv R).2 = (iv, R) ∧ KS R.length (Spec.kw c.E iv R) := by
  obtain ⟨h1, h2⟩ := kw_loop_inv c h16 6 (t := (iv, R)) (n := R.length) ⟨hiv, rfl, hR⟩
  unfold Spec.kwInv
  have e : (Spec.kw c.E iv R).2.length = R.length := h1.n
  rw [e]
  exact ⟨h2, h1⟩

theorem chunks8_all (x : Bytes) (h : x.length % 8 = 0) : All8 (chunks 8 x) :=
  chunks_all_len 8 (by decide) x (Nat.dvd_of_mod_eq_zero h)

theorem chunks8_length (x : Bytes) (h : x.length % 8 = 0) : (chunks 8 x).length = x.length / 8 := by
  have := all8_flatten_length (chunks8_all x h)
  rw [chunks_flatten 8 (by decide)] at this
  omega

theorem chunks_of_all8 (l : List Bytes) (h : All8 l) : chunks 8 l.flatten = l := by
  induction l with
  | nil => rfl
  | cons a l ih =>
    have h1 := h a (by simp)
    have hne : (a :: l).flatten ≠ [] := by
      intro h0; have := congrArg List.length h0; simp [h1] at this
    rw [chunks_cons 8 (by decide) _ hne, List.flatten_cons, List.take_left' h1, List.drop_left' h1,
      ih (fun b hb => h b (by simp [hb]))]

end Verif.Mode
