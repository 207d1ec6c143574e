import Verif.Xmss.XmssLemmas
import Mathlib.Tactic.Ring
/-! # `treehash` builds the Merkle tree, `computeRoot` climbs it -/

namespace Verif.Xmss
open Verif

section
variable (P : Params) (prvSeed pubSeed : Bytes) (L T : Nat)

/-- Leaf `i` of the tree `T` of layer `L`. -/
def leafOf (i : Nat) : Bytes :=
  (genLeaf P prvSeed pubSeed ⟨L, T, 1, i, 0, 0, 0⟩ ⟨L, T, 0, i, 0, 0, 0⟩).1

/-- Node `k` at height `t` of the tree `T` of layer `L`. -/
def node : Nat → Nat → Bytes
  | 0, k => leafOf P prvSeed pubSeed L T k
  | t + 1, k =>
    (hashH P (node t (2 * k)) pubSeed (node t (2 * k) ++ node t (2 * k + 1))
      ⟨L, T, 2, 0, t, k, 0⟩).1

/-- The write of a new node to the authentication path of leaf `l`. -/
def wr (l : Nat) (auth : List Bytes) (e : Nat × Nat) : List Bytes :=
  if (l / 2 ^ e.1) ^^^ 1 = e.2 then auth.set e.1 (node P prvSeed pubSeed L T e.1 e.2) else auth

/-- The nodes below node `j` at height `t`, in the order `treehash` makes them. -/
def ev : Nat → Nat → List (Nat × Nat)
  | 0, j => [(0, j)]
  | t + 1, j => ev t (2 * j) ++ ev t (2 * j + 1) ++ [(t + 1, j)]

theorem Z_node {r : Nat} (hr : ∀ x, (P.hash x).length = r) (t k : Nat) :
    Z P r (node P prvSeed pubSeed L T t k) := by
  induction t generalizing k with
  | zero => exact Z_genLeaf hr _ _ _ _
  | succ t ih => exact Z_hashH hr (ih _) _ _ _

theorem merge_stop (l i : Nat) (x : Bytes) (t : Nat) (S : List (Bytes × Nat))
    (hS : ∀ e ∈ S, t + 1 ≤ e.2) (auth : List Bytes) (a : Addr) :
    merge P pubSeed l i ((x, t) :: S) auth a = ⟨(x, t) :: S, auth, a⟩ := by
  cases S with
  | nil => rw [merge]; simp
  | cons e S =>
    obtain ⟨y, hy⟩ := e
    have := hS (y, hy) (by simp)
    rw [merge, if_neg (by simp only at this; omega)]

/-- The state of the loop over the leaves below node `j` at height `t`. -/
theorem subtree (l t j : Nat) (S : List (Bytes × Nat)) (hS : ∀ e ∈ S, t ≤ e.2)
    (auth : List Bytes) (na la oa : Addr) (hn : n567 na = ⟨L, T, 2, 0, 0, 0, 0⟩)
    (hl : ∀ i, n567 { la with a4 := i } = ⟨L, T, 1, i, 0, 0, 0⟩)
    (ho : ∀ i, n567 { oa with a4 := i } = ⟨L, T, 0, i, 0, 0, 0⟩) :
    ∃ na' la' oa' : Addr, n567 na' = ⟨L, T, 2, 0, 0, 0, 0⟩ ∧
      (∀ i, n567 { la' with a4 := i } = ⟨L, T, 1, i, 0, 0, 0⟩) ∧
      (∀ i, n567 { oa' with a4 := i } = ⟨L, T, 0, i, 0, 0, 0⟩) ∧
      (List.range' (j * 2 ^ t) (2 ^ t)).foldl (thStep P prvSeed pubSeed l)
        (⟨S, auth, na⟩, la, oa) =
      (merge P pubSeed l ((j + 1) * 2 ^ t - 1) ((node P prvSeed pubSeed L T t j, t) :: S)
        ((ev t j).foldl (wr P prvSeed pubSeed L T l) auth) na', la', oa') := by
  induction t generalizing j S auth na la oa with
  | zero =>
    refine ⟨na, (genLeaf P prvSeed pubSeed { la with a4 := j } { oa with a4 := j }).2.1,
      (genLeaf P prvSeed pubSeed { la with a4 := j } { oa with a4 := j }).2.2, hn, ?_, ?_, ?_⟩
    · intro i
      have := (genLeaf_addr1 P prvSeed pubSeed { la with a4 := j } { oa with a4 := j }).trans (hl j)
      revert this
      generalize (genLeaf P prvSeed pubSeed { la with a4 := j } { oa with a4 := j }).2.1 = q
      cases q; simp only [n567, Addr.mk.injEq]; intro h; simp [h]
    · intro i
      have := (genLeaf_addr2 P prvSeed pubSeed { la with a4 := j } { oa with a4 := j }).trans (ho j)
      revert this
      generalize (genLeaf P prvSeed pubSeed { la with a4 := j } { oa with a4 := j }).2.2 = q
      cases q; simp only [n567, Addr.mk.injEq]; intro h; simp [h]
    · have e : (genLeaf P prvSeed pubSeed { la with a4 := j } { oa with a4 := j }).1 =
          leafOf P prvSeed pubSeed L T j :=
        genLeaf_congr P prvSeed pubSeed ((hl j).trans rfl) ((ho j).trans rfl)
      simp only [Nat.pow_zero, Nat.mul_one, List.range'_one, List.foldl_cons, List.foldl_nil, ev,
        thStep, Nat.add_sub_cancel]
      rw [e]
      simp only [wr, node, Nat.pow_zero, Nat.div_one]
  | succ t ih =>
    have hp : 2 ^ (t + 1) = 2 ^ t + 2 ^ t := by rw [Nat.pow_succ]; omega
    have hsplit : List.range' (j * 2 ^ (t + 1)) (2 ^ (t + 1)) =
        List.range' (2 * j * 2 ^ t) (2 ^ t) ++ List.range' ((2 * j + 1) * 2 ^ t) (2 ^ t) := by
      rw [hp, ← List.range'_append_1]
      congr 2
      · ring
      · ring
    rw [hsplit, List.foldl_append]
    obtain ⟨na1, la1, oa1, hn1, hl1, ho1, e1⟩ := ih (2 * j) S
      (fun e he => Nat.le_of_succ_le (hS e he)) auth na la oa hn hl ho
    rw [e1, merge_stop P pubSeed l _ _ t S hS]
    obtain ⟨na2, la2, oa2, hn2, hl2, ho2, e2⟩ := ih (2 * j + 1)
      ((node P prvSeed pubSeed L T t (2 * j), t) :: S)
      (by
        intro e he
        rcases List.mem_cons.mp he with rfl | he
        · exact Nat.le_refl _
        · exact Nat.le_of_succ_le (hS e he))
      ((ev t (2 * j)).foldl (wr P prvSeed pubSeed L T l) auth) na1 la1 oa1 hn1 hl1 ho1
    rw [e2]
    have hi : (2 * j + 1 + 1) * 2 ^ t - 1 = (j + 1) * 2 ^ (t + 1) - 1 := by
      rw [hp]; congr 1; ring
    have hk : ((j + 1) * 2 ^ (t + 1) - 1) / 2 ^ (t + 1) = j := by
      have hpos : 0 < 2 ^ (t + 1) := Nat.two_pow_pos _
      rw [show (j + 1) * 2 ^ (t + 1) - 1 = (2 ^ (t + 1) - 1) + 2 ^ (t + 1) * j by
        rw [Nat.add_mul, Nat.mul_comm j]; omega]
      rw [Nat.add_mul_div_left _ _ hpos, Nat.div_eq_of_lt (by omega)]
      omega
    rw [hi]
    have ha : n567 na2 = n567 ⟨L, T, 2, 0, t, j, 0⟩ := hn2.trans rfl
    refine ⟨⟨L, T, 2, 0, t, j, 2⟩, la2, oa2, rfl, hl2, ho2, ?_⟩
    · rw [merge, if_pos rfl]
      simp only [hk]
      rw [hashH_set56 t j ha]
      have ez : (hashH P (node P prvSeed pubSeed L T t (2 * j)) pubSeed
          (node P prvSeed pubSeed L T t (2 * j) ++ node P prvSeed pubSeed L T t (2 * j + 1))
          ⟨L, T, 2, 0, t, j, 0⟩).1 = node P prvSeed pubSeed L T (t + 1) j := rfl
      rw [ez]
      simp only [ev, List.foldl_append, List.foldl_cons, List.foldl_nil, wr]
      rfl

theorem wr_len (l : Nat) (auth : List Bytes) (es : List (Nat × Nat)) :
    (es.foldl (wr P prvSeed pubSeed L T l) auth).length = auth.length := by
  induction es generalizing auth with
  | nil => rfl
  | cons e es ih =>
    rw [List.foldl_cons, ih]
    unfold wr; split <;> simp

theorem wr_get (l t : Nat) (auth : List Bytes) (es : List (Nat × Nat)) (ht : t < auth.length)
    (h : auth[t]? = some (node P prvSeed pubSeed L T t ((l / 2 ^ t) ^^^ 1)) ∨
      (t, (l / 2 ^ t) ^^^ 1) ∈ es) :
    (es.foldl (wr P prvSeed pubSeed L T l) auth)[t]? =
      some (node P prvSeed pubSeed L T t ((l / 2 ^ t) ^^^ 1)) := by
  induction es generalizing auth with
  | nil =>
    rcases h with h | h
    · exact h
    · simp at h
  | cons e es ih =>
    rw [List.foldl_cons]
    have hlen : t < (wr P prvSeed pubSeed L T l auth e).length := by
      unfold wr; split
      · simpa using ht
      · exact ht
    apply ih _ hlen
    by_cases hc : (l / 2 ^ e.1) ^^^ 1 = e.2
    · by_cases h1 : e.1 = t
      · left
        unfold wr
        rw [if_pos hc, h1, List.getElem?_set_self ht, ← hc, h1]
      · have hw : (wr P prvSeed pubSeed L T l auth e)[t]? = auth[t]? := by
          unfold wr
          rw [if_pos hc, List.getElem?_set_ne h1]
        rw [hw]
        rcases h with h | h
        · exact Or.inl h
        · right
          rcases List.mem_cons.mp h with he | he
          · exact absurd (by rw [← he]) h1
          · exact he
    · have hw : wr P prvSeed pubSeed L T l auth e = auth := by unfold wr; rw [if_neg hc]
      rw [hw]
      rcases h with h | h
      · exact Or.inl h
      · right
        rcases List.mem_cons.mp h with he | he
        · rw [← he] at hc; exact absurd rfl hc
        · exact he

theorem mem_ev (H t k j : Nat) (ht : t ≤ H) (hk : k / 2 ^ (H - t) = j) : (t, k) ∈ ev H j := by
  induction H generalizing j with
  | zero =>
    have : t = 0 := by omega
    subst this
    simp at hk
    simp [ev, hk]
  | succ H ih =>
    by_cases h : t = H + 1
    · subst h
      simp at hk
      simp [ev, hk]
    · have ht' : t ≤ H := by omega
      have e : H + 1 - t = (H - t) + 1 := by omega
      rw [e, Nat.pow_succ, ← Nat.div_div_eq_div_mul] at hk
      simp only [ev, List.mem_append]
      left
      rcases Nat.mod_two_eq_zero_or_one (k / 2 ^ (H - t)) with hm | hm
      · left; exact ih _ ht' (by omega)
      · right; exact ih _ ht' (by omega)

/-- `treehash` returns the root of the tree and, for a leaf index in range, the siblings on
the path from that leaf. -/
theorem treehash_eq (l : Nat) (sub : Addr) (hL : sub.layer = L) (hT : sub.tree = T)
    (hl : l < 2 ^ P.th) :
    treehash P prvSeed pubSeed l sub = (node P prvSeed pubSeed L T P.th 0,
      (List.range P.th).map fun t => node P prvSeed pubSeed L T t ((l / 2 ^ t) ^^^ 1)) := by
  subst hL; subst hT
  obtain ⟨na, la, oa, -, -, -, e⟩ := subtree P prvSeed pubSeed sub.layer sub.tree l P.th 0 []
    (by simp) (List.replicate P.th (zeros P.n)) (sub.sub 2) (sub.sub 1) (sub.sub 0) rfl
    (fun _ => rfl) (fun _ => rfl)
  rw [Nat.zero_mul, ← List.range_eq_range'] at e
  unfold treehash
  rw [e, merge_stop P pubSeed l _ _ _ [] (by simp)]
  simp only [List.getLastD_cons, List.getLastD_nil]
  refine Prod.ext rfl ?_
  simp only
  apply List.ext_getElem?
  intro t
  by_cases ht : t < P.th
  · rw [wr_get P prvSeed pubSeed sub.layer sub.tree l t _ _ (by simpa using ht)]
    · simp [ht]
    · right
      apply mem_ev _ _ _ _ (Nat.le_of_lt ht)
      apply Nat.div_eq_of_lt
      apply Nat.xor_lt_two_pow
      · apply Nat.div_lt_of_lt_mul
        rw [← Nat.pow_add, show t + (P.th - t) = P.th by omega]
        exact hl
      · exact Nat.one_lt_two_pow (by omega)
  · rw [List.getElem?_eq_none (by rw [wr_len]; simpa using ht), List.getElem?_eq_none (by simpa using ht)]

theorem xor_one_odd (x : Nat) (h : x % 2 = 1) : x ^^^ 1 = 2 * (x / 2) := by
  have h1 : (x ^^^ 1) / 2 = x / 2 := by rw [Nat.xor_div_two]; simp
  have h2 : (x ^^^ 1) % 2 = 0 := by
    have := Nat.xor_mod_two_pow (a := x) (b := 1) (n := 1)
    rw [Nat.pow_one, h] at this
    exact this
  omega

theorem xor_one_even (x : Nat) (h : x % 2 = 0) : x ^^^ 1 = 2 * (x / 2) + 1 := by
  have h1 : (x ^^^ 1) / 2 = x / 2 := by rw [Nat.xor_div_two]; simp
  have h2 : (x ^^^ 1) % 2 = 1 := by
    have := Nat.xor_mod_two_pow (a := x) (b := 1) (n := 1)
    rw [Nat.pow_one, h] at this
    exact this
  omega

theorem ordered_node (f : Nat → Bytes) (x : Nat) :
    ordered x (f x) (f (x ^^^ 1)) = (f (2 * (x / 2)), f (2 * (x / 2) + 1)) := by
  unfold ordered
  rcases Nat.mod_two_eq_zero_or_one x with h | h
  · rw [if_neg (by omega), xor_one_even x h]
    congr 2
    omega
  · rw [if_pos h, xor_one_odd x h]
    congr 2
    omega

theorem rootGo_eq {r : Nat} (hr : ∀ x, (P.hash x).length = r) (root : Bytes) (hroot : Z P r root)
    (l m i : Nat) (a : Addr) (ha : n567 a = ⟨L, T, 2, 0, 0, 0, 0⟩) :
    (rootGo P pubSeed root
      ((List.range' (i + 1) m).map fun t => node P prvSeed pubSeed L T t ((l / 2 ^ t) ^^^ 1))
      i (l / 2 ^ i)
      (ordered (l / 2 ^ i) (node P prvSeed pubSeed L T i (l / 2 ^ i))
        (node P prvSeed pubSeed L T i ((l / 2 ^ i) ^^^ 1))) a).1 =
      node P prvSeed pubSeed L T (i + 1 + m) (l / 2 ^ (i + 1 + m)) ∧
    n567 (rootGo P pubSeed root
      ((List.range' (i + 1) m).map fun t => node P prvSeed pubSeed L T t ((l / 2 ^ t) ^^^ 1))
      i (l / 2 ^ i)
      (ordered (l / 2 ^ i) (node P prvSeed pubSeed L T i (l / 2 ^ i))
        (node P prvSeed pubSeed L T i ((l / 2 ^ i) ^^^ 1))) a).2 = ⟨L, T, 2, 0, 0, 0, 0⟩ := by
  have key : ∀ (i : Nat) (old : Bytes) (a : Addr), Z P r old →
      n567 a = ⟨L, T, 2, 0, 0, 0, 0⟩ →
      (hashH P old pubSeed (node P prvSeed pubSeed L T i (2 * (l / 2 ^ i / 2)) ++
        node P prvSeed pubSeed L T i (2 * (l / 2 ^ i / 2) + 1))
        { a with a5 := i, a6 := l / 2 ^ i / 2 }).1 =
      node P prvSeed pubSeed L T (i + 1) (l / 2 ^ (i + 1)) := by
    intro i old a ho ha
    have ha' : n567 a = n567 ⟨L, T, 2, 0, i, l / 2 ^ i / 2, 0⟩ := ha.trans rfl
    rw [hashH_set56 i _ ha', hashH_old hr ho (Z_node P prvSeed pubSeed L T hr i _)]
    have e : l / 2 ^ (i + 1) = l / 2 ^ i / 2 := by rw [Nat.pow_succ, Nat.div_div_eq_div_mul]
    rw [e]; rfl
  induction m generalizing i a with
  | zero =>
    simp only [List.range'_zero, List.map_nil, rootGo, Nat.add_zero]
    rw [ordered_node (node P prvSeed pubSeed L T i)]
    simp only
    refine ⟨key i root a hroot ha, ?_⟩
    rw [hashH_addr56]; exact ha
  | succ m ih =>
    rw [List.range'_succ, List.map_cons]
    simp only [rootGo]
    rw [ordered_node (node P prvSeed pubSeed L T i)]
    simp only
    have e : l / 2 ^ (i + 1) = l / 2 ^ i / 2 := by rw [Nat.pow_succ, Nat.div_div_eq_div_mul]
    have hold : Z P r (if l / 2 ^ i / 2 % 2 = 1 then
        node P prvSeed pubSeed L T i (2 * (l / 2 ^ i / 2) + 1)
        else node P prvSeed pubSeed L T i (2 * (l / 2 ^ i / 2))) := by
      split <;> exact Z_node P prvSeed pubSeed L T hr i _
    have hz := key i _ a hold ha
    rw [hz]
    have hadr := hashH_addr56 P (if l / 2 ^ i / 2 % 2 = 1 then
        node P prvSeed pubSeed L T i (2 * (l / 2 ^ i / 2) + 1)
        else node P prvSeed pubSeed L T i (2 * (l / 2 ^ i / 2))) pubSeed
        (node P prvSeed pubSeed L T i (2 * (l / 2 ^ i / 2)) ++
        node P prvSeed pubSeed L T i (2 * (l / 2 ^ i / 2) + 1)) a i (l / 2 ^ i / 2)
    have := ih (i + 1) _ (hadr.trans ha)
    rw [e] at this
    rw [e]
    rw [show i + 1 + (m + 1) = i + 1 + 1 + m by omega]
    exact this

/-- `computeRoot` climbs from a leaf and its path to the root. -/
theorem computeRoot_eq {r : Nat} (hr : ∀ x, (P.hash x).length = r) (root : Bytes)
    (hroot : Z P r root) (l : Nat) (hl : l < 2 ^ P.th) (hth : 1 ≤ P.th) (a : Addr)
    (ha : n567 a = ⟨L, T, 2, 0, 0, 0, 0⟩) :
    (computeRoot P root (leafOf P prvSeed pubSeed L T l)
      ((List.range P.th).map fun t => node P prvSeed pubSeed L T t ((l / 2 ^ t) ^^^ 1))
      pubSeed l a).1 = node P prvSeed pubSeed L T P.th 0 ∧
    n567 (computeRoot P root (leafOf P prvSeed pubSeed L T l)
      ((List.range P.th).map fun t => node P prvSeed pubSeed L T t ((l / 2 ^ t) ^^^ 1))
      pubSeed l a).2 = ⟨L, T, 2, 0, 0, 0, 0⟩ := by
  obtain ⟨m, hm⟩ : ∃ m, P.th = 0 + 1 + m := ⟨P.th - 1, by omega⟩
  have h := rootGo_eq P prvSeed pubSeed L T hr root hroot l m 0 a ha
  rw [← hm, Nat.div_eq_of_lt hl] at h
  unfold computeRoot
  have hrng : List.range P.th = 0 :: List.range' 1 m := by
    rw [hm, List.range_eq_range', show 0 + 1 + m = m + 1 by omega, List.range'_succ]
  rw [hrng]
  simp only [List.map_cons, List.tail_cons, List.headD_cons]
  simp only [Nat.pow_zero, Nat.div_one, Nat.zero_add] at h
  simp only [Nat.pow_zero, Nat.div_one]
  exact h

end

end Verif.Xmss
