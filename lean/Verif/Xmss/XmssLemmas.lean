import Verif.Xmss.Xmss
/-! # Lemmas on the XMSS model: hash addresses, chains, the L-tree and its leaves -/

namespace Verif.Xmss
open Verif

/-- The address up to the hash address and mask words. -/
def n67 (a : Addr) : Addr := { a with a6 := 0, a7 := 0 }
/-- The address up to the last three words. -/
def n567 (a : Addr) : Addr := { a with a5 := 0, a6 := 0, a7 := 0 }

theorem n567_of_n67 {a b : Addr} (h : n67 a = n67 b) : n567 a = n567 b := by
  cases a; cases b; simp only [n67, n567, Addr.mk.injEq] at *; simp [h]

theorem n67_set5 {a b : Addr} (i : Nat) (h : n567 a = n567 b) :
    n67 { a with a5 := i } = n67 { b with a5 := i } := by
  cases a; cases b; simp only [n67, n567, Addr.mk.injEq] at *; simp [h]

theorem hashF_set6 {P : Params} {old seed m : Bytes} {a b : Addr} (i : Nat) (h : n67 a = n67 b) :
    hashF P old seed m { a with a6 := i } = hashF P old seed m { b with a6 := i } := by
  cases a; cases b; simp only [n67, Addr.mk.injEq] at h
  obtain ⟨rfl, rfl, rfl, rfl, rfl, -⟩ := h
  rfl

theorem hashF_addr (P : Params) (old seed m : Bytes) (a : Addr) (i : Nat) :
    n67 (hashF P old seed m { a with a6 := i }).2 = n67 a := rfl

theorem hashH_set6 {P : Params} {old seed m : Bytes} {a b : Addr} (i : Nat) (h : n67 a = n67 b) :
    hashH P old seed m { a with a6 := i } = hashH P old seed m { b with a6 := i } := by
  cases a; cases b; simp only [n67, Addr.mk.injEq] at h
  obtain ⟨rfl, rfl, rfl, rfl, rfl, -⟩ := h
  rfl

theorem hashH_addr (P : Params) (old seed m : Bytes) (a : Addr) (i : Nat) :
    n67 (hashH P old seed m { a with a6 := i }).2 = n67 a := rfl

theorem hashH_set56 {P : Params} {old seed m : Bytes} {a b : Addr} (t i : Nat)
    (h : n567 a = n567 b) :
    hashH P old seed m { a with a5 := t, a6 := i } = hashH P old seed m { b with a5 := t, a6 := i } := by
  cases a; cases b; simp only [n567, Addr.mk.injEq] at h
  obtain ⟨rfl, rfl, rfl, rfl, -⟩ := h
  rfl

theorem hashH_addr56 (P : Params) (old seed m : Bytes) (a : Addr) (t i : Nat) :
    n567 (hashH P old seed m { a with a5 := t, a6 := i }).2 = n567 a := rfl

theorem chain_addr (P : Params) (seed : Bytes) (k i : Nat) (out : Bytes) (a : Addr) :
    n67 (chain P seed k i out a).2 = n67 a := by
  induction k generalizing i out a with
  | zero => rfl
  | succ k ih => simp only [chain]; rw [ih, hashF_addr]

theorem chain_congr (P : Params) (seed : Bytes) (k i : Nat) (out : Bytes) {a b : Addr}
    (h : n67 a = n67 b) : (chain P seed k i out a).1 = (chain P seed k i out b).1 := by
  cases k with
  | zero => rfl
  | succ k => simp only [chain]; rw [hashF_set6 i h]

theorem chain_add (P : Params) (seed : Bytes) (k l i : Nat) (out : Bytes) {a b : Addr}
    (h : n67 a = n67 b) :
    (chain P seed l (i + k) (chain P seed k i out a).1 b).1 = (chain P seed (k + l) i out a).1 := by
  induction k generalizing i out a with
  | zero => simp only [chain, Nat.add_zero, Nat.zero_add]; exact chain_congr _ _ _ _ _ h.symm
  | succ k ih =>
    rw [show k + 1 + l = (k + l) + 1 by omega]
    simp only [chain]
    rw [show i + (k + 1) = (i + 1) + k by omega]
    exact ih _ _ ((hashF_addr P out seed out a i).trans h)

theorem chains_addr (P : Params) (seed : Bytes) (f : Nat → Nat × Nat) (i : Nat)
    (l : List Bytes) (a : Addr) : n567 (chains P seed f i l a).2 = n567 a := by
  induction l generalizing i a with
  | nil => rfl
  | cons c r ih =>
    simp only [chains]
    rw [ih, n567_of_n67 (chain_addr P seed _ _ c { a with a5 := i })]; rfl

theorem chains_congr (P : Params) (seed : Bytes) (f : Nat → Nat × Nat) (i : Nat)
    (l : List Bytes) {a b : Addr} (h : n567 a = n567 b) :
    (chains P seed f i l a).1 = (chains P seed f i l b).1 := by
  induction l generalizing i a b with
  | nil => rfl
  | cons c r ih =>
    simp only [chains]
    rw [chain_congr P seed _ _ c (n67_set5 i h)]
    congr 1
    apply ih
    rw [n567_of_n67 (chain_addr P seed _ _ c { a with a5 := i }),
      n567_of_n67 (chain_addr P seed _ _ c { b with a5 := i })]
    exact h

/-- Running the chains in two parts is running them in one. -/
theorem chains_add (P : Params) (seed : Bytes) (f g h : Nat → Nat × Nat)
    (hg : ∀ i, (g i).1 = (f i).1 + (f i).2) (h1 : ∀ i, (h i).1 = (f i).1)
    (h2 : ∀ i, (h i).2 = (f i).2 + (g i).2) (i : Nat) (l : List Bytes) {a b c : Addr}
    (hab : n567 a = n567 b) (hac : n567 a = n567 c) :
    (chains P seed g i (chains P seed f i l a).1 b).1 = (chains P seed h i l c).1 := by
  induction l generalizing i a b c with
  | nil => rfl
  | cons x r ih =>
    simp only [chains]
    rw [hg, h1, h2]
    rw [chain_add P seed _ _ _ x (n67_set5 i hab)]
    rw [chain_congr P seed _ _ x (n67_set5 i hac)]
    congr 1
    apply ih
    · rw [n567_of_n67 (chain_addr P seed _ _ x { a with a5 := i }),
        n567_of_n67 (chain_addr P seed _ _ _ { b with a5 := i })]
      exact hab
    · rw [n567_of_n67 (chain_addr P seed _ _ x { a with a5 := i }),
        n567_of_n67 (chain_addr P seed _ _ _ { c with a5 := i })]
      exact hac

theorem basew_le (x : Bytes) (k : Nat) : ∀ l ∈ basew x k, l ≤ 15 := by
  intro l hl
  simp only [basew, List.mem_map] at hl
  obtain ⟨i, -, rfl⟩ := hl
  have := (x.getD (i / 2) 0).isLt
  split <;> omega

theorem lengths_le (P : Params) (m : Bytes) (i : Nat) : (lengths P m).getD i 0 ≤ 15 := by
  have h : ∀ l ∈ lengths P m, l ≤ 15 := by
    intro l hl
    simp only [lengths, List.mem_append] at hl
    rcases hl with h | h <;> exact basew_le _ _ _ h
  rw [List.getD_eq_getElem?_getD]
  cases e : (lengths P m)[i]? with
  | none => simp
  | some v => exact h v (List.mem_of_getElem? e)

/-- A one-time signature of `m` leads back to the one-time public key. -/
theorem wots_back (P : Params) (seed : Bytes) (prv : List Bytes) (m : Bytes) {a b c : Addr}
    (hab : n567 a = n567 b) (hac : n567 a = n567 c) :
    (wotsGetPublic P seed (wotsSign P seed prv m a).1 m b).1 = (wotsPublic P seed prv c).1 := by
  unfold wotsGetPublic wotsSign wotsPublic
  apply chains_add P seed _ _ _ _ _ _ 0 prv hab hac
  · intro i; simp
  · intro i; rfl
  · intro i; have := lengths_le P m i; simp only; omega

theorem lRow_addr (P : Params) (seed : Bytes) (row : List Bytes) (i : Nat) (l : List Bytes)
    (a : Addr) : n67 (lRow P seed row i l a).2 = n67 a := by
  induction i, l, a using lRow.induct P seed row with
  | case1 i x y r a h ih => rw [lRow]; exact ih
  | case2 i r a h => rw [lRow]; exact h

theorem lRow_congr (P : Params) (seed : Bytes) (row : List Bytes) (i : Nat) (l : List Bytes)
    {a b : Addr} (h : n67 a = n67 b) :
    (lRow P seed row i l a).1 = (lRow P seed row i l b).1 := by
  match l with
  | [] => rfl
  | [x] => rfl
  | x :: y :: r => simp only [lRow]; rw [hashH_set6 i h]

theorem lRows_addr (P : Params) (seed : Bytes) (f ht : Nat) (l : List Bytes) (a : Addr) :
    n567 (lRows P seed f ht l a).2 = n567 a := by
  induction f generalizing ht l a with
  | zero => rfl
  | succ f ih =>
    simp only [lRows]
    split
    · rw [ih]
      exact (n567_of_n67 (lRow_addr P seed l 0 l a) : _)
    · rfl

theorem lRows_congr (P : Params) (seed : Bytes) (f ht : Nat) (l : List Bytes) {a b : Addr}
    (h : n67 a = n67 b) : (lRows P seed f ht l a).1 = (lRows P seed f ht l b).1 := by
  induction f generalizing ht l a b with
  | zero => rfl
  | succ f ih =>
    simp only [lRows]
    split
    · rw [lRow_congr P seed l 0 l h]
      apply ih
      apply n67_set5
      rw [n567_of_n67 (lRow_addr P seed l 0 l a), n567_of_n67 (lRow_addr P seed l 0 l b)]
      exact n567_of_n67 h
    · rfl

theorem lTree_addr (P : Params) (seed : Bytes) (l : List Bytes) (a : Addr) :
    n567 (lTree P seed l a).2 = n567 a := by
  unfold lTree; rw [lRows_addr]; rfl

theorem lTree_congr (P : Params) (seed : Bytes) (l : List Bytes) {a b : Addr}
    (h : n567 a = n567 b) : (lTree P seed l a).1 = (lTree P seed l b).1 := by
  unfold lTree; exact lRows_congr P seed _ _ _ (n67_set5 0 h)

theorem getSeed_congr (P : Params) (old prvSeed : Bytes) {a b : Addr} (h : n567 a = n567 b) :
    getSeed P old prvSeed a = getSeed P old prvSeed b := by
  show (prf P old prvSeed (n567 a).bytes, n567 a) = (prf P old prvSeed (n567 b).bytes, n567 b)
  rw [h]

theorem genLeaf_congr (P : Params) (prvSeed pubSeed : Bytes) {a a' b b' : Addr}
    (ha : n567 a = n567 a') (hb : n567 b = n567 b') :
    (genLeaf P prvSeed pubSeed a b).1 = (genLeaf P prvSeed pubSeed a' b').1 := by
  simp only [genLeaf]
  rw [getSeed_congr P _ _ hb]
  exact lTree_congr _ _ _ ha

theorem genLeaf_addr1 (P : Params) (prvSeed pubSeed : Bytes) (a b : Addr) :
    n567 (genLeaf P prvSeed pubSeed a b).2.1 = n567 a := lTree_addr _ _ _ _

theorem genLeaf_addr2 (P : Params) (prvSeed pubSeed : Bytes) (a b : Addr) :
    n567 (genLeaf P prvSeed pubSeed a b).2.2 = n567 b := by
  simp only [genLeaf, wotsPublic]
  rw [chains_addr]; rfl

/-! ## What a short digest leaves -/

/-- An `n`-byte string that is zero from byte `r` on. -/
def Z (P : Params) (r : Nat) (b : Bytes) : Prop :=
  b.length = P.n ∧ b.drop r = zeros (P.n - r)

theorem core_len (P : Params) (r : Nat) (hr : ∀ x, (P.hash x).length = r) (x : Bytes) :
    (core P x).length = r ∨ ((core P x).length = P.n ∧ P.n ≤ r) := by
  have := hr x
  unfold core
  simp only []
  split
  · right; simp; omega
  · split
    · right; simp; omega
    · split
      · right; simp; omega
      · left; exact this

theorem Z_zeros (P : Params) (r : Nat) : Z P r (zeros P.n) := by
  constructor <;> simp [zeros]

theorem cp_len (old res : Bytes) : (cp old res).length = old.length := by
  simp [cp]; omega

theorem cp_Z {P : Params} {r : Nat} (hr : ∀ x, (P.hash x).length = r) {old : Bytes}
    (h : Z P r old) (x : Bytes) : cp old (core P x) = cp (zeros P.n) (core P x) := by
  unfold cp
  rw [h.1, show (zeros P.n).length = P.n by simp [zeros]]
  rcases core_len P r hr x with e | ⟨e, _⟩
  · rw [e, h.2]; simp [zeros]
  · rw [e, List.drop_of_length_le (by rw [h.1]; exact Nat.le_refl _),
      List.drop_of_length_le (by simp [zeros])]

theorem Z_cp {P : Params} {r : Nat} (hr : ∀ x, (P.hash x).length = r) {old : Bytes}
    (h : Z P r old) (x : Bytes) : Z P r (cp old (core P x)) := by
  refine ⟨by rw [cp_len, h.1], ?_⟩
  by_cases hn : P.n ≤ r
  · rw [List.drop_of_length_le (by rw [cp_len, h.1]; exact hn)]
    rw [show P.n - r = 0 by omega]; rfl
  · rcases core_len P r hr x with e | ⟨e, _⟩
    · unfold cp
      rw [List.take_of_length_le (by rw [h.1, e]; omega), List.drop_left' e, e, h.2]
    · omega

theorem Z_hashF {P : Params} {r : Nat} (hr : ∀ x, (P.hash x).length = r) {old : Bytes}
    (h : Z P r old) (seed m : Bytes) (a : Addr) : Z P r (hashF P old seed m a).1 := Z_cp hr h _

theorem Z_hashH {P : Params} {r : Nat} (hr : ∀ x, (P.hash x).length = r) {old : Bytes}
    (h : Z P r old) (seed m : Bytes) (a : Addr) : Z P r (hashH P old seed m a).1 := Z_cp hr h _

theorem hashH_old {P : Params} {r : Nat} (hr : ∀ x, (P.hash x).length = r) {old old' : Bytes}
    (h : Z P r old) (h' : Z P r old') (seed m : Bytes) (a : Addr) :
    hashH P old seed m a = hashH P old' seed m a := by
  unfold hashH
  simp only []
  rw [cp_Z hr h, cp_Z hr h']

theorem prf_old {P : Params} {r : Nat} (hr : ∀ x, (P.hash x).length = r) {old : Bytes}
    (h : Z P r old) (key m : Bytes) : prf P old key m = prf P (zeros P.n) key m := cp_Z hr h _

theorem Z_prf {P : Params} {r : Nat} (hr : ∀ x, (P.hash x).length = r) {old : Bytes}
    (h : Z P r old) (key m : Bytes) : Z P r (prf P old key m) := Z_cp hr h _

theorem Z_chain {P : Params} {r : Nat} (hr : ∀ x, (P.hash x).length = r) (seed : Bytes)
    (k i : Nat) {out : Bytes} (h : Z P r out) (a : Addr) : Z P r (chain P seed k i out a).1 := by
  induction k generalizing i out a with
  | zero => exact h
  | succ k ih => simp only [chain]; exact ih _ (Z_hashF hr h _ _ _) _

theorem Z_chains {P : Params} {r : Nat} (hr : ∀ x, (P.hash x).length = r) (seed : Bytes)
    (f : Nat → Nat × Nat) (i : Nat) {l : List Bytes} (h : ∀ x ∈ l, Z P r x) (a : Addr) :
    ∀ x ∈ (chains P seed f i l a).1, Z P r x := by
  induction l generalizing i a with
  | nil => simp [chains]
  | cons c l ih =>
    intro x hx
    simp only [chains, List.mem_cons] at hx
    rcases hx with rfl | hx
    · exact Z_chain hr seed _ _ (h c (by simp)) _
    · exact ih _ (fun y hy => h y (by simp [hy])) _ x hx

theorem chains_len (P : Params) (seed : Bytes)
    (f : Nat → Nat × Nat) (i : Nat) (l : List Bytes) (a : Addr) :
    (chains P seed f i l a).1.length = l.length := by
  induction l generalizing i a with
  | nil => rfl
  | cons c l ih => simp [chains, ih]

theorem Z_expand {P : Params} {r : Nat} (hr : ∀ x, (P.hash x).length = r) (seed : Bytes) :
    ∀ x ∈ expandSeed P seed, Z P r x := by
  intro x hx
  simp only [expandSeed, List.mem_map] at hx
  obtain ⟨i, -, rfl⟩ := hx
  exact Z_cp hr (Z_zeros P r) _

theorem expand_len (P : Params) (seed : Bytes) : (expandSeed P seed).length = P.wlen := by
  simp [expandSeed]

/-- A row keeps the shape of its nodes; `i` is at most the number of nodes passed. -/
theorem Z_lRow {P : Params} {r : Nat} (hr : ∀ x, (P.hash x).length = r) (seed : Bytes)
    (row : List Bytes) (hrow : ∀ x ∈ row, Z P r x) (i : Nat) (l : List Bytes) (a : Addr)
    (hi : i + l.length ≤ row.length) (h : ∀ x ∈ l, Z P r x) :
    ∀ x ∈ (lRow P seed row i l a).1, Z P r x := by
  induction i, l, a using lRow.induct P seed row with
  | case1 i x y t a h' ih =>
    intro z hz
    rw [lRow] at hz
    simp only [List.mem_cons] at hz
    simp only [List.length_cons] at hi
    rcases hz with rfl | hz
    · apply Z_hashH hr
      apply hrow
      rw [List.getD_eq_getElem?_getD, List.getElem?_eq_getElem (by omega)]
      simp
    · exact ih (by omega) (fun w hw => h w (by simp [hw])) z hz
  | case2 i t a h' =>
    have : lRow P seed row i t a = (t, a) := by rw [lRow]; exact h'
    rw [this]; exact h

theorem lRow_len (P : Params) (seed : Bytes) (row : List Bytes) (i : Nat) (l : List Bytes)
    (a : Addr) : (lRow P seed row i l a).1.length = (l.length + 1) / 2 := by
  induction i, l, a using lRow.induct P seed row with
  | case1 i x y t a h' ih =>
    rw [lRow]
    simp only [List.length_cons]
    rw [ih]; omega
  | case2 i t a h' =>
    have : lRow P seed row i t a = (t, a) := by rw [lRow]; exact h'
    rw [this]
    match t, h' with
    | [], _ => rfl
    | [x], _ => simp
    | x :: y :: t, h' => exact absurd rfl (h' x y t)

theorem Z_lRows {P : Params} {r : Nat} (hr : ∀ x, (P.hash x).length = r) (seed : Bytes)
    (f ht : Nat) (l : List Bytes) (a : Addr) (hl : l ≠ []) (h : ∀ x ∈ l, Z P r x) :
    Z P r (lRows P seed f ht l a).1 := by
  have base : ∀ l : List Bytes, l ≠ [] → (∀ x ∈ l, Z P r x) → Z P r (l.headD []) := by
    intro l hl h
    cases l with
    | nil => exact absurd rfl hl
    | cons x t => exact h x (by simp)
  induction f generalizing ht l a with
  | zero => exact base l hl h
  | succ f ih =>
    simp only [lRows]
    split
    · rename_i h1
      apply ih
      · intro e
        have := lRow_len P seed l 0 l a
        rw [e] at this
        simp at this; omega
      · exact Z_lRow hr seed l h 0 l a (by omega) h
    · exact base l hl h

theorem Z_lTree {P : Params} {r : Nat} (hr : ∀ x, (P.hash x).length = r) (seed : Bytes)
    (l : List Bytes) (a : Addr) (hl : l ≠ []) (h : ∀ x ∈ l, Z P r x) :
    Z P r (lTree P seed l a).1 := Z_lRows hr seed _ _ _ _ hl h

theorem wlen_pos (P : Params) : 0 < P.wlen := by
  unfold Params.wlen Params.len2; omega

theorem ne_nil_of_len {α : Type} {l : List α} (h : 0 < l.length) : l ≠ [] := by
  intro e; rw [e] at h; simp at h

theorem Z_genLeaf {P : Params} {r : Nat} (hr : ∀ x, (P.hash x).length = r)
    (prvSeed pubSeed : Bytes) (a b : Addr) : Z P r (genLeaf P prvSeed pubSeed a b).1 := by
  simp only [genLeaf]
  apply Z_lTree hr
  · apply ne_nil_of_len
    unfold wotsPublic
    rw [chains_len, expand_len]; exact wlen_pos P
  · exact Z_chains hr _ _ _ (Z_expand hr _) _

end Verif.Xmss
