import Verif.Xmss.XmssProps
/-!
# C147: one-time signatures cannot be extended

The chain lengths of two different digests are never comparable: a signature on one digest
never holds, in every chain, an earlier value than a signature on the other.
-/

namespace Verif.Xmss
open Verif

theorem basew_len (x : Bytes) (k : Nat) : (basew x k).length = k := by simp [basew]

theorem basew_get (x : Bytes) (k i : Nat) (h : i < k) : (basew x k).getD i 0 =
    if i % 2 = 0 then (x.getD (i / 2) 0).toNat / 16 else (x.getD (i / 2) 0).toNat % 16 := by
  rw [List.getD_eq_getElem?_getD]
  simp [basew, h]

/-- The digits of a string determine it. -/
theorem basew_inj (n : Nat) (x y : Bytes) (hx : x.length = n) (hy : y.length = n)
    (h : basew x (2 * n) = basew y (2 * n)) : x = y := by
  apply List.ext_getElem
  · omega
  · intro i h1 h2
    have e1 := congrArg (fun l => l.getD (2 * i) 0) h
    have e2 := congrArg (fun l => l.getD (2 * i + 1) 0) h
    rw [basew_get _ _ _ (by omega), basew_get _ _ _ (by omega), if_pos (by omega), if_pos (by omega),
      show 2 * i / 2 = i by omega] at e1
    rw [basew_get _ _ _ (by omega), basew_get _ _ _ (by omega), if_neg (by omega), if_neg (by omega),
      show (2 * i + 1) / 2 = i by omega] at e2
    have g1 : x.getD i 0 = x[i] := by simp [h1]
    have g2 : y.getD i 0 = y[i] := by simp [h2]
    rw [g1, g2] at e1 e2
    apply BitVec.eq_of_toNat_eq
    omega

theorem sum_le (a b : List Nat) (hl : a.length = b.length)
    (h : ∀ i, a.getD i 0 ≤ b.getD i 0) (hb : ∀ x ∈ b, x ≤ 15) :
    (b.map fun l => 15 - l).sum ≤ (a.map fun l => 15 - l).sum ∧
    (a ≠ b → (b.map fun l => 15 - l).sum < (a.map fun l => 15 - l).sum) := by
  induction a generalizing b with
  | nil =>
    cases b with
    | nil => simp
    | cons => simp at hl
  | cons x a ih =>
    cases b with
    | nil => simp at hl
    | cons y b =>
      have h0 := h 0
      simp only [List.getD_cons_zero] at h0
      have hy := hb y (by simp)
      obtain ⟨i1, i2⟩ := ih b (by simpa using hl) (fun i => by have := h (i + 1); simpa using this)
        (fun z hz => hb z (by simp [hz]))
      simp only [List.map_cons, List.sum_cons]
      refine ⟨by omega, ?_⟩
      intro hne
      by_cases hxy : x = y
      · have hne' : a ≠ b := fun e => hne (by rw [hxy, e])
        have := i2 hne'
        omega
      · omega

theorem csum_bound (l : List Nat) : (l.map fun x => 15 - x).sum ≤ 15 * l.length := by
  induction l with
  | nil => simp
  | cons x l ih => simp only [List.map_cons, List.sum_cons, List.length_cons]; omega

/-- The three digits of the checksum. -/
theorem csum_digits (c : Nat) (hc : c < 4096) :
    basew (toBytes (c * 16 % 2 ^ 16) 2) 3 = [c / 256, c / 16 % 16, c % 16] := by
  have e : c * 16 % 2 ^ 16 = c * 16 := Nat.mod_eq_of_lt (by omega)
  rw [e]
  have t : toBytes (c * 16) 2 = [BitVec.ofNat 8 (c * 16 / 256), BitVec.ofNat 8 (c * 16)] := by
    simp [toBytes, List.range_succ]
  rw [t]
  simp only [basew, List.range_succ, List.range_zero, List.nil_append,
    List.map_cons, List.map_nil, List.cons_append]
  simp
  omega

/-- **C147**.  For every parameter set of the three packages and any two different `n`-byte
digests, some chain of the second is shorter than that of the first: to turn a one-time
signature on `m` into one on `m'` at least one chain would have to be run backwards. -/
theorem C147_incomparable (hs : HashId → Bytes → Bytes) (p : Pkg) (oid : Nat) (w : Row)
    (hrow : p.row oid = some w) (m m' : Bytes) (hm : m.length = w.n) (hm' : m'.length = w.n)
    (hne : m ≠ m') :
    ∃ i < (w.params hs).wlen,
      (lengths (w.params hs) m').getD i 0 < (lengths (w.params hs) m).getD i 0 := by
  have hl := row_lt p oid w hrow
  have k1 : ∀ oid < 57, ∀ w ∈ xmssRow oid, w.n ≤ 64 ∧ Nat.log2 (2 * w.n * 15) / 4 + 1 = 3 := by
    decide +kernel
  have k2 : ∀ oid < 57, ∀ w ∈ xmssmtRow oid, w.n ≤ 64 ∧ Nat.log2 (2 * w.n * 15) / 4 + 1 = 3 := by
    decide +kernel
  have k3 : ∀ oid < 57, ∀ w ∈ sm3xmssRow oid, w.n ≤ 64 ∧ Nat.log2 (2 * w.n * 15) / 4 + 1 = 3 := by
    decide +kernel
  have hk : w.n ≤ 64 ∧ Nat.log2 (2 * w.n * 15) / 4 + 1 = 3 := by
    cases p with
    | xmss => exact k1 oid hl w hrow
    | xmssmt => exact k2 oid hl w hrow
    | sm3xmss => exact k3 oid hl w hrow
  obtain ⟨hn, h3⟩ := hk
  have hl2 : (w.params hs).len2 = 3 := h3
  have hl1 : (w.params hs).len1 = 2 * w.n := rfl
  by_contra hc
  have hall : ∀ i, i < 2 * w.n + 3 →
      (lengths (w.params hs) m).getD i 0 ≤ (lengths (w.params hs) m').getD i 0 := by
    intro i hi
    by_contra h
    exact hc ⟨i, by unfold Params.wlen; rw [hl1, hl2]; exact hi, by omega⟩
  have hform : ∀ x : Bytes, lengths (w.params hs) x = basew x (2 * w.n) ++
      [((basew x (2 * w.n)).map fun l => 15 - l).sum / 256,
        ((basew x (2 * w.n)).map fun l => 15 - l).sum / 16 % 16,
        ((basew x (2 * w.n)).map fun l => 15 - l).sum % 16] := by
    intro x
    have hb := csum_bound (basew x (2 * w.n))
    rw [basew_len] at hb
    unfold lengths
    simp only []
    rw [hl1, hl2]
    have hmod : ((basew x (2 * w.n)).map fun l => 15 - l).sum % 2 ^ 16 =
      ((basew x (2 * w.n)).map fun l => 15 - l).sum := Nat.mod_eq_of_lt (by omega)
    rw [hmod, csum_digits _ (by omega)]
  rw [hform m, hform m'] at hall
  have hd : ∀ i, (basew m (2 * w.n)).getD i 0 ≤ (basew m' (2 * w.n)).getD i 0 := by
    intro i
    by_cases hi : i < 2 * w.n
    · have := hall i (by omega)
      rw [List.getD_eq_getElem?_getD, List.getD_eq_getElem?_getD,
        List.getElem?_append_left (by rw [basew_len]; exact hi),
        List.getElem?_append_left (by rw [basew_len]; exact hi)] at this
      rw [List.getD_eq_getElem?_getD, List.getD_eq_getElem?_getD]
      exact this
    · rw [List.getD_eq_getElem?_getD, List.getElem?_eq_none (by rw [basew_len]; omega)]
      exact Nat.zero_le _
  have hbne : basew m (2 * w.n) ≠ basew m' (2 * w.n) := fun e =>
    hne (basew_inj w.n m m' hm hm' e)
  have hlt := (sum_le _ _ (by rw [basew_len, basew_len]) hd (basew_le m' _)).2 hbne
  have htail : ∀ k < 3, ([((basew m (2 * w.n)).map fun l => 15 - l).sum / 256,
        ((basew m (2 * w.n)).map fun l => 15 - l).sum / 16 % 16,
        ((basew m (2 * w.n)).map fun l => 15 - l).sum % 16] : List Nat).getD k 0 ≤
      ([((basew m' (2 * w.n)).map fun l => 15 - l).sum / 256,
        ((basew m' (2 * w.n)).map fun l => 15 - l).sum / 16 % 16,
        ((basew m' (2 * w.n)).map fun l => 15 - l).sum % 16] : List Nat).getD k 0 := by
    intro k hk
    have := hall (2 * w.n + k) (by omega)
    rw [List.getD_eq_getElem?_getD, List.getD_eq_getElem?_getD,
      List.getElem?_append_right (by rw [basew_len]; omega),
      List.getElem?_append_right (by rw [basew_len]; omega), basew_len, basew_len,
      show 2 * w.n + k - 2 * w.n = k by omega] at this
    rw [List.getD_eq_getElem?_getD, List.getD_eq_getElem?_getD]
    exact this
  have t0 := htail 0 (by omega)
  have t1 := htail 1 (by omega)
  have t2 := htail 2 (by omega)
  simp only [List.getD_cons_zero, List.getD_cons_succ] at t0 t1 t2
  generalize ((basew m (2 * w.n)).map fun l => 15 - l).sum = A at *
  generalize ((basew m' (2 * w.n)).map fun l => 15 - l).sum = B at *
  omega

/-- Two digests that meet the hypotheses of `C147_incomparable`; here the second is larger in
every digit, and it is a checksum chain that is shorter. -/
example : Pkg.xmss.row 1 = some ⟨.sha256, 32, 32, 10, 1⟩ ∧
    (List.replicate 32 (1 : Byte)).length = 32 ∧ (List.replicate 32 (2 : Byte)).length = 32 ∧
    (List.replicate 32 (1 : Byte)) ≠ List.replicate 32 2 := by
  refine ⟨by decide +kernel, by simp, by simp, by decide⟩

end Verif.Xmss
