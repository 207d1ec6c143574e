import Verif.Pub.LmsOtsProps
import Mathlib.Data.Nat.Bitwise
/-
Lemmas about the hash tree of pubkey/lms/lms.go: the loop of `GeneratePKTree` computes the Merkle tree.
-/
namespace Verif.Pub.Lms
open Verif.Cipher Verif.Kdf

/-- The Merkle tree of RFC 8554, section 5.3: the node `r` at distance `d` from the leaves. -/
def Spec.node (h : Nat) (o : OtsParam) (id seed : Bytes) : Nat → Nat → Bytes
  | 0, r => o.H.f (id ++ hx 4 r ++ dLeaf ++ (newOtsKey o (r - 2 ^ h) id seed).pub.k)
  | d + 1, r => o.H.f (id ++ hx 4 r ++ dIntr ++ Spec.node h o id seed d (2 * r) ++ Spec.node h o id seed d (2 * r + 1))

theorem node_length (h : Nat) (o : OtsParam) (id seed : Bytes) (d r : Nat) : (Spec.node h o id seed d r).length = o.H.size := by
  cases d <;> exact o.H.len _

/-- The nodes whose subtrees lie within the first `c` leaves are computed. -/
def Done (h : Nat) (o : OtsParam) (id seed : Bytes) (t : Nodes) (c : Nat → Nat) : Prop :=
  ∀ d, d ≤ h → ∀ r, 2 ^ (h - d) ≤ r → (r + 1) * 2 ^ d ≤ 2 ^ h + c d → t r = Spec.node h o id seed d r

theorem two_mul_pow {h d : Nat} (hd : d < h) : 2 ^ (h - d) = 2 * 2 ^ (h - (d + 1)) := by
  rw [show h - d = h - (d + 1) + 1 by omega, pow_succ]; omega

theorem pow_mul_pow {h d : Nat} (hd : d ≤ h) : 2 ^ (h - d) * 2 ^ d = 2 ^ h := by
  rw [← pow_add]; congr 1; omega

/-- The distance from the leaves is determined by the number of the node. -/
theorem depth_unique {h d d' r : Nat} (hd : d ≤ h) (hd' : d' ≤ h) (h1 : 2 ^ (h - d) ≤ r) (h2 : (r + 1) * 2 ^ d ≤ 2 * 2 ^ h)
    (h1' : 2 ^ (h - d') ≤ r) (h2' : (r + 1) * 2 ^ d' ≤ 2 * 2 ^ h) : d = d' := by
  have key : ∀ {a b : Nat}, a ≤ h → b ≤ h → 2 ^ (h - a) ≤ r → (r + 1) * 2 ^ b ≤ 2 * 2 ^ h → b ≤ a := by
    intro a b ha hb hra hrb
    have : r + 1 ≤ 2 * 2 ^ (h - b) := by
      have e := pow_mul_pow hb
      have hp := Nat.two_pow_pos b
      apply Nat.le_of_mul_le_mul_right _ hp
      rw [mul_assoc, e]
      exact hrb
    have hlt : 2 ^ (h - a) < 2 ^ (h - b + 1) := by rw [pow_succ]; omega
    have := (Nat.pow_lt_pow_iff_right (by decide)).mp hlt
    omega
  exact Nat.le_antisymm (key hd' hd h1' h2) (key hd hd' h1 h2')

theorem treeUp_done (h : Nat) (o : OtsParam) (id seed : Bytes) (c : Nat) (hc0 : 0 < c) (hc : c ≤ 2 ^ h) : ∀ (n d : Nat) (t : Nodes) (r j : Nat), d + n = h →
    (r + 1) * 2 ^ d = 2 ^ h + c → 2 ^ (h - d) ≤ r → j = r - 2 ^ (h - d) →
    Done h o id seed t (fun d' => if d' ≤ d then c else c - 1) → Done h o id seed (treeUp o.H id t r j) fun _ => c := by
  intro n
  induction n with
  | zero =>
    intro d t r j hn hr hge hj hD
    obtain rfl : d = h := by omega
    rw [Nat.sub_self, pow_zero] at hge hj
    have hr1 : r + 1 ≤ 2 := by
      apply Nat.le_of_mul_le_mul_right _ (Nat.two_pow_pos d)
      omega
    rw [treeUp, if_neg (by omega)]
    intro d' hd' r' h1 h2
    beta_reduce at h2
    exact hD d' hd' r' h1 (by beta_reduce; rw [if_pos hd']; exact h2)
  | succ n ih =>
    intro d t r j hn hr hge hj hD
    have hd : d < h := by omega
    have htwo := two_mul_pow hd
    rw [treeUp]
    split
    · rename_i hodd
      obtain ⟨s, hs⟩ : ∃ s, r = 2 * s + 1 := ⟨r / 2, by omega⟩
      have hs' : (r - 1) / 2 = s := by omega
      simp only [hs']
      have hsr : (s + 1) * 2 ^ (d + 1) = 2 ^ h + c := by rw [← hr, hs, pow_succ]; ring
      have hsge : 2 ^ (h - (d + 1)) ≤ s := by omega
      apply ih (d + 1) _ s _ (by omega) hsr hsge (by omega)
      have h2s : t (2 * s) = Spec.node h o id seed d (2 * s) := by
        apply hD d (by omega) (2 * s) (by omega)
        beta_reduce
        rw [if_pos (le_refl _), ← hr, hs]
        exact Nat.mul_le_mul_right _ (by omega)
      have h2s1 : t (2 * s + 1) = Spec.node h o id seed d (2 * s + 1) := by
        apply hD d (by omega) (2 * s + 1) (by omega)
        beta_reduce
        rw [if_pos (le_refl _), ← hr, hs]
      intro d' hd' r' h1 h2
      beta_reduce at h2
      by_cases hrs : r' = s
      · subst hrs
        have hdd : d' = d + 1 := by
          refine depth_unique hd' (by omega) h1 ?_ hsge ?_
          · refine le_trans h2 ?_
            split <;> omega
          · rw [hsr]; omega
        subst hdd
        rw [Nodes.set, if_pos rfl, Spec.node, h2s, h2s1]
      · rw [Nodes.set, if_neg hrs]
        apply hD d' hd' r' h1
        beta_reduce
        by_cases hle : d' ≤ d
        · rw [if_pos hle]; rw [if_pos (by omega)] at h2; exact h2
        · rw [if_neg hle]
          by_cases he : d' = d + 1
          · subst he
            rw [if_pos (le_refl _), ← hsr] at h2
            have := Nat.le_of_mul_le_mul_right h2 (Nat.two_pow_pos (d + 1))
            have h3 : (r' + 1) * 2 ^ (d + 1) ≤ s * 2 ^ (d + 1) := Nat.mul_le_mul_right _ (by omega)
            have h4 : (s + 1) * 2 ^ (d + 1) = s * 2 ^ (d + 1) + 2 ^ (d + 1) := by ring
            have := Nat.two_pow_pos (d + 1)
            omega
          · rw [if_neg (by omega)] at h2
            exact h2
    · rename_i heven
      intro d' hd' r' h1 h2
      beta_reduce at h2
      apply hD d' hd' r' h1
      beta_reduce
      by_cases hle : d' ≤ d
      · rw [if_pos hle]; exact h2
      · rw [if_neg hle]
        rcases Nat.lt_or_ge ((r' + 1) * 2 ^ d') (2 ^ h + c) with h3 | h3
        · omega
        · exfalso
          have he : (r' + 1) * 2 ^ d' = (r + 1) * 2 ^ d := by omega
          obtain ⟨k, rfl⟩ : ∃ k, d' = d + 1 + k := ⟨d' - d - 1, by omega⟩
          have hr1 : (r' + 1) * 2 ^ k * 2 = r + 1 := by
            apply Nat.eq_of_mul_eq_mul_right (Nat.two_pow_pos d)
            rw [← he, pow_add, pow_succ]; ring
          omega

theorem treeLoop_done (h : Nat) (o : OtsParam) (id seed : Bytes) : ∀ (n i : Nat) (t : Nodes), i + n ≤ 2 ^ h →
    Done h o id seed t (fun _ => i) → Done h o id seed (treeLoop h o id seed i n t) fun _ => i + n := by
  intro n
  induction n with
  | zero => intro i t _ hD; exact hD
  | succ n ih =>
    intro i t hn hD
    rw [treeLoop]
    have := ih (i + 1) (treeUp o.H id (t.set (i + 2 ^ h) (o.H.f (id ++ hx 4 (i + 2 ^ h) ++ dLeaf ++ (newOtsKey o i id seed).pub.k))) (i + 2 ^ h) i) (by omega) ?_
    · rw [show i + 1 + n = i + (n + 1) by omega] at this
      exact this
    · apply treeUp_done h o id seed (i + 1) (by omega) (by omega) h 0 _ _ _ (by omega) (by rw [pow_zero]; omega) (by rw [Nat.sub_zero]; omega) (by rw [Nat.sub_zero]; omega)
      intro d hd r h1 h2
      beta_reduce at h2
      by_cases hr : r = i + 2 ^ h
      · subst hr
        rcases Nat.eq_zero_or_pos d with rfl | hd0
        · rw [Nodes.set, if_pos rfl, Spec.node, Nat.add_sub_cancel]
        · exfalso
          rw [if_neg (by omega)] at h2
          have : (i + 2 ^ h + 1) * 2 ≤ (i + 2 ^ h + 1) * 2 ^ d := Nat.mul_le_mul_left _ (by
            calc 2 = 2 ^ 1 := rfl
              _ ≤ 2 ^ d := Nat.pow_le_pow_right (by decide) hd0)
          omega
      · rw [Nodes.set, if_neg hr]
        apply hD d hd r h1
        rcases Nat.eq_zero_or_pos d with rfl | hd0
        · rw [if_pos (le_refl _), pow_zero] at h2
          rw [pow_zero]
          beta_reduce
          omega
        · rw [if_neg (by omega)] at h2
          exact h2

/-- `GeneratePKTree` computes the Merkle tree. -/
theorem genTree_node (p : LmsParam) (o : OtsParam) (id seed : Bytes) {d r : Nat} (hd : d ≤ p.h) (h1 : 2 ^ (p.h - d) ≤ r) (h2 : r < 2 * 2 ^ (p.h - d)) :
    genTree p o id seed r = Spec.node p.h o id seed d r := by
  refine treeLoop_done p.h o id seed (2 ^ p.h) 0 (fun _ => []) (by omega) ?_ d hd r h1 ?_
  · intro d hd r h1 h2
    beta_reduce at h2
    exfalso
    have := pow_mul_pow hd
    have h3 : (2 ^ (p.h - d) + 1) * 2 ^ d ≤ (r + 1) * 2 ^ d := Nat.mul_le_mul_right _ (by omega)
    rw [Nat.add_mul, this] at h3
    have := Nat.two_pow_pos d
    omega
  · have := pow_mul_pow hd
    have h3 : (r + 1) * 2 ^ d ≤ 2 * 2 ^ (p.h - d) * 2 ^ d := Nat.mul_le_mul_right _ (by omega)
    rw [mul_assoc, this] at h3
    beta_reduce
    omega

theorem xor_one (r : Nat) : r ^^^ 1 = if r % 2 = 1 then r - 1 else r + 1 := by
  have h1 : (r ^^^ 1) / 2 = r / 2 := by rw [Nat.xor_div_two]; simp
  have h2 : (r ^^^ 1) % 2 = (r + 1) % 2 := Nat.xor_mod_two_eq
  split <;> omega

/-- The path of siblings leads from a node to the root. -/
theorem climb_node (h : Nat) (o : OtsParam) (id seed : Bytes) : ∀ (n d r : Nat), d + n = h →
    climb o.H id ((List.range n).map fun i => Spec.node h o id seed (d + i) ((r >>> i) ^^^ 1)) r (Spec.node h o id seed d r) = Spec.node h o id seed h (r / 2 ^ n) := by
  intro n
  induction n with
  | zero => intro d r hd; obtain rfl : d = h := by omega
            simp [climb]
  | succ n ih =>
    intro d r hd
    rw [List.range_succ_eq_map, List.map_cons, List.map_map, climb]
    have hstep : o.H.f (id ++ hx 4 (r / 2) ++ dIntr ++ if r % 2 = 1 then Spec.node h o id seed (d + 0) ((r >>> 0) ^^^ 1) ++ Spec.node h o id seed d r
        else Spec.node h o id seed d r ++ Spec.node h o id seed (d + 0) ((r >>> 0) ^^^ 1)) = Spec.node h o id seed (d + 1) (r / 2) := by
      rw [Nat.shiftRight_zero, Nat.add_zero, xor_one, Spec.node]
      rcases Nat.mod_two_eq_zero_or_one r with h | h
      · rw [if_neg (by omega), if_neg (by omega), show 2 * (r / 2) = r by omega]
        simp only [List.append_assoc]
      · rw [if_pos h, if_pos h, show 2 * (r / 2) = r - 1 by omega, show r - 1 + 1 = r by omega]
        simp only [List.append_assoc]
    rw [hstep]
    have := ih (d + 1) (r / 2) (by omega)
    rw [Nat.div_div_eq_div_mul, show 2 * 2 ^ n = 2 ^ (n + 1) by rw [pow_succ]; ring] at this
    rw [← this]
    congr 1
    apply List.map_congr_left
    intro i _
    simp only [Function.comp_apply, Nat.succ_eq_add_one]
    rw [show d + (i + 1) = d + 1 + i by omega, Nat.shiftRight_eq_div_pow, Nat.shiftRight_eq_div_pow, Nat.div_div_eq_div_mul, show 2 * 2 ^ i = 2 ^ (i + 1) by rw [pow_succ]; ring]

end Verif.Pub.Lms
