import Verif.Kdf.Kb
import Verif.Kdf.KbSpec
import Verif.Hash.Stream
namespace Verif.Kdf.Kb
open Verif.Cipher Verif.Hash

theorem shortest_of (v k : Nat) (hk : 0 < k) (h1 : v < 2 ^ (8 * (k + 1))) (h2 : 2 ^ (8 * k) ≤ v) : Spec.shortest v = hx (k + 1) v := by
  have hv : v ≠ 0 := by have := Nat.two_pow_pos (8 * k); omega
  have a := (Nat.log2_lt hv (k := 8 * (k + 1))).mpr h1
  have b := (Nat.le_log2 hv (k := 8 * k)).mpr h2
  rw [Spec.shortest]
  have : v.log2 / 8 = k := by omega
  rw [this]

theorem fillL_eq (v : Nat) (hv : v < 2 ^ 64) : fillL v = Spec.shortest v := by
  simp only [fillL, Nat.shiftLeft_eq, Nat.one_mul]
  have hxe : ∀ n, hx n v = (leBytes n v).reverse := fun _ => rfl
  by_cases h8 : v < 2 ^ 8
  · rw [if_pos h8, Spec.shortest]
    have : v.log2 / 8 = 0 := by
      by_cases h0 : v = 0
      · subst h0; decide
      · have := (Nat.log2_lt h0 (k := 8)).mpr h8; omega
    rw [this]; rfl
  rw [if_neg h8]
  have e (k : Nat) : b8 (v >>> k) = BitVec.ofNat 8 (v / 2 ^ k) := by rw [b8, Nat.shiftRight_eq_div_pow]
  simp only [e]
  split
  · rw [shortest_of v 1 (by decide) (by assumption) (by omega)]
    simp only [hx, leBytes, Nat.div_div_eq_div_mul]; rfl
  split
  · rw [shortest_of v 2 (by decide) (by assumption) (by omega)]
    simp only [hx, leBytes, Nat.div_div_eq_div_mul]; rfl
  split
  · rw [shortest_of v 3 (by decide) (by assumption) (by omega)]
    simp only [hx, leBytes, Nat.div_div_eq_div_mul]; rfl
  split
  · rw [shortest_of v 4 (by decide) (by assumption) (by omega)]
    simp only [hx, leBytes, Nat.div_div_eq_div_mul]; rfl
  split
  · rw [shortest_of v 5 (by decide) (by assumption) (by omega)]
    simp only [hx, leBytes, Nat.div_div_eq_div_mul]; rfl
  split
  · rw [shortest_of v 6 (by decide) (by assumption) (by omega)]
    simp only [hx, leBytes, Nat.div_div_eq_div_mul]; rfl
  · rw [shortest_of v 7 (by decide) (by assumption) (by omega)]
    simp only [hx, leBytes, Nat.div_div_eq_div_mul]; rfl

theorem incRev_eq (n : Nat) : ∀ v, incRev (leBytes n v) = leBytes n (v + 1) := by
  induction n with
  | zero => intro v; rfl
  | succ n ih =>
    intro v
    rw [leBytes, leBytes, incRev]
    have e1 : BitVec.ofNat 8 v + 1 = BitVec.ofNat 8 (v + 1) := (BitVec.ofNat_add (n := 8) v 1).symm
    rw [e1]
    have hpos : BitVec.ofNat 8 (v + 1) > 0 ↔ (v + 1) % 256 ≠ 0 := by
      show (0 : BitVec 8) < _ ↔ _
      rw [BitVec.lt_def, BitVec.toNat_ofNat]
      have : (0 : BitVec 8).toNat = 0 := rfl
      omega
    by_cases h : (v + 1) % 256 ≠ 0
    · rw [if_pos (hpos.mpr h)]
      have : (v + 1) / 256 = v / 256 := by omega
      rw [this]
    · rw [if_neg (fun hh => h (hpos.mp hh)), ih]
      have : v / 256 + 1 = (v + 1) / 256 := by omega
      rw [this]

theorem hx_mod (n v : Nat) : hx n (v % 256 ^ n) = hx n v := by rw [hx, leBytes_mod, hx]

theorem beN_hx (n v : Nat) : beN (hx n v) = v % 256 ^ n := by rw [beN, hx, List.reverse_reverse, leN_leBytes]

theorem hx_word (n m v : Nat) (h : 256 ^ n = m) : hx n ((v % m + 1) % m) = hx n (v + 1) := by
  rw [← h, ← hx_mod n (v + 1), Nat.add_mod, Nat.mod_mod, ← Nat.add_mod]

theorem incCtr_eq (n v : Nat) : incCtr (hx n v) = hx n (v + 1) := by
  have hl : (hx n v).length = n := by simp [hx]
  unfold incCtr
  rw [hl]
  have hdef : (incRev (hx n v).reverse).reverse = hx n (v + 1) := by
    rw [hx, List.reverse_reverse, incRev_eq]; rfl
  split
  · show [BitVec.ofNat 8 v + 1] = [BitVec.ofNat 8 (v + 1)]
    rw [BitVec.ofNat_add (n := 8) v 1]; rfl
  · rw [beN_hx]; exact hx_word 2 _ v rfl
  · rw [beN_hx]; exact hx_word 4 _ v rfl
  · rw [beN_hx]; exact hx_word 8 _ v rfl
  · exact hdef

theorem hx_zero (n : Nat) : hx n 0 = List.replicate n 0#8 := by
  have : leBytes n 0 = List.replicate n 0#8 := by
    induction n with
    | zero => rfl
    | succ n ih => rw [leBytes, List.replicate_succ, Nat.zero_div, ih]
  rw [hx, this, List.reverse_replicate]

theorem bitLen_eq (n : Nat) (hn : n < 2 ^ 61) : fillL (bitLen n) = Spec.shortest (8 * n) := by
  have : bitLen n = 8 * n := by rw [bitLen, Nat.mod_eq_of_lt (by omega), Nat.mul_comm]
  rw [this, fillL_eq _ (by omega)]

theorem counter_eq (P : Prf) (key label context : Bytes) (r n : Nat) (hr : r ≤ 8) (hn : n < 2 ^ 61) :
    counterModeKey P key label context r n = .ok (Spec.counterMode (P.f key) P.size r label context n) := by
  rw [counterModeKey, if_neg (by omega), if_neg (by omega)]
  simp only [Int.toNat_natCast, bitLen_eq n hn]
  have := genLoop_eq (fun I => let I := incCtr I; (I, P.f key (I ++ label ++ [0] ++ context ++ Spec.shortest (8 * n)))) (fun i => hx r i)
    (fun i => P.f key (hx r (i + 1) ++ Spec.fixed label context n)) P.size n P.pos (fun i => P.len _ _)
    (fun i => by simp only [incCtr_eq, Spec.fixed, List.append_assoc]) (n + 1) 0 (by omega)
  rw [hx_zero, Nat.zero_mul] at this
  have e0 : chunks (fun i => P.f key (hx r (i + 1) ++ Spec.fixed label context n)) 0 = [] := rfl
  rw [e0, fit_nil] at this
  exact this

theorem feedback_eq (P : Prf) (key label context iv : Bytes) (r n : Nat) (hr : r ≤ 8) (hn : n < 2 ^ 61) :
    feedbackModeKey P key label context iv r n = .ok (Spec.feedbackMode (P.f key) P.size r label context iv n) := by
  rw [feedbackModeKey, if_neg (by omega), if_neg (by omega)]
  simp only [Int.toNat_natCast, bitLen_eq n hn]
  have := genLoop_eq (fun s : Bytes × Bytes => let I := incCtr s.2; let K := P.f key (s.1 ++ I ++ label ++ [0] ++ context ++ Spec.shortest (8 * n)); ((K, I), K))
    (fun i => (Spec.feedbackK (P.f key) r label context iv n i, hx r i))
    (fun i => Spec.feedbackK (P.f key) r label context iv n (i + 1)) P.size n P.pos (fun i => P.len _ _)
    (fun i => by simp only [incCtr_eq, Spec.feedbackK, Spec.fixed, List.append_assoc]) (n + 1) 0 (by omega)
  rw [Nat.zero_mul] at this
  simp only [hx_zero] at this
  have e0 : chunks (fun i => Spec.feedbackK (P.f key) r label context iv n (i + 1)) 0 = [] := rfl
  rw [e0, fit_nil] at this
  exact this

theorem pipeline_eq (P : Prf) (key label context : Bytes) (r n : Nat) (hr : r ≤ 8) (hn : n < 2 ^ 61) :
    pipelineModeKey P key label context r n = .ok (Spec.pipelineMode (P.f key) P.size r label context n) := by
  rw [pipelineModeKey, if_neg (by omega), if_neg (by omega)]
  simp only [Int.toNat_natCast, bitLen_eq n hn]
  have hpos := P.pos
  have hT : ∀ i, (P.f key (Spec.pipelineA (P.f key) label context n (i + 1) ++ hx r (i + 1) ++ Spec.fixed label context n)).length = P.size := fun i => P.len _ _
  have gl := genLoop_eq (fun s : Bytes × Bytes =>
        let I := incCtr s.2
        let A := P.f key s.1
        ((A, I), P.f key (A ++ I ++ label ++ [0] ++ context ++ Spec.shortest (8 * n))))
    (fun i => (Spec.pipelineA (P.f key) label context n i, hx r i))
    (fun i => P.f key (Spec.pipelineA (P.f key) label context n (i + 1) ++ hx r (i + 1) ++ Spec.fixed label context n)) P.size n P.pos hT
    (fun i => by simp only [incCtr_eq, Spec.pipelineA, Spec.fixed, List.append_assoc]) (n + 1) 1 (by omega)
  have eI : incCtr (List.replicate r 0#8) = hx r 1 := by rw [← hx_zero, incCtr_eq]
  have eK : P.f key (P.f key (label ++ [0] ++ context ++ Spec.shortest (8 * n)) ++ hx r 1 ++ label ++ [0] ++ context ++ Spec.shortest (8 * n)) =
      P.f key (Spec.pipelineA (P.f key) label context n 1 ++ hx r 1 ++ Spec.fixed label context n) := by
    simp only [Spec.pipelineA, Spec.fixed, List.append_assoc]
  rw [eI, eK, P.len]
  have eA : P.f key (label ++ [0] ++ context ++ Spec.shortest (8 * n)) = Spec.pipelineA (P.f key) label context n 1 := rfl
  rw [eA]
  have e1 : chunks (fun i => P.f key (Spec.pipelineA (P.f key) label context n (i + 1) ++ hx r (i + 1) ++ Spec.fixed label context n)) 1 =
      P.f key (Spec.pipelineA (P.f key) label context n 1 ++ hx r 1 ++ Spec.fixed label context n) := by simp [chunks]
  have hout : copyInto (List.replicate n 0#8) (P.f key (Spec.pipelineA (P.f key) label context n 1 ++ hx r 1 ++ Spec.fixed label context n)) =
      fit n (chunks (fun i => P.f key (Spec.pipelineA (P.f key) label context n (i + 1) ++ hx r (i + 1) ++ Spec.fixed label context n)) 1) := by
    rw [e1, copyInto, fit, List.length_replicate, List.drop_replicate]
  rw [hout]
  by_cases hc : P.size ≤ n
  · rw [Nat.min_eq_right hc]
    rw [Nat.one_mul] at gl
    exact gl
  · have hc' : n ≤ P.size := by omega
    rw [Nat.min_eq_left hc', genLoop, if_neg (Nat.lt_irrefl n)]
    rw [fit_full _ _ (by rw [e1, P.len]; exact hc'), take_chunks _ P.size n 1 hpos hT (by omega)]
    rfl

end Verif.Kdf.Kb
