import Verif.Hash.BeltSpec
namespace Verif.Hash.Belt
open Verif.Cipher

theorem G_eq (x : W) (r : Nat) : G x r = Spec.Gr r x := rfl

theorem ldLE_get (n : Nat) : ∀ (p : Bytes) (j : Nat), j < n → (ldLE 32 4 n p).getD j 0 = u32 p j := by
  induction n with
  | zero => intro p j h; omega
  | succ n ih =>
    intro p j h
    cases j with
    | zero => rfl
    | succ j =>
      rw [ldLE, List.getD_cons_succ, ih _ _ (by omega), u32, u32, List.drop_drop]
      congr 4
      omega

theorem word_eq (p : Bytes) (j : Nat) (h : 4 * (j + 1) ≤ p.length) : Spec.word p j = u32 p j := ldLE_get _ _ _ (by omega)

theorem turn_eq (θ : Bytes) (h : θ.length = 32) (v : W × W × W × W) : ∀ i < 8, turn θ v i = Spec.cycle θ (i + 1) v := by
  have hk : ∀ i, i < 8 → ∀ j, j < 7 → u32 θ ((KIdx.getD i []).getD j 0) = Spec.K θ (7 * (i + 1) - (6 - j)) := by
    intro i hi j hj
    have h8 : (KIdx.getD i []).getD j 0 = (7 * (i + 1) - (6 - j) - 1) % 8 := by
      have : ∀ i < 8, ∀ j < 7, (KIdx.getD i []).getD j 0 = (7 * (i + 1) - (6 - j) - 1) % 8 := by decide
      exact this i hi j hj
    rw [h8, Spec.K, word_eq _ _ (by omega)]
  intro i hi
  obtain ⟨a, b, c, d⟩ := v
  have h0 := hk i hi 0 (by omega)
  have h1 := hk i hi 1 (by omega)
  have h2 := hk i hi 2 (by omega)
  have h3 := hk i hi 3 (by omega)
  have h4 := hk i hi 4 (by omega)
  have h5 := hk i hi 5 (by omega)
  have h6 := hk i hi 6 (by omega)
  simp only [turn, Spec.cycle, G_eq, h0, h1, h2, h3, h4, h5, h6, BitVec.ofNat_add]
  rfl

theorem encrypt_eq (inp θ : Bytes) (h : θ.length = 32) (h2 : inp.length = 16) : encrypt inp θ = Spec.F θ inp := by
  have e : (List.range 8).foldl (turn θ) (u32 inp 0, u32 inp 1, u32 inp 2, u32 inp 3) =
      Spec.cycle θ 8 (Spec.cycle θ 7 (Spec.cycle θ 6 (Spec.cycle θ 5 (Spec.cycle θ 4 (Spec.cycle θ 3 (Spec.cycle θ 2 (Spec.cycle θ 1
        (Spec.word inp 0, Spec.word inp 1, Spec.word inp 2, Spec.word inp 3)))))))) := by
    rw [word_eq _ 0 (by omega), word_eq _ 1 (by omega), word_eq _ 2 (by omega), word_eq _ 3 (by omega)]
    rw [show List.range 8 = [0, 1, 2, 3, 4, 5, 6, 7] from rfl]
    simp only [List.foldl_cons, List.foldl_nil]
    rw [turn_eq θ h _ 0 (by decide), turn_eq θ h _ 1 (by decide), turn_eq θ h _ 2 (by decide), turn_eq θ h _ 3 (by decide),
      turn_eq θ h _ 4 (by decide), turn_eq θ h _ 5 (by decide), turn_eq θ h _ 6 (by decide), turn_eq θ h _ 7 (by decide)]
  simp only [encrypt, e, Spec.F]

theorem F_length (θ X : Bytes) : (Spec.F θ X).length = 16 := by simp [Spec.F]

theorem sigma1_false (x h s : Bytes) (hx : x.length = 32) (hh : h.length = 32) :
    sigma1Xor x h s false = Spec.σ1 x (h.take 16) (h.drop 16) := by
  simp only [sigma1Xor, Spec.σ1]
  rw [encrypt_eq _ _ hx (by simp; omega)]
  simp

theorem sigma1_true (x h s : Bytes) (hx : x.length = 32) (hh : h.length = 32) :
    sigma1Xor x h s true = xorb s (Spec.σ1 x (h.take 16) (h.drop 16)) := by
  simp only [sigma1Xor, Spec.σ1]
  rw [encrypt_eq _ _ hx (by simp; omega), xorb_comm (Spec.F _ _)]
  simp

theorem σ1_length (u a b : Bytes) (ha : a.length = 16) (hb : b.length = 16) : (Spec.σ1 u a b).length = 16 := by
  simp [Spec.σ1, F_length, ha, hb]

theorem xor_ff (l : Bytes) : l.map (· ^^^ 0xff#8) = l.map (fun b => ~~~b) := by
  apply List.map_congr_left
  intro b _
  show b ^^^ BitVec.allOnes 8 = ~~~b
  rw [BitVec.xor_allOnes]

theorem sigma2_eq (x h : Bytes) (hx : x.length = 32) (hh : h.length = 32) :
    sigma2 x h = Spec.σ2 (x.take 16) (x.drop 16) (h.take 16) (h.drop 16) := by
  have hl : (Spec.σ1 x (h.take 16) (h.drop 16)).length = 16 := σ1_length _ _ _ (by simp; omega) (by simp; omega)
  simp only [sigma2, Spec.σ2, sigma1_false x h _ hx hh, List.take_append_drop]
  rw [List.take_left' hl, xor_ff, encrypt_eq _ _ (by simp; omega) (by simp; omega), encrypt_eq _ _ (by simp; omega) (by simp; omega)]

theorem σ2_length (a b c d : Bytes) (ha : a.length = 16) (hb : b.length = 16) : (Spec.σ2 a b c d).length = 32 := by
  simp [Spec.σ2, F_length, ha, hb]

/-- State `st` after `n` bytes with chaining values `v`. -/
structure Good (st : St) (n : Nat) (v : Bytes × Bytes) : Prop where
  s : st.s = leBytes 16 (8 * n) ++ v.1
  h : st.h = v.2
  l1 : v.1.length = 16
  l2 : v.2.length = 32

theorem updateCtr_good (st : St) (n k : Nat) (v : Bytes × Bytes) (hk : k ≤ 32) (h : Good st n v) : Good (updateCtr st k) (n + k) v := by
  refine ⟨?_, h.h, h.l1, h.l2⟩
  have e : leBytes 16 (8 * n) = leBytes 8 (8 * n) ++ leBytes 8 (8 * n / 256 ^ 8) := leBytes_add 8 8 _
  have e2 : leBytes 16 (8 * (n + k)) = leBytes 8 (8 * (n + k)) ++ leBytes 8 (8 * (n + k) / 256 ^ 8) := leBytes_add 8 8 _
  have t1 : st.s.take 8 = leBytes 8 (8 * n) := by rw [h.s, e, List.append_assoc, List.take_left' (leBytes_length ..)]
  have t2 : (st.s.drop 8).take 8 = leBytes 8 (8 * n / 256 ^ 8) := by
    rw [h.s, e, List.append_assoc, List.drop_left' (leBytes_length ..), List.take_left' (leBytes_length ..)]
  have t3 : st.s.drop 16 = v.1 := by rw [h.s, List.drop_left' (leBytes_length ..)]
  simp only [updateCtr, t1, t2, t3, leN_leBytes]
  rw [e2]
  congr 1
  have hb : (BitVec.ofNat 64 k <<< 3).toNat = 8 * k := by
    simp only [BitVec.toNat_shiftLeft, BitVec.toNat_ofNat, Nat.shiftLeft_eq]; omega
  have hc : (BitVec.ofNat 64 (8 * n % 256 ^ 8) + BitVec.ofNat 64 k <<< 3).toNat = (8 * (n + k)) % 256 ^ 8 := by
    rw [BitVec.toNat_add, hb, BitVec.toNat_ofNat]; omega
  congr 1
  · rw [hc, leBytes_mod]
  · rw [← leBytes_mod 8 (8 * (n + k) / 256 ^ 8)]
    congr 1
    by_cases hlt : BitVec.ofNat 64 (8 * n % 256 ^ 8) + BitVec.ofNat 64 k <<< 3 < BitVec.ofNat 64 k <<< 3
    · rw [if_pos hlt]
      rw [BitVec.lt_def, hc, hb] at hlt
      rw [BitVec.toNat_add, BitVec.toNat_ofNat, show (1 : BitVec 64).toNat = 1 from rfl]
      omega
    · rw [if_neg hlt]
      rw [BitVec.lt_def, hc, hb] at hlt
      rw [BitVec.toNat_ofNat]
      omega

theorem process_good (st : St) (n : Nat) (v : Bytes × Bytes) (X : Bytes) (hX : X.length = 32) (h : Good st n v) :
    Good (process st X) n (Spec.step v X) := by
  have t3 : st.s.drop 16 = v.1 := by rw [h.s, List.drop_left' (leBytes_length ..)]
  have t4 : st.s.take 16 = leBytes 16 (8 * n) := by rw [h.s, List.take_left' (leBytes_length ..)]
  have hl := h.l2
  have hh := h.h
  constructor
  · simp only [process, t3, t4, hh]; rw [sigma1_true _ _ _ hX hl, Spec.step]
  · simp only [process, hh]; rw [sigma2_eq _ _ hX hl, Spec.step]
  · simp only [Spec.step]
    rw [xorb_length, σ1_length _ _ _ (by simp; omega) (by simp; omega), h.l1]; rfl
  · simp only [Spec.step]; exact σ2_length _ _ _ _ (by simp; omega) (by simp; omega)

theorem fold_good (L : List Bytes) (hL : ∀ b ∈ L, b.length = 32) : ∀ (st : St) (n : Nat) (v : Bytes × Bytes), Good st n v →
    Good (L.foldl block st) (n + 32 * L.length) (L.foldl Spec.step v) := by
  induction L with
  | nil => intro st n v h; exact h
  | cons b L ih =>
    intro st n v h
    have h1 := process_good _ _ v b (hL b (List.mem_cons_self ..)) (updateCtr_good st n 32 v (Nat.le_refl _) h)
    have h2 := ih (fun x hx => hL x (List.mem_cons_of_mem _ hx)) (block st b) (n + 32) (Spec.step v b) h1
    simp only [List.foldl_cons, List.length_cons]
    rw [show n + 32 * (L.length + 1) = n + 32 + 32 * L.length by omega]
    exact h2

abbrev Holds := Hash.Holds 32 block iv0

theorem iv0_good : Good iv0 0 (List.replicate 16 0#8, Spec.h0) := by
  refine ⟨by decide, by decide +kernel, by simp, by simp [Spec.h0]⟩

theorem absorb_good (M : Bytes) : Good (absorb 32 block iv0 M) (M.length / 32 * 32) ((fullBlocks 32 M).foldl Spec.step (List.replicate 16 0#8, Spec.h0)) := by
  have := fold_good (fullBlocks 32 M) (fullBlocks_mem 32 M) iv0 0 _ iv0_good
  rw [show (fullBlocks 32 M).length = M.length / 32 by simp [fullBlocks], Nat.zero_add, Nat.mul_comm] at this
  exact this

theorem final_eq (st : St) (n : Nat) (v : Bytes × Bytes) (h : Good st n v) :
    sigma2 st.s st.h = Spec.σ2 (leBytes 16 (8 * n)) v.1 (v.2.take 16) (v.2.drop 16) := by
  have hl := h.l1
  have t3 : st.s.drop 16 = v.1 := by rw [h.s, List.drop_left' (leBytes_length ..)]
  have t4 : st.s.take 16 = leBytes 16 (8 * n) := by rw [h.s, List.take_left' (leBytes_length ..)]
  rw [sigma2_eq _ _ (by rw [h.s]; simp [hl]) (by rw [h.h]; exact h.l2), t3, t4, h.h]

theorem checkSum_eq (d : D) (M : Bytes) (h : Holds d M) : checkSum d = Spec.beltHash M := by
  have hr := Nat.mod_lt M.length (show 0 < 32 by decide)
  have hg := absorb_good M
  rw [← h.s] at hg
  simp only [checkSum, Spec.beltHash]
  by_cases h0 : d.nx = 0
  · have hm : M.length % 32 = 0 := by rw [← h.nx, h0]
    rw [if_neg (by simp [h0]), final_eq _ _ _ hg, Spec.pad, hm, show M.length / 32 * 32 = M.length by omega]
    simp
  · have hm : M.length % 32 ≠ 0 := by rw [← h.nx]; exact h0
    rw [if_pos h0, h.nx]
    have hx := h.x
    rw [h.nx] at hx
    have e : putAt d.x (M.length % 32) (List.replicate 32 0#8) = tailOf 32 M ++ List.replicate ((32 - M.length % 32) % 32) 0#8 := by
      rw [putAt_zeros _ _ _ (by rw [h.xl]; omega) (by rw [h.xl]; omega), hx, h.xl, Nat.mod_eq_of_lt (a := 32 - M.length % 32) (by omega)]
    have hlen : (tailOf 32 M ++ List.replicate ((32 - M.length % 32) % 32) 0#8).length = 32 := by
      simp [tailOf_length]; omega
    have hg2 := process_good _ _ _ _ hlen (updateCtr_good _ _ (M.length % 32) _ (by omega) hg)
    rw [e, final_eq _ _ _ hg2, show M.length / 32 * 32 + M.length % 32 = M.length by omega]
    have e2 : fullBlocks 32 (Spec.pad M) = fullBlocks 32 M ++ [tailOf 32 M ++ List.replicate ((32 - M.length % 32) % 32) 0#8] := by
      rw [Spec.pad, fullBlocks_split 32 (by decide), fullBlocks_one 32 (by decide) _ hlen]
    rw [e2, List.foldl_append]
    rfl

theorem beltHash_length (M : Bytes) : (Spec.beltHash M).length = 32 := by
  have hg := absorb_good (Spec.pad M)
  simp only [Spec.beltHash]
  exact σ2_length _ _ _ _ (leBytes_length ..) hg.l1

end Verif.Hash.Belt
