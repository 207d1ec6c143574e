import Verif.Mac.Lemmas
/-
The PMAC code computes PMAC.
-/
namespace Verif.Mac
open Verif.Mode (chunks)
open Verif.Mode.Spec (natBe beNat)
open Verif.Aead (xorInto natBe_cons beNat_cons beNat_lt natBe_congr)

/-! The inverse of x. -/

theorem shrC_eq (p : Byte) (x : Bytes) : shrC p x = natBe x.length ((p.toNat % 2 * 256 ^ x.length + beNat x) / 2) := by
  induction x generalizing p with
  | nil => rfl
  | cons a t ih =>
    have hlt := beNat_lt t
    have hp : 0 < 256 ^ t.length := Nat.pos_of_ne_zero (by simp)
    have k1 : ∀ p : Byte, (if p &&& 1 = 1 then (0x80 : Byte) else 0) = BitVec.ofNat 8 (p.toNat % 2 * 128) := by decide +kernel
    have k2 : ∀ a : Byte, (a >>> 1) ||| (BitVec.ofNat 8 (0 * 128)) = BitVec.ofNat 8 (0 * 128 + a.toNat / 2) ∧
        (a >>> 1) ||| (BitVec.ofNat 8 (1 * 128)) = BitVec.ofNat 8 (1 * 128 + a.toNat / 2) := by decide +kernel
    have e1 : (a >>> 1) ||| (if p &&& 1 = 1 then 0x80 else 0) = BitVec.ofNat 8 (p.toNat % 2 * 128 + a.toNat / 2) := by
      rw [k1]
      rcases Nat.mod_two_eq_zero_or_one p.toNat with h | h <;> rw [h]
      · exact (k2 a).1
      · exact (k2 a).2
    have e2 : (p.toNat % 2 * 256 ^ (a :: t).length + beNat (a :: t)) / 2 =
        (a.toNat % 2 * 256 ^ t.length + beNat t) / 2 + 256 ^ t.length * (p.toNat % 2 * 128 + a.toNat / 2) := by
      rw [beNat_cons, List.length_cons, Nat.pow_succ]
      have ha : a.toNat = 2 * (a.toNat / 2) + a.toNat % 2 := by omega
      have : p.toNat % 2 * (256 ^ t.length * 256) + (a.toNat * 256 ^ t.length + beNat t) =
          a.toNat % 2 * 256 ^ t.length + beNat t + 2 * (256 ^ t.length * (p.toNat % 2 * 128 + a.toNat / 2)) := by
        conv_lhs => rw [ha]
        ring
      rw [this, Nat.add_mul_div_left _ _ (by omega)]
    have e3 : (a.toNat % 2 * 256 ^ t.length + beNat t) / 2 < 256 ^ t.length := by
      rcases Nat.mod_two_eq_zero_or_one a.toNat with h | h <;> rw [h] <;> omega
    rw [shrC, List.length_cons, natBe_cons, e1, ih a, ← List.length_cons (a := a), e2, Nat.add_mul_div_left _ _ hp,
      Nat.div_eq_of_lt e3, Nat.zero_add]
    refine congrArg _ ?_
    apply natBe_congr; rw [Nat.add_mul_mod_self_left]

theorem pmacInv_length (x : Bytes) : (pmacInv x).length = x.length := by
  have : (shrC 0 x).length = x.length := by rw [shrC_eq, Mode.natBe_len]
  unfold pmacInv; simp only; split
  · rw [List.length_set, List.length_set, this]
  · exact this

theorem natBe_xor_top (n v : Nat) : natBe (n + 1) (v ^^^ 2 ^ (8 * n + 7)) =
    (natBe (n + 1) v).set 0 ((natBe (n + 1) v).getD 0 0 ^^^ 0x80) := by
  rw [natBe_cons, natBe_cons]
  have hp : 256 ^ n = 2 ^ (8 * n) := by rw [show 256 = 2 ^ 8 from rfl, ← Nat.pow_mul]
  simp only [List.set_cons_zero, List.getD_cons_zero]
  refine congr (congrArg _ ?_) ?_
  · have : (v ^^^ 2 ^ (8 * n + 7)) / 256 ^ n = (v / 256 ^ n) ^^^ 128 := by
      rw [hp, ← Nat.shiftRight_eq_div_pow, ← Nat.shiftRight_eq_div_pow, Nat.shiftRight_xor_distrib]
      congr 1
      rw [Nat.shiftRight_eq_div_pow, Nat.pow_add, Nat.mul_div_cancel_left _ (Nat.pos_of_ne_zero (by simp))]
    rw [this, BitVec.ofNat_xor]; rfl
  · apply natBe_congr
    rw [hp, Nat.xor_mod_two_pow]
    have : 2 ^ (8 * n + 7) % 2 ^ (8 * n) = 0 := by rw [Nat.pow_add, Nat.mul_mod_right]
    rw [this, Nat.xor_zero]

theorem lastBit (x : Bytes) (h : 1 ≤ x.length) : x.getD (x.length - 1) 0 &&& 1 = 1 ↔ beNat x % 2 = 1 := by
  have k : ∀ b : Byte, b &&& 1 = 1 ↔ b.toNat % 2 = 1 := by decide +kernel
  obtain ⟨y, b, rfl⟩ : ∃ y b, x = y ++ [b] := ⟨x.dropLast, x.getLast (by intro e; simp [e] at h), (List.dropLast_append_getLast _).symm⟩
  rw [Mode.beNat_append]
  have : (y ++ [b]).getD ((y ++ [b]).length - 1) 0 = b := by simp
  rw [this, k]; omega

theorem xor_2p (k a : Nat) (h : a < 2 ^ k) : a ^^^ 2 ^ k = 2 ^ k + a := by
  have := Aead.split_top k (2 ^ k + a) (by omega) (by rw [Nat.pow_succ]; omega)
  rw [Nat.add_sub_cancel_left] at this
  rw [Nat.xor_comm, ← this]

theorem xor_split_one (k : Nat) : 2 * k ^^^ 1 = 2 * k + 1 := by
  have := Aead.xor_split 1 k 0 0 1 (by omega) (by omega)
  simpa using this

/-- `pmacInv x` is the block whose double is `x`. -/
theorem dbl_pmacInv (x : Bytes) (h : 1 ≤ x.length) : Spec.dbl x.length 0x87 (pmacInv x) = x := by
  obtain ⟨n, hn⟩ : ∃ n, x.length = n + 1 := ⟨x.length - 1, by omega⟩
  have hlt := beNat_lt x
  have hp : 256 ^ x.length = 2 ^ (8 * n + 8) := by rw [hn, show 256 = 2 ^ 8 from rfl, ← Nat.pow_mul]; rfl
  have hs : shrC 0 x = natBe (n + 1) (beNat x / 2) := by rw [shrC_eq, hn]; simp
  rw [hp] at hlt
  have hh : 2 ^ (8 * n + 8) = 2 * 2 ^ (8 * n + 7) := by rw [← Nat.pow_succ']
  have hpos : 0 < 2 ^ (8 * n + 7) := Nat.pos_of_ne_zero (by simp)
  have hx : x = natBe (n + 1) (beNat x) := by rw [← hn, Mode.natBe_beNat]
  have bn : ∀ w, w < 2 ^ (8 * n + 8) → beNat (natBe (n + 1) w) = w := by
    intro w hw
    exact Aead.beNat_natBe _ _ (by rw [← hn, hp]; exact hw)
  unfold pmacInv Spec.dbl
  simp only
  have hlb := lastBit x h
  rw [hs, hn, show 8 * (n + 1) - 1 = 8 * n + 7 by omega, show 8 * (n + 1) = 8 * n + 8 by omega, Nat.add_sub_cancel]
  conv_rhs => rw [hx]
  by_cases hb : beNat x % 2 = 1
  · rw [hn, Nat.add_sub_cancel] at hlb
    have hw : beNat x / 2 < 2 ^ (8 * n + 7) := by omega
    have hq : beNat x / 2 ^^^ 0x43 < 2 ^ (8 * n + 7) :=
      Nat.xor_lt_two_pow hw (Nat.lt_of_lt_of_le (by decide : 0x43 < 2 ^ 7) (Nat.pow_le_pow_right (by omega) (by omega)))
    have e : beNat x / 2 ^^^ 2 ^ (8 * n + 7) ^^^ (0x87 >>> 1) % 256 = 2 ^ (8 * n + 7) + (beNat x / 2 ^^^ 0x43) := by
      rw [← xor_2p _ _ hq, Nat.xor_assoc, Nat.xor_assoc, Nat.xor_comm (2 ^ _)]; rfl
    rw [if_pos (hlb.mpr hb), ← natBe_xor_top, ← natBe_xor_low, e, bn _ (by omega), if_neg (by omega)]
    congr 1
    have : 2 * (2 ^ (8 * n + 7) + (beNat x / 2 ^^^ 0x43)) - 2 ^ (8 * n + 8) = 2 * (beNat x / 2 ^^^ 0x43) := by omega
    rw [this]
    have sh : ∀ k, 2 * k = k <<< 1 := by intro k; rw [Nat.shiftLeft_eq]; omega
    rw [sh, Nat.shiftLeft_xor_distrib, Nat.xor_assoc, ← sh]
    show 2 * (beNat x / 2) ^^^ 1 = beNat x
    have := xor_split_one (beNat x / 2)
    omega
  · rw [hn, Nat.add_sub_cancel] at hlb
    rw [if_neg (fun e => hb (hlb.mp e)), bn _ (by omega), if_pos (by omega)]
    congr 1; omega

/-! The table of multiples of `L`. -/

variable {c : BlockCipher}

theorem lPow_length (k : Nat) : (Spec.lPow c.E c.bs 0x87 k).length = c.bs := by
  cases k with
  | zero => exact c.lenE _ (by simp [Spec.zero])
  | succ k => exact dbl_length _ _ _

theorem pmacTable_get (k i : Nat) (hi : i < k) (j : Nat) :
    (pmacTable k (Spec.lPow c.E c.bs 0x87 j))[i]? = some (Spec.lPow c.E c.bs 0x87 (j + i)) := by
  induction k generalizing i j with
  | zero => omega
  | succ k ih =>
    rw [pmacTable]
    cases i with
    | zero => rfl
    | succ i =>
      rw [List.getElem?_cons_succ]
      have : dblM 0x87 (Spec.lPow c.E c.bs 0x87 j) = Spec.lPow c.E c.bs 0x87 (j + 1) := by
        rw [dblM_eq _ _ (by rw [lPow_length]; exact c.bs_pos), lPow_length]; rfl
      rw [this, ih i (by omega) (j + 1)]
      congr 2; omega

theorem pmacTable_length (k : Nat) (x : Bytes) : (pmacTable k x).length = k := by
  induction k generalizing x with
  | zero => rfl
  | succ k ih => rw [pmacTable, List.length_cons, ih]

theorem pmacZ_length (i : Nat) : (Spec.pmacZ c.E c.bs 0x87 i).length = c.bs := by
  induction i with
  | zero => simp [Spec.pmacZ, Spec.zero]
  | succ i ih => rw [Spec.pmacZ, xorb_length, ih, lPow_length]; omega

theorem pmacSum_snoc (E : Bytes → Bytes) (n r : Nat) (l : List Bytes) (b : Bytes) :
    Spec.pmacSum E n r 1 (l ++ [b]) = xorb (Spec.pmacSum E n r 1 l) (E (xorb b (Spec.pmacZ E n r (l.length + 1)))) := by
  unfold Spec.pmacSum
  rw [List.zipIdx_append, List.map_append, List.foldl_append]
  simp [Nat.add_comm]

theorem pmacSum_length (l : List Bytes) (h : ∀ b ∈ l, b.length = c.bs) : (Spec.pmacSum c.E c.bs 0x87 1 l).length = c.bs := by
  induction l using List.reverseRecOn with
  | nil => simp [Spec.pmacSum, Spec.zero]
  | append_singleton l b ih =>
    rw [pmacSum_snoc, xorb_length, ih (fun b hb => h b (by simp [hb])), c.lenE]
    · omega
    · rw [xorb_length, pmacZ_length, h b (by simp)]; omega

/-- The object built by `NewWithTagSize`. -/
structure Pmac.OK (c : BlockCipher) (ts : Nat) (d : Pmac) : Prop where
  l : d.l = pmacTable (2 * c.bs - 1) (Spec.lPow c.E c.bs 0x87 0)
  lInv : d.lInv = pmacInv (Spec.lPow c.E c.bs 0x87 0)
  ts : d.tagsize = ts

/-- The first number of blocks for which the table of multiples of `L` is too short. -/
def pmacLimit (n : Nat) : Nat := 2 ^ (2 * n - 1)

/-- `A` has been processed, whatever `buf` and `pos` are. -/
structure PmacMid (c : BlockCipher) (s : PmacSt) (A : Bytes) : Prop where
  dvd : c.bs ∣ A.length
  ctr : s.ctr = A.length / c.bs
  offset : s.offset = Spec.pmacZ c.E c.bs 0x87 (A.length / c.bs)
  digest : s.digest = Spec.pmacSum c.E c.bs 0x87 1 (chunks c.bs A)
  buf : s.buf.length = c.bs

theorem ntz_limit (k : Nat) : Aead.Spec.ntz (2 ^ k) = k := by
  obtain ⟨h1, h2⟩ := Aead.ntzAux_spec (2 ^ k) (2 ^ k) (Nat.le_refl _) (Nat.pos_of_ne_zero (by simp))
  have hle : Aead.Spec.ntz (2 ^ k) ≤ k := (Nat.pow_dvd_pow_iff_le_right (by omega)).mp h1
  by_contra hne
  exact h2 (Nat.pow_dvd_pow 2 (by unfold Aead.Spec.ntz at hle hne; omega))

theorem chunks_length (n : Nat) (hn : 0 < n) (A : Bytes) (h : n ∣ A.length) : (chunks n A).length = A.length / n := by
  have h1 := Mode.flatten_length_of_all n (chunks n A) (Mode.chunks_all_len n hn A h)
  rw [Mode.chunks_flatten n hn] at h1
  rw [h1]
  first
    | rw [Nat.mul_div_cancel _ hn]
    | rw [Nat.mul_div_cancel_left _ hn]

theorem pmac_process {d : Pmac} {ts : Nat} (hd : d.OK c ts) (s : PmacSt) (A B : Bytes) (h : PmacMid c { s with buf := B } A) :
    (A.length / c.bs + 1 < pmacLimit c.bs → ∃ s', pmacProcess c d { s with buf := B } = .ok s' ∧ PmacMid c s' (A ++ B) ∧ s'.pos = 0) ∧
    (A.length / c.bs + 1 = pmacLimit c.bs → pmacProcess c d { s with buf := B } = .panic) := by
  have hb := c.bs_pos
  have hB : B.length = c.bs := h.buf
  have hctr : s.ctr = A.length / c.bs := h.ctr
  have hoff : s.offset = _ := h.offset
  have hdig : s.digest = _ := h.digest
  constructor
  · intro hlt
    have hn := Aead.ntz_lt (A.length / c.bs + 1) (2 * c.bs - 1) (by omega) hlt
    have hg := pmacTable_get (c := c) (2 * c.bs - 1) _ hn 0
    unfold pmacProcess
    simp only [hctr, hd.l, hg, Nat.zero_add]
    refine ⟨_, rfl, ⟨?_, ?_, ?_, ?_, ?_⟩, rfl⟩
    · rw [List.length_append, hB]; exact Nat.dvd_add h.dvd (Nat.dvd_refl _)
    · simp only [List.length_append, hB, Nat.add_div_right _ hb]
    · simp only [List.length_append, hB, Nat.add_div_right _ hb]
      rw [hoff, xorInto_eq (by rw [pmacZ_length, lPow_length])]; rfl
    · simp only
      rw [hoff, hdig, xorInto_eq (a := Spec.pmacZ _ _ _ _) (by rw [pmacZ_length, lPow_length]), xorInto_eq (a := B)]
      · rw [Mode.chunks_append _ hb _ _ h.dvd, show chunks c.bs B = [B] from ?_, pmacSum_snoc, chunks_length _ hb _ h.dvd, xorInto_eq]
        · rfl
        · rw [pmacSum_length _ (Mode.chunks_all_len _ hb _ h.dvd), c.lenE]
          rw [xorb_length, xorb_length, pmacZ_length, lPow_length]; omega
        · rw [Mode.chunks_cons _ hb B (by intro e; rw [e] at hB; simp at hB; omega), List.take_of_length_le (by omega),
            List.drop_of_length_le (by omega)]; rfl
      · rw [xorb_length, pmacZ_length, lPow_length]; omega
    · simp only
      apply c.lenE; rw [xorInto_length, hB]
  · intro heq
    unfold pmacProcess
    simp only [hctr, heq, pmacLimit, ntz_limit, hd.l]
    rw [List.getElem?_eq_none (by rw [pmacTable_length])]

theorem pmac_loop {d : Pmac} {ts : Nat} (hd : d.OK c ts) (fuel : Nat) (s : PmacSt) (A msg : Bytes) (hf : msg.length ≤ fuel)
    (h : PmacMid c s A) (hp : s.pos = 0) (hA : A.length / c.bs < pmacLimit c.bs) :
    (A.length + msg.length ≤ c.bs * pmacLimit c.bs → ∃ s' A' T, pmacLoop c d fuel s msg = .ok (s', T) ∧ A ++ msg = A' ++ T ∧
      PmacMid c s' A' ∧ s'.pos = 0 ∧ T.length ≤ c.bs ∧ (T = [] → msg = [] ∧ A' = A)) ∧
    (c.bs * pmacLimit c.bs < A.length + msg.length → pmacLoop c d fuel s msg = .panic) := by
  have hb := c.bs_pos
  induction fuel generalizing s A msg with
  | zero =>
    have : msg = [] := List.eq_nil_of_length_eq_zero (by omega)
    subst this
    refine ⟨fun _ => ⟨s, A, [], rfl, rfl, h, hp, by simp, fun _ => ⟨rfl, rfl⟩⟩, ?_⟩
    intro hlt
    obtain ⟨q, hq⟩ := h.dvd
    rw [hq, Nat.mul_div_cancel_left _ hb] at hA
    rw [hq] at hlt
    simp only [List.length_nil, Nat.add_zero] at hlt
    have := Nat.lt_of_mul_lt_mul_left hlt
    omega
  | succ fuel ih =>
    obtain ⟨q, hq⟩ := h.dvd
    have hdiv : A.length / c.bs = q := by rw [hq, Nat.mul_div_cancel_left _ hb]
    unfold pmacLoop
    by_cases hlen : msg.length > c.bs
    · rw [if_pos hlen]
      have hcp : copyInto s.buf (msg.take c.bs) = msg.take c.bs := by
        unfold copyInto
        rw [h.buf, List.take_of_length_le (by rw [List.length_take]; omega), List.drop_of_length_le (by rw [h.buf, List.length_take]; omega),
          List.append_nil]
      rw [hcp]
      have hl : (msg.take c.bs).length = c.bs := by rw [List.length_take]; omega
      obtain ⟨p1, p2⟩ := pmac_process hd s A (msg.take c.bs) ⟨h.dvd, h.ctr, h.offset, h.digest, hl⟩
      by_cases hlim : A.length / c.bs + 1 < pmacLimit c.bs
      · obtain ⟨s', e, hm, hp'⟩ := p1 hlim
        rw [e]
        simp only [Res.bind_ok]
        obtain ⟨i1, i2⟩ := ih s' (A ++ msg.take c.bs) (msg.drop c.bs) (by rw [List.length_drop]; omega) hm hp'
          (by rw [List.length_append, hl, Nat.add_div_right _ hb]; exact hlim)
        have hsum : (A ++ msg.take c.bs).length + (msg.drop c.bs).length = A.length + msg.length := by
          rw [List.length_append, hl, List.length_drop]; omega
        rw [hsum] at i1 i2
        refine ⟨fun hle => ?_, i2⟩
        obtain ⟨s'', A', T, e2, e3, hm2, hp2, hT, hn⟩ := i1 hle
        refine ⟨s'', A', T, e2, ?_, hm2, hp2, hT, ?_⟩
        · rw [← e3, List.append_assoc, List.take_append_drop]
        · intro e
          have := (hn e).1
          have := congrArg List.length this
          rw [List.length_drop] at this; simp at this; omega
      · rw [p2 (by omega)]
        refine ⟨fun hle => ?_, fun _ => rfl⟩
        exfalso
        have hq' : q + 1 = pmacLimit c.bs := by omega
        rw [← hq', hq, Nat.mul_add] at hle
        omega
    · rw [if_neg hlen]
      refine ⟨fun _ => ⟨s, A, msg, rfl, rfl, h, hp, by omega, fun e => ⟨e, rfl⟩⟩, ?_⟩
      intro hlt
      exfalso
      have : q + 1 ≤ pmacLimit c.bs := by omega
      have := Nat.mul_le_mul_left c.bs this
      rw [Nat.mul_add] at this
      omega

/-- The state holds message `M`. -/
def PmacHolds (c : BlockCipher) (s : PmacSt) (M : Bytes) : Prop :=
  ∃ A T, M = A ++ T ∧ PmacMid c s A ∧ T.length ≤ c.bs ∧ (T = [] → A = []) ∧ s.pos = T.length ∧ s.buf.take T.length = T ∧
    M.length ≤ c.bs * pmacLimit c.bs

theorem limit_pos (n : Nat) : 0 < pmacLimit n := Nat.pos_of_ne_zero (by simp [pmacLimit])

theorem copy_tail (buf T x : Bytes) (n : Nat) (hbuf : buf.length = n) (hT : buf.take T.length = T) (hx : T.length + x.length ≤ n) :
    (buf.take T.length ++ copyInto (buf.drop T.length) x).take (T.length + x.length) = T ++ x ∧
    (buf.take T.length ++ copyInto (buf.drop T.length) x).length = n := by
  rw [hT]
  have hd : (buf.drop T.length).length = n - T.length := by rw [List.length_drop, hbuf]
  unfold copyInto
  rw [hd, List.take_of_length_le (l := x) (by omega)]
  constructor
  · rw [← List.append_assoc, List.take_append_of_le_length (by rw [List.length_append]),
      List.take_of_length_le (by rw [List.length_append])]
  · simp only [List.length_append, List.length_drop, hbuf]; omega

theorem pmac_write {d : Pmac} {ts : Nat} (hd : d.OK c ts) (s : PmacSt) (M x : Bytes) (h : PmacHolds c s M) :
    (M.length + x.length ≤ c.bs * pmacLimit c.bs → ∃ s', pmacWrite c d s x = .ok s' ∧ PmacHolds c s' (M ++ x)) ∧
    (c.bs * pmacLimit c.bs < M.length + x.length → pmacWrite c d s x = .panic) := by
  obtain ⟨A, T, rfl, hm, hT, hne, hpos, hbuf, hML⟩ := h
  have hb := c.bs_pos
  have hlp := limit_pos c.bs
  obtain ⟨q, hq⟩ := hm.dvd
  have hdiv : A.length / c.bs = q := by rw [hq, Nat.mul_div_cancel_left _ hb]
  have hAlim : q < pmacLimit c.bs := by
    rw [List.length_append] at hML
    by_cases hT0 : T = []
    · have := hne hT0
      subst this
      have : q = 0 := by
        simp only [List.length_nil] at hq
        rcases Nat.mul_eq_zero.mp hq.symm with h | h
        · omega
        · exact h
      omega
    · have : 0 < T.length := List.length_pos_iff.mpr hT0
      have h2 : c.bs * q < c.bs * pmacLimit c.bs := by omega
      exact Nat.lt_of_mul_lt_mul_left h2
  unfold pmacWrite
  simp only
  rw [hpos]
  -- the last stage
  have final : ∀ (s1 : PmacSt) (A1 x1 : Bytes), PmacMid c s1 A1 → s1.pos = 0 → A1 ++ x1 = (A ++ T) ++ x → (x1 = [] → A1 = []) →
      A1.length / c.bs < pmacLimit c.bs →
      ((A ++ T).length + x.length ≤ c.bs * pmacLimit c.bs → ∃ s', (do
          let r ← pmacLoop c d x1.length s1 x1
          if r.2.length > 0 then
            Res.ok { r.1 with buf := r.1.buf.take r.1.pos ++ copyInto (r.1.buf.drop r.1.pos) r.2, pos := r.1.pos + r.2.length }
          else .ok r.1) = .ok s' ∧ PmacHolds c s' (A ++ T ++ x)) ∧
      (c.bs * pmacLimit c.bs < (A ++ T).length + x.length → (do
          let r ← pmacLoop c d x1.length s1 x1
          if r.2.length > 0 then
            Res.ok { r.1 with buf := r.1.buf.take r.1.pos ++ copyInto (r.1.buf.drop r.1.pos) r.2, pos := r.1.pos + r.2.length }
          else .ok r.1) = .panic) := by
    intro s1 A1 x1 hm1 hp1 he1 hne1 hlim1
    have hlen : A1.length + x1.length = (A ++ T).length + x.length := by
      rw [← List.length_append, ← List.length_append, he1]
    obtain ⟨l1, l2⟩ := pmac_loop hd x1.length s1 A1 x1 (Nat.le_refl _) hm1 hp1 hlim1
    rw [hlen] at l1 l2
    refine ⟨fun hle => ?_, fun hlt => by rw [l2 hlt]; rfl⟩
    obtain ⟨s2, A2, T2, e2, e3, hm2, hp2, hT2, hn2⟩ := l1 hle
    rw [e2]
    simp only [Res.bind_ok]
    rw [← he1, e3]
    by_cases h0 : T2.length > 0
    · rw [if_pos h0]
      have hc := copy_tail s2.buf [] T2 c.bs hm2.buf (by simp) (by simpa using hT2)
      simp only [List.length_nil, Nat.zero_add, List.nil_append] at hc
      refine ⟨_, rfl, A2, T2, rfl, ⟨hm2.dvd, hm2.ctr, hm2.offset, hm2.digest, ?_⟩, hT2, ?_, ?_, ?_, ?_⟩
      · simp only [hp2]; exact hc.2
      · intro e; rw [e] at h0; simp at h0
      · simp [hp2]
      · simp only [hp2]; exact hc.1
      · rw [← e3, List.length_append, hlen]; exact hle
    · rw [if_neg h0]
      have hT20 : T2 = [] := List.eq_nil_of_length_eq_zero (by omega)
      obtain ⟨n1, n2⟩ := hn2 hT20
      subst hT20
      refine ⟨_, rfl, A2, [], rfl, hm2, by simp, fun _ => by rw [n2]; exact hne1 n1, by simp [hp2], by simp, ?_⟩
      · rw [← e3, List.length_append, hlen]; exact hle
  by_cases h1 : x.length > c.bs - T.length
  · rw [if_pos h1]
    have htk : (x.take (c.bs - T.length)).length = c.bs - T.length := by rw [List.length_take]; omega
    have hcp := copy_tail s.buf T (x.take (c.bs - T.length)) c.bs hm.buf hbuf (by omega)
    rw [htk, show T.length + (c.bs - T.length) = c.bs by omega, List.take_of_length_le (by rw [hcp.2])] at hcp
    rw [hcp.1]
    have hBl : (T ++ x.take (c.bs - T.length)).length = c.bs := by rw [List.length_append, htk]; omega
    obtain ⟨p1, p2⟩ := pmac_process hd s A (T ++ x.take (c.bs - T.length)) ⟨hm.dvd, hm.ctr, hm.offset, hm.digest, hBl⟩
    rw [hpos] at p1 p2
    by_cases hlim : A.length / c.bs + 1 < pmacLimit c.bs
    · obtain ⟨s', e, hm', hp'⟩ := p1 hlim
      rw [e]
      simp only [Res.bind_ok]
      refine final s' _ _ hm' hp' (by simp [List.append_assoc]) ?_ ?_
      · intro e
        have := congrArg List.length e
        rw [List.length_drop] at this; simp at this; omega
      · rw [List.length_append, hBl, Nat.add_div_right _ hb]; exact hlim
    · rw [p2 (by omega)]
      refine ⟨fun hle => ?_, fun _ => rfl⟩
      exfalso
      have hq' : q + 1 = pmacLimit c.bs := by omega
      rw [List.length_append, ← hq', hq, Nat.mul_add] at hle
      omega
  · rw [if_neg h1]
    simp only [Res.bind_ok]
    by_cases hT0 : T = []
    · have hA0 := hne hT0
      subst hT0
      exact final s A x hm (by simpa using hpos) (by simp) (fun _ => hA0) (by omega)
    · have hTp : 0 < T.length := List.length_pos_iff.mpr hT0
      have hstop : pmacLoop c d x.length s x = .ok (s, x) := by
        cases hx : x.length with
        | zero => rfl
        | succ k => unfold pmacLoop; rw [if_neg (by omega)]
      rw [hstop]
      simp only [Res.bind_ok]
      have hle : (A ++ T).length + x.length ≤ c.bs * pmacLimit c.bs := by
        have : q + 1 ≤ pmacLimit c.bs := by omega
        have := Nat.mul_le_mul_left c.bs this
        rw [Nat.mul_add] at this
        rw [List.length_append, hq]; omega
      refine ⟨fun _ => ?_, fun hlt => by omega⟩
      have hcp := copy_tail s.buf T x c.bs hm.buf hbuf (by omega)
      by_cases h0 : x.length > 0
      · rw [if_pos h0]
        refine ⟨_, rfl, A, T ++ x, by simp, ⟨hm.dvd, hm.ctr, hm.offset, hm.digest, ?_⟩, by rw [List.length_append]; omega, ?_, ?_, ?_, ?_⟩
        · simp only [hpos]; exact hcp.2
        · intro e; exact absurd (List.append_eq_nil_iff.mp e).1 hT0
        · simp [hpos]
        · simp only [hpos, List.length_append]; exact hcp.1
        · rw [List.length_append]; exact hle
      · rw [if_neg h0]
        have : x = [] := List.eq_nil_of_length_eq_zero (by omega)
        subst this
        exact ⟨_, rfl, A, T, by simp, hm, hT, hne, hpos, hbuf, by simpa using hML⟩

theorem tailLen_eq (n : Nat) (hn : 0 < n) (A T : Bytes) (hA : n ∣ A.length) (hT : T.length ≤ n) (hne : T = [] → A = []) :
    Spec.tailLen n (A ++ T) = T.length := by
  unfold Spec.tailLen
  obtain ⟨q, hq⟩ := hA
  by_cases hT0 : T = []
  · rw [hne hT0, hT0]; rfl
  · have hp : 0 < T.length := List.length_pos_iff.mpr hT0
    rw [if_neg (by intro e; exact hT0 (List.append_eq_nil_iff.mp e).2), List.length_append, hq]
    rw [show n * q + T.length - 1 = n * q + (T.length - 1) by omega, Nat.mul_add_mod, Nat.mod_eq_of_lt (by omega)]
    omega

/-- The tag of a state that holds `M`. -/
theorem pmac_sum {d : Pmac} {ts : Nat} (hd : d.OK c ts) (s : PmacSt) (M : Bytes) (h : PmacHolds c s M) :
    pmacCheckSum c d s = Spec.pmac c.E c.bs 0x87 (pmacInv (c.E (Spec.zero c.bs))) M := by
  obtain ⟨A, T, rfl, hm, hT, hne, hpos, hbuf, -⟩ := h
  have hb := c.bs_pos
  have hdl : s.digest.length = c.bs := by rw [hm.digest]; exact pmacSum_length _ (Mode.chunks_all_len _ hb _ hm.dvd)
  have hil : (pmacInv (Spec.lPow c.E c.bs 0x87 0)).length = c.bs := by rw [pmacInv_length, lPow_length]
  unfold pmacCheckSum Spec.pmac
  simp only
  rw [tailLen_eq _ hb _ _ hm.dvd hT hne, List.length_append, Nat.add_sub_cancel, List.take_left, List.drop_left, hpos]
  by_cases hw : T.length = c.bs
  · rw [if_pos hw, if_pos hw]
    have hbT : s.buf = T := by rw [← hbuf, List.take_of_length_le (by rw [hw, hm.buf])]
    rw [hbT, xorInto_eq (a := s.digest) (by omega), hd.lInv, xorInto_eq (by rw [xorb_length]; omega), xorb_assoc, hm.digest]
    rfl
  · rw [if_neg hw, if_neg hw, hbuf, xorInto_set _ _ (by omega), hdl, hm.digest]
    have := pad2_append c.bs [] T (by simp) (by omega)
    simp only [List.nil_append] at this
    rw [this]

end Verif.Mac
