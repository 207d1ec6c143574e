import Verif.Aead.OcbModel
import Verif.Aead.Ocb3Core
/-
Lemmas for OCB: the initial offset, the mask cache, the hash and the loop over whole blocks.
-/
namespace Verif.Aead
open Verif.Mode (chunks)
open Verif.Mode.Spec (natBe beNat)

/-! Shifts. -/

theorem shl_orb (a y : Byte) (b : Nat) (hb : b ≤ 8) :
    (a <<< b) ||| (y >>> (8 - b)) = BitVec.ofNat 8 (2 ^ b * a.toNat + y.toNat / 2 ^ (8 - b)) := by
  have hy := y.isLt
  have e : (2 : Nat) ^ 8 = 2 ^ b * 2 ^ (8 - b) := by rw [← Nat.pow_add]; congr 1; omega
  have hlt : y.toNat / 2 ^ (8 - b) < 2 ^ b := Nat.div_lt_of_lt_mul (by rw [Nat.mul_comm, ← e]; exact hy)
  apply BitVec.eq_of_toNat_eq
  rw [BitVec.toNat_or, BitVec.toNat_shiftLeft, BitVec.toNat_ushiftRight, Nat.shiftLeft_eq, Nat.shiftRight_eq_div_pow,
    BitVec.toNat_ofNat, Nat.mul_comm]
  have h1 : 2 ^ b * a.toNat % 2 ^ 8 = 2 ^ b * (a.toNat % 2 ^ (8 - b)) := by rw [e, Nat.mul_mod_mul_left]
  rw [h1, or_split _ _ _ hlt, ← h1]
  have h2 : 2 ^ b * a.toNat % 2 ^ 8 + y.toNat / 2 ^ (8 - b) < 2 ^ 8 := by
    rw [h1]
    have h9 : a.toNat % 2 ^ (8 - b) + 1 ≤ 2 ^ (8 - b) := Nat.mod_lt _ (Nat.pow_pos (by decide))
    have := Nat.mul_le_mul_left (2 ^ b) h9
    rw [← e, Nat.mul_add] at this
    omega
  generalize 2 ^ b * a.toNat = X at *
  generalize y.toNat / 2 ^ (8 - b) = Y at *
  clear e h1 hlt
  omega

theorem shiftBits_eq (b : Nat) (hb : b < 8) (x : Bytes) : shiftBits b x = natBe x.length (2 ^ b * beNat x) := by
  induction x with
  | nil => rfl
  | cons a t ih =>
    cases t with
    | nil =>
      have := shl_orb a 0 b (by omega)
      have h0 : a <<< b = (a <<< b) ||| ((0 : Byte) >>> (8 - b)) := by simp
      simp only [shiftBits]
      rw [h0, this]
      simp [natBe, beNat]
    | cons y t =>
      rw [shiftBits, ih, shl_orb _ _ _ (by omega), show (a :: y :: t).length = (y :: t).length + 1 from rfl,
        natBe_cons (y :: t).length]
      have hb1 := beNat_cons a (y :: t)
      have hb' := beNat_cons y t
      have hlt := beNat_lt t
      have e : (y :: t).length = t.length + 1 := rfl
      refine congr (congrArg List.cons ?_) ?_
      · rw [hb1, hb', e, Nat.pow_succ]
        refine congrArg (BitVec.ofNat 8) ?_
        generalize hp : 256 ^ t.length = p at *
        have hp0 : 0 < p := by rw [← hp]; exact Nat.pow_pos (by decide)
        have e256 : (256 : Nat) = 2 ^ b * 2 ^ (8 - b) := by rw [← Nat.pow_add, show b + (8 - b) = 8 by omega]
        generalize hB : 2 ^ b = B at *
        have hB0 : 0 < B := by rw [← hB]; exact Nat.pow_pos (by decide)
        have e1 : B * (a.toNat * (p * 256) + (y.toNat * p + beNat t)) =
            (p * 256) * (B * a.toNat) + (p * (B * y.toNat) + B * beNat t) := by
          rw [Nat.mul_add, Nat.mul_add, ← Nat.mul_assoc, Nat.mul_comm (B * a.toNat), ← Nat.mul_assoc B, Nat.mul_comm _ p]
        rw [e1, Nat.mul_add_div (by omega)]
        refine congrArg (B * a.toNat + ·) ?_
        rw [← Nat.div_div_eq_div_mul, Nat.mul_add_div hp0]
        have hk : B * beNat t / p < B := Nat.div_lt_of_lt_mul (by
          rw [Nat.mul_comm p]; exact Nat.mul_lt_mul_of_pos_left hlt hB0)
        generalize B * beNat t / p = k at hk ⊢
        rw [e256, ← Nat.div_div_eq_div_mul, Nat.mul_add_div hB0, Nat.div_eq_of_lt hk, Nat.add_zero]
      · apply natBe_congr
        rw [hb1, Nat.mul_add, ← Nat.mul_assoc, Nat.mul_add_mod']

theorem beNat_replicate (k : Nat) : beNat (List.replicate k (0 : Byte)) = 0 := by
  rw [← natBe_zero k, beNat_natBe k 0 (Nat.pow_pos (by decide))]

theorem shiftLeftN_eq (x : Bytes) (n : Nat) (h : n / 8 ≤ x.length) : shiftLeftN x n = natBe x.length (2 ^ n * beNat x) := by
  unfold shiftLeftN
  have hl : (x.drop (n / 8) ++ List.replicate (n / 8) (0 : Byte)).length = x.length := by simp; omega
  rw [shiftBits_eq _ (by omega), hl]
  apply natBe_congr
  rw [beNat_app, beNat_replicate, List.length_replicate, Nat.add_zero]
  have hx : beNat x = beNat (x.take (n / 8)) * 256 ^ (x.length - n / 8) + beNat (x.drop (n / 8)) := by
    have := beNat_app (x.take (n / 8)) (x.drop (n / 8))
    rw [List.take_append_drop, List.length_drop] at this
    exact this
  have e : 2 ^ n = 2 ^ (n % 8) * 256 ^ (n / 8) := by
    rw [show (256 : Nat) = 2 ^ 8 from rfl, ← Nat.pow_mul, ← Nat.pow_add]; congr 1; omega
  have e2 : 256 ^ x.length = 256 ^ (x.length - n / 8) * 256 ^ (n / 8) := by rw [← Nat.pow_add]; congr 1; omega
  rw [hx, e]
  generalize beNat (x.take (n / 8)) = A
  generalize beNat (x.drop (n / 8)) = B
  rw [show 2 ^ (n % 8) * 256 ^ (n / 8) * (A * 256 ^ (x.length - n / 8) + B) =
    256 ^ x.length * (2 ^ (n % 8) * A) + 2 ^ (n % 8) * (B * 256 ^ (n / 8)) by rw [e2]; ring, Nat.mul_add_mod]

theorem beNat_xorb (a b : Bytes) (h : a.length = b.length) : beNat (xorb a b) = beNat a ^^^ beNat b := by
  have h1 := natBe_xor a.length (beNat a) (beNat b)
  rw [Mode.natBe_beNat, h, Mode.natBe_beNat] at h1
  rw [← h1, beNat_natBe]
  rw [show (256 : Nat) = 2 ^ 8 from rfl, ← Nat.pow_mul]
  apply Nat.xor_lt_two_pow
  · have := beNat_lt a; rw [h, show (256 : Nat) = 2 ^ 8 from rfl, ← Nat.pow_mul] at this; exact this
  · have := beNat_lt b; rw [show (256 : Nat) = 2 ^ 8 from rfl, ← Nat.pow_mul] at this; exact this

theorem take_natBe (k L w : Nat) : (natBe (k + L) w).take k = natBe k (w / 256 ^ L) := by
  have h := natBe_split k L (w / 256 ^ L) (w % 256 ^ L) (Nat.mod_lt _ (Nat.pow_pos (by decide)))
  rw [Nat.mul_comm, Nat.div_add_mod] at h
  rw [h, List.take_left' (Mode.natBe_len _ _)]

/-- The offset that the code takes out of `Ktop`. -/
theorem ocb_offset_eq (K : Bytes) (hK : K.length = 16) (b : Nat) (hb : b < 64) :
    (shiftLeftN (K ++ xorb (K.take 8) ((K.drop 1).take 8)) b).take 16 =
      natBe 16 ((beNat K * 2 ^ 64 + (beNat (K.take 8) ^^^ beNat ((K.drop 1).take 8))) / 2 ^ (64 - b)) := by
  have l1 : (K.take 8).length = ((K.drop 1).take 8).length := by simp; omega
  have l2 : (xorb (K.take 8) ((K.drop 1).take 8)).length = 8 := by rw [xorb_length]; simp; omega
  have l3 : (K ++ xorb (K.take 8) ((K.drop 1).take 8)).length = 16 + 8 := by rw [List.length_append, hK, l2]
  rw [shiftLeftN_eq _ _ (by omega), l3, take_natBe, beNat_app, l2, beNat_xorb _ _ l1]
  refine congrArg (natBe 16) ?_
  rw [show (256 : Nat) ^ 8 = 2 ^ b * 2 ^ (64 - b) by rw [← Nat.pow_add, show b + (64 - b) = 64 by omega]; rfl,
    Nat.mul_div_mul_left _ _ (Nat.pow_pos (by decide)), ← Nat.pow_add, show b + (64 - b) = 64 by omega]

/-! The nonce block. -/

theorem ocbPadded_head : ∀ t, t < 17 → ∀ j, j < 16 →
    (List.replicate j (0 : Byte) ++ [1]).set 0 ((List.replicate j (0 : Byte) ++ [1]).getD 0 0 |||
      BitVec.ofInt 8 (((8 * (t : Int)).tmod 128) * 2)) = natBe (j + 1) (2 * (8 * t % 128) * 256 ^ j + 1) := by
  decide +kernel

theorem ocbTrunc_snoc (N : Bytes) (a : Byte) : ocbTrunc (N ++ [a]) = N ++ [a &&& 192] := by
  unfold ocbTrunc
  simp

theorem and192 (a : Byte) : (a &&& 192).toNat = a.toNat - a.toNat % 64 := by
  have : ∀ a : Byte, (a &&& 192).toNat = a.toNat - a.toNat % 64 := by decide +kernel
  exact this a

theorem and63 (a : Byte) : (a &&& 63).toNat = a.toNat % 64 := by
  have : ∀ a : Byte, (a &&& 63).toNat = a.toNat % 64 := by decide +kernel
  exact this a

theorem ocbNonce_bottom (t : Nat) (N : Bytes) (a : Byte) (hN : N.length ≤ 14) :
    Spec.ocbNonce t (N ++ [a]) % 64 = a.toNat % 64 := by
  rw [ocbNonce_split t (N ++ [a]) (14 - N.length) (by simp; omega), Mode.beNat_append, List.length_append,
    List.length_singleton, Nat.pow_succ]
  generalize (2 * (8 * t % 128) * 256 ^ (14 - N.length) + 1) = X
  rw [← Nat.mul_assoc]
  omega

theorem ocbPadded_eq (t : Nat) (ht : t ≤ 16) (N : Bytes) (a : Byte) (hN : N.length ≤ 14) :
    ocbPadded t (ocbTrunc (N ++ [a])) =
      natBe 16 (Spec.ocbNonce t (N ++ [a]) - Spec.ocbNonce t (N ++ [a]) % 64) := by
  obtain ⟨j, hj⟩ : ∃ j, j + N.length = 14 := ⟨14 - N.length, by omega⟩
  have hh := ocbPadded_head t (by omega) j (by omega)
  rw [ocbTrunc_snoc]
  unfold ocbPadded
  simp only
  have hl : (N ++ [a &&& 192]).length = N.length + 1 := by simp
  rw [hl, show 15 - (N.length + 1) = j by omega]
  have e1 : ((List.replicate j (0 : Byte) ++ [1] ++ (N ++ [a &&& 192])).set 0
      ((List.replicate j (0 : Byte) ++ [1] ++ (N ++ [a &&& 192])).getD 0 0 ||| BitVec.ofInt 8 ((8 * (t : Int)).tmod 128 * 2))) =
      natBe (j + 1) (2 * (8 * t % 128) * 256 ^ j + 1) ++ (N ++ [a &&& 192]) := by
    rw [← hh, List.set_append, if_pos (by simp), List.getD_eq_getElem?_getD, List.getElem?_append_left (by simp),
      ← List.getD_eq_getElem?_getD]
  rw [e1]
  have e2 : (natBe (j + 1) (2 * (8 * t % 128) * 256 ^ j + 1) ++ (N ++ [a &&& 192])).length = 16 := by
    simp [Mode.natBe_len]; omega
  have e3 : (natBe (j + 1) (2 * (8 * t % 128) * 256 ^ j + 1) ++ (N ++ [a &&& 192])).set 15
      ((natBe (j + 1) (2 * (8 * t % 128) * 256 ^ j + 1) ++ (N ++ [a &&& 192])).getD 15 0 &&& 192) =
      natBe (j + 1) (2 * (8 * t % 128) * 256 ^ j + 1) ++ (N ++ [a &&& 192]) := by
    rw [← List.append_assoc]
    have l : (natBe (j + 1) (2 * (8 * t % 128) * 256 ^ j + 1) ++ N).length = 15 := by
      rw [List.length_append, Mode.natBe_len]; omega
    rw [List.set_append_right _ _ (by omega), List.getD_eq_getElem?_getD, List.getElem?_append_right (by omega), l]
    simp [BitVec.and_assoc]
  rw [e3, ocbNonce_bottom t N a hN, ocbNonce_split t (N ++ [a]) j (by simp; omega), List.length_append, List.length_singleton]
  have hv : beNat (N ++ [a &&& 192]) = beNat (N ++ [a]) - a.toNat % 64 ∧ a.toNat % 64 ≤ beNat (N ++ [a]) := by
    rw [Mode.beNat_append, Mode.beNat_append, and192]; omega
  have hlt := beNat_lt (N ++ [a &&& 192])
  rw [hl] at hlt
  rw [Nat.add_sub_assoc hv.2, ← hv.1, show (16 : Nat) = (j + 1) + (N.length + 1) by omega, natBe_split _ _ _ _ hlt,
    ← hl, Mode.natBe_beNat]

/-! The mask cache. -/

/-- What an object's state means: the masks are right, and the cached `Ktop` belongs to the cached nonce prefix. -/
structure Ocb.OK (c : BlockCipher) (ns ts : Nat) (o : Ocb) : Prop where
  h16 : c.bs = 16
  tag : o.tagSize = (ts : Int)
  tag16 : ts ≤ 16
  nonce : o.nonceSize = ns
  nonce1 : 1 ≤ ns
  nonce15 : ns ≤ 15
  last : o.lAst = Spec.ocbLstar c.E
  ldol : o.lDol = Spec.ocbLdollar c.E
  pos : 0 < o.L.length
  tab : ∀ i, i < o.L.length → o.L.getD i [] = Spec.ocbL c.E i
  ktop : o.noncePrefix ≠ [] → o.Ktop = c.E (ocbPadded ts o.noncePrefix)

theorem ocbNew_ok {c : BlockCipher} {ns ts : Int} {o : Ocb} (h : ocbNew c ns ts = .ok o) (hts : 0 ≤ ts) :
    o.OK c ns.toNat ts.toNat := by
  unfold ocbNew at h
  by_cases h1 : c.bs ≠ 16
  · rw [if_pos h1] at h; simp at h
  · have h16 : c.bs = 16 := by omega
    rw [if_neg h1] at h
    by_cases h2 : ns < 1
    · rw [if_pos h2] at h; simp at h
    · rw [if_neg h2] at h
      by_cases h3 : ns ≥ (c.bs : Int)
      · rw [if_pos h3] at h; simp at h
      · rw [if_neg h3] at h
        by_cases h4 : ts > (c.bs : Int)
        · rw [if_pos h4] at h; simp at h
        · rw [if_neg h4, h16] at h
          simp only at h
          rw [gfnDouble_eq _ (lenE16 h16 _ (by simp)), Res.bind_ok, gfnDouble_eq _ (gfDouble_length _), Res.bind_ok] at h
          simp only [Res.ok.injEq] at h
          subst h
          refine ⟨h16, ?_, ?_, rfl, ?_, ?_, rfl, rfl, by simp, ?_, by simp⟩
          · simp only; omega
          · omega
          · omega
          · omega
          · intro i hi
            have : i = 0 := by simpa using hi
            subst this; rfl

theorem ocbExtend_eq (E : Bytes → Bytes) (k : Nat) (L : List Bytes) (h0 : 0 < L.length)
    (h : ∀ i, i < L.length → L.getD i [] = Spec.ocbL E i) :
    ∃ L', ocbExtend k L = .ok L' ∧ L'.length = L.length + k ∧ ∀ i, i < L'.length → L'.getD i [] = Spec.ocbL E i := by
  induction k generalizing L with
  | zero => exact ⟨L, rfl, by simp, h⟩
  | succ k ih =>
    have hl : L.getLastD [] = Spec.ocbL E (L.length - 1) := by
      rw [← h (L.length - 1) (by omega), List.getLastD_eq_getLast?, List.getLast?_eq_getElem?, List.getD_eq_getElem?_getD]
    unfold ocbExtend
    rw [hl, gfnDouble_eq _ (ocbL_length _ _), Res.bind_ok]
    obtain ⟨L', g1, g2, g3⟩ := ih (L ++ [Spec.gfDouble (Spec.ocbL E (L.length - 1))]) (by simp) (by
      intro i hi
      rw [List.getD_eq_getElem?_getD]
      by_cases hi' : i < L.length
      · rw [List.getElem?_append_left hi', ← List.getD_eq_getElem?_getD]; exact h i hi'
      · have : i = L.length := by simp at hi; omega
        subst this
        rw [List.getElem?_append_right (by omega)]
        obtain ⟨n, hn⟩ : ∃ n, L.length = n + 1 := ⟨L.length - 1, by omega⟩
        rw [hn, Nat.add_sub_cancel]
        simp [Spec.ocbL])
    exact ⟨L', g1, by rw [g2]; simp; omega, g3⟩

theorem ocbMask_eq (E : Bytes → Bytes) (L : List Bytes) (i : Nat) (h0 : 0 < L.length)
    (h : ∀ i, i < L.length → L.getD i [] = Spec.ocbL E i) :
    ∃ L', ocbMask L i = .ok (Spec.ocbL E (Spec.ntz i), L') ∧ 0 < L'.length ∧
      ∀ i, i < L'.length → L'.getD i [] = Spec.ocbL E i := by
  unfold ocbMask
  by_cases hc : L.length < Spec.ntz i + 1
  · rw [if_pos hc]
    obtain ⟨L', g1, g2, g3⟩ := ocbExtend_eq E (Spec.ntz i + 1 - L.length) L h0 h
    rw [g1, Res.bind_ok]
    simp only
    rw [g3 (Spec.ntz i) (by omega)]
    exact ⟨L', rfl, by omega, g3⟩
  · rw [if_neg hc, Res.bind_ok]
    simp only
    rw [h (Spec.ntz i) (by omega)]
    exact ⟨L, rfl, h0, h⟩

/-! Initial offset. -/

theorem ocbInit_eq {c : BlockCipher} {ns ts : Nat} {o : Ocb} (ho : o.OK c ns ts) (N : Bytes) (h1 : 1 ≤ N.length)
    (h2 : N.length ≤ ns) :
    ∃ o', ocbInit c o N = .ok (Spec.ocbStart c.E ts N, o') ∧ o'.OK c ns ts ∧ o'.L = o.L := by
  have h15 := ho.nonce15
  obtain ⟨N', a, rfl⟩ : ∃ N' a, N = N' ++ [a] := by
    have hne : N ≠ [] := by intro h; rw [h] at h1; simp at h1
    exact ⟨N.dropLast, N.getLast hne, (List.dropLast_append_getLast hne).symm⟩
  have hN' : N'.length ≤ 14 := by simp at h2; omega
  have hp := ocbPadded_eq ts ho.tag16 N' a hN'
  have hbot := ocbNonce_bottom ts N' a hN'
  have hne : ocbTrunc (N' ++ [a]) ≠ [] := by rw [ocbTrunc_snoc]; simp
  have hga : (N' ++ [a]).getD ((N' ++ [a]).length - 1) 0 = a := by
    rw [List.getD_eq_getElem?_getD]; simp
  unfold ocbInit
  rw [if_neg (by simp), hga, and63]
  simp only
  have key : ∀ K, K = c.E (ocbPadded ts (ocbTrunc (N' ++ [a]))) →
      (shiftLeftN (K ++ xorb (K.take 8) ((K.drop 1).take 8)) (a.toNat % 64)).take 16 = Spec.ocbStart c.E ts (N' ++ [a]) := by
    intro K hK
    have hKl : K.length = 16 := by rw [hK, hp]; exact lenE16 ho.h16 _ (Mode.natBe_len _ _)
    rw [ocb_offset_eq K hKl _ (by omega), hK, hp]
    unfold Spec.ocbStart
    simp only
    rw [hbot]
  by_cases hc : ocbTrunc (N' ++ [a]) = o.noncePrefix
  · rw [if_pos hc]
    rw [key o.Ktop (by rw [ho.ktop (by rw [← hc]; exact hne), ← hc])]
    exact ⟨o, rfl, ho, rfl⟩
  · rw [if_neg hc]
    simp only
    rw [key _ (by rw [ho.tag])]
    exact ⟨_, rfl, ⟨ho.h16, ho.tag, ho.tag16, ho.nonce, ho.nonce1, ho.nonce15, ho.last, ho.ldol, ho.pos, ho.tab, fun _ => by
      rw [ho.tag]⟩, rfl⟩

/-! Hash. -/

theorem ocbHashLoop_eq (c : BlockCipher) (k i : Nat) (off sum : Bytes) (L : List Bytes) (A : Bytes) (h0 : 0 < L.length)
    (h : ∀ i, i < L.length → L.getD i [] = Spec.ocbL c.E i) (O : Bytes) (ho : off = Spec.ocbOffset c.E O i) (hA : 16 * k ≤ A.length) :
    ∃ L', ocbHashLoop c k i off sum L A = .ok (Spec.ocbOffset c.E O (i + k),
      (((chunks 16 (A.take (16 * k))).zipIdx (i + 1)).map fun (a, i) => c.E (xorb a (Spec.ocbOffset c.E O i))).foldl xorb sum, L') ∧
      0 < L'.length ∧ ∀ i, i < L'.length → L'.getD i [] = Spec.ocbL c.E i := by
  induction k generalizing i off sum L A with
  | zero =>
    refine ⟨L, ?_, h0, h⟩
    unfold ocbHashLoop
    rw [ho]; simp [Mode.chunks_nil]
  | succ k ih =>
    obtain ⟨L1, g1, g2, g3⟩ := ocbMask_eq c.E L (i + 1) h0 h
    unfold ocbHashLoop
    rw [g1, Res.bind_ok]
    simp only
    have ho' : xorb off (Spec.ocbL c.E (Spec.ntz (i + 1))) = Spec.ocbOffset c.E O (i + 1) := by rw [ho]; rfl
    obtain ⟨L2, k1, k2, k3⟩ := ih (i + 1) _ (xorb sum (c.E (xorb (A.take 16) (xorb off (Spec.ocbL c.E (Spec.ntz (i + 1)))))))
      L1 (A.drop 16) g2 g3 ho' (by rw [List.length_drop]; omega)
    refine ⟨L2, ?_, k2, k3⟩
    rw [k1]
    have hne : A.take (16 * (k + 1)) ≠ [] := by
      intro he; have := congrArg List.length he; rw [List.length_take, Nat.min_eq_left (by omega)] at this; simp at this
    have hc : chunks 16 (A.take (16 * (k + 1))) = A.take 16 :: chunks 16 ((A.drop 16).take (16 * k)) := by
      rw [Mode.chunks_cons 16 (by decide) _ hne, List.take_take, List.drop_take, Nat.min_eq_left (by omega)]
      congr 3
    rw [hc, ho']
    simp only [List.zipIdx_cons, List.map_cons, List.foldl_cons]
    rw [show i + 1 + k = i + (k + 1) by omega]

theorem pad_ending (x : Bytes) (h : x.length < 16) :
    x ++ (List.replicate (16 - x.length) (0 : Byte)).set 0 0x80 = Spec.pad10 x := by
  unfold Spec.pad10
  obtain ⟨k, hk⟩ : ∃ k, 16 - x.length = k + 1 := ⟨15 - x.length, by omega⟩
  rw [hk, List.replicate_succ, List.set_cons_zero, show 15 - x.length = k by omega]

theorem ocbHashM_eq {c : BlockCipher} {ns ts : Nat} {o : Ocb} (ho : o.OK c ns ts) (A : Bytes) :
    ∃ o', ocbHashM c o A = .ok (Spec.ocbHash c.E A, o') ∧ o'.OK c ns ts := by
  obtain ⟨L', g1, g2, g3⟩ := ocbHashLoop_eq c (A.length / 16) 0 (List.replicate 16 0) (List.replicate 16 0) o.L A ho.pos ho.tab
    (List.replicate 16 0) rfl (by omega)
  have hok : Ocb.OK c ns ts { o with L := L' } :=
    ⟨ho.h16, ho.tag, ho.tag16, ho.nonce, ho.nonce1, ho.nonce15, ho.last, ho.ldol, g2, g3, ho.ktop⟩
  have hll := lastPart_length A
  have hlen : (A.drop (16 * (A.length / 16))).length = A.length % 16 := by rw [List.length_drop]; omega
  unfold ocbHashM Spec.ocbHash
  rw [g1, Res.bind_ok, Nat.zero_add]
  simp only
  by_cases hr : A.length % 16 ≠ 0
  · rw [if_pos hr, if_neg (by unfold Spec.lastPart; intro h; rw [h] at hlen; simp at hlen; omega)]
    refine ⟨_, ?_, hok⟩
    rw [← hlen, pad_ending _ (by omega), ho.last]
    rfl
  · rw [if_neg hr, if_pos (by unfold Spec.lastPart; apply List.eq_nil_of_length_eq_zero; omega)]
    exact ⟨_, rfl, hok⟩

/-! The loop over whole blocks. -/

theorem ocbLoop_state {c : BlockCipher} (dec : Bool) (k i : Nat) (m : Mem) (Y X : Nat) (off ck : Bytes) (L : List Bytes)
    (h0 : 0 < L.length) (h : ∀ i, i < L.length → L.getD i [] = Spec.ocbL c.E i) :
    ∃ r, ocbLoop c dec k i m Y X off ck L = .ok r ∧ 0 < r.2.2.2.length ∧
      ∀ i, i < r.2.2.2.length → r.2.2.2.getD i [] = Spec.ocbL c.E i := by
  induction k generalizing i m Y X off ck L with
  | zero => exact ⟨_, rfl, h0, h⟩
  | succ k ih =>
    obtain ⟨L1, g1, g2, g3⟩ := ocbMask_eq c.E L (i + 1) h0 h
    unfold ocbLoop
    rw [g1, Res.bind_ok]
    exact ih _ _ _ _ _ _ _ g2 g3

theorem ocbLoop_eq {c : BlockCipher} (h16 : c.bs = 16) (dec : Bool) (k i : Nat) (m : Mem) (Y X : Nat) (off ck : Bytes) (L : List Bytes)
    (h0 : 0 < L.length) (h : ∀ i, i < L.length → L.getD i [] = Spec.ocbL c.E i) (O : Bytes) (hO : O.length = 16)
    (ho : off = Spec.ocbOffset c.E O i) (hd : k = 0 ∨ X + 16 * k ≤ Y ∨ Y + 16 * k ≤ X) :
    ∃ L', ocbLoop c dec k i m Y X off ck L = .ok
      (m.write Y (ocbMap (if dec then c.D else c.E) c.E O (i + 1) (chunks 16 (m.read X (16 * k)))).flatten,
        Spec.ocbOffset c.E O (i + k),
        (if dec then ocbMap c.D c.E O (i + 1) (chunks 16 (m.read X (16 * k))) else chunks 16 (m.read X (16 * k))).foldl xorb ck, L') ∧
      0 < L'.length ∧ ∀ i, i < L'.length → L'.getD i [] = Spec.ocbL c.E i := by
  induction k generalizing i m Y X off ck L with
  | zero =>
    refine ⟨L, ?_, h0, h⟩
    unfold ocbLoop
    rw [ho]
    cases dec <;> simp [Mem.read, Mode.chunks_nil, ocbMap, Mem.write_nil]
  | succ k ih =>
    obtain ⟨L1, g1, g2, g3⟩ := ocbMask_eq c.E L (i + 1) h0 h
    unfold ocbLoop
    rw [g1, Res.bind_ok]
    simp only
    have ho' : xorb off (Spec.ocbL c.E (Spec.ntz (i + 1))) = Spec.ocbOffset c.E O (i + 1) := by rw [ho]; rfl
    rw [ho']
    have hol := ocbOffset_length c.E O hO (i + 1)
    generalize hof : Spec.ocbOffset c.E O (i + 1) = off1 at *
    have l1 : (xorb (m.read X 16) off1).length = 16 := by rw [xorb_length, Mem.read_length, hol]; rfl
    -- the block that is stored
    have hblk : ∃ b, b.length = 16 ∧ b = xorb ((if dec then c.D else c.E) (xorb (m.read X 16) off1)) off1 := by
      refine ⟨_, ?_, rfl⟩
      cases dec
      · rw [xorb_length]; simp only [Bool.false_eq_true, if_false]; rw [lenE16 h16 _ l1, hol]; rfl
      · rw [xorb_length]; simp only [if_true]; rw [lenD16 h16 _ l1, hol]; rfl
    obtain ⟨b, hb, hbe⟩ := hblk
    have hm : (fun m2 : Mem => Mem.write m2 Y (xorb (Mem.read m2 Y 16) off1))
        (if dec then (m.write Y (xorb (m.read X 16) off1)).write Y (c.D ((m.write Y (xorb (m.read X 16) off1)).read Y 16))
          else (m.write Y (xorb (m.read X 16) off1)).write Y (c.E ((m.write Y (xorb (m.read X 16) off1)).read Y 16))) = m.write Y b := by
      rw [Mem.read_write_self' _ _ _ _ l1]
      cases dec
      · have l2 := lenE16 h16 _ l1
        simp only [Bool.false_eq_true, if_false] at hbe ⊢
        rw [Mem.read_write_self' _ _ _ _ l2, ← hbe, Mem.write_write_same _ _ _ _ (by rw [l2, hb]),
          Mem.write_write_same _ _ _ _ (by rw [l1, hb])]
      · have l2 := lenD16 h16 _ l1
        simp only [if_true] at hbe ⊢
        rw [Mem.read_write_self' _ _ _ _ l2, ← hbe, Mem.write_write_same _ _ _ _ (by rw [l2, hb]),
          Mem.write_write_same _ _ _ _ (by rw [l1, hb])]
    simp only at hm
    rw [hm, Mem.read_write_self' _ _ _ _ hb, Mem.read_write_disjoint m Y X 16 b (by omega)]
    obtain ⟨L2, k1, k2, k3⟩ := ih (i + 1) (m.write Y b) (Y + 16) (X + 16) off1
      (xorb ck (if dec then b else m.read X 16)) L1 g2 g3 hof.symm (by omega)
    refine ⟨L2, ?_, k2, k3⟩
    rw [k1]
    have hr : (m.write Y b).read (X + 16) (16 * k) = m.read (X + 16) (16 * k) := by
      apply Mem.read_write_disjoint
      by_cases hk : k = 0
      · subst hk; omega
      · omega
    have h1 : chunks 16 (m.read X (16 * (k + 1))) = m.read X 16 :: chunks 16 (m.read (X + 16) (16 * k)) := by
      rw [show 16 * (k + 1) = 16 + 16 * k by omega, Mem.read_append, Mode.chunks_append 16 (by decide) _ _ (by simp)]
      have h1 : chunks 16 (m.read X 16) = [m.read X 16] := by
        rw [Mode.chunks_cons 16 (by decide) _ (by intro h; have := congrArg List.length h; simp at this),
          List.take_of_length_le (by simp), List.drop_of_length_le (by simp)]; rfl
      rw [h1]; rfl
    rw [hr, h1, ocbMap_cons, ocbMap_cons, hof, List.flatten_cons, Mem.write_append, ← hbe, hb,
      show i + 1 + k = i + (k + 1) by omega]
    refine congrArg Res.ok ?_
    refine congrArg (Prod.mk _) (congrArg (Prod.mk _) (congrArg (fun z => (z, L2)) ?_))
    cases dec
    · simp
    · simp only [if_true, List.foldl_cons]
      simp only [if_true] at hbe
      rw [← hbe]

end Verif.Aead
