import Verif.Hash.StreebogSpec
namespace Verif.Hash.Streebog
open Verif.Cipher

theorem set_tau (f : Nat → Byte) :
    (List.range 64).foldl (fun (r : Bytes) i => r.set (tau.getD i 0) (f i)) (List.replicate 64 0#8) =
      (List.range 64).map fun i => f (tau.getD i 0) := by
  have ht : ∀ i < 64, tau.getD i 0 < 64 ∧ tau.getD (tau.getD i 0) 0 = i := by decide
  obtain ⟨q1, q2⟩ := fold_set (0#8 : Byte) 64 (fun i => tau.getD i 0) f (fun i h => (ht i h).1)
    (fun i j hi hj h => by
      have h1 := (ht i hi).2
      have h2 := (ht j hj).2
      rw [← h1, ← h2, h]) (List.replicate 64 0#8) List.length_replicate 64 (Nat.le_refl _)
  generalize (List.range 64).foldl (fun (r : Bytes) i => r.set (tau.getD i 0) (f i)) (List.replicate 64 0#8) = r at q1 q2 ⊢
  apply List.ext_getElem (by simp [q1])
  intro i h1 h2
  have hi : i < 64 := by omega
  have h3 := q2 (tau.getD i 0) (ht i hi).1
  simp only [(ht i hi).2] at h3
  rw [List.getD_eq_getElem?_getD, List.getElem?_eq_getElem h1] at h3
  simpa using h3

theorem ps_eq (v : Bytes) : ps v = Spec.PS v := set_tau fun i => pi.getD (v.getD i 0).toNat 0

theorem top_bit (x : BitVec 64) : (x &&& 0x8000000000000000 > 0) ↔ x.getLsbD 63 = true := by
  have e : x &&& 0x8000000000000000#64 = if x.getLsbD 63 then 0x8000000000000000#64 else 0#64 := by
    rw [show (0x8000000000000000#64 : BitVec 64) = BitVec.twoPow 64 63 by decide, BitVec.and_twoPow]
  constructor
  · intro h
    cases hx : x.getLsbD 63 with
    | true => rfl
    | false =>
      have h' : x &&& 0x8000000000000000#64 > 0#64 := h
      rw [e, hx] at h'
      exact absurd h' (by decide)
  · intro h
    show x &&& 0x8000000000000000#64 > 0#64
    rw [e, h]; decide

theorem lWord_aux (val : BitVec 64) (n : Nat) (hn : n ≤ 64) :
    (List.range n).foldl (fun (vr : BitVec 64 × BitVec 64) j =>
      (vr.1 <<< 1, if vr.1 &&& 0x8000000000000000 > 0 then vr.2 ^^^ a.getD j 0 else vr.2)) (val, 0) =
      (val <<< n, (List.range n).foldl (fun r j => if val.getLsbD (63 - j) then r ^^^ a.getD j 0 else r) 0) := by
  induction n with
  | zero => simp
  | succ n ih =>
    rw [List.range_succ, List.foldl_append, List.foldl_append, ih (by omega)]
    simp only [List.foldl_cons, List.foldl_nil]
    have hb : (val <<< n).getLsbD 63 = val.getLsbD (63 - n) := by
      rw [BitVec.getLsbD_shiftLeft]; simp; omega
    have hc := top_bit (val <<< n)
    rw [hb] at hc
    refine Prod.ext ?_ ?_
    · simp only; rw [BitVec.shiftLeft_add]
    · simp only
      by_cases h : val.getLsbD (63 - n) = true
      · rw [if_pos (hc.2 h), if_pos h]
      · rw [if_neg (fun q => h (hc.1 q)), if_neg h]

theorem lWord_eq (val : BitVec 64) : lWord val = Spec.mulA val := by
  rw [lWord, lWord_aux val 64 (Nat.le_refl _), Spec.mulA]

theorem lps_eq (v : Bytes) : l (ps v) = Spec.LPS v := by
  rw [l, Spec.LPS, ps_eq, show lWord = Spec.mulA from funext lWord_eq]

theorem LPS_length (v : Bytes) : (Spec.LPS v).length = 64 := by simp [Spec.LPS]

theorem enc_foldl (cs : List Bytes) : ∀ k m : Bytes, Spec.enc cs k m =
    xorb (cs.foldl (fun (km : Bytes × Bytes) c => (Spec.LPS (xorb km.1 c), Spec.LPS (xorb km.1 km.2))) (k, m)).1
      (cs.foldl (fun (km : Bytes × Bytes) c => (Spec.LPS (xorb km.1 c), Spec.LPS (xorb km.1 km.2))) (k, m)).2 := by
  induction cs with
  | nil => intro k m; rfl
  | cons c cs ih => intro k m; rw [Spec.enc, ih]; rfl

theorem range_getD {α β : Type} (d : α) (f : β → α → β) (L : List α) : ∀ b : β,
    (List.range L.length).foldl (fun s i => f s (L.getD i d)) b = L.foldl f b := by
  intro b
  have h : (List.range L.length).map (fun i => L.getD i d) = L := by
    apply List.ext_getElem (by simp)
    intro i h1 h2
    simp [List.getD_eq_getElem?_getD, List.getElem?_eq_getElem h2]
  conv => rhs; rw [← h, List.foldl_map]

theorem e_eq (k m : Bytes) : e k m = Spec.enc cs k m := by
  have h := range_getD ([] : Bytes) (fun (km : Bytes × Bytes) c => (l (ps (xorb km.1 c)), l (ps (xorb km.1 km.2)))) cs (k, m)
  rw [show cs.length = 12 from rfl] at h
  rw [e, h, enc_foldl]
  simp only [lps_eq]

theorem enc_length (L : List Bytes) : ∀ k m : Bytes, k.length = 64 → m.length = 64 → (Spec.enc L k m).length = 64 := by
  induction L with
  | nil => intro k m hk hm; simp [Spec.enc, hk, hm]
  | cons c L ih => intro k m _ _; exact ih _ _ (LPS_length _) (LPS_length _)

theorem gN_length (N : Nat) (h m : Bytes) (hh : h.length = 64) (hm : m.length = 64) : (Spec.gN N h m).length = 64 := by
  simp [Spec.gN, enc_length cs _ _ (LPS_length _) hm, hh, hm]

theorem leBytes_zero (n : Nat) : leBytes n 0 = List.replicate n 0#8 := by
  induction n with
  | zero => rfl
  | succ n ih => rw [leBytes, Nat.zero_div, ih, List.replicate_succ]

/-- A counter below `2^64` fills the first 8 bytes. -/
theorem leBytes_64 (N : Nat) (h : N < 2 ^ 64) : leBytes 64 N = leBytes 8 N ++ List.replicate 56 0#8 := by
  rw [show 64 = 8 + 56 from rfl, leBytes_add, Nat.div_eq_of_lt (by simpa using h), leBytes_zero]

theorem g_eq (n : BitVec 64) (h m : Bytes) (hh : h.length = 64) : g n h m = Spec.gN n.toNat h m := by
  have hx : xorb (h.take 8) (leBytes 8 n.toNat) ++ h.drop 8 = xorb h (leBytes 64 n.toNat) := by
    rw [leBytes_64 _ n.isLt]
    conv => rhs; rw [← List.take_append_drop 8 h]
    rw [xorb_append _ _ _ _ (by simp [hh])]
    congr 1
    rw [show (0#8 : Byte) = 0 from rfl, xorb_zeros_right _ _ (by simp [hh])]
  rw [g, hx, lps_eq, e_eq, Spec.gN]

/-! ### addition -/

theorem addByte_toNat (ss : BitVec 16) (x y : Byte) : (addByte ss x y).toNat = x.toNat + y.toNat + ss.toNat / 256 := by
  have h1 := x.isLt
  have h2 := y.isLt
  have h3 := ss.isLt
  rw [addByte, BitVec.toNat_add, BitVec.toNat_add, BitVec.toNat_setWidth, BitVec.toNat_setWidth, BitVec.toNat_ushiftRight, Nat.shiftRight_eq_div_pow]
  omega

theorem addBytes_eq (A : Bytes) : ∀ (ss : BitVec 16) (B : Bytes), A.length = B.length →
    addBytes ss A B = leBytes A.length (leN A + leN B + ss.toNat / 256) := by
  induction A with
  | nil => intro ss B h; rfl
  | cons x A ih =>
    intro ss B h
    match B, h with
    | y :: B, h =>
      rw [addBytes, ih _ B (by simpa using h), addByte_toNat, List.length_cons, leBytes, leN, leN]
      have hs : (addByte ss x y).setWidth 8 = BitVec.ofNat 8 (x.toNat + 256 * leN A + (y.toNat + 256 * leN B) + ss.toNat / 256) := by
        rw [← BitVec.toNat_inj, BitVec.toNat_setWidth, addByte_toNat, BitVec.toNat_ofNat]; omega
      rw [hs]
      congr 2
      omega

theorem add512bit_eq (S : Nat) (m : Bytes) (hm : m.length = 64) :
    add512bit (leBytes 64 S) m = leBytes 64 ((S + leN m) % 2 ^ 512) := by
  rw [add512bit, addBytes_eq _ _ _ (by simp [hm]), leBytes_length, leN_leBytes]
  rw [show (2 : Nat) ^ 512 = 256 ^ 64 by rw [show (256 : Nat) = 2 ^ 8 by decide, ← Nat.pow_mul], leBytes_mod]
  rw [← leBytes_mod, ← leBytes_mod 64 (S + leN m)]
  congr 1
  rw [show (0 : BitVec 16).toNat / 256 = 0 by decide, Nat.add_zero, Nat.mod_add_mod]

/-! ### refinement -/

structure Good (s : St) (v : Bytes × Nat × Nat) : Prop where
  h : s.hsh = v.1
  hl : v.1.length = 64
  n : s.n.toNat = v.2.1
  chk : s.chk = leBytes 64 v.2.2
  tl : s.tmp.length = 64

theorem block_good (s : St) (v : Bytes × Nat × Nat) (m : Bytes) (hm : m.length = 64) (q : Good s v) : Good (block s m) (Spec.step 64 v m) := by
  refine ⟨?_, gN_length _ _ _ q.hl hm, ?_, ?_, hm⟩
  · show g s.n s.hsh m = _
    rw [g_eq _ _ _ (by rw [q.h, q.hl]), q.n, q.h]; rfl
  · show (s.n + 512).toNat = (v.2.1 + 512) % 2 ^ 64
    rw [BitVec.toNat_add, q.n]; rfl
  · show add512bit s.chk m = _
    rw [q.chk, add512bit_eq _ _ hm]; rfl

theorem fold_good (L : List Bytes) (hL : ∀ b ∈ L, b.length = 64) : ∀ (s : St) (v : Bytes × Nat × Nat), Good s v →
    Good (L.foldl block s) (L.foldl (Spec.step 64) v) := by
  induction L with
  | nil => intro s v h; exact h
  | cons b L ih =>
    intro s v h
    have h1 := block_good s v b (hL b (List.mem_cons_self)) h
    have h2 := ih (fun c hc => hL c (List.mem_cons_of_mem _ hc)) (block s b) (Spec.step 64 v b) h1
    simp only [List.foldl_cons]; exact h2

/-- What a state of size `size` after `M` is. -/
structure Holds (size : Nat) (d : D) (M : Bytes) : Prop where
  sz : d.size = size
  good : Good d.st ((fullBlocks 64 M).foldl (Spec.step 64) (List.replicate 64 (if size = 32 then 1#8 else 0#8), 0, 0))
  buf : d.buf = tailOf 64 M

theorem iv_good (size : Nat) : Good (iv size) (List.replicate 64 (if size = 32 then 1#8 else 0#8), 0, 0) := by
  refine ⟨rfl, List.length_replicate, rfl, ?_, List.length_replicate⟩
  show List.replicate 64 0#8 = leBytes 64 0
  rw [leBytes_zero]

theorem holds_iv (size : Nat) : Holds size ⟨size, iv size, []⟩ [] := ⟨rfl, by simpa [fullBlocks] using iv_good size, by simp [tailOf]⟩

theorem write_holds (size : Nat) (d : D) (M p : Bytes) (h : Holds size d M) : ∃ d', write d p = .ok d' ∧ Holds size d' (M ++ p) := by
  rw [write, appWrite, appLoop_eq 64 (by decide) block _ _ _ (Nat.lt_succ_self _)]
  refine ⟨_, rfl, h.sz, ?_, ?_⟩
  · show Good (absorb 64 block d.st (d.buf ++ p)) _
    rw [h.buf, fullBlocks_split 64 (by decide), List.foldl_append]
    exact fold_good _ (fullBlocks_mem 64 _) _ _ h.good
  · show tailOf 64 (d.buf ++ p) = _
    rw [h.buf, ← tailOf_append 64 (by decide)]

theorem checkSum_good (d : D) (v : Bytes × Nat × Nat) (q : Good d.st v) (hb : d.buf.length < 64) :
    checkSum d = .ok (if d.size = 32 then (Spec.final 64 v d.buf).drop 32 else Spec.final 64 v d.buf) := by
  have hm : (copyInto (List.replicate 64 0#8) d.buf).set d.buf.length 1#8 = d.buf ++ 1#8 :: List.replicate (63 - d.buf.length) 0#8 := by
    rw [copyInto, List.length_replicate, List.take_of_length_le (by omega), List.drop_replicate, List.set_append_right _ _ (Nat.le_refl _),
      Nat.sub_self, show 64 - d.buf.length = (63 - d.buf.length) + 1 by omega, List.replicate_succ, List.set_cons_zero]
  have hml : (d.buf ++ 1#8 :: List.replicate (63 - d.buf.length) 0#8).length = 64 := by simp; omega
  have hN : (d.st.n + BitVec.ofNat 64 d.buf.length * 8).toNat = (v.2.1 + 8 * d.buf.length) % 2 ^ 64 := by
    have h8 : (8 : BitVec 64).toNat = 8 := rfl
    rw [BitVec.toNat_add, BitVec.toNat_mul, BitVec.toNat_ofNat, q.n, h8]; omega
  have ht : copyInto (List.replicate 64 0#8) (leBytes 8 (d.st.n + BitVec.ofNat 64 d.buf.length * 8).toNat) =
      leBytes 64 ((v.2.1 + 8 * d.buf.length) % 2 ^ 64) := by
    rw [leBytes_64 _ (Nat.mod_lt _ (by decide)), copyInto, List.length_replicate, List.take_of_length_le (by simp), hN, leBytes_length,
      List.drop_replicate]
  rw [checkSum, if_neg (by omega), hm, ht]
  have hg0 := g_eq d.st.n d.st.hsh (d.buf ++ 1#8 :: List.replicate (63 - d.buf.length) 0#8) (by rw [q.h, q.hl])
  have l0 := gN_length v.2.1 v.1 _ q.hl hml
  rw [q.n, q.h] at hg0
  have l1 := gN_length 0 _ (leBytes 64 ((v.2.1 + 8 * d.buf.length) % 2 ^ 64)) l0 (leBytes_length _ _)
  simp only
  rw [q.h, hg0, g_eq 0 _ _ l0, show (0 : BitVec 64).toNat = 0 from rfl, g_eq 0 _ _ l1, q.chk, add512bit_eq _ _ hml]
  rfl

theorem checkSum_eq (size : Nat) (d : D) (M : Bytes) (h : Holds size d M) : checkSum d = .ok (Spec.hash 64 size M) := by
  rw [checkSum_good d _ h.good (by rw [h.buf, tailOf_length]; exact Nat.mod_lt _ (by decide)), h.sz, h.buf]; rfl

/-! ### the counter -/

theorem lt512 (x : Nat) (h : x < 2 ^ 64) : x < 2 ^ 512 :=
  Nat.lt_of_lt_of_le h (Nat.pow_le_pow_right (by decide) (show 64 ≤ 512 by decide))

theorem step_counter (L : List Bytes) : ∀ (v : Bytes × Nat × Nat), v.2.1 + 512 * L.length < 2 ^ 64 →
    L.foldl (Spec.step 64) v = L.foldl (Spec.step 512) v ∧ (L.foldl (Spec.step 512) v).2.1 = v.2.1 + 512 * L.length := by
  induction L with
  | nil => intro v _; simp only [List.foldl_nil, List.length_nil, Nat.mul_zero, Nat.add_zero, and_self]
  | cons b L ih =>
    intro v h
    simp only [List.length_cons] at h
    have hlt : v.2.1 + 512 < 2 ^ 64 := Nat.lt_of_le_of_lt (Nat.add_le_add_left (Nat.le_mul_of_pos_right 512 (Nat.succ_pos L.length)) _) h
    have e1 : (v.2.1 + 512) % 2 ^ 64 = v.2.1 + 512 := Nat.mod_eq_of_lt hlt
    have e2 : (v.2.1 + 512) % 2 ^ 512 = v.2.1 + 512 := Nat.mod_eq_of_lt (lt512 _ hlt)
    have es : Spec.step 64 v b = Spec.step 512 v b := by simp only [Spec.step, e1, e2]
    have en : (Spec.step 512 v b).2.1 = v.2.1 + 512 := e2
    obtain ⟨h1, h2⟩ := ih (Spec.step 512 v b) (by rw [en, Nat.add_assoc, Nat.add_comm 512, ← Nat.mul_succ]; exact h)
    simp only [List.foldl_cons, es, List.length_cons]
    refine ⟨h1, ?_⟩
    rw [h2, en]; omega

theorem hash_counter (size : Nat) (M : Bytes) (h : M.length < 2 ^ 61) : Spec.hash 64 size M = Spec.streebog size M := by
  have hl : (fullBlocks 64 M).length = M.length / 64 := by simp [fullBlocks]
  have hm : (tailOf 64 M).length = M.length % 64 := tailOf_length _ _
  obtain ⟨h1, h2⟩ := step_counter (fullBlocks 64 M) (List.replicate 64 (if size = 32 then 1#8 else 0#8), 0, 0) (by rw [hl]; simp only; omega)
  unfold Spec.streebog Spec.hash
  rw [h1]
  generalize (fullBlocks 64 M).foldl (Spec.step 512) _ = v at h2
  have hN : (v.2.1 + 8 * (tailOf 64 M).length) % 2 ^ 64 = (v.2.1 + 8 * (tailOf 64 M).length) % 2 ^ 512 := by
    have hb : v.2.1 + 8 * (tailOf 64 M).length < 2 ^ 64 := by rw [h2, hl, hm]; simp only; omega
    rw [Nat.mod_eq_of_lt hb, Nat.mod_eq_of_lt (lt512 _ hb)]
  have hf : Spec.final 64 v (tailOf 64 M) = Spec.final 512 v (tailOf 64 M) := by
    unfold Spec.final; rw [hN]
  simp only [hf]

end Verif.Hash.Streebog
