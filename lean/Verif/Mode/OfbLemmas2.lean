import Verif.Mode.OfbLemmas
/-
GOST 28147 counter mode.
-/
namespace Verif.Mode

variable (c : BlockCipher)

/-- GOST 28147-89 counter mode, key stream block `j`, from the encrypted IV `v`. -/
def Spec.gostBlock (E : Bytes → Bytes) (v : Bytes) (j : Nat) : Bytes :=
  E (le32 (BitVec.ofNat 32 (Spec.gostN3 (getLe32 v).toNat (j + 1)))
    ++ le32 (BitVec.ofNat 32 (Spec.gostN4 (getLe32 (v.drop 4)).toNat (j + 1))))

theorem gofbC2_toNat : gofbC2.toNat = 16843009 := by decide
theorem gofbC1_toNat : gofbC1.toNat = 16843012 := by decide

theorem slt_iff32 (a b : BitVec 32) : a.slt b = true ↔
    (a.toNat + 2147483648) % 4294967296 < (b.toNat + 2147483648) % 4294967296 := by
  have ha := a.isLt
  have hb := b.isLt
  unfold BitVec.slt
  rw [decide_eq_true_eq, BitVec.toInt_eq_toNat_cond, BitVec.toInt_eq_toNat_cond]
  generalize a.toNat = x at *
  generalize b.toNat = y at *
  by_cases h1 : 2 * x < 2 ^ 32 <;> by_cases h2 : 2 * y < 2 ^ 32
  · rw [if_pos h1, if_pos h2]; omega
  · rw [if_pos h1, if_neg h2]; omega
  · rw [if_neg h1, if_pos h2]; omega
  · rw [if_neg h1, if_neg h2]; omega

theorem gofbN4_eq (w : BitVec 32) (h : w.toNat + 0x01010104 ≠ 2 ^ 32) :
    (gofbN4 w).toNat = Spec.gostN4Next w.toNat := by
  have hw := w.isLt
  have hC := gofbC1_toNat
  have h0 : (0#32).toNat = 0 := by decide
  have h1 : (1 : BitVec 32).toNat = 1 := by decide
  have hs : (w + gofbC1).toNat = (w.toNat + 16843012) % 4294967296 := by rw [BitVec.toNat_add, hC]
  have hs1 : (w + gofbC1 + 1).toNat = ((w + gofbC1).toNat + 1) % 4294967296 := by rw [BitVec.toNat_add _ 1, h1]
  unfold gofbN4
  simp only [slt_iff32, hC, h0]
  generalize (w + gofbC1 + 1) = v1 at *
  generalize (w + gofbC1) = v at *
  unfold Spec.gostN4Next
  generalize w.toNat = n at *
  clear hC h0 h1
  by_cases hn : n + 16843012 < 2 ^ 32
  · rw [if_pos hn]
    split
    · rw [if_neg (by omega)]; omega
    · omega
  · rw [if_neg hn, if_pos (by omega), if_pos (by omega)]
    omega
theorem gofbN3_eq (w : BitVec 32) (j : Nat) (n3 : Nat) (h : w.toNat = Spec.gostN3 n3 j) :
    (w + gofbC2).toNat = Spec.gostN3 n3 (j + 1) := by
  have hC := gofbC2_toNat
  rw [BitVec.toNat_add, hC, h]
  unfold Spec.gostN3
  omega

attribute [local irreducible] gofbC1 gofbC2 Spec.gostN4Next gofbN4

theorem iter_succ {α : Type} (f : α → α) (n : Nat) (a : α) : Spec.iter f (n + 1) a = f (Spec.iter f n a) := rfl

theorem gostN4_succ (n j : Nat) : Spec.gostN4 n (j + 1) = Spec.gostN4Next (Spec.gostN4 n j) := by
  unfold Spec.gostN4
  exact iter_succ _ _ _

@[simp] theorem le32_length (w : BitVec 32) : (le32 w).length = 4 := rfl

theorem gofb_gen_eq (hbs : 8 ≤ c.bs) (r : GofbReg) (hr : r.cipher.length = c.bs) :
    gofbGen c r = (c.E (le32 (r.N3 + gofbC2) ++ le32 (gofbN4 r.N4) ++ r.cipher.drop 8),
      ⟨c.E (le32 (r.N3 + gofbC2) ++ le32 (gofbN4 r.N4) ++ r.cipher.drop 8), r.N3 + gofbC2, gofbN4 r.N4⟩) := by
  have h : copyAt (copyInto r.cipher (le32 (r.N3 + gofbC2))) 4 (le32 (gofbN4 r.N4)) =
      le32 (r.N3 + gofbC2) ++ le32 (gofbN4 r.N4) ++ r.cipher.drop 8 := by
    rw [copyInto_len_le _ _ (by simp; omega), le32_length]
    unfold copyAt
    rw [List.take_left' (by simp), List.drop_left' (by simp), copyInto_len_le _ _ (by simp; omega),
      le32_length, List.drop_drop, List.append_assoc]
  simp only [gofbGen, h]

theorem gofb_gen_len (hbs : 8 ≤ c.bs) (r : GofbReg) (hr : r.cipher.length = c.bs) :
    (gofbGen c r).1.length = c.bs ∧ (gofbGen c r).2.cipher.length = c.bs := by
  rw [gofb_gen_eq c hbs r hr]
  have : (c.E (le32 (r.N3 + gofbC2) ++ le32 (gofbN4 r.N4) ++ r.cipher.drop 8)).length = c.bs := by
    apply c.lenE; simp; omega
  exact ⟨this, this⟩

/-- Invariant between calls. -/
def GofbI (x : KsBuf GofbReg) : Prop := x.reg.cipher.length = c.bs ∧ x.used ≤ x.out.length

theorem gofbStart_I (x : KsBuf GofbReg) (h : GofbI c x) : GofbI c (gofbStart c x) := h

theorem gofb_genLen (hbs : 8 ≤ c.bs) (r : GofbReg) (hr : r.cipher.length = c.bs) :
    GenLen (gofbGen c) c.bs r :=
  genLen_of (gofbGen c) c.bs (fun r => r.cipher.length = c.bs) (fun r h => (gofb_gen_len c hbs r h).2)
    (fun r h => (gofb_gen_len c hbs r h).1) r hr

/-- One call on an object in state `x`. -/
theorem gofb_call (hbs : 8 ≤ c.bs) (hbs' : c.bs < 512) (x : KsBuf GofbReg) (hI : GofbI c x) (m : Mem)
    (dst src : Slice) (h2 : src.len ≤ dst.len) (h3 : NoPartialOverlap dst src) :
    ∃ x', gofbXor c x m dst src = .ok (m.write dst.ptr (xorb (m.read src.ptr src.len)
        (ksTake (bufKs (gofbGen c) c.bs (gofbStart c x)) 0 src.len)), x') ∧ GofbI c x' := by
  have hg := gofb_genLen c hbs (gofbStart c x).reg hI.1
  obtain ⟨x', e1, e2, _⟩ := (ofbStep_ok (gofbGen c) c.bs c.bs_pos c.bs hbs' (gofbStart c x) hg).call
    (bufR_init _ _ _ hI.2) m dst src h2 h3
  refine ⟨x', ?_, ?_⟩
  · unfold gofbXor
    rw [if_neg (by omega), e1]
    simp [addRun]
  · obtain ⟨j, h1, h2, _⟩ := e2
    refine ⟨?_, h2⟩
    rw [h1]
    exact genRegs_inv (gofbGen c) (fun r => r.cipher.length = c.bs) (fun r h => (gofb_gen_len c hbs r h).2)
      (gofbStart c x).reg hI.1 j

theorem gofb_call_ok (hbs : 8 ≤ c.bs) (hbs' : c.bs < 512) (x x' : KsBuf GofbReg) (hI : GofbI c x) (m m' : Mem)
    (dst src : Slice) (h : gofbXor c x m dst src = .ok (m', x')) :
    m'.read dst.ptr src.len = xorb (m.read src.ptr src.len)
        (ksTake (bufKs (gofbGen c) c.bs (gofbStart c x)) 0 src.len) ∧ GofbI c x' := by
  have h' := h
  unfold gofbXor at h'
  rw [if_neg (by omega)] at h'
  obtain ⟨h2, h3⟩ := xorKeyStream_ok_only h'
  obtain ⟨x'', e1, e2⟩ := gofb_call c hbs hbs' x hI m dst src h2 h3
  rw [h] at e1
  obtain ⟨rfl, rfl⟩ := Prod.mk.inj (Res.ok.inj e1)
  exact ⟨Mem.read_write_self' _ _ _ _ (by simp), e2⟩

/-- The final state of a loop whose state update ignores the data depends only on the length. -/
theorem segLoop_state {σ : Type} (step : σ → Mem → Nat → Nat → Nat → Res (Nat × Mem × σ))
    (F : σ → Nat → Option (Nat × σ))
    (h : ∀ st m d s l n m' st', step st m d s l = .ok (n, m', st') → F st l = some (n, st'))
    (fuel : Nat) (st : σ) (m m2 : Mem) (d d2 s s2 l : Nat) {m' m2' : Mem} {st' st2' : σ}
    (h1 : segLoop step fuel st m d s l = .ok (m', st'))
    (h2 : segLoop step fuel st m2 d2 s2 l = .ok (m2', st2')) : st' = st2' := by
  induction fuel generalizing st m m2 d d2 s s2 l with
  | zero =>
    rw [segLoop] at h1 h2
    split at h1
    · rename_i h0
      rw [if_pos h0] at h2
      have := (Prod.mk.inj (Res.ok.inj h1)).2
      have := (Prod.mk.inj (Res.ok.inj h2)).2
      simp_all
    · cases h1
  | succ fuel ih =>
    rw [segLoop] at h1 h2
    split at h1
    · rename_i h0
      rw [if_pos h0] at h2
      have := (Prod.mk.inj (Res.ok.inj h1)).2
      have := (Prod.mk.inj (Res.ok.inj h2)).2
      simp_all
    · rename_i h0
      rw [if_neg h0] at h2
      cases e1 : step st m d s l with
      | ok r =>
        cases e2 : step st m2 d2 s2 l with
        | ok r2 =>
          obtain ⟨n, mm, s1⟩ := r
          obtain ⟨n2, mm2, s12⟩ := r2
          have f1 := h _ _ _ _ _ _ _ _ e1
          have f2 := h _ _ _ _ _ _ _ _ e2
          rw [f1] at f2
          obtain ⟨rfl, rfl⟩ := Prod.mk.inj (Option.some.inj f2)
          rw [e1] at h1
          rw [e2] at h2
          simp only [Res.bind_ok] at h1 h2
          exact ih _ _ _ _ _ _ _ _ h1 h2
        | err => rw [e2] at h2; cases h2
        | panic => rw [e2] at h2; cases h2
        | hang => rw [e2] at h2; cases h2
      | err => rw [e1] at h1; cases h1
      | panic => rw [e1] at h1; cases h1
      | hang => rw [e1] at h1; cases h1

/-- The state update of `ofbStep`. -/
def ofbStepF {ρ : Type} (bs : Nat) (gen : ρ → Bytes × ρ) (x : KsBuf ρ) (l : Nat) : Option (Nat × KsBuf ρ) :=
  match (if x.used + bs ≥ x.out.length then refill true (bufCap bs - bs) gen x else .ok x) with
  | .ok y => some (min l (y.out.length - y.used), { y with used := y.used + min l (y.out.length - y.used) })
  | _ => none

theorem ofbStep_state {ρ : Type} (bs : Nat) (gen : ρ → Bytes × ρ) (e : Nat) (st : KsBuf ρ) (m : Mem)
    (d s l n : Nat) (m' : Mem) (st' : KsBuf ρ) (h : ofbStep bs gen e st m d s l = .ok (n, m', st')) :
    ofbStepF bs gen st l = some (n, st') := by
  unfold ofbStep at h
  unfold ofbStepF
  by_cases hc : st.used + bs ≥ st.out.length
  · simp only [if_pos hc] at h ⊢
    cases hr : refill true (bufCap bs - bs) gen st with
    | ok y =>
      rw [hr] at h
      simp only [Res.bind_ok] at h
      obtain ⟨h1, h2⟩ := Prod.mk.inj (Res.ok.inj h)
      obtain ⟨_, h3⟩ := Prod.mk.inj h2
      simp [h1]
      rw [← h1, ← h3]
    | err => rw [hr] at h; cases h
    | panic => rw [hr] at h; cases h
    | hang => rw [hr] at h; cases h
  · simp only [if_neg hc, Res.bind_ok] at h ⊢
    obtain ⟨h1, h2⟩ := Prod.mk.inj (Res.ok.inj h)
    obtain ⟨_, h3⟩ := Prod.mk.inj h2
    rw [← h1, ← h3]

/-- Two calls of the same length from the same state end in the same state. -/
theorem gofb_state (x x1 x2 : KsBuf GofbReg) (m1 m2 m1' m2' : Mem) (d1 d2 s1 s2 : Slice) (hl : s1.len = s2.len)
    (h1 : gofbXor c x m1 d1 s1 = .ok (m1', x1)) (h2 : gofbXor c x m2 d2 s2 = .ok (m2', x2)) : x1 = x2 := by
  unfold gofbXor at h1 h2
  split at h1
  · cases h1
  · rename_i hb
    rw [if_neg hb] at h2
    unfold xorKeyStream at h1 h2
    split at h1
    · cases h1
    · split at h1
      · cases h1
      · split at h2
        · cases h2
        · split at h2
          · cases h2
          · rw [← hl] at h2
            have key : ∀ e1 e2 : Nat, ofbStep (ρ := GofbReg) c.bs (gofbGen c) e1 = ofbStep c.bs (gofbGen c) e2 :=
              fun _ _ => rfl
            rw [key (d2.len - s1.len) (d1.len - s1.len)] at h2
            exact segLoop_state _ (ofbStepF c.bs (gofbGen c)) (ofbStep_state c.bs (gofbGen c) _) _ _ _ _ _ _ _ _ _
              h1 h2

theorem gofb_same_roundtrip (hbs : 8 ≤ c.bs) (hbs' : c.bs < 512) {A B : Slice → Slice → Prop}
    {x x1 x2 : KsBuf GofbReg} (hI : GofbI c x) {ins outs outs' : List Bytes}
    (h1 : Calls A (gofbXor c) x ins outs x1) (h2 : Calls B (gofbXor c) x outs outs' x2) : outs' = ins := by
  induction h1 generalizing outs' x2 with
  | nil st => cases h2; rfl
  | cons ha hok _ ih =>
    generalize ho : (_ : Bytes) :: (_ : List Bytes) = os at h2
    cases h2 with
    | nil => cases ho
    | cons ha' hok' t2 =>
      obtain ⟨ho1, rfl⟩ := List.cons.inj ho
      obtain ⟨e1, e2⟩ := gofb_call_ok c hbs hbs' _ _ hI _ _ _ _ hok
      obtain ⟨e1', e2'⟩ := gofb_call_ok c hbs hbs' _ _ hI _ _ _ _ hok'
      have hl := congrArg List.length ho1
      simp only [Mem.read_length] at hl
      obtain rfl := gofb_state c _ _ _ _ _ _ _ _ _ _ _ hl hok hok'
      rw [ih e2 t2]
      congr 1
      rw [e1', ← ho1, e1, hl]
      exact xorb_xorb_cancel_right _ _ (by simp)

/-- The key stream of a fresh object with an 8-byte block cipher. -/
theorem gofb_regs (h8 : c.bs = 8) (r : GofbReg) (hr : r.cipher.length = c.bs) (j : Nat)
    (hgood : ∀ i, i < j → Spec.gostN4 r.N4.toNat i + 0x01010104 ≠ 2 ^ 32) :
    (genRegs (gofbGen c) r j).N3.toNat = Spec.gostN3 r.N3.toNat j ∧
    (genRegs (gofbGen c) r j).N4.toNat = Spec.gostN4 r.N4.toNat j ∧
    (genRegs (gofbGen c) r j).cipher.length = c.bs := by
  induction j with
  | zero =>
    refine ⟨?_, ?_, hr⟩
    · have := r.N3.isLt
      simp only [genRegs, Spec.gostN3, Nat.zero_mul, Nat.add_zero]
      rw [Nat.mod_eq_of_lt this]
    · simp only [genRegs, Spec.gostN4, Spec.iter]
  | succ j ih =>
    obtain ⟨h1, h2, h3⟩ := ih (fun i hi => hgood i (by omega))
    have hl := gofb_gen_len c (by omega) _ h3
    refine ⟨?_, ?_, hl.2⟩
    · simp only [genRegs, gofbGen]
      exact gofbN3_eq _ j _ h1
    · simp only [genRegs, gofbGen]
      rw [gofbN4_eq _ (by rw [h2]; exact hgood j (by omega)), h2, gostN4_succ]

theorem gofb_block (h8 : c.bs = 8) (r : GofbReg) (hr : r.cipher.length = c.bs) (j : Nat)
    (hgood : ∀ i, i < j + 1 → Spec.gostN4 r.N4.toNat i + 0x01010104 ≠ 2 ^ 32) :
    (gofbGen c (genRegs (gofbGen c) r j)).1 =
      c.E (le32 (BitVec.ofNat 32 (Spec.gostN3 r.N3.toNat (j + 1)))
        ++ le32 (BitVec.ofNat 32 (Spec.gostN4 r.N4.toNat (j + 1)))) := by
  obtain ⟨h1, h2, h3⟩ := gofb_regs c h8 r hr j (fun i hi => hgood i (by omega))
  obtain ⟨k1, k2, _⟩ := gofb_regs c h8 r hr (j + 1) hgood
  rw [gofb_gen_eq c (by omega) _ h3]
  simp only [genRegs, gofbGen] at k1 k2
  rw [← k1, ← k2, BitVec.ofNat_toNat, BitVec.ofNat_toNat, BitVec.setWidth_eq, BitVec.setWidth_eq,
    List.drop_of_length_le (by omega), List.append_nil]

theorem ksTake_congr (ks ks' : Nat → Byte) (p n : Nat) (h : ∀ i, i < n → ks (p + i) = ks' (p + i)) :
    ksTake ks p n = ksTake ks' p n := by
  unfold ksTake
  apply List.map_congr_left
  intro i hi
  exact h i (by simpa using hi)

theorem gofbNew_ok {iv : Bytes} {x : KsBuf GofbReg} (h : gofbNew c iv = .ok x) :
    x = ⟨⟨iv, 0, 0⟩, [], 0⟩ ∧ iv.length = c.bs := by
  unfold gofbNew at h
  split at h
  · cases h
  · rename_i hl
    have hl' : iv.length = c.bs := by simpa using hl
    have := Res.ok.inj h
    rw [copyInto_eq_left _ _ (by simp [hl'])] at this
    exact ⟨this.symm, hl'⟩

theorem gofb_fresh_ks (h8 : c.bs = 8) (iv : Bytes) (hiv : iv.length = c.bs) (n : Nat)
    (hgood : ∀ i, 8 * i < n → Spec.gostN4 (getLe32 ((c.E iv).drop 4)).toNat i + 0x01010104 ≠ 2 ^ 32) :
    ksTake (bufKs (gofbGen c) c.bs (gofbStart c ⟨⟨iv, 0, 0⟩, [], 0⟩)) 0 n =
      ksTake (Spec.streamOf 8 (Spec.gostBlock c.E (c.E iv))) 0 n := by
  apply ksTake_congr
  intro i hi
  rw [Nat.zero_add]
  have e : gofbStart c ⟨⟨iv, 0, 0⟩, [], 0⟩ =
      ⟨⟨iv, getLe32 (c.E iv), getLe32 ((c.E iv).drop 4)⟩, [], 0⟩ := rfl
  rw [e, bufKs_fresh, genKs, Spec.streamOf, gofb_block c h8 _ hiv _ (fun k hk => hgood k (by
    rw [h8] at hk; omega)), h8]
  simp only [Spec.gostBlock]

end Verif.Mode
