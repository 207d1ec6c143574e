import Verif.Mode.CfbLemmas3
/-
Key stream buffers: OFB, OFB8, NOFB, GOST OFB (counter), GOST R 34.13 CTR and OFB.
-/
namespace Verif.Mode

section
variable {ρ : Type} (gen : ρ → Bytes × ρ) (k : Nat)

/-- The generator register after `j` blocks. -/
def genRegs (r0 : ρ) : Nat → ρ
  | 0 => r0
  | j + 1 => (gen (genRegs r0 j)).2

/-- Byte `i` of the generated key stream. -/
def genKs (r0 : ρ) (i : Nat) : Byte := (gen (genRegs gen r0 (i / k))).1.getD (i % k) 0

/-- Unused bytes in the buffer. -/
def KsBuf.rem (x : KsBuf ρ) : Nat := x.out.length - x.used

/-- The key stream an object in state `x` is going to use. -/
def bufKs (x : KsBuf ρ) (i : Nat) : Byte :=
  if i < x.rem then x.out.getD (x.used + i) 0 else genKs gen k x.reg (i - x.rem)

/-- `y` is the state reached from `x0` after `p` bytes of key stream. -/
def BufR (x0 y : KsBuf ρ) (p : Nat) : Prop :=
  ∃ j, y.reg = genRegs gen x0.reg j ∧ y.used ≤ y.out.length ∧ p + y.rem = x0.rem + j * k ∧
    y.out.drop y.used = ksTake (bufKs gen k x0) p y.rem

/-- Every generated block has `k` bytes. -/
def GenLen (r0 : ρ) : Prop := ∀ j, (gen (genRegs gen r0 j)).1.length = k

theorem ksTake_eq_of (ks : Nat → Byte) (p n : Nat) (l : Bytes) (hl : l.length = n)
    (h : ∀ i, i < n → l.getD i 0 = ks (p + i)) : l = ksTake ks p n := by
  apply List.ext_getElem
  · simp [hl]
  · intro i h1 h2
    have := h i (by omega)
    simp only [ksTake, List.getElem_map, List.getElem_range]
    rw [← this]
    simp [List.getD_eq_getElem?_getD, h1]

theorem bufR_init (x0 : KsBuf ρ) (h : x0.used ≤ x0.out.length) : BufR gen k x0 x0 0 := by
  refine ⟨0, rfl, h, by simp, ?_⟩
  apply ksTake_eq_of
  · simp [KsBuf.rem]
  · intro i hi
    rw [Nat.zero_add, bufKs, if_pos hi]
    simp [List.getD_eq_getElem?_getD]

theorem ksTake_block (hk : 0 < k) (x0 : KsBuf ρ) (hg : GenLen gen k x0.reg) (j : Nat) :
    ksTake (bufKs gen k x0) (x0.rem + j * k) k = (gen (genRegs gen x0.reg j)).1 := by
  symm
  apply ksTake_eq_of _ _ _ _ (hg j)
  intro i hi
  rw [bufKs, if_neg (by omega), genKs]
  rw [show x0.rem + j * k + i - x0.rem = j * k + i by omega, Nat.mul_comm j k,
    Nat.mul_add_div hk, Nat.div_eq_of_lt hi, Nat.mul_add_mod, Nat.mod_eq_of_lt hi, Nat.add_zero]

theorem refillLoop_ok (hk : 0 < k) (x0 : KsBuf ρ) (hg : GenLen gen k x0.reg) (lim : Nat) :
    ∀ fuel out j p, lim ≤ out.length + fuel → p + out.length = x0.rem + j * k →
      out = ksTake (bufKs gen k x0) p out.length →
      ∃ j' out', refillLoop lim gen fuel (genRegs gen x0.reg j) out = .ok (genRegs gen x0.reg j', out') ∧
        p + out'.length = x0.rem + j' * k ∧ out' = ksTake (bufKs gen k x0) p out'.length ∧
        lim ≤ out'.length ∧ out.length ≤ out'.length := by
  intro fuel
  induction fuel with
  | zero =>
    intro out j p h1 h2 h3
    refine ⟨j, out, ?_, h2, h3, by omega, Nat.le_refl _⟩
    rw [refillLoop, if_neg (by omega)]
  | succ fuel ih =>
    intro out j p h1 h2 h3
    rw [refillLoop]
    split
    · have hl := hg j
      have hb := ksTake_block gen k hk x0 hg j
      obtain ⟨j', out', e1, e2, e3, e4, e5⟩ := ih (out ++ (gen (genRegs gen x0.reg j)).1) (j + 1) p
        (by simp only [List.length_append, hl]; omega)
        (by simp only [List.length_append, hl]; rw [Nat.add_mul]; omega)
        (by
          simp only [List.length_append, hl]
          rw [ksTake_append, ← h3, h2, hb])
      refine ⟨j', out', e1, e2, e3, e4, ?_⟩
      simp only [List.length_append] at e5
      omega
    · exact ⟨j, out, rfl, h2, h3, by omega, Nat.le_refl _⟩

theorem refill_ok (hk : 0 < k) (x0 : KsBuf ρ) (hg : GenLen gen k x0.reg) (early : Bool) (lim : Nat)
    (x : KsBuf ρ) (p : Nat) (h : BufR gen k x0 x p) :
    ∃ y, refill early lim gen x = .ok y ∧ BufR gen k x0 y p ∧ (1 ≤ lim → 1 ≤ y.rem) ∧
      (early = false → lim ≤ y.rem) := by
  obtain ⟨j, h1, h2, h3, h4⟩ := h
  unfold refill
  split
  · rename_i he
    simp only [Bool.and_eq_true, decide_eq_true_eq] at he
    refine ⟨x, rfl, ⟨j, h1, h2, h3, h4⟩, ?_, ?_⟩
    · intro _; unfold KsBuf.rem; omega
    · intro hf; rw [hf] at he; exact absurd he.1 (by simp)
  · rw [if_neg (by omega)]
    have hdl : (x.out.drop x.used).length = x.rem := by simp [KsBuf.rem]
    obtain ⟨j', out', e1, e2, e3, e4, e5⟩ := refillLoop_ok gen k hk x0 hg lim lim (x.out.drop x.used) j p
      (by omega) (by rw [hdl]; exact h3) (by rw [hdl]; exact h4)
    rw [h1, e1]
    refine ⟨_, rfl, ⟨j', rfl, by simp, ?_, ?_⟩, ?_, ?_⟩
    · simpa [KsBuf.rem] using e2
    · simpa [KsBuf.rem] using e3
    · intro hl; simp [KsBuf.rem]; omega
    · intro _; simpa [KsBuf.rem] using e4

/-- XOR with the buffered bytes. -/
theorem buf_xor (x0 y : KsBuf ρ) (p : Nat) (h : BufR gen k x0 y p) (m : Mem) (s l n : Nat)
    (hn : n = min l y.rem) :
    xorb (m.read s l) (y.out.drop y.used) = xorb (m.read s n) (ksTake (bufKs gen k x0) p n) ∧
      BufR gen k x0 { y with used := y.used + n } (p + n) := by
  obtain ⟨j, h1, h2, h3, h4⟩ := h
  constructor
  · rw [h4]
    have hr : m.read s n = (m.read s l).take n := by rw [Mem.read_take]; congr 1; omega
    rw [hr, xorb_take_left _ _ _ (by simp; omega), ← ksTake_take _ _ y.rem n (by omega),
      xorb_take_right _ _ _ (by simp; omega)]
  · have hu : n ≤ y.out.length - y.used := by unfold KsBuf.rem at hn; omega
    refine ⟨j, h1, by simp only; omega, ?_, ?_⟩
    · simp only [KsBuf.rem] at h3 ⊢; omega
    · simp only [KsBuf.rem] at h4 ⊢
      rw [← List.drop_drop, h4, ksTake_drop _ _ _ _ hu]
      congr 1
      omega

theorem ofbStep_ok (hk : 0 < k) (bs : Nat) (hbs : bs < 512) (x0 : KsBuf ρ) (hg : GenLen gen k x0.reg) :
    StreamOK (ofbStep bs gen) (BufR gen k x0) (addRun (bufKs gen k x0)) := by
  apply streamOK_of_addStep
  intro e x p m d s l hR hl _
  have hcap : bufCap bs = 512 := by unfold bufCap; rw [if_neg (by omega)]
  obtain ⟨y, e1, e2, e3⟩ : ∃ y, (if x.used + bs ≥ x.out.length then refill true (bufCap bs - bs) gen x else .ok x)
      = .ok y ∧ BufR gen k x0 y p ∧ 1 ≤ y.rem := by
    split
    · obtain ⟨y, a, b, c, _⟩ := refill_ok gen k hk x0 hg true (bufCap bs - bs) x p hR
      exact ⟨y, a, b, c (by omega)⟩
    · exact ⟨x, rfl, hR, by unfold KsBuf.rem; omega⟩
  obtain ⟨f1, f2⟩ := buf_xor gen k x0 y p e2 m s l (min l y.rem) rfl
  refine ⟨min l y.rem, _, by omega, by omega, ?_, f2⟩
  unfold ofbStep
  split at e1 <;> rename_i hc
  · simp only [if_pos hc, e1, Res.bind_ok, KsBuf.rem] at f1 ⊢
    rw [f1]
  · obtain rfl := Res.ok.inj e1
    simp only [if_neg hc, Res.bind_ok, KsBuf.rem] at f1 ⊢
    rw [f1]

end

/-! ### The generators -/

variable (c : BlockCipher)

theorem genRegs_inv {ρ : Type} (gen : ρ → Bytes × ρ) (I : ρ → Prop) (h : ∀ r, I r → I (gen r).2) (r0 : ρ)
    (h0 : I r0) (j : Nat) : I (genRegs gen r0 j) := by
  induction j with
  | zero => exact h0
  | succ j ih => exact h _ ih

theorem genLen_of {ρ : Type} (gen : ρ → Bytes × ρ) (k : Nat) (I : ρ → Prop) (h : ∀ r, I r → I (gen r).2)
    (hl : ∀ r, I r → (gen r).1.length = k) (r0 : ρ) (h0 : I r0) : GenLen gen k r0 :=
  fun j => hl _ (genRegs_inv gen I h r0 h0 j)

/-- A fresh buffer: the key stream is the generated one. -/
theorem bufKs_fresh {ρ : Type} (gen : ρ → Bytes × ρ) (k : Nat) (r0 : ρ) :
    bufKs gen k { reg := r0, out := [], used := 0 } = genKs gen k r0 := by
  funext i; simp [bufKs, KsBuf.rem]

theorem genKs_eq {ρ : Type} (gen : ρ → Bytes × ρ) (k : Nat) (r0 : ρ) (blk : Nat → Bytes)
    (h : ∀ j, (gen (genRegs gen r0 j)).1 = blk j) : genKs gen k r0 = Spec.streamOf k blk := by
  funext i; simp [genKs, Spec.streamOf, h]

theorem ksTake_keyBytes (ks : Nat → Byte) (p n : Nat) : ksTake ks p n = Spec.keyBytes ks p n := rfl

theorem ofb_genLen (iv : Bytes) (h : iv.length = c.bs) : GenLen (ofbGen c) c.bs iv :=
  genLen_of (ofbGen c) c.bs (fun r => r.length = c.bs) (fun r hr => c.lenE r hr) (fun r hr => c.lenE r hr) iv h

theorem ofb_regs (iv : Bytes) (j : Nat) : genRegs (ofbGen c) iv j = Spec.iter c.E j iv := by
  induction j with
  | zero => rfl
  | succ j ih => simp [genRegs, Spec.iter, ih, ofbGen]

theorem ofb_ks (iv : Bytes) : genKs (ofbGen c) c.bs iv = Spec.streamOf c.bs (Spec.ofbBlock c.E iv) :=
  genKs_eq _ _ _ _ (fun j => by rw [ofb_regs]; rfl)

theorem ofbNew_ok {iv : Bytes} {x : KsBuf Bytes} (h : ofbNew c iv = .ok x) :
    x = { reg := iv, out := [], used := 0 } ∧ iv.length = c.bs := by
  unfold ofbNew at h
  split at h
  · cases h
  · rename_i hl
    have hl' : iv.length = c.bs := by simpa using hl
    have := Res.ok.inj h
    rw [copyInto_eq_left _ _ (by simp [hl'])] at this
    exact ⟨this.symm, hl'⟩

theorem ofb_ok (iv : Bytes) (hiv : iv.length = c.bs) (hbs : c.bs < 512) :
    StreamOK (ofbStep c.bs (ofbGen c)) (BufR (ofbGen c) c.bs { reg := iv, out := [], used := 0 })
      (addRun (Spec.streamOf c.bs (Spec.ofbBlock c.E iv))) := by
  have h := ofbStep_ok (ofbGen c) c.bs c.bs_pos c.bs hbs { reg := iv, out := [], used := 0 } (ofb_genLen c iv hiv)
  rw [bufKs_fresh, ofb_ks] at h
  exact h

/-! ### OFB8 -/

theorem ofb8_gen_eq (r : Bytes) (hr : r.length = c.bs) :
    ofb8Gen c r = ((c.E r).take 1, r.drop 1 ++ (c.E r).take 1) := by
  have hpos := c.bs_pos
  have hE := c.lenE r hr
  have ht : (c.E r).take 1 = [(c.E r).getD 0 0] := by
    cases hE' : c.E r with
    | nil => rw [hE'] at hE; simp at hE; omega
    | cons a l => simp
  unfold ofb8Gen
  simp only [ht]
  congr 1
  have hd : (r.drop 1).length = c.bs - 1 := by simp; omega
  rw [copyInto_len_le r _ (by simp), hd, hr, List.set_append_right _ _ (by omega), hd, Nat.sub_self]
  congr 1
  have h3 : (r.drop (c.bs - 1)).length = 1 := by simp; omega
  match hd : r.drop (c.bs - 1) with
  | [] => rw [hd] at h3; simp at h3
  | [a] => rfl
  | a :: b :: t => rw [hd] at h3; simp at h3

theorem ofb8_genLen (iv : Bytes) (h : iv.length = c.bs) : GenLen (ofb8Gen c) 1 iv := by
  have hpos := c.bs_pos
  apply genLen_of (ofb8Gen c) 1 (fun r => r.length = c.bs)
  · intro r hr; rw [ofb8_gen_eq c r hr]; simp [c.lenE r hr]; omega
  · intro r hr; rw [ofb8_gen_eq c r hr]; simp [c.lenE r hr]; omega
  · exact h

theorem ofb8_regs (iv : Bytes) (h : iv.length = c.bs) (j : Nat) :
    genRegs (ofb8Gen c) iv j = Spec.ofb8Reg c.E iv j ∧ (genRegs (ofb8Gen c) iv j).length = c.bs := by
  have hpos := c.bs_pos
  induction j with
  | zero => exact ⟨rfl, h⟩
  | succ j ih =>
    have hE := c.lenE _ ih.2
    simp only [genRegs, Spec.ofb8Reg]
    rw [ofb8_gen_eq c _ ih.2]
    simp only
    refine ⟨by rw [ih.1], ?_⟩
    simp only [List.length_append, List.length_drop, List.length_take, hE, ih.2]
    omega

theorem ofb8_ks (iv : Bytes) (h : iv.length = c.bs) : genKs (ofb8Gen c) 1 iv = Spec.ofb8Byte c.E iv := by
  funext i
  obtain ⟨h1, h2⟩ := ofb8_regs c iv h i
  have hpos := c.bs_pos
  have hE := c.lenE _ h2
  simp only [genKs, Nat.div_one, Nat.mod_one, Spec.ofb8Byte]
  rw [ofb8_gen_eq c _ h2, h1]
  cases hE' : c.E (Spec.ofb8Reg c.E iv i) with
  | nil => rw [h1, hE'] at hE; simp at hE; omega
  | cons a l => simp

theorem ofb8_ok (iv : Bytes) (hiv : iv.length = c.bs) :
    StreamOK (ofb8Step c) (BufR (ofb8Gen c) 1 { reg := iv, out := [], used := 0 })
      (addRun (Spec.ofb8Byte c.E iv)) := by
  have hg := ofb8_genLen c iv hiv
  have hks : bufKs (ofb8Gen c) 1 { reg := iv, out := [], used := 0 } = Spec.ofb8Byte c.E iv := by
    rw [bufKs_fresh, ofb8_ks c iv hiv]
  apply streamOK_of_addStep
  intro e x p m d s l hR hl _
  have hcap : 512 ≤ bufCap c.bs := by unfold bufCap; split <;> omega
  obtain ⟨y, e1, e2, e3⟩ : ∃ y, (if x.used + c.bs ≥ x.out.length then refill true (bufCap c.bs) (ofb8Gen c) x
      else .ok x) = .ok y ∧ BufR (ofb8Gen c) 1 { reg := iv, out := [], used := 0 } y p ∧ 1 ≤ y.rem := by
    split
    · obtain ⟨y, a, b, c, _⟩ := refill_ok (ofb8Gen c) 1 (by decide) _ hg true (bufCap c.bs) x p hR
      exact ⟨y, a, b, c (by omega)⟩
    · exact ⟨x, rfl, hR, by unfold KsBuf.rem; omega⟩
  obtain ⟨f1, f2⟩ := buf_xor (ofb8Gen c) 1 _ y p e2 m s 1 1 (by omega)
  rw [hks] at f1
  have hlt : y.used < y.out.length := by unfold KsBuf.rem at e3; omega
  have hx : xorb (m.read s 1) (y.out.drop y.used) = [m s ^^^ y.out.getD y.used 0] := by
    have : m.read s 1 = [m s] := by simp [Mem.read]
    rw [this, xorb_cons_drop _ _ _ _ hlt]
    rfl
  rw [hx] at f1
  refine ⟨1, _, by omega, by omega, ?_, f2⟩
  unfold ofb8Step
  split at e1 <;> rename_i hc
  · simp only [if_pos hc, e1, Res.bind_ok]
    rw [if_neg (by omega), f1]
  · obtain rfl := Res.ok.inj e1
    simp only [if_neg hc, Res.bind_ok]
    rw [if_neg (by omega), f1]

/-! ### NOFB -/

/-- One (possibly short) block at block index `j`. -/
def nofbF (ks : Nat → Byte) (j : Nat) (b : Bytes) : Bytes × Nat :=
  (xorb b (ksTake ks (j * c.bs) b.length), j + 1)

theorem nofb_ok (iv : Bytes) (hiv : iv.length = c.bs) (hbs : c.bs < 512) :
    StreamOK (nofbStep c)
      (fun x j => BufR (ofbGen c) c.bs { reg := iv, out := [], used := 0 } x (j * c.bs))
      (blkRun c.bs (nofbF c (Spec.streamOf c.bs (Spec.ofbBlock c.E iv)))) := by
  have hpos := c.bs_pos
  have hg := ofb_genLen c iv hiv
  have hks : bufKs (ofbGen c) c.bs { reg := iv, out := [], used := 0 } =
      Spec.streamOf c.bs (Spec.ofbBlock c.E iv) := by rw [bufKs_fresh, ofb_ks]
  apply streamOK_of_segStep c.bs hpos
  intro e x j m d s l hR hl _
  have hcap : bufCap c.bs = 512 := by unfold bufCap; rw [if_neg (by omega)]
  obtain ⟨y, e1, e2, e3⟩ : ∃ y, (if x.used + c.bs ≥ x.out.length then refill true (bufCap c.bs - c.bs) (ofbGen c) x
      else .ok x) = .ok y ∧ BufR (ofbGen c) c.bs { reg := iv, out := [], used := 0 } y (j * c.bs) ∧
      1 ≤ y.rem := by
    split
    · obtain ⟨y, a, b, c, _⟩ := refill_ok (ofbGen c) c.bs hpos _ hg true (bufCap c.bs - c.bs) x _ hR
      exact ⟨y, a, b, c (by omega)⟩
    · exact ⟨x, rfl, hR, by unfold KsBuf.rem; omega⟩
  -- a whole block is buffered
  have hfull : c.bs ≤ y.rem := by
    obtain ⟨J, _, _, h3, _⟩ := e2
    simp only [KsBuf.rem, List.length_nil, Nat.zero_sub, Nat.zero_add] at h3 e3 ⊢
    generalize y.out.length - y.used = r at *
    have hJ : j < J := by
      apply Nat.lt_of_mul_lt_mul_right (a := c.bs)
      omega
    have : (j + 1) * c.bs ≤ J * c.bs := Nat.mul_le_mul_right _ hJ
    rw [Nat.add_mul] at this
    omega
  obtain ⟨f1, _⟩ := buf_xor (ofbGen c) c.bs _ y _ e2 m s (min c.bs l) (min c.bs l) (by omega)
  obtain ⟨_, f2⟩ := buf_xor (ofbGen c) c.bs _ y _ e2 m s c.bs c.bs (by omega)
  rw [hks] at f1
  have hlt : y.used ≤ y.out.length := by unfold KsBuf.rem at e3; omega
  have hol : (xorb (m.read s (min c.bs l)) (ksTake (Spec.streamOf c.bs (Spec.ofbBlock c.E iv)) (j * c.bs)
      (min c.bs l))).length = min c.bs l := by simp
  refine ⟨{ y with used := y.used + c.bs }, ?_, by simpa [nofbF] using hol, ?_⟩
  · unfold nofbStep
    split at e1 <;> rename_i hc
    · simp only [if_pos hc, e1, Res.bind_ok]
      rw [if_neg (by omega), f1, copyInto_eq_left _ _ (by simp)]
      simp [nofbF]
    · obtain rfl := Res.ok.inj e1
      simp only [if_neg hc, Res.bind_ok]
      rw [if_neg (by omega), f1, copyInto_eq_left _ _ (by simp)]
      simp [nofbF]
  · simp only [nofbF]
    rw [Nat.add_mul, Nat.one_mul]
    exact f2

/-- On one input, NOFB is the additive key stream. -/
theorem nofb_run (ks : Nat → Byte) (x : Bytes) (j : Nat) :
    (blkRun c.bs (nofbF c ks) j x).1 = xorb x (ksTake ks (j * c.bs) x.length) := by
  have hpos := c.bs_pos
  induction hn : x.length using Nat.strongRecOn generalizing x j with
  | ind n ih =>
    by_cases hx : x = []
    · subst hx; simp
    · have hp : 0 < x.length := List.length_pos_iff.mpr hx
      rw [blkRun_cons _ hpos _ _ _ hx]
      simp only [nofbF]
      rw [ih _ (by simp; omega) _ _ rfl, ← hn]
      by_cases hl : c.bs ≤ x.length
      · have e1 : (x.take c.bs).length = c.bs := by simp; omega
        have e2 : (x.drop c.bs).length = x.length - c.bs := by simp
        rw [e1, e2]
        conv => rhs; rw [← List.take_append_drop c.bs x]
        rw [show (x.take c.bs ++ x.drop c.bs).length = c.bs + (x.length - c.bs) by simp; omega]
        rw [ksTake_append, xorb_append _ _ _ _ (by simp; omega), Nat.add_mul, Nat.one_mul]
      · have e1 : x.take c.bs = x := List.take_of_length_le (by omega)
        have e2 : x.drop c.bs = [] := List.drop_of_length_le (by omega)
        rw [e1, e2]; simp

theorem nofb_state (ks : Nat → Byte) (x : Bytes) (j : Nat) (hx : c.bs ∣ x.length) :
    (blkRun c.bs (nofbF c ks) j x).2 * c.bs = j * c.bs + x.length := by
  have hpos := c.bs_pos
  induction hn : x.length using Nat.strongRecOn generalizing x j with
  | ind n ih =>
    by_cases hx0 : x = []
    · subst hx0; simp at hn ⊢; omega
    · have hp : 0 < x.length := List.length_pos_iff.mpr hx0
      have hle := Nat.le_of_dvd hp hx
      rw [blkRun_cons _ hpos _ _ _ hx0]
      simp only
      rw [ih _ (by simp; omega) _ _ (by rw [List.length_drop]; exact Nat.dvd_sub hx (Nat.dvd_refl _)) rfl]
      simp only [nofbF, Nat.add_mul, List.length_drop]
      omega

/-! ### GOST R 34.13 OFB -/

theorem g3413ofb_gen_eq (a b : Bytes) (ha : a.length = c.bs) (hb : b.length = c.bs) :
    g3413ofbGen c (a ++ b) = (c.E a, b ++ c.E a) := by
  have hE := c.lenE a ha
  unfold g3413ofbGen
  simp only [List.take_left' ha, List.drop_left' ha]
  congr 1
  rw [copyInto_len_le _ _ (by simp), hb, List.drop_left' ha]
  unfold copyAt
  rw [List.take_left' hb, List.drop_left' hb, copyInto_eq_left _ _ (by omega)]

theorem g3413ofb_regs (r1 r2 : Bytes) (h1 : r1.length = c.bs) (h2 : r2.length = c.bs) (j : Nat) :
    ∃ a b, genRegs (g3413ofbGen c) (r1 ++ r2) j = a ++ b ∧ a.length = c.bs ∧ b.length = c.bs ∧
      c.E a = Spec.g3413ofbBlock c.E r1 r2 j ∧ c.E b = Spec.g3413ofbBlock c.E r1 r2 (j + 1) := by
  induction j with
  | zero => exact ⟨r1, r2, rfl, h1, h2, rfl, rfl⟩
  | succ j ih =>
    obtain ⟨a, b, e1, e2, e3, e4, e5⟩ := ih
    refine ⟨b, c.E a, ?_, e3, by rw [c.lenE a e2], e5, ?_⟩
    · simp only [genRegs, e1]
      rw [g3413ofb_gen_eq c a b e2 e3]
    · rw [e4]; rfl

theorem g3413ofb_ok (r1 r2 : Bytes) (h1 : r1.length = c.bs) (h2 : r2.length = c.bs) (hbs : c.bs < 512) :
    StreamOK (ofbStep c.bs (g3413ofbGen c))
      (BufR (g3413ofbGen c) c.bs { reg := r1 ++ r2, out := [], used := 0 })
      (addRun (Spec.streamOf c.bs (Spec.g3413ofbBlock c.E r1 r2))) := by
  have hg : GenLen (g3413ofbGen c) c.bs (r1 ++ r2) := by
    intro j
    obtain ⟨a, b, e1, e2, e3, _⟩ := g3413ofb_regs c r1 r2 h1 h2 j
    rw [e1, g3413ofb_gen_eq c a b e2 e3]
    exact c.lenE a e2
  have h := ofbStep_ok (g3413ofbGen c) c.bs c.bs_pos c.bs hbs { reg := r1 ++ r2, out := [], used := 0 } hg
  rw [bufKs_fresh, genKs_eq _ _ _ (Spec.g3413ofbBlock c.E r1 r2)] at h
  · exact h
  · intro j
    obtain ⟨a, b, e1, e2, e3, e4, _⟩ := g3413ofb_regs c r1 r2 h1 h2 j
    rw [e1, g3413ofb_gen_eq c a b e2 e3]
    exact e4

/-! ### GOST R 34.13 CTR -/

theorem beNat_append (a : Bytes) (b : Byte) : Spec.beNat (a ++ [b]) = Spec.beNat a * 256 + b.toNat := by
  simp [Spec.beNat]

theorem natBe_length (n v : Nat) : (Spec.natBe n v).length = n := by
  induction n generalizing v with
  | zero => rfl
  | succ n ih => simp [Spec.natBe, ih]

theorem natBe_mod (n v : Nat) : Spec.natBe n (v % 256 ^ n) = Spec.natBe n v := by
  induction n generalizing v with
  | zero => rfl
  | succ n ih =>
    simp only [Spec.natBe]
    congr 1
    · rw [← ih (v / 256), Nat.pow_succ, Nat.mul_comm, Nat.mod_mul_right_div_self]
    · congr 1
      apply BitVec.eq_of_toNat_eq
      simp only [BitVec.toNat_ofNat]
      rw [Nat.pow_succ, Nat.mul_comm]
      exact Nat.mod_mul_right_mod v 256 (256 ^ n)

theorem incBe_snoc (a : Bytes) (b : Byte) :
    incBe (a ++ [b]) = if b + 1 ≠ 0 then a ++ [b + 1] else incBe a ++ [0] := by
  unfold incBe
  rw [List.reverse_append]
  simp only [List.reverse_cons, List.reverse_nil, List.nil_append, List.singleton_append, incLe]
  split <;> simp

theorem list_snoc_induction {P : Bytes → Prop} (h0 : P []) (h1 : ∀ a b, P a → P (a ++ [b])) : ∀ l, P l := by
  intro l
  rw [← l.reverse_reverse]
  induction l.reverse with
  | nil => exact h0
  | cons b l ih => rw [List.reverse_cons]; exact h1 _ _ ih

theorem natBe_beNat (a : Bytes) : Spec.natBe a.length (Spec.beNat a) = a := by
  induction a using list_snoc_induction with
  | h0 => rfl
  | h1 a b ih =>
    rw [List.length_append, beNat_append]
    simp only [List.length_cons, List.length_nil, Nat.zero_add, Spec.natBe]
    have hb := b.isLt
    rw [show (Spec.beNat a * 256 + b.toNat) / 256 = Spec.beNat a by omega, ih]
    congr 2
    apply BitVec.eq_of_toNat_eq
    simp only [BitVec.toNat_ofNat]
    omega

theorem incBe_natBe (n v : Nat) : incBe (Spec.natBe n v) = Spec.natBe n (v + 1) := by
  have t1 : (1 : Byte).toNat = 1 := rfl
  have t0 : (0 : Byte).toNat = 0 := rfl
  induction n generalizing v with
  | zero => rfl
  | succ n ih =>
    simp only [Spec.natBe]
    rw [incBe_snoc]
    split
    · rename_i h
      have hb1 : v % 256 ≠ 255 := by
        intro hh; apply h
        apply BitVec.eq_of_toNat_eq
        rw [BitVec.toNat_add]
        simp only [BitVec.toNat_ofNat, t1, t0]
        omega
      rw [show (v + 1) / 256 = v / 256 by omega]
      congr 2
      apply BitVec.eq_of_toNat_eq
      rw [BitVec.toNat_add]
      simp only [BitVec.toNat_ofNat, t1, t0]
      omega
    · rename_i h
      have h' : BitVec.ofNat 8 v + 1 = 0 := by simpa using h
      have hh : v % 256 = 255 := by
        have := congrArg BitVec.toNat h'
        rw [BitVec.toNat_add] at this
        simp only [BitVec.toNat_ofNat, t1, t0] at this
        omega
      rw [show (v + 1) / 256 = v / 256 + 1 by omega, ih]
      congr 2
      apply BitVec.eq_of_toNat_eq
      simp only [BitVec.toNat_ofNat, t1, t0]
      omega

theorem incBe_eq (a : Bytes) : incBe a = Spec.natBe a.length (Spec.beNat a + 1) := by
  conv => lhs; rw [← natBe_beNat a]
  exact incBe_natBe _ _

theorem ctr_regs (sg : Nat) (ctr : Bytes) (hc : ctr.length = c.bs) (j : Nat) :
    genRegs (ctrGen c sg) ctr j = Spec.natBe c.bs (Spec.beNat ctr + j) := by
  induction j with
  | zero => rw [Nat.add_zero, ← hc, natBe_beNat]; rfl
  | succ j ih => simp only [genRegs, ctrGen, ih, incBe_natBe]; rfl

theorem ctr_ok (sg : Nat) (hsg : 0 < sg) (hle : sg ≤ c.bs) (h256 : 2 * sg ≤ bufCap c.bs) (ctr : Bytes)
    (hc : ctr.length = c.bs) :
    StreamOK (g3413ctrStep c sg) (BufR (ctrGen c sg) sg { reg := ctr, out := [], used := 0 })
      (addRun (Spec.streamOf sg (fun j => (c.E (Spec.natBe c.bs (Spec.beNat ctr + j))).take sg))) := by
  have hg : GenLen (ctrGen c sg) sg ctr := by
    intro j
    rw [ctr_regs c sg ctr hc]
    simp only [ctrGen, List.length_take]
    rw [c.lenE _ (natBe_length _ _)]
    omega
  have hks : bufKs (ctrGen c sg) sg { reg := ctr, out := [], used := 0 } =
      Spec.streamOf sg (fun j => (c.E (Spec.natBe c.bs (Spec.beNat ctr + j))).take sg) := by
    rw [bufKs_fresh, genKs_eq]
    intro j
    rw [ctr_regs c sg ctr hc]; rfl
  apply streamOK_of_addStep
  intro e x p m d s l hR hl _
  obtain ⟨y, e1, e2, e3⟩ : ∃ y, (if x.used + sg ≥ x.out.length then
        refill false (bufCap c.bs - sg + 1) (ctrGen c sg) x else .ok x) = .ok y ∧
      BufR (ctrGen c sg) sg { reg := ctr, out := [], used := 0 } y p ∧ sg ≤ y.rem := by
    split
    · obtain ⟨y, a, b, _, h⟩ := refill_ok (ctrGen c sg) sg hsg _ hg false (bufCap c.bs - sg + 1) x p hR
      have := h rfl
      exact ⟨y, a, b, by omega⟩
    · exact ⟨x, rfl, hR, by unfold KsBuf.rem; omega⟩
  obtain ⟨f1, _⟩ := buf_xor (ctrGen c sg) sg _ y p e2 m s (min l sg) (min l sg) (by omega)
  obtain ⟨_, f2⟩ := buf_xor (ctrGen c sg) sg _ y p e2 m s (min l sg) (min l sg) (by omega)
  rw [hks] at f1
  have hx : xorb (m.read s l) ((y.out.drop y.used).take sg) = xorb (m.read s (min l sg)) (y.out.drop y.used) := by
    have hr : m.read s (min l sg) = (m.read s l).take (min l sg) := by rw [Mem.read_take]; congr 1; omega
    have hdl : (y.out.drop y.used).length = y.rem := by simp [KsBuf.rem]
    rw [hr]
    by_cases hls : l ≤ sg
    · rw [Nat.min_eq_left hls, xorb_take_right _ _ _ (by simp; omega), xorb_take_left _ _ _ (by simp; omega)]
    · rw [Nat.min_eq_right (by omega)]
      have hz : xorb ((m.read s l).take sg) (y.out.drop y.used) =
          xorb ((m.read s l).take sg) ((y.out.drop y.used).take sg) := by
        rw [xorb_take_right _ _ _ (by simp; omega)]
      rw [hz, xorb_take_left _ _ _ (by simp; omega)]
  have hlt : y.used + sg ≤ y.out.length := by unfold KsBuf.rem at e3; omega
  refine ⟨min l sg, _, by omega, by omega, ?_, f2⟩
  unfold g3413ctrStep
  rw [if_neg (by omega)]
  split at e1 <;> rename_i hcn
  · simp only [if_pos hcn, e1, Res.bind_ok]
    rw [if_neg (by omega), hx, f1]
  · obtain rfl := Res.ok.inj e1
    simp only [if_neg hcn, Res.bind_ok]
    rw [if_neg (by omega), hx, f1]

/-! ### Infinite loops -/

theorem refillLoop_hang_of_nil {ρ : Type} (gen : ρ → Bytes × ρ) (hnil : ∀ r, (gen r).1 = []) (lim : Nat)
    (fuel : Nat) (r : ρ) (out : Bytes) (h : out.length < lim) : refillLoop lim gen fuel r out = .hang := by
  induction fuel generalizing r with
  | zero => rw [refillLoop, if_pos h]
  | succ n ih => rw [refillLoop, if_pos h]; simp only [hnil, List.append_nil]; exact ih _

theorem segLoop_hang_of_stuck {σ : Type} (step : σ → Mem → Nat → Nat → Nat → Res (Nat × Mem × σ)) (I : σ → Prop)
    (hs : ∀ st m d s l, I st → ∃ st' m', step st m d s l = .ok (0, m', st') ∧ I st') (fuel : Nat) (st : σ)
    (m : Mem) (d s l : Nat) (hI : I st) (hl : l ≠ 0) : segLoop step fuel st m d s l = .hang := by
  induction fuel generalizing st m with
  | zero => rw [segLoop, if_neg hl]
  | succ n ih =>
    obtain ⟨st', m', e1, e2⟩ := hs st m d s l hI
    rw [segLoop, if_neg hl, e1]
    simp only [Res.bind_ok, Nat.add_zero, Nat.sub_zero]
    exact ih _ _ e2

end Verif.Mode
