import Verif.Mode.CfbLemmas
/-
CFB1, CFB16/32/64, NCFB, GOST CFB with key meshing, GOST R 34.13 CFB.
-/
namespace Verif.Mode

variable (c : BlockCipher)

/-! ### A more general version of `StreamOK` -/

/-- As `StreamOK`, with a side condition `C` on the buffers, `P` on the remaining length and a relation that
may depend on the remaining length. -/
structure StreamOKG {σ τ : Type} (C : Nat → Nat → Nat → Prop) (P : Nat → Prop)
    (step : Nat → σ → Mem → Nat → Nat → Nat → Res (Nat × Mem × σ))
    (R : Nat → σ → τ → Prop) (run : τ → Bytes → Bytes × τ) : Prop where
  shift : ∀ d s l n, C d s l → n ≤ l → C (d + n) (s + n) (l - n)
  sod : ∀ d s l, C d s l → SameOrDisjoint d s l
  nil : ∀ t, run t [] = ([], t)
  step_ok : ∀ e st t m d s l, R l st t → 0 < l → C d s l → P l →
    ∃ n o st' t', step e st m d s l = .ok (n, m.write d o, st') ∧ 1 ≤ n ∧ n ≤ l ∧ o.length = n ∧
      R (l - n) st' t' ∧ P (l - n) ∧
      run t (m.read s l) = (o ++ (run t' (m.read (s + n) (l - n))).1, (run t' (m.read (s + n) (l - n))).2)

theorem StreamOKG.loop {σ τ : Type} {C : Nat → Nat → Nat → Prop} {P : Nat → Prop}
    {step : Nat → σ → Mem → Nat → Nat → Nat → Res (Nat × Mem × σ)} {R : Nat → σ → τ → Prop}
    {run : τ → Bytes → Bytes × τ} (h : StreamOKG C P step R run) (e : Nat) :
    ∀ fuel st t m d s l, l ≤ fuel → R l st t → C d s l → P l →
      ∃ st', segLoop (step e) fuel st m d s l = .ok (m.write d (run t (m.read s l)).1, st') ∧
        R 0 st' (run t (m.read s l)).2 ∧ (run t (m.read s l)).1.length = l := by
  intro fuel
  induction fuel with
  | zero =>
    intro st t m d s l hl hR _ _
    have : l = 0 := by omega
    subst this
    refine ⟨st, ?_, ?_, ?_⟩ <;> simp [segLoop, Mem.read, h.nil, Mem.write_nil, hR]
  | succ fuel ih =>
    intro st t m d s l hl hR hd hP
    by_cases h0 : l = 0
    · subst h0
      refine ⟨st, ?_, ?_, ?_⟩ <;> simp [segLoop, Mem.read, h.nil, Mem.write_nil, hR]
    · obtain ⟨n, o, st', t', e1, h1, h2, h3, hR', hP', hrun⟩ := h.step_ok e st t m d s l hR (by omega) hd hP
      have hrd : (m.write d o).read (s + n) (l - n) = m.read (s + n) (l - n) := by
        apply Mem.read_write_disjoint
        rcases h.sod _ _ _ hd with h | h | h <;> omega
      obtain ⟨st'', e2, hR2, hlen⟩ := ih st' t' (m.write d o) (d + n) (s + n) (l - n) (by omega) hR'
        (h.shift _ _ _ _ hd h2) hP'
      rw [hrd] at e2 hR2 hlen
      refine ⟨st'', ?_, ?_, ?_⟩
      · rw [segLoop, if_neg h0, e1]
        simp only [Res.bind_ok]
        rw [e2, hrun, Mem.write_append, h3]
      · rw [hrun]; exact hR2
      · rw [hrun]; simp only [List.length_append, hlen, h3]; omega

theorem StreamOKG.call {σ τ : Type} {C : Nat → Nat → Nat → Prop} {P : Nat → Prop}
    {step : Nat → σ → Mem → Nat → Nat → Nat → Res (Nat × Mem × σ)} {R : Nat → σ → τ → Prop}
    {run : τ → Bytes → Bytes × τ} (h : StreamOKG C P step R run) {st : σ} {t : τ} (m : Mem) (dst src : Slice)
    (hR : R src.len st t) (h2 : src.len ≤ dst.len) (h3 : NoPartialOverlap dst src)
    (hC : C dst.ptr src.ptr src.len) (hP : P src.len) :
    ∃ st', xorKeyStream step st m dst src =
        .ok (m.write dst.ptr (run t (m.read src.ptr src.len)).1, st') ∧
      R 0 st' (run t (m.read src.ptr src.len)).2 ∧
      (run t (m.read src.ptr src.len)).1.length = src.len := by
  unfold xorKeyStream
  unfold NoPartialOverlap at h3
  rw [if_neg (by omega), h3]
  simp only [Bool.false_eq_true, if_false]
  exact h.loop _ src.len st t m _ _ _ (Nat.le_refl _) hR hC hP

/-! ### CFB1 -/

/-- One bit of CFB1: the register is kept as bytes. -/
def cfb1BitF (dec : Bool) (x : Bytes) (p : Bool) : Bool × Bytes :=
  let o := (((c.E x).getD 0 0).msb ^^ p)
  (o, leftShiftBytes x (if (if dec then p else o) then 1 else 0))

def bitRun (dec : Bool) : Bytes → List Bool → List Bool × Bytes
  | x, [] => ([], x)
  | x, p :: ps =>
    let r := cfb1BitF c dec x p
    let rs := bitRun dec r.2 ps
    (r.1 :: rs.1, rs.2)

theorem bitRun_append (dec : Bool) (x : Bytes) (a b : List Bool) :
    bitRun c dec x (a ++ b) = ((bitRun c dec x a).1 ++ (bitRun c dec (bitRun c dec x a).2 b).1,
      (bitRun c dec (bitRun c dec x a).2 b).2) := by
  induction a generalizing x with
  | nil => simp [bitRun]
  | cons p a ih => simp [bitRun, ih]

theorem bitRun_length (dec : Bool) (x : Bytes) (a : List Bool) : (bitRun c dec x a).1.length = a.length := by
  induction a generalizing x with
  | nil => simp [bitRun]
  | cons p a ih => simp [bitRun, ih]

/-- The bits of a byte, most significant first. -/
def bitsOf (b : Byte) : List Bool := (List.range 8).map b.getMsbD

def packBits (l : List Bool) : Byte :=
  l.foldl (fun a b => (a <<< 1) ||| (if b then 1 else 0)) 0

@[simp] theorem bitsOf_length (b : Byte) : (bitsOf b).length = 8 := by simp [bitsOf]

theorem packBits_bitsOf (b : Byte) : packBits (bitsOf b) = b := by
  revert b; decide +kernel

theorem bits8 (l : List Bool) (h : l.length = 8) :
    ∃ a b c d e f g i, l = [a, b, c, d, e, f, g, i] := by
  match l, h with
  | [a, b, c, d, e, f, g, i], _ => exact ⟨a, b, c, d, e, f, g, i, rfl⟩

theorem bitsOf_packBits (l : List Bool) (h : l.length = 8) : bitsOf (packBits l) = l := by
  obtain ⟨a, b, c, d, e, f, g, i, rfl⟩ := bits8 l h
  revert a b c d e f g i; decide +kernel

/-- One byte of CFB1. -/
def cfb1F (dec : Bool) (x : Bytes) (b : Byte) : Byte × Bytes :=
  let r := bitRun c dec x (bitsOf b)
  (packBits r.1, r.2)

theorem byte_bit (b : Byte) (j : Nat) (hj : j < 8) :
    (b >>> (7 - j)) &&& 1 = if b.getMsbD j then 1 else 0 := by
  revert b
  match j, hj with
  | 0, _ | 1, _ | 2, _ | 3, _ | 4, _ | 5, _ | 6, _ | 7, _ => decide +kernel

theorem set_bit (b : Byte) (j : Nat) (hj : j < 8) (v : Bool) :
    bitsOf (if v then b ||| ((1 : Byte) <<< (7 - j)) else b &&& ~~~((1 : Byte) <<< (7 - j)))
      = (bitsOf b).set j v := by
  revert b v
  match j, hj with
  | 0, _ | 1, _ | 2, _ | 3, _ | 4, _ | 5, _ | 6, _ | 7, _ => decide +kernel

theorem bitsOf_inj {a b : Byte} (h : bitsOf a = bitsOf b) : a = b := by
  rw [← packBits_bitsOf a, h, packBits_bitsOf]

theorem bitsOf_getElem (b : Byte) (j : Nat) (h : j < (bitsOf b).length) : (bitsOf b)[j] = b.getMsbD j := by
  simp [bitsOf]

theorem bool_if_one (a b : Bool) :
    ((if a then (1 : Byte) else 0) ^^^ (if b then 1 else 0)) = if (a ^^ b) then 1 else 0 := by
  revert a b; decide

theorem if_eq_one (a : Bool) : ((if a then (1 : Byte) else 0) = 1) ↔ a = true := by
  revert a; decide

theorem cfb1_fold (dec : Bool) (x : Bytes) (m : Mem) (d s : Nat) (j : Nat) (hj : j ≤ 8) :
    ∃ w : Byte, (List.range j).foldl (cfb1Bit c dec d s) (x, m) =
        ((bitRun c dec x ((bitsOf (m s)).take j)).2, m.write d [w]) ∧
      bitsOf w = (bitRun c dec x ((bitsOf (m s)).take j)).1 ++ (bitsOf (m d)).drop j := by
  induction j with
  | zero =>
    refine ⟨m d, ?_, by simp [bitRun]⟩
    have : m.write d [m d] = m := by
      funext a
      by_cases h : a = d
      · subst h; simp [Mem.write]
      · rcases Nat.lt_or_gt_of_ne h with h | h
        · exact Mem.write_of_lt _ _ _ _ h
        · exact Mem.write_of_ge _ _ _ _ (by simp; omega)
    simp [bitRun, this]
  | succ j ih =>
    obtain ⟨w, e1, e2⟩ := ih (by omega)
    rw [List.range_succ, List.foldl_append, e1]
    simp only [List.foldl_cons, List.foldl_nil]
    -- the source bit read is the original one
    have hlen := bitRun_length c dec x ((bitsOf (m s)).take j)
    have hlen' : (bitRun c dec x ((bitsOf (m s)).take j)).1.length = j := by rw [hlen]; simp; omega
    have hsrc : ((m.write d [w]) s).getMsbD j = (m s).getMsbD j := by
      by_cases hds : s = d
      · subst hds
        have : (m.write s [w]) s = w := by simp [Mem.write]
        rw [this]
        rw [← bitsOf_getElem w j (by simp; omega), ← bitsOf_getElem (m s) j (by simp; omega)]
        simp only [e2]
        rw [List.getElem_append_right (by omega)]
        simp [hlen']
      · have : (m.write d [w]) s = m s := by
          rcases Nat.lt_or_gt_of_ne hds with h | h
          · exact Mem.write_of_lt _ _ _ _ h
          · exact Mem.write_of_ge _ _ _ _ (by simp; omega)
        rw [this]
    have htake : (bitsOf (m s)).take (j + 1) = (bitsOf (m s)).take j ++ [(m s).getMsbD j] := by
      rw [List.take_succ, List.getElem?_eq_getElem (by simp; omega), bitsOf_getElem]
      rfl
    rw [htake, bitRun_append]
    generalize hX : bitRun c dec x ((bitsOf (m s)).take j) = X at *
    obtain ⟨os, y⟩ := X
    simp only at e2 hlen' ⊢
    simp only [bitRun, cfb1BitF]
    have hout : ((c.E y).getD 0 0 >>> 7) &&& 1 = if ((c.E y).getD 0 0).msb then 1 else 0 := by
      generalize (c.E y).getD 0 0 = z
      revert z; decide +kernel
    have hsb : ((m.write d [w]) s >>> (7 - j)) &&& 1 = if (m s).getMsbD j then 1 else 0 := by
      rw [byte_bit _ j (by omega), hsrc]
    have hwd : (m.write d [w]) d = w := by simp [Mem.write]
    generalize hz : ((c.E y).getD 0 0).msb = z at hout ⊢
    generalize hp : (m s).getMsbD j = p at hsb ⊢
    refine ⟨if (z ^^ p) then w ||| ((1 : Byte) <<< (7 - j)) else w &&& ~~~((1 : Byte) <<< (7 - j)), ?_, ?_⟩
    · unfold cfb1Bit
      simp only [hout, hsb, hwd, bool_if_one, if_eq_one]
      have hmv : (if dec = true then (if p = true then (1 : Byte) else 0) else if (z ^^ p) = true then 1 else 0)
          = (if (if dec then p else (z ^^ p)) then 1 else 0) := by cases dec <;> simp
      rw [hmv]
      congr 1
      cases hzp : (z ^^ p) <;> simp [Mem.write_write_same]
    · rw [set_bit _ _ (by omega), e2, List.set_append_right _ _ (by omega), hlen', Nat.sub_self,
        List.drop_eq_getElem_cons (by simp; omega), List.set_cons_zero]
      simp

theorem cfb1_ok (dec : Bool) : StreamOK (cfb1Step c dec) (fun x t => x = t) (bRun (cfb1F c dec)) := by
  apply streamOK_of_byteStep
  rintro e x _ m d s l rfl _
  obtain ⟨w, e1, e2⟩ := cfb1_fold c dec x m d s 8 (Nat.le_refl _)
  rw [List.take_of_length_le (by simp), List.drop_of_length_le (by simp), List.append_nil] at e2
  rw [List.take_of_length_le (by simp)] at e1
  refine ⟨(cfb1F c dec x (m s)).2, ?_, rfl⟩
  unfold cfb1Step
  rw [e1]
  simp only [cfb1F]
  rw [← e2, packBits_bitsOf]

theorem bitRun_roundtrip (x : Bytes) (l : List Bool) :
    bitRun c true x (bitRun c false x l).1 = (l, (bitRun c false x l).2) := by
  induction l generalizing x with
  | nil => simp [bitRun]
  | cons p l ih =>
    simp only [bitRun, cfb1BitF, Bool.false_eq_true, if_false, if_true]
    rw [ih]
    have : ∀ z : Bool, (z ^^ (z ^^ p)) = p := by intro z; cases z <;> cases p <;> rfl
    rw [this]

theorem cfb1_roundtrip (x t : Bytes) :
    (bRun (cfb1F c true) t (bRun (cfb1F c false) t x).1).1 = x ∧
    (bRun (cfb1F c false) t x).2 = (bRun (cfb1F c true) t (bRun (cfb1F c false) t x).1).2 := by
  refine bRun_roundtrip (cfb1F c false) (cfb1F c true) (fun a b => a = b) ?_ x t t rfl
  rintro t _ b rfl
  simp only [cfb1F]
  rw [bitsOf_packBits _ (by rw [bitRun_length]; simp), bitRun_roundtrip]
  exact ⟨packBits_bitsOf b, rfl⟩

theorem toBits_nil : Spec.toBits [] = [] := rfl
theorem toBits_cons (b : Byte) (x : Bytes) : Spec.toBits (b :: x) = bitsOf b ++ Spec.toBits x := rfl

theorem shl_bits (b : Byte) (v : Bool) :
    bitsOf ((b <<< 1) ||| (if v then 1 else 0)) = (bitsOf b).tail ++ [v] := by
  revert b v; decide +kernel

theorem msb_and (b : Byte) : (b >>> 7) &&& 1 = if b.msb then 1 else 0 := by
  revert b; decide +kernel

theorem bitsOf_cons (b : Byte) : bitsOf b = b.msb :: (bitsOf b).tail := by
  revert b; decide +kernel

theorem toBits_leftShift (x : Bytes) (hx : x ≠ []) (v : Bool) :
    Spec.toBits (leftShiftBytes x (if v then 1 else 0)) = (Spec.toBits x).tail ++ [v] := by
  induction x with
  | nil => exact absurd rfl hx
  | cons b r ih =>
    cases r with
    | nil =>
      simp only [leftShiftBytes, toBits_cons, toBits_nil, List.append_nil]
      exact shl_bits b v
    | cons b' r =>
      simp only [leftShiftBytes]
      rw [toBits_cons, ih (by simp), msb_and, shl_bits, toBits_cons b]
      rw [List.tail_append_of_ne_nil (by intro h; have := congrArg List.length h; simp at this)]
      rw [toBits_cons b', bitsOf_cons b']
      simp

theorem leftShift_length (x : Bytes) (w : Byte) : (leftShiftBytes x w).length = x.length := by
  induction x with
  | nil => rfl
  | cons b r ih => cases r with
    | nil => rfl
    | cons b' r => simpa [leftShiftBytes] using ih

theorem bitRun_reg_length (dec : Bool) (x : Bytes) (l : List Bool) :
    (bitRun c dec x l).2.length = x.length := by
  induction l generalizing x with
  | nil => simp [bitRun]
  | cons p l ih => simp [bitRun, ih, cfb1BitF, leftShift_length]

theorem bitRun_spec (Eb : List Bool → List Bool)
    (hEb : ∀ b : Bytes, b.length = c.bs → Eb (Spec.toBits b) = Spec.toBits (c.E b))
    (x : Bytes) (hx : x.length = c.bs) (l : List Bool) :
    (bitRun c false x l).1 = Spec.cfb1 Eb (Spec.toBits x) l := by
  induction l generalizing x with
  | nil => simp [bitRun, Spec.cfb1]
  | cons p l ih =>
    have hpos := c.bs_pos
    simp only [bitRun, cfb1BitF, Spec.cfb1, Bool.false_eq_true, if_false]
    rw [ih _ (by rw [leftShift_length, hx]),
      toBits_leftShift _ (by intro h; subst h; simp at hx; omega), hEb x hx]
    have hmsb : (Spec.toBits (c.E x)).headD false = ((c.E x).getD 0 0).msb := by
      have hl := c.lenE x hx
      cases hE : c.E x with
      | nil => rw [hE] at hl; simp at hl; omega
      | cons b r => rw [toBits_cons, bitsOf_cons]; simp
    rw [hmsb, Bool.xor_comm]

theorem cfb1F_spec (Eb : List Bool → List Bool)
    (hEb : ∀ b : Bytes, b.length = c.bs → Eb (Spec.toBits b) = Spec.toBits (c.E b))
    (v : Bytes) (hv : v.length = c.bs) (x : Bytes) :
    Spec.toBits (bRun (cfb1F c false) v x).1 = Spec.cfb1 Eb (Spec.toBits v) (Spec.toBits x) := by
  rw [← bitRun_spec c Eb hEb v hv]
  clear hEb
  induction x generalizing v with
  | nil => simp [toBits_nil, bitRun]
  | cons b x ih =>
    rw [bRun_cons, toBits_cons, toBits_cons, bitRun_append]
    simp only [cfb1F]
    rw [bitsOf_packBits _ (by rw [bitRun_length]; simp)]
    rw [ih _ (by rw [bitRun_reg_length, hv])]

/-- The block cipher on bit strings exists (used to show hypotheses are met). -/
def unBits (l : List Bool) : Nat → Bytes
  | 0 => []
  | n + 1 => packBits (l.take 8) :: unBits (l.drop 8) n

theorem unBits_toBits (x : Bytes) : unBits (Spec.toBits x) x.length = x := by
  induction x with
  | nil => rfl
  | cons b x ih =>
    rw [toBits_cons, List.length_cons, unBits, List.take_left' (by simp), List.drop_left' (by simp),
      packBits_bitsOf, ih]

/-! ### CFB16/32/64 -/

/-- One (possibly short) segment. -/
def cfbSegF (dec : Bool) (x b : Bytes) : Bytes × Bytes :=
  let o := xorb b (c.E x)
  (o, copyAt (copyInto x (x.drop b.length)) b.length (if dec then b else o))

theorem cfbSeg_ok (seg : Nat) (hseg : 0 < seg) (hle : seg ≤ c.bs) (dec : Bool) :
    StreamOK (cfbSegStep c seg dec) (fun x t => x = t ∧ t.length = c.bs) (blkRun seg (cfbSegF c dec)) := by
  apply streamOK_of_segStep seg hseg
  rintro e x _ m d s l ⟨rfl, hv⟩ hl _
  have hE := c.lenE x hv
  have hol : (xorb (m.read s (min seg l)) (c.E x)).length = min seg l := by simp [hE]; omega
  refine ⟨(cfbSegF c dec x (m.read s (min seg l))).2, ?_, hol, rfl, ?_⟩
  · unfold cfbSegStep
    simp only
    rw [if_neg (by omega), copyInto_eq_left _ _ (by simp [hE]; omega)]
    simp [cfbSegF]
  · simp [cfbSegF, copyAt_length, hv]

theorem cfbSeg_roundtrip (seg : Nat) (hseg : 0 < seg) (hle : seg ≤ c.bs) (x t : Bytes) (ht : t.length = c.bs) :
    (blkRun seg (cfbSegF c true) t (blkRun seg (cfbSegF c false) t x).1).1 = x ∧
    ((blkRun seg (cfbSegF c false) t x).2 = (blkRun seg (cfbSegF c true) t (blkRun seg (cfbSegF c false) t x).1).2
      ∧ (blkRun seg (cfbSegF c false) t x).2.length = c.bs) := by
  refine blkRun_roundtrip_any seg hseg (cfbSegF c false) (cfbSegF c true)
    (fun a b => a = b ∧ a.length = c.bs) ?_ x t t ⟨rfl, ht⟩
  rintro t _ b ⟨rfl, ht⟩ hb
  have hE := c.lenE t ht
  have hl : (xorb b (c.E t)).length = b.length := by simp [hE]; omega
  have hc : xorb (xorb b (c.E t)) (c.E t) = b := xorb_xorb_cancel_right _ _ (by omega)
  refine ⟨by simp [cfbSegF, hE]; omega, ?_, ?_, ?_⟩
  · simp only [cfbSegF]; exact hc
  · simp only [cfbSegF, if_true, hl, Bool.false_eq_true, if_false]
  · simp [cfbSegF, copyAt_length, ht]

/-- For a register of exactly two segments the code's register update is the one of SP 800-38A. -/
theorem cfbSegF_reg (seg : Nat) (h2 : c.bs = 2 * seg) (x b fb : Bytes) (hx : x.length = c.bs)
    (hb : b.length = seg) (hf : fb.length = seg) :
    copyAt (copyInto x (x.drop b.length)) b.length fb = x.drop seg ++ fb := by
  have hd : (x.drop seg).length = seg := by simp; omega
  rw [hb, copyInto_len_le _ _ (by simp)]
  unfold copyAt
  rw [List.take_left' hd, List.drop_left' hd, copyInto_eq_left]
  rw [hf]; simp; omega

theorem cfbSegF_spec (seg : Nat) (hseg : 0 < seg) (h2 : c.bs = 2 * seg) (v : Bytes) (hv : v.length = c.bs)
    (x : Bytes) :
    (blkRun seg (cfbSegF c false) v x).1 = (Spec.cfbSeg c.E v (chunks seg x)).flatten := by
  induction hn : x.length using Nat.strongRecOn generalizing x v with
  | ind n ih =>
    by_cases hx : x = []
    · subst hx; simp [Spec.cfbSeg]
    · have hp : 0 < x.length := List.length_pos_iff.mpr hx
      have hE := c.lenE v hv
      rw [chunks_cons _ hseg _ hx, Spec.cfbSeg, List.flatten_cons, blkRun_cons _ hseg _ _ _ hx]
      simp only [cfbSegF, Bool.false_eq_true, if_false]
      congr 1
      by_cases hfull : seg ≤ x.length
      · have hl : (x.take seg).length = seg := by simp; omega
        have hl' : (xorb (x.take seg) (c.E v)).length = seg := by simp [hE]; omega
        have hreg := cfbSegF_reg c seg h2 v (x.take seg) _ hv hl hl'
        rw [hreg, hl]
        exact ih _ (by simp; omega) _ (by simp [hE]; omega) _ rfl
      · have : x.drop seg = [] := List.drop_of_length_le (by omega)
        rw [this]; simp [Spec.cfbSeg]

/-- When the segment is the whole block, a full segment leaves the register unchanged. -/
theorem cfbSegF_stuck (x b fb : Bytes) (hx : x.length = c.bs) (hb : b.length = c.bs) :
    copyAt (copyInto x (x.drop b.length)) b.length fb = x := by
  rw [List.drop_of_length_le (by omega)]
  have : copyInto x [] = x := by simp [copyInto]
  rw [this]
  unfold copyAt
  rw [List.drop_of_length_le (by omega), List.take_of_length_le (by omega)]
  simp [copyInto]

theorem cfbSegF_stuck_run (dec : Bool) (v : Bytes) (hv : v.length = c.bs) (x : Bytes) :
    (blkRun c.bs (cfbSegF c dec) v x).1 = ((chunks c.bs x).map (fun p => xorb p (c.E v))).flatten := by
  have hpos := c.bs_pos
  induction hn : x.length using Nat.strongRecOn generalizing x with
  | ind n ih =>
    by_cases hx : x = []
    · subst hx; simp
    · have hp : 0 < x.length := List.length_pos_iff.mpr hx
      rw [chunks_cons _ hpos _ hx, List.map_cons, List.flatten_cons, blkRun_cons _ hpos _ _ _ hx]
      simp only [cfbSegF]
      congr 1
      by_cases hfull : c.bs ≤ x.length
      · have hl : (x.take c.bs).length = c.bs := by simp; omega
        have hreg := cfbSegF_stuck c v (x.take c.bs)
          (if dec = true then x.take c.bs else xorb (x.take c.bs) (c.E v)) hv hl
        rw [hreg]
        exact ih _ (by simp; omega) _ rfl
      · have : x.drop c.bs = [] := List.drop_of_length_le (by omega)
        rw [this]; simp

theorem cfbSeg_panic (seg : Nat) (hle : c.bs < seg) (dec : Bool) (e : Nat) (x : Bytes) (m : Mem)
    (d s l : Nat) (hv : x.length = c.bs) (hl : c.bs < l) : cfbSegStep c seg dec e x m d s l = .panic := by
  unfold cfbSegStep
  simp only
  rw [if_pos (by omega)]

/-! ### NCFB -/

/-- One (possibly short) block; a short block only overwrites the front of the register. -/
def ncfbF (dec : Bool) (v b : Bytes) : Bytes × Bytes :=
  let o := xorb b (c.E v)
  (o, copyInto v (if dec then b else o))

def NcfbR (x : Cfb) (v : Bytes) : Prop :=
  x.used = c.bs ∧ x.next = v ∧ v.length = c.bs ∧ x.out.length = c.bs

theorem ncfb_ok (dec : Bool) : StreamOK (ncfbStep c dec) (NcfbR c) (blkRun c.bs (ncfbF c dec)) := by
  have hpos := c.bs_pos
  apply streamOK_of_segStep c.bs hpos
  rintro e ⟨next, out, used⟩ v m d s l ⟨h1, h2, h3, h4⟩ hl _
  simp only at h1 h2 h4
  subst h1 h2
  have hE := c.lenE next h3
  have hol : (xorb (m.read s (min c.bs l)) (c.E next)).length = min c.bs l := by simp [hE]
  have hfill : cfbFill c { next := next, out := out, used := c.bs } = { next := next, out := c.E next, used := 0 } := by
    simp [cfbFill, h4]
  have hcp : ∀ y : Bytes, copyAt next 0 y = copyInto next y := by intro y; simp [copyAt]
  cases dec with
  | true =>
    refine ⟨{ next := copyInto next (m.read s (min c.bs l)), out := c.E next, used := c.bs }, ?_, hol, ?_⟩
    · unfold ncfbStep
      simp only [hfill, if_true, hcp, List.drop_zero]
      rw [if_neg (by omega), copyInto_eq_left (List.replicate _ _) _ (by simp [hE])]
      simp [ncfbF]
    · exact ⟨rfl, by simp [ncfbF], by simp [ncfbF, h3], hE⟩
  | false =>
    refine ⟨{ next := copyInto next (xorb (m.read s (min c.bs l)) (c.E next)), out := c.E next, used := c.bs },
      ?_, hol, ?_⟩
    · unfold ncfbStep
      simp only [hfill, Bool.false_eq_true, if_false, hcp, List.drop_zero]
      rw [if_neg (by omega), copyInto_eq_left (List.replicate _ _) _ (by simp [hE])]
      simp [ncfbF]
    · exact ⟨rfl, by simp [ncfbF], by simp [ncfbF, h3], hE⟩

theorem cfbNew_NcfbR {iv : Bytes} {x : Cfb} (h : cfbNew c iv = .ok x) :
    iv.length = c.bs ∧ NcfbR c x iv := by
  unfold cfbNew at h
  split at h
  · cases h
  · rename_i hl
    have hl' : iv.length = c.bs := by simpa using hl
    obtain rfl := Res.ok.inj h
    exact ⟨hl', rfl, copyInto_eq_left _ _ (by simp [hl']), hl', by simp⟩

theorem ncfbF_spec (v : Bytes) (hv : v.length = c.bs) (x : Bytes) :
    (blkRun c.bs (ncfbF c false) v x).1 = (Spec.cfb c.E v (chunks c.bs x)).flatten := by
  have hpos := c.bs_pos
  induction hn : x.length using Nat.strongRecOn generalizing x v with
  | ind n ih =>
    by_cases hx : x = []
    · subst hx; simp [Spec.cfb]
    · have hp : 0 < x.length := List.length_pos_iff.mpr hx
      have hE := c.lenE v hv
      rw [chunks_cons _ hpos _ hx, Spec.cfb, List.flatten_cons, blkRun_cons _ hpos _ _ _ hx]
      simp only [ncfbF, Bool.false_eq_true, if_false]
      congr 1
      by_cases hfull : c.bs ≤ x.length
      · have hl' : (xorb (x.take c.bs) (c.E v)).length = c.bs := by simp [hE]; omega
        rw [copyInto_eq_left _ _ (by omega)]
        exact ih _ (by simp; omega) _ hl' _ rfl
      · have : x.drop c.bs = [] := List.drop_of_length_le (by omega)
        rw [this]; simp [Spec.cfb]

theorem ncfb_roundtrip (x t : Bytes) (ht : t.length = c.bs) :
    (blkRun c.bs (ncfbF c true) t (blkRun c.bs (ncfbF c false) t x).1).1 = x ∧
    ((blkRun c.bs (ncfbF c false) t x).2 = (blkRun c.bs (ncfbF c true) t (blkRun c.bs (ncfbF c false) t x).1).2
      ∧ (blkRun c.bs (ncfbF c false) t x).2.length = c.bs) := by
  refine blkRun_roundtrip_any c.bs c.bs_pos (ncfbF c false) (ncfbF c true)
    (fun a b => a = b ∧ a.length = c.bs) ?_ x t t ⟨rfl, ht⟩
  rintro t _ b ⟨rfl, ht⟩ hb
  have hE := c.lenE t ht
  have hc : xorb (xorb b (c.E t)) (c.E t) = b := xorb_xorb_cancel_right _ _ (by omega)
  refine ⟨by simp [ncfbF, hE]; omega, ?_, ?_, ?_⟩
  · simp only [ncfbF]; exact hc
  · simp only [ncfbF, if_true, Bool.false_eq_true, if_false]
  · simp [ncfbF, ht]

/-! ### GOST R 34.13 CFB -/

/-- One (possibly short) segment; register `r` of `2*bs` bytes. -/
def g3413cfbF (dec : Bool) (r b : Bytes) : Bytes × Bytes :=
  let o := xorb b (c.E (r.take c.bs))
  (o, r.drop o.length ++ (if dec then b else o))

def G3413R (sg : Nat) (x : Cfb) (r : Bytes) : Prop :=
  x.used = sg ∧ x.next = r ∧ r.length = 2 * c.bs ∧ x.out.length = c.bs

theorem g3413cfb_step (sg : Nat) (hsg : 0 < sg) (hle : sg ≤ c.bs) (dec : Bool) (e : Nat) (x : Cfb) (r : Bytes)
    (m : Mem) (d s l : Nat) (hR : G3413R c sg x r) (hl : 0 < l)
    (hC : if dec then DisjointRange d s l else SameOrDisjoint d s l) :
    ∃ x', g3413cfbStep c sg dec e x m d s l =
        .ok (min l sg, m.write d (g3413cfbF c dec r (m.read s (min l sg))).1, x') ∧
      (g3413cfbF c dec r (m.read s (min l sg))).1.length = min l sg ∧
      (sg ≤ l → G3413R c sg x' (g3413cfbF c dec r (m.read s (min l sg))).2) := by
  obtain ⟨next, out, used⟩ := x
  obtain ⟨h1, h2, h3, h4⟩ := hR
  simp only at h1 h2 h4
  subst h1 h2
  have hpos := c.bs_pos
  have htk : (next.take c.bs).length = c.bs := by simp; omega
  have hE := c.lenE _ htk
  have hol : (xorb (m.read s (min l used)) (c.E (next.take c.bs))).length = min l used := by simp [hE]; omega
  have ho : xorb (m.read s l) ((c.E (next.take c.bs)).take used) = xorb (m.read s (min l used)) (c.E (next.take c.bs)) := by
    have ha : m.read s (min l used) = (m.read s l).take (min l used) := by
      rw [Mem.read_take]; congr 1; omega
    rw [ha]
    by_cases hlu : l ≤ used
    · rw [Nat.min_eq_left hlu, xorb_take_right _ _ _ (by simp; omega), xorb_take_left _ _ _ (by simp; omega)]
    · rw [Nat.min_eq_right (by omega)]
      have hz : xorb ((m.read s l).take used) (c.E (next.take c.bs)) =
          xorb ((m.read s l).take used) ((c.E (next.take c.bs)).take used) := by
        rw [xorb_take_right _ _ _ (by simp; omega)]
      rw [hz, xorb_take_left _ _ _ (by simp [hE]; omega)]
  generalize ho' : xorb (m.read s (min l used)) (c.E (next.take c.bs)) = o at ho hol
  refine ⟨⟨copyAt (copyInto next (next.drop used)) (2 * c.bs - used)
      (if dec then (m.write d o).read s l else (m.write d o).read d (l + e)),
      c.E (next.take c.bs), min l used⟩, ?_, by simp only [g3413cfbF, ho']; exact hol, ?_⟩
  · unfold g3413cfbStep
    simp only [if_true, List.drop_zero, Nat.zero_add]
    rw [if_neg (by omega), if_neg (by omega), if_neg (by omega), ho]
    simp only [g3413cfbF, ho']
  · intro hul
    refine ⟨by simp only; omega, ?_, ?_, hE⟩
    · -- the register
      simp only [g3413cfbF, ho']
      have hn : min l used = used := by omega
      rw [hn] at hol
      rw [hol]
      have hdl : (next.drop used).length = 2 * c.bs - used := by simp; omega
      rw [copyInto_len_le next (next.drop used) (by simp)]
      have hrest : ((next.drop (next.drop used).length)).length = used := by simp; omega
      unfold copyAt
      rw [List.take_left' hdl, List.drop_left' hdl]
      congr 1
      unfold copyInto
      rw [hrest]
      cases dec with
      | true =>
        simp only [if_true] at hC ⊢
        rw [List.drop_of_length_le (by simp at hrest ⊢; omega), List.append_nil,
          Mem.read_write_disjoint _ _ _ _ _ (by unfold DisjointRange at hC; omega), Mem.read_take]
        congr 1; omega
      | false =>
        simp only [Bool.false_eq_true, if_false] at hC ⊢
        rw [List.drop_of_length_le (by simp at hrest ⊢; omega), List.append_nil]
        have := Mem.read_write_prefix m d (l + e) o (by omega)
        rw [hol] at this
        exact this
    · have hn : min l used = used := by omega
      rw [hn] at hol
      have hfb : (if dec = true then m.read s (min l used) else o).length = used := by
        cases dec
        · simpa using hol
        · simpa using hn
      simp only [g3413cfbF, ho', List.length_append, hfb, hol, List.length_drop]
      omega

end Verif.Mode
