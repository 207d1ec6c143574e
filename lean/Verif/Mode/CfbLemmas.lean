import Verif.Mode.StreamModel
import Verif.Mode.StreamSpec
import Verif.Mode.BlockLemmas
/-
CFB, NCFB, OCFB, CFB8, CFB16/32/64 as byte/segment machines.
-/
namespace Verif.Mode

variable (c : BlockCipher)

theorem xorb_take_left (a b : Bytes) (n : Nat) (h : min a.length b.length ≤ n) :
    xorb (a.take n) b = xorb a b := by
  induction a generalizing b n with
  | nil => simp [xorb]
  | cons x a ih =>
    cases b with
    | nil => simp [xorb]
    | cons y b =>
      cases n with
      | zero => simp only [List.length_cons] at h; omega
      | succ n =>
        simp only [List.length_cons] at h
        simp only [xorb, List.take_succ_cons, List.zipWith_cons_cons] at *
        rw [ih b n (by omega)]

theorem xorb_take_right (a b : Bytes) (n : Nat) (h : min a.length b.length ≤ n) :
    xorb a (b.take n) = xorb a b := by
  rw [xorb_comm a, xorb_take_left b a n (by omega), xorb_comm]

theorem copyInto_len_le (v y : Bytes) (h : y.length ≤ v.length) :
    copyInto v y = y ++ v.drop y.length := by
  unfold copyInto
  rw [List.take_of_length_le h]
  
theorem copyAt_length (v : Bytes) (k : Nat) (y : Bytes) : (copyAt v k y).length = v.length := by
  simp only [copyAt, List.length_append, copyInto_length, List.length_take, List.length_drop]; omega

theorem copyAt_take (v : Bytes) (k : Nat) (y : Bytes) (n : Nat) (h : k + n ≤ v.length) (hy : n ≤ y.length) :
    (copyAt v k y).take (k + n) = v.take k ++ y.take n := by
  unfold copyAt copyInto
  have hk : (v.take k).length = k := by simp; omega
  rw [List.take_append, hk, List.take_of_length_le (by omega), show k + n - k = n by omega]
  congr 1
  rw [List.take_append_of_le_length (by simp; omega), List.take_take]
  congr 1
  simp; omega

theorem Mem.read_write_prefix (m : Mem) (d n : Nat) (o : Bytes) (h : o.length ≤ n) :
    ((m.write d o).read d n).take o.length = o := by
  rw [Mem.read_take, Nat.min_eq_left h, Mem.read_write_self]

/-! ### The CFB byte machine -/

/-- Normalise: a full current block becomes the previous ciphertext block. -/
def cfbNorm (v cur : Bytes) : Bytes × Bytes := if cur.length = c.bs then (cur, []) else (v, cur)

/-- One byte of CFB; state = (previous ciphertext block, ciphertext of the current block so far). -/
def cfbF (dec : Bool) (t : Bytes × Bytes) (b : Byte) : Byte × (Bytes × Bytes) :=
  let o := b ^^^ (c.E t.1).getD t.2.length 0
  (o, cfbNorm c t.1 (t.2 ++ [if dec then b else o]))

def CfbInv (t : Bytes × Bytes) : Prop := t.1.length = c.bs ∧ t.2.length < c.bs

theorem xorb_cons_drop (b : Byte) (x k : Bytes) (i : Nat) (h : i < k.length) :
    xorb (b :: x) (k.drop i) = (b ^^^ k.getD i 0) :: xorb x (k.drop (i + 1)) := by
  have e : k.getD i 0 = k[i] := by simp [List.getD_eq_getElem?_getD, h]
  rw [List.drop_eq_getElem_cons h, e]
  rfl

/-- Running the byte machine within one block. -/
theorem cfbF_seg (dec : Bool) (v : Bytes) (hv : v.length = c.bs) (x cur : Bytes) (hc : cur.length < c.bs)
    (hx : cur.length + x.length ≤ c.bs) :
    bRun (cfbF c dec) (v, cur) x = (xorb x ((c.E v).drop cur.length),
      cfbNorm c v (cur ++ (if dec then x else xorb x ((c.E v).drop cur.length)))) := by
  have hE := c.lenE v hv
  induction x generalizing cur with
  | nil =>
    have : cur.length ≠ c.bs := by omega
    simp [xorb, cfbNorm, this]
  | cons b x ih =>
    simp only [List.length_cons] at hx
    rw [bRun_cons, xorb_cons_drop _ _ _ _ (by omega)]
    by_cases hlast : cur.length + 1 = c.bs
    · have hx0 : x = [] := List.length_eq_zero_iff.mp (by omega)
      subst hx0
      have : ∀ w : Byte, cfbNorm c v (cur ++ [w]) = (cur ++ [w], []) := by
        intro w; simp [cfbNorm, hlast]
      cases dec <;> simp [cfbF, this, xorb]
    · have hn : ∀ w : Byte, cfbNorm c v (cur ++ [w]) = (v, cur ++ [w]) := by
        intro w; simp [cfbNorm, hlast]
      simp only [cfbF, hn]
      rw [ih _ (by simp; omega) (by simp; omega)]
      cases dec <;> simp

theorem cfbF_inv (dec : Bool) (t : Bytes × Bytes) (b : Byte) (h : CfbInv c t) :
    CfbInv c (cfbF c dec t b).2 := by
  unfold cfbF cfbNorm CfbInv at *
  have := c.bs_pos
  simp only
  generalize (if dec = true then b else _) = w
  split
  · rename_i h1; exact ⟨h1, by simp; omega⟩
  · rename_i h1; refine ⟨h.1, ?_⟩; simp at h1 ⊢; omega

theorem bRun_cfb_inv (dec : Bool) (x : Bytes) (t : Bytes × Bytes) (h : CfbInv c t) :
    CfbInv c (bRun (cfbF c dec) t x).2 := by
  induction x generalizing t with
  | nil => simpa using h
  | cons b x ih => rw [bRun_cons]; exact ih _ (cfbF_inv c dec t b h)

/-- The byte machine computes the CFB equations. -/
theorem cfbF_spec (v : Bytes) (hv : v.length = c.bs) (x : Bytes) :
    (bRun (cfbF c false) (v, []) x).1 = (Spec.cfb c.E v (chunks c.bs x)).flatten := by
  have hpos := c.bs_pos
  induction hn : x.length using Nat.strongRecOn generalizing x v with
  | ind n ih =>
    by_cases hx : x = []
    · subst hx; simp [Spec.cfb]
    · have hp : 0 < x.length := List.length_pos_iff.mpr hx
      have hE := c.lenE v hv
      rw [chunks_cons _ hpos _ hx, Spec.cfb, List.flatten_cons]
      conv => lhs; rw [← List.take_append_drop c.bs x]
      rw [bRun_append, cfbF_seg c false v hv _ [] (by simpa using hpos) (by simp; omega)]
      simp only [List.length_nil, List.drop_zero, List.nil_append, Bool.false_eq_true, if_false]
      congr 1
      by_cases hfull : c.bs ≤ x.length
      · have hl : (xorb (x.take c.bs) (c.E v)).length = c.bs := by simp [hE]; omega
        rw [cfbNorm, if_pos hl]
        exact ih _ (by simp; omega) _ hl _ rfl
      · have : x.drop c.bs = [] := List.drop_of_length_le (by omega)
        rw [this]; simp [Spec.cfb]

theorem cfb_byte_roundtrip (x : Bytes) (t : Bytes × Bytes) :
    (bRun (cfbF c true) t (bRun (cfbF c false) t x).1).1 = x ∧
    (bRun (cfbF c false) t x).2 = (bRun (cfbF c true) t (bRun (cfbF c false) t x).1).2 := by
  refine bRun_roundtrip (cfbF c false) (cfbF c true) (fun a b => a = b) ?_ x t t rfl
  rintro t _ b rfl
  simp only [cfbF, Bool.false_eq_true, if_false, if_true]
  rw [BitVec.xor_assoc, BitVec.xor_self, BitVec.xor_zero]
  exact ⟨rfl, trivial⟩

/-! ### CFB -/

def CfbR (x : Cfb) (t : Bytes × Bytes) : Prop :=
  CfbInv c t ∧ x.next.length = c.bs ∧ x.out.length = c.bs ∧
  ((x.used = c.bs ∧ t.2 = [] ∧ x.next = t.1) ∨
   (x.used = t.2.length ∧ x.out = c.E t.1 ∧ x.next.take t.2.length = t.2))

theorem cfbFill_R (x : Cfb) (t : Bytes × Bytes) (h : CfbR c x t) :
    (cfbFill c x).next.length = c.bs ∧ (cfbFill c x).out = c.E t.1 ∧ (cfbFill c x).used = t.2.length ∧
      (cfbFill c x).next.take t.2.length = t.2 := by
  obtain ⟨⟨h1, h2⟩, h3, h4, h5⟩ := h
  have := c.bs_pos
  unfold cfbFill
  rcases h5 with ⟨a, b, d⟩ | ⟨a, b, d⟩
  · rw [if_pos (by omega)]
    exact ⟨h3, by rw [d], by rw [b]; rfl, by rw [b]; simp⟩
  · rw [if_neg (by omega)]
    exact ⟨h3, b, a, d⟩

theorem cfb_ok (dec : Bool) : StreamOK (cfbStep c dec) (CfbR c) (bRun (cfbF c dec)) := by
  refine ⟨fun _ => rfl, ?_⟩
  intro e x t m d s l hR hl hsd
  obtain ⟨f1, f2, f3, f4⟩ := cfbFill_R c x t hR
  obtain ⟨⟨hv, hcur⟩, _⟩ := hR
  obtain ⟨v, cur⟩ := t
  simp only at f2 f3 f4 hv hcur
  have hE := c.lenE v hv
  generalize hfx : cfbFill c x = y at f1 f2 f3 f4
  obtain ⟨next, out, used⟩ := y
  simp only at f1 f2 f3 f4
  subst f2 f3
  -- number of bytes
  have hn1 : 1 ≤ min l (c.bs - cur.length) := by omega
  generalize hn : min l (c.bs - cur.length) = n at hn1
  have hol : (xorb (m.read s l) ((c.E v).drop cur.length)).length = n := by simp [hE]; omega
  have hoeq : xorb (m.read s n) ((c.E v).drop cur.length) = xorb (m.read s l) ((c.E v).drop cur.length) := by
    rw [← xorb_take_left (m.read s l) _ n (by simp [hE]; omega), Mem.read_take, Nat.min_eq_left (by omega)]
  generalize ho : xorb (m.read s l) ((c.E v).drop cur.length) = o at hol hoeq
  have hfbl : (if dec then m.read s n else o).length = n := by cases dec <;> simp [hol]
  generalize hfb : (if dec then m.read s n else o) = fb at hfbl
  -- the new register
  have hnext : ∃ next', cfbStep c dec e x m d s l = .ok (n, m.write d o,
      { next := next', out := c.E v, used := cur.length + n }) ∧ next'.length = c.bs ∧
      next'.take (cur.length + n) = cur ++ fb := by
    cases dec with
    | true =>
      refine ⟨copyAt next cur.length (m.read s l), ?_, ?_, ?_⟩
      · simp [cfbStep, hfx, ho, hE, hn]
      · rw [copyAt_length, f1]
      · rw [copyAt_take _ _ _ _ (by omega) (by simp; omega), f4, Mem.read_take, Nat.min_eq_left (by omega)]
        simpa using hfb
    | false =>
      refine ⟨copyAt next cur.length ((m.write d o).read d (l + e)), ?_, ?_, ?_⟩
      · simp [cfbStep, hfx, ho, hE, hn]
      · rw [copyAt_length, f1]
      · rw [copyAt_take _ _ _ _ (by omega) (by simp; omega), f4]
        rw [show n = o.length from hol.symm, Mem.read_write_prefix m d (l + e) o (by omega)]
        simpa using hfb
  obtain ⟨next', e1, e2, e3⟩ := hnext
  refine ⟨n, o, _, cfbNorm c v (cur ++ fb), e1, hn1, by omega, hol, ?_, ?_⟩
  · have hcl : (cur ++ fb).length = cur.length + n := by simp [hfbl]
    unfold cfbNorm
    split
    · rename_i hf
      refine ⟨⟨hf, by simpa using c.bs_pos⟩, e2, hE, Or.inl ⟨by simp only; omega, rfl, ?_⟩⟩
      rw [← e3, List.take_of_length_le (by omega)]
    · rename_i hf
      refine ⟨⟨hv, by simp only; omega⟩, e2, hE, Or.inr ⟨by simp only; omega, rfl, ?_⟩⟩
      simp only
      rw [hcl, e3]
  · rw [show l = n + (l - n) by omega, Mem.read_append, bRun_append,
      cfbF_seg c dec v hv _ cur hcur (by simp; omega)]
    rw [hoeq]
    rw [hfb]
    simp

theorem cfbNew_R {iv : Bytes} {x : Cfb} (h : cfbNew c iv = .ok x) :
    iv.length = c.bs ∧ CfbR c x (iv, []) := by
  unfold cfbNew at h
  split at h
  · cases h
  · rename_i hl
    have hl' : iv.length = c.bs := by simpa using hl
    obtain rfl := Res.ok.inj h
    have := c.bs_pos
    refine ⟨hl', ⟨hl', by simpa using this⟩, ?_, by simp, Or.inl ⟨rfl, rfl, ?_⟩⟩
    · simp [copyInto_length]
    · exact copyInto_eq_left _ _ (by simp [hl'])

/-! ### OCFB -/

def OcfbR (x : Ocfb) (t : Bytes × Bytes) : Prop :=
  CfbInv c t ∧
  ((x.used = c.bs ∧ t.2 = [] ∧ x.fre = t.1) ∨
   (x.used = t.2.length ∧ x.fre = t.2 ++ (c.E t.1).drop t.2.length))

theorem set_append_drop (a k : Bytes) (w : Byte) (h : a.length < k.length) :
    (a ++ k.drop a.length).set a.length w = a ++ [w] ++ k.drop (a.length + 1) := by
  rw [List.set_append_right _ _ (Nat.le_refl _), Nat.sub_self, List.drop_eq_getElem_cons h,
    List.set_cons_zero, List.append_assoc, List.singleton_append]

theorem getD_append_drop (a k : Bytes) (h : a.length < k.length) :
    (a ++ k.drop a.length).getD a.length 0 = k.getD a.length 0 := by
  rw [List.getD_eq_getElem?_getD, List.getElem?_append_right (Nat.le_refl _), Nat.sub_self,
    List.getElem?_drop, Nat.add_zero, List.getD_eq_getElem?_getD]

theorem ocfb_ok (dec : Bool) : StreamOK (ocfbStep c dec) (OcfbR c) (bRun (cfbF c dec)) := by
  apply streamOK_of_byteStep
  intro e x t m d s l hR _
  obtain ⟨v, cur⟩ := t
  obtain ⟨⟨hv, hcur⟩, hR⟩ := hR
  simp only at hv hcur hR
  have hpos := c.bs_pos
  have hE := c.lenE v hv
  -- after the refresh
  have hx : (if x.used = x.fre.length then { fre := c.E x.fre, used := 0 } else x : Ocfb) =
      { fre := cur ++ (c.E v).drop cur.length, used := cur.length } := by
    rcases hR with ⟨a, b, d⟩ | ⟨a, b⟩
    · subst b d
      rw [if_pos (by omega)]
      simp
    · have : x.fre.length = c.bs := by rw [b]; simp [hE]; omega
      rw [if_neg (by omega)]
      cases x
      simp only at a b
      rw [a, b]
  unfold ocfbStep
  simp only [hx]
  rw [getD_append_drop cur _ (by omega), set_append_drop cur _ _ (by omega)]
  have hcm : (c.E v).getD cur.length 0 ^^^ m s = m s ^^^ (c.E v).getD cur.length 0 := BitVec.xor_comm _ _
  rw [hcm]
  refine ⟨_, rfl, ?_⟩
  have hinv := cfbF_inv c dec (v, cur) (m s) ⟨hv, hcur⟩
  refine ⟨hinv, ?_⟩
  simp only [cfbF, cfbNorm] at hinv ⊢
  generalize (if dec = true then m s else _) = w at hinv ⊢
  split
  · rename_i hf
    refine Or.inl ⟨by simpa using hf, rfl, ?_⟩
    simp only
    rw [List.drop_of_length_le (by simp at hf; omega)]
    simp
  · rename_i hf
    refine Or.inr ⟨by simp, ?_⟩
    simp

/-! ### CFB8 -/

/-- One byte of CFB8. -/
def cfb8F (dec : Bool) (v : Bytes) (b : Byte) : Byte × Bytes :=
  let o := b ^^^ (c.E v).getD 0 0
  (o, v.drop 1 ++ [if dec then b else o])

theorem shift_set (v : Bytes) (w : Byte) (hv : v.length = c.bs) :
    (copyInto (v.take (c.bs - 1)) (v.drop 1) ++ v.drop (c.bs - 1)).set (c.bs - 1) w = v.drop 1 ++ [w] := by
  have := c.bs_pos
  have h1 : copyInto (v.take (c.bs - 1)) (v.drop 1) = v.drop 1 := by
    rw [copyInto_eq_left]; simp; omega
  have h2 : (v.drop 1).length = c.bs - 1 := by simp; omega
  have h3 : (v.drop (c.bs - 1)).length = 1 := by simp; omega
  rw [h1, List.set_append_right _ _ (by omega), h2, Nat.sub_self]
  congr 1
  match hd : v.drop (c.bs - 1) with
  | [] => rw [hd] at h3; simp at h3
  | [a] => rfl
  | a :: b :: r => rw [hd] at h3; simp at h3

theorem cfb8_ok (dec : Bool) :
    StreamOK (cfb8Step c dec) (fun x t => x = t ∧ t.length = c.bs) (bRun (cfb8F c dec)) := by
  apply streamOK_of_byteStep
  rintro e x _ m d s l ⟨rfl, hv⟩ _
  have hpos := c.bs_pos
  have hw : ∀ w : Byte, (m.write d [w]) d = w := by
    intro w; simp [Mem.write]
  cases dec with
  | true =>
    refine ⟨_, rfl, ?_, ?_⟩
    · simp only [if_true, cfb8F]
      exact shift_set c x _ hv
    · simp [cfb8F]; omega
  | false =>
    refine ⟨_, rfl, ?_, ?_⟩
    · simp only [Bool.false_eq_true, if_false, cfb8F]
      rw [shift_set c x _ hv, hw]
    · simp [cfb8F]; omega

theorem segNew_ok {iv v : Bytes} (h : segNew c iv = .ok v) : v = iv ∧ iv.length = c.bs := by
  unfold segNew at h
  split at h
  · cases h
  · rename_i hl
    have hl' : iv.length = c.bs := by simpa using hl
    have := Res.ok.inj h
    rw [copyInto_eq_left _ _ (by simp [hl'])] at this
    exact ⟨this.symm, hl'⟩

theorem xorb_single (b : Byte) (k : Bytes) (h : 0 < k.length) : xorb [b] k = [b ^^^ k.getD 0 0] := by
  cases k with
  | nil => simp at h
  | cons a k => simp [xorb]

theorem cfb8F_spec (v : Bytes) (hv : v.length = c.bs) (x : Bytes) :
    (bRun (cfb8F c false) v x).1 = (Spec.cfbSeg c.E v (chunks 1 x)).flatten := by
  induction x generalizing v with
  | nil => simp [Spec.cfbSeg]
  | cons b x ih =>
    have hpos := c.bs_pos
    have hE := c.lenE v hv
    rw [bRun_cons, chunks_cons 1 (by decide) _ (by simp), Spec.cfbSeg]
    simp only [List.take_succ_cons, List.take_zero, List.drop_succ_cons, List.drop_zero]
    rw [xorb_single b _ (by omega)]
    rw [ih _ (by simp [cfb8F]; omega)]
    simp [cfb8F]

theorem cfb8_roundtrip (x t : Bytes) :
    (bRun (cfb8F c true) t (bRun (cfb8F c false) t x).1).1 = x ∧
    (bRun (cfb8F c false) t x).2 = (bRun (cfb8F c true) t (bRun (cfb8F c false) t x).1).2 := by
  refine bRun_roundtrip (cfb8F c false) (cfb8F c true) (fun a b => a = b) ?_ x t t rfl
  rintro t _ b rfl
  simp only [cfb8F, Bool.false_eq_true, if_false, if_true]
  rw [BitVec.xor_assoc, BitVec.xor_self, BitVec.xor_zero]
  exact ⟨rfl, trivial⟩

end Verif.Mode
