import Verif.Mode.BlockModel
import Verif.Mode.BlockSpec
/-
Per-block machines of the block modes and the proof that the memory-level steps implement them.
-/
namespace Verif.Mode

variable (c : BlockCipher)

def ecbEncF (_ : Unit) (b : Bytes) : Bytes × Unit := (c.E b, ())
def ecbDecF (_ : Unit) (b : Bytes) : Bytes × Unit := (c.D b, ())
def pcbcEncF (v b : Bytes) : Bytes × Bytes := (c.E (xorb b v), xorb b (c.E (xorb b v)))
def pcbcDecF (v b : Bytes) : Bytes × Bytes := (xorb (c.D b) v, xorb (xorb (c.D b) v) b)
def bcEncF (v b : Bytes) : Bytes × Bytes := (c.E (xorb b v), xorb v (c.E (xorb b v)))
def bcDecF (v b : Bytes) : Bytes × Bytes := (xorb (c.D b) v, xorb v b)
def igeF (crypt : Bytes → Bytes) (x : Ige) (b : Bytes) : Bytes × Ige :=
  let o := xorb (crypt (xorb x.lastciphertext b)) x.lastplaintext
  (o, { lastplaintext := b, lastciphertext := o })
def g3413cbcEncF (v b : Bytes) : Bytes × Bytes :=
  (c.E (xorb b (v.take c.bs)), v.drop c.bs ++ c.E (xorb b (v.take c.bs)))

theorem ecbEnc_ok : StepOK c.bs (ecbEncStep c) (ecbEncF c) (fun _ => True) SameOrDisjoint :=
  ⟨c.bs_pos, fun _ _ _ _ _ _ _ => rfl, fun _ b _ hb => ⟨c.lenE b hb, trivial⟩⟩

theorem ecbDec_ok : StepOK c.bs (ecbDecStep c) (ecbDecF c) (fun _ => True) SameOrDisjoint :=
  ⟨c.bs_pos, fun _ _ _ _ _ _ _ => rfl, fun _ b _ hb => ⟨c.lenD b hb, trivial⟩⟩

theorem lenEx (b v : Bytes) (hb : b.length = c.bs) (hv : v.length = c.bs) :
    (c.E (xorb b v)).length = c.bs := c.lenE _ (by simp [hb, hv])

/-- Memory after "XOR into dst, then encrypt dst in place". -/
theorem xor_enc_mem (m : Mem) (d s : Nat) (v : Bytes) (hv : v.length = c.bs) :
    c.encM (m.write d (xorb (m.read s c.bs) v)) d d = m.write d (c.E (xorb (m.read s c.bs) v)) := by
  have hl : (xorb (m.read s c.bs) v).length = c.bs := by simp [hv]
  unfold BlockCipher.encM
  rw [Mem.read_write_self' _ _ _ _ hl, Mem.write_write_same _ _ _ _ (by rw [hl, c.lenE _ hl])]

/-- Memory after "decrypt into dst, then XOR dst". -/
theorem dec_xor_mem (m : Mem) (d s : Nat) (v : Bytes) (hv : v.length = c.bs) :
    (c.decM m d s).write d (xorb ((c.decM m d s).read d c.bs) v)
      = m.write d (xorb (c.D (m.read s c.bs)) v) := by
  have hl : (c.D (m.read s c.bs)).length = c.bs := c.lenD _ (by simp)
  unfold BlockCipher.decM
  rw [Mem.read_write_self' _ _ _ _ hl, Mem.write_write_same _ _ _ _ (by simp [hl, hv])]

theorem pcbcEnc_ok : StepOK c.bs (pcbcEncStep c) (pcbcEncF c) (fun v => v.length = c.bs) DisjointRange := by
  refine ⟨c.bs_pos, ?_, ?_⟩
  · intro v m d s l hv hc
    have hpos := c.bs_pos
    have hl := lenEx c (m.read s c.bs) v (by simp) hv
    simp only [pcbcEncStep, pcbcEncF, xor_enc_mem c m d s v hv]
    rw [Mem.read_write_self' _ _ _ _ hl, Mem.read_write_disjoint _ _ _ _ _ (by
      unfold DisjointRange at hc; omega)]
  · intro v b hv hb
    have hl := lenEx c b v hb hv
    exact ⟨hl, by simp [pcbcEncF, hl, hb]⟩

theorem pcbcDec_ok : StepOK c.bs (pcbcDecStep c) (pcbcDecF c) (fun v => v.length = c.bs) DisjointRange := by
  refine ⟨c.bs_pos, ?_, ?_⟩
  · intro v m d s l hv hc
    have hpos := c.bs_pos
    have hl : (c.D (m.read s c.bs)).length = c.bs := c.lenD _ (by simp)
    simp only [pcbcDecStep, pcbcDecF, dec_xor_mem c m d s v hv]
    rw [Mem.read_write_self' _ _ _ _ (by simp [hl, hv]), Mem.read_write_disjoint _ _ _ _ _ (by
      unfold DisjointRange at hc; simp [hl, hv]; omega)]
  · intro v b hv hb
    have hl := c.lenD b hb
    exact ⟨by simp [pcbcDecF, hl, hv], by simp [pcbcDecF, hl, hb, hv]⟩

theorem bcEnc_ok : StepOK c.bs (bcEncStep c) (bcEncF c) (fun v => v.length = c.bs) SameOrDisjoint := by
  refine ⟨c.bs_pos, ?_, ?_⟩
  · intro v m d s l hv hc
    have hl := lenEx c (m.read s c.bs) v (by simp) hv
    simp only [bcEncStep, bcEncF, xor_enc_mem c m d s v hv]
    rw [Mem.read_write_self' _ _ _ _ hl]
  · intro v b hv hb
    have hl := lenEx c b v hb hv
    exact ⟨hl, by simp [bcEncF, hl, hv]⟩

theorem bcDec_ok : StepOK c.bs (bcDecStep c) (bcDecF c) (fun v => v.length = c.bs) SameOrDisjoint := by
  refine ⟨c.bs_pos, ?_, ?_⟩
  · intro v m d s l hv hc
    simp only [bcDecStep, bcDecF, dec_xor_mem c m d s v hv]
    rw [copyInto_eq_left _ _ (by simp [hv])]
  · intro v b hv hb
    have hl := c.lenD b hb
    exact ⟨by simp [bcDecF, hl, hv], by simp [bcDecF, hb, hv]⟩

def Ige.Ok (bs : Nat) (x : Ige) : Prop := x.lastplaintext.length = bs ∧ x.lastciphertext.length = bs

theorem ige_ok (bs : Nat) (hpos : 0 < bs) (crypt : Bytes → Bytes)
    (hlen : ∀ b, b.length = bs → (crypt b).length = bs) :
    StepOK bs (igeStep bs crypt) (igeF crypt) (Ige.Ok bs) SameOrDisjoint := by
  refine ⟨hpos, fun _ _ _ _ _ _ _ => rfl, ?_⟩
  intro x b hx hb
  have hl : (crypt (xorb x.lastciphertext b)).length = bs := hlen _ (by simp [hx.2, hb])
  exact ⟨by simp [igeF, hl, hx.1], hb, by simp [igeF, hl, hx.1]⟩

theorem g3413cbcEnc_ok : StepOK c.bs (g3413cbcEncStep c) (g3413cbcEncF c) (fun v => v.length = 2 * c.bs)
    SameOrDisjoint := by
  refine ⟨c.bs_pos, ?_, ?_⟩
  · intro v m d s l hv hc
    have ht : (v.take c.bs).length = c.bs := by simp; omega
    have hl := lenEx c (m.read s c.bs) (v.take c.bs) (by simp) ht
    simp only [g3413cbcEncStep, g3413cbcEncF, xor_enc_mem c m d s _ ht]
    rw [Mem.read_write_self' _ _ _ _ hl]
    have e1 : (copyInto v (v.drop c.bs)).take c.bs = v.drop c.bs := by
      unfold copyInto
      rw [List.take_append_of_le_length (by simp; omega), List.take_take,
        List.take_of_length_le (by simp; omega)]
    have e2 : ((copyInto v (v.drop c.bs)).drop c.bs).length = c.bs := by
      rw [List.length_drop, copyInto_length]; omega
    rw [e1, copyInto_eq_left _ _ (by rw [e2, hl])]
  · intro v b hv hb
    have ht : (v.take c.bs).length = c.bs := by simp; omega
    have hl := lenEx c b (v.take c.bs) hb ht
    exact ⟨hl, by simp [g3413cbcEncF, hl, hv]; omega⟩

/-! The machines compute the specifications. -/

theorem ecbEncF_spec (u : Unit) (l : List Bytes) : (mapAcc (ecbEncF c) u l).1 = Spec.ecb c.E l := by
  induction l with
  | nil => rfl
  | cons b l ih => simp only [mapAcc, ecbEncF, Spec.ecb, List.map_cons] at *; rw [ih]

theorem pcbcEncF_spec (v : Bytes) (l : List Bytes) : (mapAcc (pcbcEncF c) v l).1 = Spec.pcbc c.E v l := by
  induction l generalizing v with
  | nil => rfl
  | cons b l ih => simp only [mapAcc, pcbcEncF, Spec.pcbc] at *; rw [ih]

theorem bcEncF_spec (v : Bytes) (l : List Bytes) : (mapAcc (bcEncF c) v l).1 = Spec.bc c.E v l := by
  induction l generalizing v with
  | nil => rfl
  | cons b l ih => simp only [mapAcc, bcEncF, Spec.bc] at *; rw [ih]

theorem igeF_spec (x : Ige) (l : List Bytes) :
    (mapAcc (igeF c.E) x l).1 = Spec.ige c.E x.lastciphertext x.lastplaintext l := by
  induction l generalizing x with
  | nil => rfl
  | cons b l ih => simp only [mapAcc, igeF, Spec.ige] at *; rw [ih, xorb_comm b]

theorem g3413cbcEncF_spec (v : Bytes) (l : List Bytes) (hv : v.length = 2 * c.bs)
    (hl : ∀ b ∈ l, b.length = c.bs) :
    (mapAcc (g3413cbcEncF c) v l).1 = Spec.g3413cbc c.E (v.take c.bs) (v.drop c.bs) l := by
  induction l generalizing v with
  | nil => rfl
  | cons b l ih =>
    have ht : (v.take c.bs).length = c.bs := by simp; omega
    have hd : (v.drop c.bs).length = c.bs := by simp; omega
    have hb := hl b (by simp)
    have hlen := lenEx c b (v.take c.bs) hb ht
    simp only [mapAcc, g3413cbcEncF, Spec.g3413cbc] at *
    rw [ih _ (by simp [hlen]; omega) (fun x hx => hl x (by simp [hx]))]
    rw [List.take_left' hd, List.drop_left' hd]

/-! Decryption undoes encryption. -/

theorem ecb_roundtrip (x : Bytes) (hx : c.bs ∣ x.length) :
    (blkRun c.bs (ecbDecF c) () (blkRun c.bs (ecbEncF c) () x).1).1 = x :=
  blkRun_roundtrip c.bs c.bs_pos _ _ (fun _ => True) (ecbEnc_ok c).len (fun _ _ => True)
    (fun _ _ b _ hb => ⟨c.DE b hb, trivial⟩) x hx () () trivial trivial

theorem pcbc_roundtrip (x v : Bytes) (hx : c.bs ∣ x.length) (hv : v.length = c.bs) :
    (blkRun c.bs (pcbcDecF c) v (blkRun c.bs (pcbcEncF c) v x).1).1 = x := by
  refine blkRun_roundtrip c.bs c.bs_pos _ _ (fun v => v.length = c.bs) (pcbcEnc_ok c).len
    (fun a b => a = b ∧ a.length = c.bs) ?_ x hx v v hv ⟨rfl, hv⟩
  rintro t _ b ⟨rfl, ht⟩ hb
  have hE := lenEx c b t hb ht
  have e : xorb (c.D (c.E (xorb b t))) t = b := by
    rw [c.DE _ (by simp [hb, ht]), xorb_xorb_cancel_right b t (by omega)]
  refine ⟨e, ?_, ?_⟩
  · simp only [pcbcEncF, pcbcDecF, e]
  · simp [pcbcEncF, hb, hE]

theorem bc_roundtrip (x v : Bytes) (hx : c.bs ∣ x.length) (hv : v.length = c.bs) :
    (blkRun c.bs (bcDecF c) v (blkRun c.bs (bcEncF c) v x).1).1 = x := by
  refine blkRun_roundtrip c.bs c.bs_pos _ _ (fun v => v.length = c.bs) (bcEnc_ok c).len
    (fun a b => a = b ∧ a.length = c.bs) ?_ x hx v v hv ⟨rfl, hv⟩
  rintro t _ b ⟨rfl, ht⟩ hb
  have hE := lenEx c b t hb ht
  have e : xorb (c.D (c.E (xorb b t))) t = b := by
    rw [c.DE _ (by simp [hb, ht]), xorb_xorb_cancel_right b t (by omega)]
  refine ⟨e, rfl, ?_⟩
  simp [bcEncF, ht, hE]

/-- The decrypter's registers with the roles exchanged, as used around its loop. -/
def Ige.swap (x : Ige) : Ige := { lastciphertext := x.lastplaintext, lastplaintext := x.lastciphertext }

theorem ige_roundtrip (x : Bytes) (v : Ige) (hx : c.bs ∣ x.length) (hv : v.Ok c.bs) :
    (blkRun c.bs (igeF c.D) v.swap (blkRun c.bs (igeF c.E) v x).1).1 = x := by
  refine blkRun_roundtrip c.bs c.bs_pos _ _ (Ige.Ok c.bs) (ige_ok c.bs c.bs_pos c.E c.lenE).len
    (fun a b => b = a.swap ∧ a.Ok c.bs) ?_ x hx v v.swap hv ⟨rfl, hv⟩
  rintro t _ b ⟨rfl, ht⟩ hb
  have hE : (c.E (xorb t.lastciphertext b)).length = c.bs := c.lenE _ (by simp [hb, ht.2])
  have e : xorb (c.D (xorb t.lastplaintext
      (xorb (c.E (xorb t.lastciphertext b)) t.lastplaintext))) t.lastciphertext = b := by
    rw [xorb_xorb_cancel_mid _ _ (by rw [hE, ht.1]; omega), c.DE _ (by simp [hb, ht.2]),
      xorb_comm t.lastciphertext b, xorb_xorb_cancel_right _ _ (by rw [hb, ht.2]; omega)]
  refine ⟨e, ?_, ?_⟩
  · simp only [igeF, Ige.swap, e]
  · exact ⟨hb, by simp [igeF, hE, ht.1]⟩

/-! GOST CBC decryption (backwards loop). -/

/-- Decryption of one block with a register of two blocks. -/
def g3413cbcDecF (v b : Bytes) : Bytes × Bytes := (xorb (c.D b) (v.take c.bs), v.drop c.bs ++ b)

theorem g3413cbcDecF_len (v b : Bytes) (hv : v.length = 2 * c.bs) (hb : b.length = c.bs) :
    (g3413cbcDecF c v b).1.length = c.bs ∧ (g3413cbcDecF c v b).2.length = 2 * c.bs := by
  have := c.lenD b hb
  constructor <;> simp [g3413cbcDecF, this, hv, hb] <;> omega

theorem g3413cbc_roundtrip (x v : Bytes) (hx : c.bs ∣ x.length) (hv : v.length = 2 * c.bs) :
    (blkRun c.bs (g3413cbcDecF c) v (blkRun c.bs (g3413cbcEncF c) v x).1).1 = x := by
  refine blkRun_roundtrip c.bs c.bs_pos _ _ (fun v => v.length = 2 * c.bs) (g3413cbcEnc_ok c).len
    (fun a b => a = b ∧ a.length = 2 * c.bs) ?_ x hx v v hv ⟨rfl, hv⟩
  rintro t _ b ⟨rfl, ht⟩ hb
  have htk : (t.take c.bs).length = c.bs := by simp; omega
  have hE := lenEx c b (t.take c.bs) hb htk
  refine ⟨?_, rfl, ?_⟩
  · simp only [g3413cbcEncF, g3413cbcDecF]
    rw [c.DE _ (by simp [hb]; omega), xorb_xorb_cancel_right b _ (by omega)]
  · simp [g3413cbcEncF, hE, ht]; omega

/-- Block `i` of a byte string. -/
def blk (bs : Nat) (x : Bytes) (i : Nat) : Bytes := (x.drop (i * bs)).take bs

/-- Result block `i`: block `i` decrypted, XORed with block `i` of `iv ‖ x` (that is, with block `i-2` of `x`
or with the iv). -/
def g3413cbcT (v x : Bytes) (i : Nat) : Bytes := xorb (c.D (blk c.bs x i)) (blk c.bs (v ++ x) i)

theorem g3413cbcDec_blocks (n : Nat) (v x : Bytes) (hv : v.length = 2 * c.bs) (hx : x.length = n * c.bs) :
    (blkRun c.bs (g3413cbcDecF c) v x).1 = ((List.range n).map (g3413cbcT c v x)).flatten := by
  induction n generalizing v x with
  | zero =>
    have : x = [] := List.length_eq_zero_iff.mp (by omega)
    subst this; simp
  | succ n ih =>
    have hpos := c.bs_pos
    rw [Nat.succ_mul] at hx
    have hne : x ≠ [] := by intro h; rw [h] at hx; simp at hx; omega
    have htl : (x.take c.bs).length = c.bs := by simp; omega
    rw [blkRun_cons c.bs hpos _ _ _ hne]
    simp only
    rw [ih _ _ (g3413cbcDecF_len c v _ hv htl).2 (by simp; omega)]
    rw [List.range_succ_eq_map, List.map_cons, List.flatten_cons, List.map_map]
    congr 1
    · simp only [g3413cbcDecF, g3413cbcT, blk, Nat.zero_mul, List.drop_zero]
      rw [List.take_append_of_le_length (by omega)]
    · congr 1
      apply List.map_congr_left
      intro i _
      simp only [Function.comp, g3413cbcT, blk, g3413cbcDecF, List.drop_drop]
      have e1 : (i + 1) * c.bs = c.bs + i * c.bs := by rw [Nat.succ_mul]; omega
      rw [Nat.succ_eq_add_one, e1]
      congr 2
      rw [List.append_assoc, List.take_append_drop, ← List.drop_drop]
      rw [List.drop_append_of_le_length (show c.bs ≤ v.length by omega)]

theorem write_behind (m : Mem) (p : Nat) (a b : Bytes) :
    (m.write (p + a.length) b).write p a = m.write p (a ++ b) := by
  rw [Mem.write_append]
  funext x
  by_cases h1 : p ≤ x ∧ x < p + a.length
  · rw [Mem.write_of_lt _ (p + a.length) b x h1.2]
    simp [Mem.write, h1]
  · have e1 : ∀ m : Mem, (m.write p a) x = m x := by intro m; simp only [Mem.write, h1, if_false]
    rw [e1]
    by_cases h2 : p + a.length ≤ x ∧ x < p + a.length + b.length
    · simp only [Mem.write, h2, and_self, if_true]
    · simp only [Mem.write, h2, if_false]
      rw [if_neg h1]

theorem blk_read (bs n : Nat) (m : Mem) (s k : Nat) (h : k < n) :
    blk bs (m.read s (n * bs)) k = m.read (s + k * bs) bs := by
  unfold blk
  rw [Mem.read_drop, Mem.read_take]
  congr 1
  have : (k + 1) * bs ≤ n * bs := Nat.mul_le_mul_right bs h
  rw [Nat.succ_mul] at this
  omega

theorem g3413cbcDecBlock_eq (m : Mem) (d s k : Nat) (mask : Mem → Bytes)
    (hm : (mask (c.decM m (d + k * c.bs) (s + k * c.bs))).length = c.bs) :
    g3413cbcDecBlock c m d s k mask = m.write (d + k * c.bs)
      (xorb (c.D (m.read (s + k * c.bs) c.bs)) (mask (c.decM m (d + k * c.bs) (s + k * c.bs)))) :=
  dec_xor_mem c m _ _ _ hm

/-- The blocks `2 … k` written by the backwards loop. -/
theorem g3413cbcDecLoop_eq (v : Bytes) (hv : v.length = 2 * c.bs) (n d s : Nat)
    (hsd : SameOrDisjoint d s (n * c.bs)) (k : Nat) (m : Mem) (hk : k < n) :
    g3413cbcDecLoop c d s k m = m.write (d + 2 * c.bs)
      ((List.range (k - 1)).map (fun i => g3413cbcT c v (m.read s (n * c.bs)) (i + 2))).flatten := by
  have hpos := c.bs_pos
  have hT : ∀ (m : Mem) i, i < n → (g3413cbcT c v (m.read s (n * c.bs)) i).length = c.bs := by
    intro m i hi
    unfold g3413cbcT
    have h1 := blk_read c.bs n m s i hi
    rw [h1]
    have h2 : (c.D (m.read (s + i * c.bs) c.bs)).length = c.bs := c.lenD _ (by simp)
    have h3 : (i + 1) * c.bs ≤ n * c.bs := Nat.mul_le_mul_right _ hi
    rw [Nat.succ_mul] at h3
    have h4 : (blk c.bs (v ++ m.read s (n * c.bs)) i).length = c.bs := by
      simp [blk, hv]; omega
    rw [xorb_length, h2, h4]; omega
  induction k generalizing m with
  | zero => simp [g3413cbcDecLoop, Mem.write_nil]
  | succ k ih =>
    cases k with
    | zero => simp [g3413cbcDecLoop, Mem.write_nil]
    | succ k =>
      rw [g3413cbcDecLoop]
      have h3 : (k + 2 + 1) * c.bs ≤ n * c.bs := Nat.mul_le_mul_right _ hk
      have e3 : (k + 2 + 1) * c.bs = k * c.bs + 3 * c.bs := by rw [← Nat.add_mul]
      have e2 : (k + 2) * c.bs = k * c.bs + 2 * c.bs := by rw [← Nat.add_mul]
      have hdl : (c.D (m.read (s + (k + 2) * c.bs) c.bs)).length = c.bs := c.lenD _ (by simp)
      have hb : g3413cbcDecBlock c m d s (k + 2) (fun m => m.read (s + k * c.bs) c.bs)
          = m.write (d + (k + 2) * c.bs) (g3413cbcT c v (m.read s (n * c.bs)) (k + 2)) := by
        rw [g3413cbcDecBlock_eq c m d s (k + 2) _ (by simp)]
        congr 1
        unfold g3413cbcT
        rw [blk_read c.bs n m s (k + 2) (by omega)]
        congr 1
        have : blk c.bs (v ++ m.read s (n * c.bs)) (k + 2) = blk c.bs (m.read s (n * c.bs)) k := by
          unfold blk
          rw [List.drop_append, List.drop_of_length_le (by omega)]
          rw [List.nil_append]
          congr 2; omega
        rw [this, blk_read c.bs n m s k (by omega)]
        unfold BlockCipher.decM
        apply Mem.read_write_disjoint
        rw [hdl]
        rcases hsd with h | h | h <;> omega
      rw [hb, ih _ (by omega)]
      have hsame : ∀ i ∈ List.range (k + 1 - 1),
          g3413cbcT c v ((m.write (d + (k + 2) * c.bs)
            (g3413cbcT c v (m.read s (n * c.bs)) (k + 2))).read s (n * c.bs)) (i + 2)
          = g3413cbcT c v (m.read s (n * c.bs)) (i + 2) := by
        intro i hi
        simp at hi
        have hlen := hT m (k + 2) (by omega)
        generalize g3413cbcT c v (m.read s (n * c.bs)) (k + 2) = w at hlen
        have hblk : ∀ j, j < k + 2 → blk c.bs ((m.write (d + (k + 2) * c.bs) w).read s (n * c.bs)) j
            = blk c.bs (m.read s (n * c.bs)) j := by
          intro j hj
          rw [blk_read _ n _ s j (by omega), blk_read _ n _ s j (by omega)]
          apply Mem.read_write_disjoint
          have : (j + 1) * c.bs ≤ (k + 2) * c.bs := Nat.mul_le_mul_right _ hj
          rw [Nat.succ_mul] at this
          rw [hlen]
          rcases hsd with h | h | h <;> omega
        have hv2 : ∀ y : Bytes, blk c.bs (v ++ y) (i + 2) = blk c.bs y i := by
          intro y
          unfold blk
          have : (i + 2) * c.bs = i * c.bs + 2 * c.bs := by rw [← Nat.add_mul]
          rw [List.drop_append, List.drop_of_length_le (by omega), List.nil_append]
          congr 2; omega
        unfold g3413cbcT
        rw [hv2, hv2, hblk (i + 2) (by omega), hblk i (by omega)]
      rw [List.map_congr_left hsame]
      have hlen2 : ((List.range (k + 1 - 1)).map
          (fun i => g3413cbcT c v (m.read s (n * c.bs)) (i + 2))).flatten.length = k * c.bs := by
        rw [flatten_length_of_all c.bs]
        · simp [Nat.mul_comm]
        · intro b hb
          obtain ⟨i, hi, rfl⟩ := List.mem_map.mp hb
          simp at hi
          exact hT m (i + 2) (by omega)
      have hpq : d + (k + 2) * c.bs = d + 2 * c.bs + ((List.range (k + 1 - 1)).map
          (fun i => g3413cbcT c v (m.read s (n * c.bs)) (i + 2))).flatten.length := by
        rw [hlen2]; omega
      rw [hpq, write_behind]
      congr 1
      rw [show k + 1 + 1 - 1 = (k + 1 - 1) + 1 by omega, List.range_succ, List.map_append,
        List.flatten_append]
      simp

/-- One call of the GOST CBC decrypter computes the decryption machine. -/
theorem g3413cbcDec_eq (v : Bytes) (m : Mem) (dst src : Slice) (hv : v.length = 2 * c.bs)
    (h1 : src.len % c.bs = 0) (h2 : src.len ≤ dst.len) (h3 : NoPartialOverlap dst src) :
    g3413cbcDec c v m dst src =
      .ok (m.write dst.ptr (blkRun c.bs (g3413cbcDecF c) v (m.read src.ptr src.len)).1, v) := by
  have hpos := c.bs_pos
  unfold g3413cbcDec
  rw [if_neg (by simpa using h1), if_neg (by omega), if_neg (by
    unfold NoPartialOverlap at h3; simp [h3])]
  by_cases h0 : src.len = 0
  · rw [if_pos h0, h0]; simp [Mem.read, Mem.write_nil]
  · rw [if_neg h0]
    have hsd : SameOrDisjoint dst.ptr src.ptr src.len := by
      rcases sameOrDisjoint_of_check dst src h3 with h | h
      · exact absurd h h0
      · exact h
    obtain ⟨n, hn⟩ := Nat.dvd_of_mod_eq_zero h1
    rw [Nat.mul_comm] at hn
    have hdiv : src.len / c.bs = n := by rw [hn]; exact Nat.mul_div_cancel n hpos
    rw [hdiv]
    generalize hd : dst.ptr = d at *
    generalize hs : src.ptr = s at *
    rw [hn] at hsd h0 ⊢
    have hT : ∀ (m : Mem) i, i < n → (g3413cbcT c v (m.read s (n * c.bs)) i).length = c.bs := by
      intro m i hi
      unfold g3413cbcT
      rw [blk_read c.bs n m s i hi]
      have h2 : (c.D (m.read (s + i * c.bs) c.bs)).length = c.bs := c.lenD _ (by simp)
      have h3 : (i + 1) * c.bs ≤ n * c.bs := Nat.mul_le_mul_right _ hi
      rw [Nat.succ_mul] at h3
      have h4 : (blk c.bs (v ++ m.read s (n * c.bs)) i).length = c.bs := by
        simp [blk, hv]; omega
      rw [xorb_length, h2, h4]; omega
    have hn0 : 0 < n := by
      rcases Nat.eq_zero_or_pos n with h | h
      · subst h; simp at h0
      · exact h
    -- the tail part: blocks 2..n-1
    have htail : ∃ w : Bytes, w = ((List.range (n - 2)).map
        (fun i => g3413cbcT c v (m.read s (n * c.bs)) (i + 2))).flatten := ⟨_, rfl⟩
    obtain ⟨w, hw⟩ := htail
    have hmid : (if n * c.bs > c.bs then
        (let m1 := if n * c.bs > c.bs * 2 then g3413cbcDecLoop c d s (n - 1) m else m
        g3413cbcDecBlock c m1 d s 1 (fun _ => v.drop c.bs)) else m)
        = m.write (d + c.bs) (((List.range (n - 1)).map
          (fun i => g3413cbcT c v (m.read s (n * c.bs)) (i + 1))).flatten) := by
      by_cases hgt : n * c.bs > c.bs
      · have hn2 : 2 ≤ n := by
          rcases Nat.lt_or_ge n 2 with h | h
          · have : n = 1 := by omega
            subst this; omega
          · exact h
        rw [if_pos hgt]
        have hm1 : (if n * c.bs > c.bs * 2 then g3413cbcDecLoop c d s (n - 1) m else m)
            = m.write (d + 2 * c.bs) w := by
          by_cases hgt2 : n * c.bs > c.bs * 2
          · rw [if_pos hgt2, g3413cbcDecLoop_eq c v hv n d s hsd (n - 1) m (by omega), hw]
            rfl
          · rw [if_neg hgt2]
            have hn3 : n = 2 := by
              rcases Nat.lt_or_ge n 3 with h | h
              · omega
              · have := Nat.mul_le_mul_right c.bs h; omega
            subst hn3
            simp [hw, Mem.write_nil]
        simp only [hm1]
        rw [g3413cbcDecBlock_eq c _ d s 1 _ (by simp; omega)]
        have hwl : w.length = (n - 2) * c.bs := by
          rw [hw, flatten_length_of_all c.bs]
          · simp [Nat.mul_comm]
          · intro b hb
            obtain ⟨i, hi, rfl⟩ := List.mem_map.mp hb
            simp at hi
            exact hT m (i + 2) (by omega)
        have hnm : n * c.bs = (n - 2) * c.bs + 2 * c.bs := by rw [← Nat.add_mul]; congr 1; omega
        have hrd : (m.write (d + 2 * c.bs) w).read (s + 1 * c.bs) c.bs = m.read (s + 1 * c.bs) c.bs := by
          apply Mem.read_write_disjoint
          rw [hwl]
          rcases hsd with h | h | h <;> omega
        rw [hrd]
        have hT1 : g3413cbcT c v (m.read s (n * c.bs)) 1 =
            xorb (c.D (m.read (s + 1 * c.bs) c.bs)) (v.drop c.bs) := by
          unfold g3413cbcT
          rw [blk_read c.bs n m s 1 (by omega)]
          congr 1
          unfold blk
          rw [Nat.one_mul, List.drop_append_of_le_length (by omega), List.take_left']
          simp; omega
        rw [← hT1]
        have hl1 := hT m 1 (by omega)
        rw [show d + 2 * c.bs = d + 1 * c.bs + (g3413cbcT c v (m.read s (n * c.bs)) 1).length by
          rw [hl1]; omega]
        rw [write_behind, Nat.one_mul]
        congr 1
        rw [show n - 1 = (n - 2) + 1 by omega, List.range_succ_eq_map, List.map_cons, List.flatten_cons,
          hw, List.map_map]
        rfl
      · rw [if_neg hgt]
        have : n = 1 := by
          rcases Nat.lt_or_ge n 2 with h | h
          · omega
          · have := Nat.mul_le_mul_right c.bs h; omega
        subst this
        simp [Mem.write_nil]
    dsimp only at hmid ⊢
    rw [hmid]
    rw [g3413cbcDecBlock_eq c _ d s 0 _ (by simp; omega)]
    generalize hu : ((List.range (n - 1)).map
          (fun i => g3413cbcT c v (m.read s (n * c.bs)) (i + 1))).flatten = u
    have hul : u.length = (n - 1) * c.bs := by
      rw [← hu, flatten_length_of_all c.bs]
      · simp [Nat.mul_comm]
      · intro b hb
        obtain ⟨i, hi, rfl⟩ := List.mem_map.mp hb
        simp at hi
        exact hT m (i + 1) (by omega)
    have hnm : n * c.bs = (n - 1) * c.bs + c.bs := by
      rw [show n * c.bs = (n - 1 + 1) * c.bs by congr 1; omega, Nat.succ_mul]
    have hrd : (m.write (d + c.bs) u).read (s + 0 * c.bs) c.bs = m.read (s + 0 * c.bs) c.bs := by
      apply Mem.read_write_disjoint
      rw [hul]
      rcases hsd with h | h | h <;> omega
    rw [hrd]
    have hT0 : g3413cbcT c v (m.read s (n * c.bs)) 0 =
        xorb (c.D (m.read (s + 0 * c.bs) c.bs)) (v.take c.bs) := by
      unfold g3413cbcT
      rw [blk_read c.bs n m s 0 (by omega)]
      congr 1
      unfold blk
      rw [Nat.zero_mul, List.drop_zero, List.take_append_of_le_length (by omega)]
    rw [← hT0, g3413cbcDec_blocks c n v _ hv (by simp)]
    have hl0 := hT m 0 (by omega)
    rw [Nat.zero_mul, Nat.add_zero]
    conv => lhs; rw [show d + c.bs = d + (g3413cbcT c v (m.read s (n * c.bs)) 0).length by rw [hl0]]
    rw [write_behind]
    congr 3
    obtain ⟨k, rfl⟩ : ∃ k, n = k + 1 := ⟨n - 1, by omega⟩
    rw [List.range_succ_eq_map, List.map_cons, List.flatten_cons, ← hu, List.map_map]
    rfl

/-! PCBC with destination = source. -/

def pcbcEncInF (v b : Bytes) : Bytes × Bytes := (c.E (xorb b v), List.replicate c.bs 0)
def pcbcDecInF (v b : Bytes) : Bytes × Bytes := (xorb (c.D b) v, List.replicate c.bs 0)

theorem xorb_self (x : Bytes) : xorb x x = List.replicate x.length 0 := by
  induction x with
  | nil => rfl
  | cons a x ih => simp only [xorb, List.zipWith_cons_cons, List.length_cons, List.replicate_succ] at *
                   rw [ih, BitVec.xor_self]; rfl

theorem xorb_zeros (x : Bytes) (n : Nat) (h : x.length = n) : xorb x (List.replicate n 0) = x := by
  subst h
  induction x with
  | nil => rfl
  | cons a x ih => simp only [xorb, List.zipWith_cons_cons, List.length_cons, List.replicate_succ] at *
                   rw [ih]; congr 1; exact BitVec.xor_zero

theorem pcbcEncIn_ok : StepOK c.bs (pcbcEncStep c) (pcbcEncInF c) (fun v => v.length = c.bs)
    (fun d s _ => d = s) := by
  refine ⟨c.bs_pos, ?_, ?_⟩
  · rintro v m d _ l hv rfl
    have hl := lenEx c (m.read d c.bs) v (by simp) hv
    simp only [pcbcEncStep, pcbcEncInF, xor_enc_mem c m d d v hv]
    rw [Mem.read_write_self' _ _ _ _ hl, xorb_self, hl]
  · intro v b hv hb
    exact ⟨lenEx c b v hb hv, by simp [pcbcEncInF]⟩

theorem pcbcDecIn_ok : StepOK c.bs (pcbcDecStep c) (pcbcDecInF c) (fun v => v.length = c.bs)
    (fun d s _ => d = s) := by
  refine ⟨c.bs_pos, ?_, ?_⟩
  · rintro v m d _ l hv rfl
    have hl : (c.D (m.read d c.bs)).length = c.bs := c.lenD _ (by simp)
    simp only [pcbcDecStep, pcbcDecInF, dec_xor_mem c m d d v hv]
    rw [Mem.read_write_self' _ _ _ _ (by simp [hl, hv]), xorb_self]
    simp [hl, hv]
  · intro v b hv hb
    exact ⟨by simp [pcbcDecInF, c.lenD b hb, hv], by simp [pcbcDecInF]⟩

theorem pcbcEncInF_zero (l : List Bytes) (hl : ∀ b ∈ l, b.length = c.bs) :
    (mapAcc (pcbcEncInF c) (List.replicate c.bs 0) l).1 = l.map c.E := by
  induction l with
  | nil => rfl
  | cons b l ih =>
    simp only [mapAcc, pcbcEncInF, List.map_cons] at *
    rw [ih (fun x hx => hl x (by simp [hx])), xorb_zeros b _ (hl b (by simp))]

theorem pcbcDecInF_zero (l : List Bytes) (hl : ∀ b ∈ l, b.length = c.bs) :
    (mapAcc (pcbcDecInF c) (List.replicate c.bs 0) l).1 = l.map c.D := by
  induction l with
  | nil => rfl
  | cons b l ih =>
    simp only [mapAcc, pcbcDecInF, List.map_cons] at *
    rw [ih (fun x hx => hl x (by simp [hx])), xorb_zeros _ _ (c.lenD _ (hl b (by simp)))]

/-! OFBNLF. -/

/-- Encrypt / decrypt one block under the key `k`. -/
def underE (newKey : Bytes → Option BlockCipher) (k p : Bytes) : Bytes :=
  match newKey k with | some c => c.E p | none => []
def underD (newKey : Bytes → Option BlockCipher) (k p : Bytes) : Bytes :=
  match newKey k with | some c => c.D p | none => []

/-- Every string of block size is an acceptable key and gives a cipher of the same block size. -/
def KeyOK (newKey : Bytes → Option BlockCipher) (bs : Nat) : Prop :=
  ∀ k : Bytes, k.length = bs → ∃ c, newKey k = some c ∧ c.bs = bs

def ofbnlfEncF (newKey : Bytes → Option BlockCipher) (v p : Bytes) : Bytes × Bytes :=
  (underE newKey (c.E v) p, c.E v)
def ofbnlfDecF (newKey : Bytes → Option BlockCipher) (v p : Bytes) : Bytes × Bytes :=
  (underD newKey (c.E v) p, c.E v)

theorem ofbnlfEnc_ok (newKey : Bytes → Option BlockCipher) (hk : KeyOK newKey c.bs) :
    StepOK c.bs (ofbnlfEncStep newKey c) (ofbnlfEncF c newKey) (fun v => v.length = c.bs)
      SameOrDisjoint := by
  refine ⟨c.bs_pos, ?_, ?_⟩
  · intro v m d s l hv _
    have hE := c.lenE v hv
    obtain ⟨e, h1, h2⟩ := hk (c.E v) hE
    simp only [ofbnlfEncStep, ofbnlfEncF, underE, h1, BlockCipher.encM, h2]
    rw [copyInto_eq_left _ _ (by omega)]
  · intro v b hv hb
    have hE := c.lenE v hv
    obtain ⟨e, h1, h2⟩ := hk (c.E v) hE
    refine ⟨?_, hE⟩
    simp only [ofbnlfEncF, underE, h1]
    rw [← h2]; exact e.lenE b (by omega)

theorem ofbnlfDec_ok (newKey : Bytes → Option BlockCipher) (hk : KeyOK newKey c.bs) :
    StepOK c.bs (ofbnlfDecStep newKey c) (ofbnlfDecF c newKey) (fun v => v.length = c.bs)
      SameOrDisjoint := by
  refine ⟨c.bs_pos, ?_, ?_⟩
  · intro v m d s l hv _
    have hE := c.lenE v hv
    obtain ⟨e, h1, h2⟩ := hk (c.E v) hE
    simp only [ofbnlfDecStep, ofbnlfDecF, underD, h1, BlockCipher.decM, h2]
    rw [copyInto_eq_left _ _ (by omega)]
  · intro v b hv hb
    have hE := c.lenE v hv
    obtain ⟨e, h1, h2⟩ := hk (c.E v) hE
    refine ⟨?_, hE⟩
    simp only [ofbnlfDecF, underD, h1]
    rw [← h2]; exact e.lenD b (by omega)

theorem ofbnlfEncF_spec (newKey : Bytes → Option BlockCipher) (v : Bytes) (l : List Bytes) :
    (mapAcc (ofbnlfEncF c newKey) v l).1 = Spec.ofbnlf c.E (underE newKey) v l := by
  induction l generalizing v with
  | nil => rfl
  | cons b l ih => simp only [mapAcc, ofbnlfEncF, Spec.ofbnlf] at *; rw [ih]

theorem ofbnlf_roundtrip (newKey : Bytes → Option BlockCipher) (hk : KeyOK newKey c.bs) (x v : Bytes)
    (hx : c.bs ∣ x.length) (hv : v.length = c.bs) :
    (blkRun c.bs (ofbnlfDecF c newKey) v (blkRun c.bs (ofbnlfEncF c newKey) v x).1).1 = x := by
  refine blkRun_roundtrip c.bs c.bs_pos _ _ (fun v => v.length = c.bs) (ofbnlfEnc_ok c newKey hk).len
    (fun a b => a = b ∧ a.length = c.bs) ?_ x hx v v hv ⟨rfl, hv⟩
  rintro t _ b ⟨rfl, ht⟩ hb
  have hE := c.lenE t ht
  obtain ⟨e, h1, h2⟩ := hk (c.E t) hE
  refine ⟨?_, rfl, hE⟩
  simp only [ofbnlfEncF, ofbnlfDecF, underE, underD, h1]
  exact e.DE b (by omega)

/-- The IGE decrypter: histories of calls. -/
theorem igeDec_calls {st st' : Ige} {ins outs : List Bytes} (hI : st.Ok c.bs)
    (hc : Calls NoPartialOverlap (igeDec c) st ins outs st') :
    outs.flatten = (blkRun c.bs (igeF c.D) st.swap ins.flatten).1 ∧
      st'.swap = (blkRun c.bs (igeF c.D) st.swap ins.flatten).2 ∧ ∀ i ∈ ins, c.bs ∣ i.length := by
  have h := ige_ok c.bs c.bs_pos c.D c.lenD
  have key := calls_run (fun (a t : Ige) => t = a.swap ∧ t.Ok c.bs) (blkRun c.bs (igeF c.D))
    (fun a => c.bs ∣ a.length) (fun _ => rfl)
    (fun t a b ha => blkRun_append c.bs c.bs_pos _ t a b ha) (by
      rintro st _ m dst src m' st' ⟨rfl, hI⟩ ha hok
      unfold igeDec at hok
      cases hcb : cryptBlocks false c.bs (igeStep c.bs c.D) st.swap m dst src with
      | ok r =>
        obtain ⟨h1, h2, _⟩ := cryptBlocks_ok_only hcb
        obtain ⟨e1, e2, e3⟩ := h.crypt false st.swap m dst src hI h1 h2 ha
        have hok' : Res.ok (r.1, r.2.swap) = Res.ok (m', st') := by
          rw [← hok]
          change _ = (cryptBlocks false c.bs (igeStep c.bs c.D) st.swap m dst src >>= _)
          rw [hcb]; rfl
        obtain ⟨rfl, rfl⟩ := Prod.mk.inj (Res.ok.inj hok')
        rw [e1] at hcb
        obtain ⟨rfl⟩ := hcb
        refine ⟨by simpa using Nat.dvd_of_mod_eq_zero h1, ?_, rfl, e2⟩
        exact Mem.read_write_self' _ _ _ _ e3
      | _ =>
        change (cryptBlocks false c.bs (igeStep c.bs c.D) st.swap m dst src >>= _) = _ at hok
        rw [hcb] at hok; cases hok) hc st.swap ⟨rfl, hI.2, hI.1⟩
  obtain ⟨k1, ⟨k2, _⟩, k3⟩ := key
  exact ⟨k1, k2.symm, k3⟩

end Verif.Mode
