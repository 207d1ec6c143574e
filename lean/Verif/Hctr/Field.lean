import Verif.Hctr.Lemmas
import Verif.Aead.Ocb3Lemmas
/-
The field multiplication of mode/hctr/hctr.go is the product of GF(2^128).
-/
namespace Verif.Hctr
open Verif.Mode.Spec (natBe beNat)
open Spec (mulX mulBits gmul bits)

/-- The 128-bit string of a field element. -/
def toV (f : Fe) : BitVec 128 := f.low ++ f.high

theorem toV_add (x y : Fe) : toV (add x y) = toV x ^^^ toV y := by
  unfold toV add
  simp only
  exact (BitVec.xor_append ..).symm

theorem toV_shift (l h : BitVec 64) (k : Nat) (hk : 0 < k) (hk2 : k < 64) :
    (l >>> k) ++ ((h >>> k) ||| (l <<< (64 - k))) = (l ++ h : BitVec 128) >>> k := by
  apply BitVec.eq_of_getLsbD_eq
  intro i hi
  simp only [BitVec.getLsbD_append, BitVec.getLsbD_ushiftRight, BitVec.getLsbD_or, BitVec.getLsbD_shiftLeft]
  by_cases h1 : i < 64
  · rw [if_pos h1]
    by_cases h2 : k + i < 64
    · rw [if_pos h2]
      have : i < 64 - k := by omega
      simp [this]
    · rw [if_neg h2]
      have h3 : ¬ i < 64 - k := by omega
      have h4 : h.getLsbD (k + i) = false := BitVec.getLsbD_of_ge _ _ (by omega)
      simp [h1, h3, h4, show k + i - 64 = i - (64 - k) by omega]
  · rw [if_neg h1, if_neg (by omega)]
    congr 1; omega

theorem mulX_xor (a b : BitVec 128) : mulX (a ^^^ b) = mulX a ^^^ mulX b := by
  unfold mulX
  rw [BitVec.getLsbD_xor, BitVec.ushiftRight_xor_distrib]
  generalize (0xe1#128 <<< 120) = R
  cases a.getLsbD 0 <;> cases b.getLsbD 0 <;> simp only [Bool.xor_false, Bool.xor_true, Bool.not_false, Bool.not_true, Bool.false_eq_true, if_true, if_false]
  · rw [BitVec.xor_assoc]
  · rw [BitVec.xor_assoc, BitVec.xor_comm (b >>> 1) R, ← BitVec.xor_assoc]
  · rw [BitVec.xor_comm (b >>> 1) R, BitVec.xor_assoc, ← BitVec.xor_assoc R R, BitVec.xor_self, BitVec.zero_xor]

theorem mulX_zero : mulX 0#128 = 0#128 := by decide

theorem toV_double (x : Fe) : toV (double x) = mulX (toV x) := by
  have hb : (x.high &&& 1 = 1) ↔ (toV x).getLsbD 0 = true := by
    unfold toV
    rw [BitVec.getLsbD_append]
    simp only [Nat.zero_lt_succ, if_true]
    constructor
    · intro h
      have := congrArg (fun v => BitVec.getLsbD v 0) h
      simpa using this
    · intro h
      apply BitVec.eq_of_getLsbD_eq
      intro i hi
      rw [BitVec.getLsbD_and]
      by_cases h0 : i = 0
      · subst h0; simp [h]
      · have : (1 : BitVec 64).getLsbD i = false := by simp [BitVec.getLsbD_one, h0]
        rw [this]; simp
  have hs := toV_shift x.low x.high 1 (by decide) (by decide)
  unfold double mulX
  simp only
  by_cases h : x.high &&& 1 = 1
  · rw [if_pos h, if_pos (hb.mp h)]
    unfold toV
    simp only
    rw [← hs, show (0xe1#128 <<< 120) = (0xe100000000000000#64 ++ 0#64 : BitVec 128) by decide, BitVec.xor_append]
    simp
  · rw [if_neg h, if_neg (fun h1 => h (hb.mpr h1))]
    unfold toV
    rw [← hs]

theorem mulX4_shift (z : BitVec 128) (h : z &&& 15#128 = 0#128) : mulX (mulX (mulX (mulX z))) = z >>> 4 := by
  have hb : ∀ i, i < 4 → z.getLsbD i = false := by
    intro i hi
    have := congrArg (fun v => BitVec.getLsbD v i) h
    simp only [BitVec.getLsbD_and, BitVec.getLsbD_zero] at this
    have h2 : (15#128).getLsbD i = true := by
      match i, hi with
      | 0, _ => rfl
      | 1, _ => rfl
      | 2, _ => rfl
      | 3, _ => rfl
    simpa [h2] using this
  have step : ∀ k, k < 4 → mulX (z >>> k) = z >>> (k + 1) := by
    intro k hk
    unfold mulX
    rw [BitVec.getLsbD_ushiftRight, Nat.add_zero, hb k hk]
    simp [BitVec.shiftRight_add]
  have h0 := step 0 (by decide)
  rw [BitVec.ushiftRight_zero] at h0
  rw [h0, step 1 (by decide), step 2 (by decide), step 3 (by decide)]

theorem lowNibble (z : BitVec 128) : z &&& 15#128 = BitVec.ofNat 128 (z.toNat % 16) := by
  apply BitVec.eq_of_toNat_eq
  rw [BitVec.toNat_and, show (15#128).toNat = 2 ^ 4 - 1 from rfl, BitVec.toNat_ofNat, Nat.and_two_pow_sub_one_eq_mod]
  omega

theorem red_table : ∀ n : Fin 16, mulX (mulX (mulX (mulX (BitVec.ofNat 128 n.val)))) =
    (((reductionTable.getD n.val 0).setWidth 64 <<< 48 : BitVec 64) ++ 0#64 : BitVec 128) := by decide +kernel

/-- Four multiplications by `x` at once. -/
theorem reduce4 (z : Fe) : toV ⟨(z.low >>> 4) ^^^ ((reductionTable.getD (z.high &&& 0xf).toNat 0).setWidth 64 <<< 48), (z.high >>> 4) ||| (z.low <<< 60)⟩ =
    mulX (mulX (mulX (mulX (toV z)))) := by
  have hn : (z.high &&& 0xf).toNat = (toV z).toNat % 16 := by
    unfold toV
    rw [BitVec.toNat_and, BitVec.toNat_append, show (0xf : BitVec 64).toNat = 2 ^ 4 - 1 from rfl, Nat.and_two_pow_sub_one_eq_mod]
    rw [← Nat.shiftLeft_add_eq_or_of_lt z.high.isLt, Nat.shiftLeft_eq]
    omega
  have hs := toV_shift z.low z.high 4 (by decide) (by decide)
  have hz : toV z = (toV z ^^^ (toV z &&& 15#128)) ^^^ (toV z &&& 15#128) := by
    rw [BitVec.xor_assoc, BitVec.xor_self, BitVec.xor_zero]
  have hhi : (toV z ^^^ (toV z &&& 15#128)) &&& 15#128 = 0#128 := by
    apply BitVec.eq_of_getLsbD_eq
    intro i hi
    simp only [BitVec.getLsbD_and, BitVec.getLsbD_xor, BitVec.getLsbD_zero]
    cases (toV z).getLsbD i <;> cases (15#128).getLsbD i <;> rfl
  have hlo : (toV z &&& 15#128) >>> 4 = 0#128 := by
    apply BitVec.eq_of_toNat_eq
    rw [lowNibble, BitVec.toNat_ushiftRight, BitVec.toNat_ofNat, Nat.shiftRight_eq_div_pow]
    have := Nat.mod_lt (toV z).toNat (show 0 < 16 by decide)
    show _ = 0
    omega
  have hsh : (toV z ^^^ (toV z &&& 15#128)) >>> 4 = toV z >>> 4 := by
    rw [BitVec.ushiftRight_xor_distrib, hlo]; simp
  have hr := red_table ⟨(toV z).toNat % 16, Nat.mod_lt _ (by decide)⟩
  simp only at hr
  rw [hn]
  generalize hT : reductionTable.getD ((toV z).toNat % 16) 0 = T at hr
  rw [hz, mulX_xor, mulX_xor, mulX_xor, mulX_xor, mulX4_shift _ hhi, hsh, lowNibble, hr]
  have : toV z >>> 4 = (z.low >>> 4) ++ ((z.high >>> 4) ||| (z.low <<< 60)) := hs.symm
  rw [this, BitVec.xor_append]
  unfold toV
  simp

/-! Horner's rule over the bits. -/

/-- The low `n` bits, the highest of them first. -/
def bitsLo {w : Nat} : Nat → BitVec w → List Bool
  | 0, _ => []
  | n + 1, v => v.getLsbD n :: bitsLo n v

theorem bitsLo_shift {w : Nat} (n k : Nat) (v : BitVec w) : bitsLo (k + n) v = bitsLo k (v >>> n) ++ bitsLo n v := by
  induction k with
  | zero => rw [Nat.zero_add]; rfl
  | succ k ih => rw [show k + 1 + n = (k + n) + 1 by omega, bitsLo, bitsLo, ih, BitVec.getLsbD_ushiftRight, Nat.add_comm n k]; rfl

theorem bitsLo_append (l h : BitVec 64) : bitsLo 128 (l ++ h : BitVec 128) = bitsLo 64 l ++ bitsLo 64 h := by
  have e1 : ∀ n, n ≤ 64 → bitsLo n (l ++ h : BitVec 128) = bitsLo n h := by
    intro n
    induction n with
    | zero => intro _; rfl
    | succ n ih => intro hn; rw [bitsLo, bitsLo, ih (by omega), BitVec.getLsbD_append, if_pos (by omega)]
  have e2 : ∀ n, bitsLo n ((l ++ h : BitVec 128) >>> 64) = bitsLo n l := by
    intro n
    induction n with
    | zero => rfl
    | succ n ih =>
      rw [bitsLo, bitsLo, ih, BitVec.getLsbD_ushiftRight, BitVec.getLsbD_append, if_neg (by omega), Nat.add_sub_cancel_left]
  rw [bitsLo_shift 64 64, e1 64 (Nat.le_refl _), e2]

theorem bits_eq (y : BitVec 128) : bits y = bitsLo 128 y := by
  have : ∀ n, n ≤ 128 → (List.range' (128 - n) n).map y.getMsbD = bitsLo n y := by
    intro n
    induction n with
    | zero => intro _; rfl
    | succ n ih =>
      intro hn
      rw [List.range'_succ, List.map_cons, bitsLo, ← ih (by omega), show 128 - (n + 1) + 1 = 128 - n by omega]
      congr 1
      rw [BitVec.getMsbD]
      rw [show 128 - 1 - (128 - (n + 1)) = n by omega, decide_eq_true (show 128 - (n + 1) < 128 by omega), Bool.true_and]
  unfold bits
  rw [List.range_eq_range']
  exact this 128 (Nat.le_refl _)

/-- One step of Horner's rule. -/
def hstep (h : BitVec 128) (b : Bool) (z : BitVec 128) : BitVec 128 := (if b then h else 0#128) ^^^ mulX z

theorem mulBits_mulX (l : List Bool) (v : BitVec 128) : mulBits l (mulX v) = mulX (mulBits l v) := by
  induction l generalizing v with
  | nil => exact mulX_zero.symm
  | cons b l ih =>
    rw [mulBits, mulBits, ih, mulX_xor]
    cases b
    · simp [mulX_zero]
    · simp

theorem mulBits_horner (l : List Bool) (h : BitVec 128) : mulBits l h = l.foldr (hstep h) 0#128 := by
  induction l with
  | nil => rfl
  | cons b l ih => rw [mulBits, mulBits_mulX, ih]; rfl

/-- What the entry for the four bits `n` of the product table should be. -/
def entry (h : BitVec 128) (n : BitVec 64) : BitVec 128 :=
  hstep h (n.getLsbD 3) (hstep h (n.getLsbD 2) (hstep h (n.getLsbD 1) (hstep h (n.getLsbD 0) 0#128)))

theorem hstep_xor (h : BitVec 128) (b : Bool) (u v : BitVec 128) : hstep h b (u ^^^ v) = mulX u ^^^ hstep h b v := by
  unfold hstep
  rw [mulX_xor, ← BitVec.xor_assoc, ← BitVec.xor_assoc, BitVec.xor_comm (mulX u)]

theorem entry_step (h : BitVec 128) (n : BitVec 64) (z : BitVec 128) :
    mulX (mulX (mulX (mulX z))) ^^^ entry h n =
      hstep h (n.getLsbD 3) (hstep h (n.getLsbD 2) (hstep h (n.getLsbD 1) (hstep h (n.getLsbD 0) z))) := by
  unfold entry
  rw [← hstep_xor, ← hstep_xor, ← hstep_xor, ← hstep_xor, BitVec.xor_zero]

/-- `t` is the product table of `h`. -/
def IsTable (t : List Fe) (h : BitVec 128) : Prop := ∀ n : BitVec 64, toV (t.getD (n &&& 0xf).toNat default) = entry h n

theorem mulStep_eq (t : List Fe) (h : BitVec 128) (ht : IsTable t h) (z : Fe) (w : BitVec 64) :
    toV (mulStep t z w) = (bitsLo 4 w).foldr (hstep h) (toV z) := by
  have e : toV (mulStep t z w) = toV ⟨(z.low >>> 4) ^^^ ((reductionTable.getD (z.high &&& 0xf).toNat 0).setWidth 64 <<< 48),
      (z.high >>> 4) ||| (z.low <<< 60)⟩ ^^^ toV (t.getD (w &&& 0xf).toNat default) := by
    rw [← toV_add]; rfl
  rw [e, reduce4, ht w, entry_step]
  rfl

theorem mulWord_eq (t : List Fe) (h : BitVec 128) (ht : IsTable t h) (n : Nat) (z : Fe) (w : BitVec 64) :
    toV (mulWord t n z w) = (bitsLo (n * 4) w).foldr (hstep h) (toV z) := by
  induction n generalizing z w with
  | zero => rw [Nat.zero_mul]; rfl
  | succ n ih =>
    rw [mulWord, ih, mulStep_eq t h ht, Nat.add_mul, Nat.one_mul, bitsLo_shift 4 (n * 4), List.foldr_append]

/-- `mul` is the product of GF(2^128). -/
theorem mul_eq (t : List Fe) (h : BitVec 128) (ht : IsTable t h) (y : Fe) : toV (mul t y) = gmul (toV y) h := by
  unfold mul gmul
  rw [mulWord_eq t h ht, mulWord_eq t h ht, mulBits_horner, bits_eq]
  unfold toV
  rw [bitsLo_append, List.foldr_append]
  have : ((⟨0, 0⟩ : Fe).low ++ (⟨0, 0⟩ : Fe).high : BitVec 128) = 0#128 := by decide
  rw [this]

/-! The table. -/

theorem nibble (n : BitVec 64) : (n &&& 0xf).toNat = n.toNat % 16 := by
  rw [BitVec.toNat_and, show (0xf : BitVec 64).toNat = 2 ^ 4 - 1 from rfl, Nat.and_two_pow_sub_one_eq_mod]

theorem entry_mod (h : BitVec 128) (n : BitVec 64) : entry h n = entry h (BitVec.ofNat 64 (n.toNat % 16)) := by
  have : ∀ i, i < 4 → n.getLsbD i = (BitVec.ofNat 64 (n.toNat % 16)).getLsbD i := by
    intro i hi
    rw [BitVec.getLsbD_ofNat, show (16 : Nat) = 2 ^ 4 from rfl, Nat.testBit_mod_two_pow]
    simp [hi, show i < 64 by omega, BitVec.getLsbD]
  unfold entry
  rw [this 0 (by decide), this 1 (by decide), this 2 (by decide), this 3 (by decide)]

theorem toV_add' (x y : Fe) : toV (add x y) = toV y ^^^ toV x := by rw [toV_add, BitVec.xor_comm]

theorem fold_generic {α : Type} (d : α → α) (a : α → α → α) (z x e : α) :
    [2, 4, 6, 8, 10, 12, 14].foldl (fun t i =>
      let t := t.set (reverseBits i) (d (t.getD (reverseBits (i / 2)) e))
      t.set (reverseBits (i + 1)) (a (t.getD (reverseBits i) e) x)) ((List.replicate 16 z).set (reverseBits 1) x) =
    [z, d (d (d x)), d (d x), d (d (a (d x) x)), d x, d (a (d (d x)) x), d (a (d x) x), d (a (d (a (d x) x)) x), x, a (d (d (d x))) x,
      a (d (d x)) x, a (d (d (a (d x) x))) x, a (d x) x, a (d (a (d (d x)) x)) x, a (d (a (d x) x)) x, a (d (a (d (a (d x) x)) x)) x] := by
  have e : ∀ i : Fin 16, reverseBits i.val = [0, 8, 4, 12, 2, 10, 6, 14, 1, 9, 5, 13, 3, 11, 7, 15].getD i.val 0 := by decide
  simp only [List.foldl_cons, List.foldl_nil, Nat.reduceAdd, Nat.reduceDiv, e ⟨1, by decide⟩, e ⟨2, by decide⟩, e ⟨3, by decide⟩, e ⟨4, by decide⟩,
    e ⟨5, by decide⟩, e ⟨6, by decide⟩, e ⟨7, by decide⟩, e ⟨8, by decide⟩, e ⟨9, by decide⟩, e ⟨10, by decide⟩, e ⟨11, by decide⟩,
    e ⟨12, by decide⟩, e ⟨13, by decide⟩, e ⟨14, by decide⟩, e ⟨15, by decide⟩]
  simp [List.replicate_succ]

theorem table_ok (hkey : Bytes) : IsTable (table hkey) (be64 hkey ++ be64 (hkey.drop 8) : BitVec 128) := by
  intro n
  rw [nibble, entry_mod]
  have hx : (be64 hkey ++ be64 (hkey.drop 8) : BitVec 128) = toV ⟨be64 hkey, be64 (hkey.drop 8)⟩ := rfl
  rw [hx]
  unfold table
  simp only
  generalize (⟨be64 hkey, be64 (hkey.drop 8)⟩ : Fe) = x
  have h0 : toV ⟨0, 0⟩ = 0#128 := by decide
  have hlt := Nat.mod_lt n.toNat (show 0 < 16 by decide)
  generalize n.toNat % 16 = k at hlt
  have e : [2, 4, 6, 8, 10, 12, 14].foldl (tableStep x) ((List.replicate 16 ⟨0, 0⟩).set (reverseBits 1) x) = _ :=
    fold_generic double add ⟨0, 0⟩ x default
  rw [e]
  match k, hlt with
  | 0, _ => exact h0.trans (by simp [entry, hstep, mulX_zero])
  | 1, _ | 2, _ | 3, _ | 4, _ | 5, _ | 6, _ | 7, _ | 8, _ | 9, _ | 10, _ | 11, _ | 12, _ | 13, _ | 14, _ | 15, _ =>
    simp [toV_double, toV_add', entry, hstep, mulX_zero]
  | k + 16, h => omega

/-! The polynomial hash. -/

theorem beNat_app (a b : Bytes) : beNat (a ++ b) = beNat a * 256 ^ b.length + beNat b := by
  have := Aead.beNat_natBe_append a b.length (beNat b) (Aead.beNat_lt b)
  rwa [Mode.natBe_beNat] at this

theorem be64_append (b : Bytes) (h : 16 ≤ b.length) : (be64 b ++ be64 (b.drop 8) : BitVec 128) = Spec.blk (b.take 16) := by
  have e : b.take 16 = b.take 8 ++ (b.drop 8).take 8 := by
    rw [show (16 : Nat) = 8 + 8 from rfl, List.take_add]
  have l1 : (b.take 8).length = 8 := by rw [List.length_take]; omega
  have l2 : ((b.drop 8).take 8).length = 8 := by rw [List.length_take, List.length_drop]; omega
  have v1 := Aead.beNat_lt (b.take 8)
  have v2 := Aead.beNat_lt ((b.drop 8).take 8)
  rw [l1] at v1
  rw [l2] at v2
  unfold be64 Spec.blk
  apply BitVec.eq_of_toNat_eq
  rw [e, beNat_app, l2, BitVec.toNat_append, BitVec.toNat_ofNat, BitVec.toNat_ofNat, BitVec.toNat_ofNat,
    Nat.mod_eq_of_lt (by omega), Nat.mod_eq_of_lt (by omega), Nat.mod_eq_of_lt (by omega),
    ← Nat.shiftLeft_add_eq_or_of_lt (by omega), Nat.shiftLeft_eq]
  omega

theorem toV_update (t : List Fe) (h : BitVec 128) (ht : IsTable t h) (b : Bytes) (hb : 16 ≤ b.length) (y : Fe) :
    toV (updateBlock t b y) = gmul (toV y ^^^ Spec.blk (b.take 16)) h := by
  unfold updateBlock
  rw [mul_eq t h ht, ← be64_append b hb]
  unfold toV
  rw [BitVec.xor_append]

/-- One block of the polynomial hash. -/
def absorb (h : BitVec 128) (y : BitVec 128) (b : Bytes) : BitVec 128 := gmul (y ^^^ Spec.blk b) h

theorem hashLoop_eq (t : List Fe) (h : BitVec 128) (ht : IsTable t h) (fuel : Nat) (msg : Bytes) (y : Fe) (hf : msg.length ≤ fuel) :
    toV (hashLoop t fuel msg y).1 = (Mode.chunks 16 (msg.take (16 * (msg.length / 16)))).foldl (absorb h) (toV y) ∧
    (hashLoop t fuel msg y).2 = msg.drop (16 * (msg.length / 16)) := by
  induction fuel generalizing msg y with
  | zero =>
    have : msg = [] := List.length_eq_zero_iff.mp (by omega)
    subst this
    exact ⟨by simp [hashLoop, Mode.chunks_nil], rfl⟩
  | succ fuel ih =>
    unfold hashLoop
    by_cases h0 : msg.length ≥ 16
    · rw [if_pos h0]
      obtain ⟨i1, i2⟩ := ih (msg.drop 16) (updateBlock t msg y) (by rw [List.length_drop]; omega)
      rw [List.length_drop] at i1 i2
      have hq : 16 * (msg.length / 16) = 16 + 16 * ((msg.length - 16) / 16) := by omega
      refine ⟨?_, ?_⟩
      · rw [i1, toV_update t h ht msg h0, hq, List.take_add, Mode.chunks_append _ (by decide) _ _ (by rw [List.length_take, Nat.min_eq_left h0]), List.foldl_append]
        have e : Mode.chunks 16 (msg.take 16) = [msg.take 16] := by
          rw [Mode.chunks_cons _ (by decide) _ (by intro h1; have := congrArg List.length h1; rw [List.length_take, Nat.min_eq_left h0] at this; simp at this)]
          rw [List.take_of_length_le (by rw [List.length_take]; omega), List.drop_of_length_le (by rw [List.length_take]; omega), Mode.chunks_nil]
        rw [e]; rfl
      · rw [i2, hq, List.drop_drop]
    · rw [if_neg h0]
      have hq : msg.length / 16 = 0 := by omega
      rw [hq]
      exact ⟨by simp [Mode.chunks_nil], rfl⟩

/-- The blocks `uhash` absorbs after the whole blocks of the message, `r` being the rest of the message. -/
def tailBlocks (T r : Bytes) : List Bytes :=
  if r = [] then [T]
  else [r ++ T.take (16 - r.length), (T.drop r.length ++ (r ++ T.take (16 - r.length)).drop (16 - r.length)).take r.length ++ List.replicate (16 - r.length) 0]

theorem natBe_toV (y : Fe) : natBe 8 y.low.toNat ++ natBe 8 y.high.toNat = natBe 16 (toV y).toNat := by
  unfold toV
  have hl := y.low.isLt
  have hh := y.high.isLt
  rw [BitVec.toNat_append, ← Nat.shiftLeft_add_eq_or_of_lt hh, Nat.shiftLeft_eq, show (16 : Nat) = 8 + 8 from rfl]
  exact (Aead.natBe_split 8 8 _ _ (by omega)).symm

theorem blk_len (n : Nat) : Spec.blk (Spec.lenBlk n) = (0#64 ++ BitVec.ofNat 64 (n * 8) : BitVec 128) := by
  unfold Spec.blk Spec.lenBlk
  apply BitVec.eq_of_toNat_eq
  rw [BitVec.toNat_append, BitVec.toNat_ofNat, beNat_app]
  have h1 : beNat (List.replicate 8 0) = 0 := by decide
  have h2 : beNat (natBe 8 (8 * n)) = 8 * n % 2 ^ 64 := by
    rw [← Mode.natBe_mod, Aead.beNat_natBe _ _ (by rw [show (256 : Nat) ^ 8 = 2 ^ 64 by decide]; exact Nat.mod_lt _ (by decide))]
    rw [show (256 : Nat) ^ 8 = 2 ^ 64 by decide]
  rw [h1, h2, BitVec.toNat_ofNat, BitVec.toNat_ofNat]
  have := Nat.mod_lt (8 * n) (show 0 < 2 ^ 64 by decide)
  rw [Nat.mul_comm n 8]
  simp only [Nat.zero_mul, Nat.zero_add, Nat.zero_mod, Nat.zero_shiftLeft, Nat.zero_or]
  exact Nat.mod_eq_of_lt (by omega)

theorem uhash_eq (s : St) (h : BitVec 128) (ht : IsTable s.table h) (hT : s.tweak.length = 16) (m : Bytes) :
    uhash s m = natBe 16 ((Mode.chunks 16 (m.take (16 * (m.length / 16))) ++ tailBlocks s.tweak (m.drop (16 * (m.length / 16))) ++
      [Spec.lenBlk (m.length + 16)]).foldl (absorb h) 0).toNat := by
  obtain ⟨h1, h2⟩ := hashLoop_eq s.table h ht m.length m ⟨0, 0⟩ (Nat.le_refl _)
  have h0 : toV ⟨0, 0⟩ = 0 := by decide
  rw [h0] at h1
  unfold uhash
  simp only
  rw [natBe_toV, mul_eq _ h ht, h2, List.foldl_append, List.foldl_append, ← h1]
  have hr : (m.drop (16 * (m.length / 16))).length < 16 := by rw [List.length_drop]; omega
  generalize m.drop (16 * (m.length / 16)) = r at hr
  generalize (hashLoop s.table m.length m ⟨0, 0⟩).1 = y
  rw [List.foldl_cons, List.foldl_nil]
  unfold absorb
  rw [blk_len]
  have key : ∀ z : Fe, toV ⟨z.low, z.high ^^^ BitVec.ofNat 64 ((m.length + 16) * 8)⟩ = toV z ^^^ (0#64 ++ BitVec.ofNat 64 ((m.length + 16) * 8)) := by
    intro z
    unfold toV
    rw [BitVec.xor_append]; simp
  rw [key]
  refine congrArg (fun v : BitVec 128 => natBe 16 (gmul (v ^^^ (0#64 ++ BitVec.ofNat 64 ((m.length + 16) * 8))) h).toNat) ?_
  unfold tailBlocks
  by_cases hr0 : r = []
  · subst hr0
    simp only [List.length_nil, gt_iff_lt, Nat.lt_irrefl, if_false, if_true, List.foldl_cons, List.foldl_nil]
    rw [toV_update _ h ht _ (by omega), List.take_of_length_le (by omega)]
  · have hp : 0 < r.length := List.length_pos_iff.mpr hr0
    rw [if_pos hp, if_neg hr0]
    have c1 : (copyInto (List.replicate 16 0) r).take r.length ++ copyInto ((copyInto (List.replicate 16 0) r).drop r.length) s.tweak =
        r ++ s.tweak.take (16 - r.length) := by
      have hc : copyInto (List.replicate 16 0) r = r ++ List.replicate (16 - r.length) 0 := by
        unfold copyInto
        rw [List.length_replicate, List.take_of_length_le (by omega), List.drop_replicate]
      rw [hc, List.take_left, List.drop_left]
      unfold copyInto
      rw [List.length_replicate, List.drop_of_length_le (l := List.replicate _ _) (by rw [List.length_replicate]; omega), List.append_nil]
    have l1 : (r ++ s.tweak.take (16 - r.length)).length = 16 := by
      rw [List.length_append, List.length_take]; omega
    rw [c1]
    have c2 : copyInto (r ++ s.tweak.take (16 - r.length)) (s.tweak.drop r.length) =
        s.tweak.drop r.length ++ (r ++ s.tweak.take (16 - r.length)).drop (16 - r.length) := by
      unfold copyInto
      rw [l1, List.take_of_length_le (by rw [List.length_drop]; omega), List.length_drop, hT]
    rw [c2]
    have l2 : (s.tweak.drop r.length ++ (r ++ s.tweak.take (16 - r.length)).drop (16 - r.length)).length = 16 := by
      rw [List.length_append, List.length_drop, List.length_drop, l1, hT]; omega
    generalize (s.tweak.drop r.length ++ (r ++ s.tweak.take (16 - r.length)).drop (16 - r.length)) = q at l2
    have l3 : (q.take r.length ++ List.replicate (16 - r.length) (0 : Byte)).length = 16 := by
      rw [List.length_append, List.length_take, List.length_replicate]; omega
    rw [List.foldl_cons, List.foldl_cons, List.foldl_nil, toV_update _ h ht _ (Nat.le_of_eq l3.symm), List.take_of_length_le (Nat.le_of_eq l3),
      toV_update _ h ht _ (Nat.le_of_eq l1.symm), List.take_of_length_le (Nat.le_of_eq l1)]

end Verif.Hctr
